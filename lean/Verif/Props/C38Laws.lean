import Verif.Props.C39
import Mathlib.Data.List.Sort

/-!
# C38 and C39: groups and complements are determined by the points covered

Merging twice is merging once; the complement of the complement is the merged intervals.
-/

namespace Vctrs

namespace Spec

/-- Two rows are tied in the order of rows. -/
def TiedRows (ts : List ATy) (x y : Row ts) : Prop := ¬ RowsLt ts x y ∧ ¬ RowsLt ts y x

/-- `m` intervals and `m'` intervals are the same ones, in the same order. -/
def SameIntervals (ts : List ATy) (m : Nat) (S E : Val) (m' : Nat) (S' E' : Val) : Prop :=
  m = m' ∧ ∀ j, j < m → ∃ s e s' e', IsInterval ts S E j s e ∧ IsInterval ts S' E' j s' e' ∧
    TiedRows ts s s' ∧ TiedRows ts e e'

/-- All the intervals are between the rows `l` and `u`. -/
def Within (ts : List ATy) (start stop l u : Val) : Prop :=
  ∀ i s e, IsInterval ts start stop i s e →
    (∃ x, HasRow ts (leaves l) 0 x ∧ ¬ RowsLt ts s x) ∧ ∃ y, HasRow ts (leaves u) 0 y ∧ ¬ RowsLt ts y e

end Spec

open Spec

/-! ## Intervals of a linear order -/

section

variable {K : Type} [LinearOrder K]

/-- Intervals with gaps between them are determined by the points they cover: each one is one of the
others. -/
theorem interval_among {m m' : Nat} {a b a' b' : Nat → K} {Pt : K → Prop}
    (hv : ∀ j, j < m → a j < b j) (hg : ∀ i j, i < j → j < m → b i < a j)
    (hv' : ∀ j, j < m' → a' j < b' j) (hg' : ∀ i j, i < j → j < m' → b' i < a' j)
    (hp : ∀ j, j < m → Pt (a j) ∧ Pt (b j)) (hp' : ∀ j, j < m' → Pt (a' j) ∧ Pt (b' j))
    (hc : ∀ x, Pt x → ((∃ j, j < m ∧ a j ≤ x ∧ x < b j) ↔ ∃ j, j < m' ∧ a' j ≤ x ∧ x < b' j))
    {j : Nat} (hj : j < m) : ∃ j', j' < m' ∧ a j = a' j' ∧ b j = b' j' := by
  have out : ∀ i, i < m → ¬ ∃ j, j < m ∧ a j ≤ b i ∧ b i < b j := by
    rintro i hi ⟨j, hj, h1, h2⟩
    rcases lt_trichotomy i j with h | h | h
    · exact absurd h1 (not_le.2 (hg i j h hj))
    · subst h; exact absurd h2 (lt_irrefl _)
    · exact absurd (lt_trans h2 (lt_trans (hg j i h hi) (hv i hi))) (lt_irrefl _)
  have out' : ∀ i, i < m' → ¬ ∃ j, j < m' ∧ a' j ≤ b' i ∧ b' i < b' j := by
    rintro i hi ⟨j, hj, h1, h2⟩
    rcases lt_trichotomy i j with h | h | h
    · exact absurd h1 (not_le.2 (hg' i j h hj))
    · subst h; exact absurd h2 (lt_irrefl _)
    · exact absurd (lt_trans h2 (lt_trans (hg' j i h hi) (hv' i hi))) (lt_irrefl _)
  obtain ⟨j', hj', h1, h2⟩ := (hc (a j) (hp j hj).1).1 ⟨j, hj, le_refl _, hv j hj⟩
  refine ⟨j', hj', ?_, ?_⟩
  · apply le_antisymm _ h1
    by_contra hlt
    rw [not_le] at hlt
    obtain ⟨i, hi, h3, h4⟩ := (hc (a' j') (hp' j' hj').1).2 ⟨j', hj', le_refl _, hv' j' hj'⟩
    have hij : i < j := by
      rcases lt_trichotomy i j with h | h | h
      · exact h
      · subst h; exact absurd (lt_of_le_of_lt h3 hlt) (lt_irrefl _)
      · exact absurd (lt_trans (lt_of_le_of_lt h3 hlt) (lt_trans (hv j hj) (hg j i h hi))) (lt_irrefl _)
    exact out i hi ((hc (b i) (hp i hi).2).2 ⟨j', hj', le_of_lt h4,
      lt_trans (hg i j hij hj) h2⟩)
  · rcases lt_trichotomy (b j) (b' j') with h | h | h
    · exact absurd ((hc (b j) (hp j hj).2).2 ⟨j', hj', le_trans h1 (le_of_lt (hv j hj)), h⟩) (out j hj)
    · exact h
    · exact absurd ((hc (b' j') (hp' j' hj').2).1 ⟨j, hj, le_of_lt h2, h⟩) (out' j' hj')

/-- The same, in order. -/
theorem intervals_unique {m m' : Nat} {a b a' b' : Nat → K} {Pt : K → Prop}
    (hv : ∀ j, j < m → a j < b j) (hg : ∀ i j, i < j → j < m → b i < a j)
    (hv' : ∀ j, j < m' → a' j < b' j) (hg' : ∀ i j, i < j → j < m' → b' i < a' j)
    (hp : ∀ j, j < m → Pt (a j) ∧ Pt (b j)) (hp' : ∀ j, j < m' → Pt (a' j) ∧ Pt (b' j))
    (hc : ∀ x, Pt x → ((∃ j, j < m ∧ a j ≤ x ∧ x < b j) ↔ ∃ j, j < m' ∧ a' j ≤ x ∧ x < b' j)) :
    m = m' ∧ ∀ j, j < m → a j = a' j ∧ b j = b' j := by
  have h1 := fun {j : Nat} (hj : j < m) => interval_among hv hg hv' hg' hp hp' hc hj
  have h2 := fun {j : Nat} (hj : j < m') => interval_among hv' hg' hv hg hp' hp
    (fun x hx => (hc x hx).symm) hj
  have mono : ∀ i j, i < j → j < m → a i < a j := fun i j hij hj =>
    lt_trans (hv i (by omega)) (hg i j hij hj)
  have mono' : ∀ i j, i < j → j < m' → a' i < a' j := fun i j hij hj =>
    lt_trans (hv' i (by omega)) (hg' i j hij hj)
  have sorted : ((List.range m).map a).Pairwise (· < ·) := by
    rw [List.pairwise_map]
    refine List.pairwise_lt_range.imp_of_mem (fun {i j} hi hj h => mono i j h (List.mem_range.1 hj))
  have sorted' : ((List.range m').map a').Pairwise (· < ·) := by
    rw [List.pairwise_map]
    refine List.pairwise_lt_range.imp_of_mem (fun {i j} hi hj h => mono' i j h (List.mem_range.1 hj))
  have e := sorted.eq_of_mem_iff sorted' (by
    intro x
    simp only [List.mem_map, List.mem_range]
    constructor
    · rintro ⟨j, hj, rfl⟩
      obtain ⟨j', hj', e, _⟩ := h1 hj
      exact ⟨j', hj', e.symm⟩
    · rintro ⟨j, hj, rfl⟩
      obtain ⟨j', hj', e, _⟩ := h2 hj
      exact ⟨j', hj', e.symm⟩)
  have hm : m = m' := by have := congrArg List.length e; simpa using this
  subst hm
  have ha : ∀ j, j < m → a j = a' j := by
    intro j hj
    have := congrArg (fun l => l[j]?) e
    simpa [hj] using this
  refine ⟨rfl, fun j hj => ⟨ha j hj, ?_⟩⟩
  obtain ⟨j', hj', e1, e2⟩ := h1 hj
  rw [ha j hj] at e1
  have : j = j' := by
    rcases lt_trichotomy j j' with h | h | h
    · exact absurd e1 (ne_of_lt (mono' j j' h hj'))
    · exact h
    · exact absurd e1.symm (ne_of_lt (mono' j' j h hj))
  rw [← this] at e2
  exact e2

/-- Points with gaps between them are in different intervals, so that there are no more of them. -/
theorem points_le {n m : Nat} {V : Nat → Prop} {lo hi p q : Nat → K}
    (hp : ∀ j, j < m → ∃ i, i < n ∧ V i ∧ lo i ≤ p j ∧ p j < hi i)
    (hq : ∀ j, j + 1 < m → p j ≤ q j ∧ q j ≤ p (j + 1) ∧ ∀ i, i < n → V i → ¬ (lo i ≤ q j ∧ q j < hi i)) :
    m ≤ n := by
  have mono : ∀ j d, j + d < m → p j ≤ p (j + d) := by
    intro j d
    induction d with
    | zero => intro _; exact le_refl _
    | succ d ih =>
      intro h
      have := hq (j + d) (by omega)
      exact le_trans (ih (by omega)) (le_trans this.1 this.2.1)
  classical
  let f : Nat → Nat := fun j => if h : j < m then Classical.choose (hp j h) else 0
  have hf : ∀ j (h : j < m), f j < n ∧ V (f j) ∧ lo (f j) ≤ p j ∧ p j < hi (f j) := by
    intro j h
    have : f j = Classical.choose (hp j h) := dif_pos h
    rw [this]
    exact Classical.choose_spec (hp j h)
  have inj : ∀ i j, i < j → j < m → f i ≠ f j := by
    intro i j hij hj e
    obtain ⟨g1, g2, g3, _⟩ := hf i (by omega)
    obtain ⟨_, _, _, g4⟩ := hf j hj
    rw [← e] at g4
    obtain ⟨k1, k2, k3⟩ := hq i (by omega)
    have := mono (i + 1) (j - (i + 1)) (by omega)
    rw [show i + 1 + (j - (i + 1)) = j by omega] at this
    exact k3 _ g1 g2 ⟨le_trans g3 k1, lt_of_le_of_lt (le_trans k2 this) g4⟩
  have hnd : ((List.range m).map f).Nodup := by
    show List.Pairwise _ _
    rw [List.pairwise_map]
    exact List.pairwise_lt_range.imp_of_mem (fun {i j} hi hj h => inj i j h (List.mem_range.1 hj))
  have := (List.subperm_of_subset hnd (l₂ := List.range n) (by
    intro x hx
    obtain ⟨j, hj, rfl⟩ := List.mem_map.1 hx
    exact List.mem_range.2 (hf j (List.mem_range.1 hj)).1)).length_le
  simpa using this

end

/-! ## Intervals of rows -/

variable {ts : List ATy}

theorem IsInterval.bound {n : Nat} {start stop : Val} (h : IsIntervals ts n start stop) {i : Nat}
    {x y : Row ts} (hI : IsInterval ts start stop i x y) : i < n := by
  have hts : ts ≠ [] := by
    rintro rfl
    exact hI.2.2 trivial
  exact hasRow_lt h.starts hts hI.1

theorem intervals_all {m : Nat} {S E : Val} (h : IsIntervals ts m S E)
    (hno : ∀ j, ¬ IsMissingInterval ts S E j) :
    ∃ s e : Nat → Row ts, ∀ i x y, IsInterval ts S E i x y ↔ i < m ∧ x = s i ∧ y = e i := by
  obtain ⟨s, hs⟩ := h.starts.rows
  obtain ⟨e, he⟩ := h.stops.rows
  refine ⟨s, e, fun i x y => ⟨fun hI => ?_, ?_⟩⟩
  · have hi := IsInterval.bound h hI
    exact ⟨hi, hasRow_unique hI.1 (hs i hi), hasRow_unique hI.2.1 (he i hi)⟩
  · rintro ⟨hi, rfl, rfl⟩
    refine ⟨hs i hi, he i hi, fun hm => hno i ⟨by rw [h.starts.sized.size]; exact hi, _, _, hs i hi, he i hi, hm, ?_⟩⟩
    rcases h.complete i _ _ (hs i hi) (he i hi) with g | g
    · exact g.2
    · by_cases hts : ts = []
      · subst hts; trivial
      · exact absurd (someMissing_of_each hts hm) g.1

/-- Two results without missing intervals and with gaps that cover the same points. -/
theorem sameIntervals {m m' : Nat} {S E S' E' : Val} (h : IsIntervals ts m S E)
    (h' : IsIntervals ts m' S' E') (hno : ∀ j, ¬ IsMissingInterval ts S E j)
    (hno' : ∀ j, ¬ IsMissingInterval ts S' E' j) (hv : ValidIntervals ts S E)
    (hv' : ValidIntervals ts S' E') (hd : DisjointSorted true ts S E) (hd' : DisjointSorted true ts S' E')
    (hc : ∀ r, Covers ts S E r ↔ Covers ts S' E' r) : SameIntervals ts m S E m' S' E' := by
  obtain ⟨K, _, k, hkey⟩ := rows_key ts h.ordered
  obtain ⟨s, e, hI⟩ := intervals_all h hno
  obtain ⟨s', e', hI'⟩ := intervals_all h' hno'
  have cov : ∀ {n : Nat} {A B : Val} {s e : Nat → Row ts},
      (∀ i x y, IsInterval ts A B i x y ↔ i < n ∧ x = s i ∧ y = e i) → ∀ r, (Covers ts A B r ↔
        ∃ j, j < n ∧ k (s j) ≤ k r ∧ k r < k (e j)) := by
    intro n A B s e hI r
    constructor
    · rintro ⟨i, x, y, h1, h2, h3⟩
      obtain ⟨hi, rfl, rfl⟩ := (hI i x y).1 h1
      exact ⟨i, hi, not_lt.1 (fun h => h2 ((hkey _ _).1 h)), (hkey _ _).2 h3⟩
    · rintro ⟨j, hj, h1, h2⟩
      exact ⟨j, _, _, (hI j _ _).2 ⟨hj, rfl, rfl⟩, fun h => absurd ((hkey _ _).2 h) (not_lt.2 h1),
        (hkey _ _).1 h2⟩
  have valid : ∀ {n : Nat} {A B : Val} {s e : Nat → Row ts}, ValidIntervals ts A B →
      (∀ i x y, IsInterval ts A B i x y ↔ i < n ∧ x = s i ∧ y = e i) → ∀ j, j < n → k (s j) < k (e j) :=
    fun hv hI j hj => (hkey _ _).2 (hv j _ _ ((hI j _ _).2 ⟨hj, rfl, rfl⟩))
  have gaps : ∀ {n : Nat} {A B : Val} {s e : Nat → Row ts}, DisjointSorted true ts A B →
      (∀ i x y, IsInterval ts A B i x y ↔ i < n ∧ x = s i ∧ y = e i) →
      ∀ i j, i < j → j < n → k (e i) < k (s j) :=
    fun hd hI i j hij hj => (hkey _ _).2 (hd i j _ _ _ _ hij ((hI i _ _).2 ⟨by omega, rfl, rfl⟩)
      ((hI j _ _).2 ⟨hj, rfl, rfl⟩))
  obtain ⟨hm, heq⟩ := intervals_unique (a := fun j => k (s j)) (b := fun j => k (e j))
    (a' := fun j => k (s' j)) (b' := fun j => k (e' j)) (Pt := fun x => ∃ r, k r = x)
    (valid hv hI) (gaps hd hI) (valid hv' hI') (gaps hd' hI')
    (fun j _ => ⟨⟨_, rfl⟩, ⟨_, rfl⟩⟩) (fun j _ => ⟨⟨_, rfl⟩, ⟨_, rfl⟩⟩) (by
      rintro x ⟨r, rfl⟩
      rw [← cov hI, ← cov hI']
      exact hc r)
  have tied : ∀ {x y : Row ts}, k x = k y → TiedRows ts x y := by
    intro x y he
    refine ⟨fun h => ?_, fun h => ?_⟩
    · rw [← hkey, he] at h
      exact lt_irrefl _ h
    · rw [← hkey, he] at h
      exact lt_irrefl _ h
  refine ⟨hm, fun j hj => ⟨s j, e j, s' j, e' j, (hI j _ _).2 ⟨hj, rfl, rfl⟩,
    (hI' j _ _).2 ⟨by omega, rfl, rfl⟩, tied (heq j hj).1, tied (heq j hj).2⟩⟩

/-- Results that cover the points given are no more than the intervals given. -/
theorem mergedGroups_le {n m : Nat} {start stop S E : Val} (h : IsIntervals ts n start stop)
    (hS : IsIntervals ts m S E) (hno : ∀ j, ¬ IsMissingInterval ts S E j) (hv : ValidIntervals ts S E)
    (hd : DisjointSorted true ts S E) (hc : ∀ r, Covers ts S E r ↔ Covers ts start stop r) : m ≤ n := by
  obtain ⟨K, _, k, hkey⟩ := rows_key ts h.ordered
  obtain ⟨s, e, hI⟩ := intervals_all hS hno
  obtain ⟨a, ha⟩ := h.starts.rows
  obtain ⟨b, hb⟩ := h.stops.rows
  have hI0 : ∀ j, j < m → IsInterval ts S E j (s j) (e j) := fun j hj => (hI j _ _).2 ⟨hj, rfl, rfl⟩
  refine points_le (V := fun i => IsInterval ts start stop i (a i) (b i)) (lo := fun i => k (a i))
    (hi := fun i => k (b i)) (p := fun j => k (s j)) (q := fun j => k (e j)) ?_ ?_
  · intro j hj
    obtain ⟨i, x, y, h1, h2, h3⟩ := (hc (s j)).1 ⟨j, _, _, hI0 j hj, fun h => by
      rw [← hkey] at h; exact lt_irrefl _ h, hv j _ _ (hI0 j hj)⟩
    have hi := IsInterval.bound h h1
    have e1 := hasRow_unique h1.1 (ha i hi)
    have e2 := hasRow_unique h1.2.1 (hb i hi)
    subst e1
    subst e2
    exact ⟨i, hi, h1, not_lt.1 (fun h => h2 ((hkey _ _).1 h)), (hkey _ _).2 h3⟩
  · intro j hj
    refine ⟨le_of_lt ((hkey _ _).2 (hv j _ _ (hI0 j (by omega)))),
      le_of_lt ((hkey _ _).2 (hd j (j + 1) _ _ _ _ (by omega) (hI0 j (by omega)) (hI0 (j + 1) hj))), ?_⟩
    rintro i hi hVi ⟨h1, h2⟩
    have hcov : Covers ts S E (e j) := (hc (e j)).2 ⟨i, _, _, hVi,
      fun h => absurd ((hkey _ _).2 h) (not_lt.2 h1), (hkey _ _).1 h2⟩
    obtain ⟨l, x, y, g1, g2, g3⟩ := hcov
    rcases lt_trichotomy l j with hl | hl | hl
    · have g4 := hd l j _ _ _ _ hl g1 (hI0 j (by omega))
      have g5 := hv j _ _ (hI0 j (by omega))
      have g4 : RowsLt ts y (s j) := g4
      rw [← hkey] at g3 g4 g5
      exact absurd (lt_trans g3 (lt_trans g4 g5)) (lt_irrefl _)
    · subst hl
      obtain ⟨_, _, rfl⟩ := (hI l x y).1 g1
      rw [← hkey] at g3
      exact absurd g3 (lt_irrefl _)
    · exact g2 (hd j l _ _ _ _ hl (hI0 j (by omega)) g1)

/-- The complement has at most one interval more than there are intervals given. -/
theorem complement_le {n m : Nat} {start stop S E l u : Val} (h : IsIntervals ts n start stop)
    (hC : IsComplement ts start stop (some l) (some u) m S E) : m ≤ n + 1 := by
  obtain ⟨K, _, k, hkey⟩ := rows_key ts h.ordered
  obtain ⟨s, e, hI⟩ := intervals_all hC.intervals hC.present
  obtain ⟨a, ha⟩ := h.starts.rows
  obtain ⟨b, hb⟩ := h.stops.rows
  have hI0 : ∀ j, j < m → IsInterval ts S E j (s j) (e j) := fun j hj => (hI j _ _).2 ⟨hj, rfl, rfl⟩
  have hv := fun j hj => (hkey _ _).2 (hC.valid j _ _ (hI0 j hj))
  have hd : ∀ i j, i < j → j < m → k (e i) < k (s j) := fun i j hij hj =>
    (hkey _ _).2 (hC.disjoint i j _ _ _ _ hij (hI0 i (by omega)) (hI0 j hj))
  have self : ∀ j, j < m → Covers ts S E (s j) := fun j hj => ⟨j, _, _, hI0 j hj, fun h => by
    rw [← hkey] at h; exact lt_irrefl _ h, hC.valid j _ _ (hI0 j hj)⟩
  have hle : m - 1 ≤ n := by
    refine points_le (V := fun i => IsInterval ts start stop i (a i) (b i)) (lo := fun i => k (a i))
      (hi := fun i => k (b i)) (p := fun j => k (e j)) (q := fun j => k (s (j + 1))) ?_ ?_
    · intro j hj
      have c1 := (hC.covers _).1 (self j (by omega))
      have c2 := (hC.covers _).1 (self (j + 1) (by omega))
      have hnc : ¬ Covers ts S E (e j) := by
        rintro ⟨i, x, y, g1, g2, g3⟩
        obtain ⟨hi, rfl, rfl⟩ := (hI i x y).1 g1
        rw [← hkey] at g2 g3
        rcases lt_trichotomy i j with hl | hl | hl
        · exact lt_irrefl _ (lt_trans g3 (lt_trans (hd i j hl (by omega)) (hv j (by omega))))
        · subst hl; exact lt_irrefl _ g3
        · exact g2 (hd j i hl hi)
      have hcov : Covers ts start stop (e j) := by
        by_contra hno
        refine hnc ((hC.covers _).2 ⟨?_, ?_, hno⟩)
        · obtain ⟨x, hx, hlt⟩ := c1.1
          refine ⟨x, hx, fun h => ?_⟩
          rw [← hkey] at h hlt
          exact hlt (lt_trans (hv j (by omega)) h)
        · obtain ⟨x, hx, hlt⟩ := c2.2.1
          refine ⟨x, hx, ?_⟩
          rw [← hkey] at hlt ⊢
          exact lt_trans (hd j (j + 1) (by omega) (by omega)) hlt
      obtain ⟨i, x, y, h1, h2, h3⟩ := hcov
      have hi := IsInterval.bound h h1
      have e1 := hasRow_unique h1.1 (ha i hi)
      have e2 := hasRow_unique h1.2.1 (hb i hi)
      subst e1
      subst e2
      exact ⟨i, hi, h1, not_lt.1 (fun h => h2 ((hkey _ _).1 h)), (hkey _ _).2 h3⟩
    · intro j hj
      refine ⟨le_of_lt (hd j (j + 1) (by omega) (by omega)), le_of_lt (hv (j + 1) (by omega)), ?_⟩
      rintro i hi hVi ⟨h1, h2⟩
      exact ((hC.covers _).1 (self (j + 1) (by omega))).2.2 ⟨i, _, _, hVi,
        fun h => absurd ((hkey _ _).2 h) (not_lt.2 h1), (hkey _ _).1 h2⟩
  omega

/-! ## The laws -/

theorem groups_present {m : Nat} {start stop S E : Val}
    (h : MergedGroups ts start stop true false m S E) (j : Nat) : ¬ IsMissingInterval ts S E j :=
  fun hj => absurd ((h.missing j).1 hj).1 (by decide)

/-- `vec_interval_groups(missing = "drop")` depends only on the points that the intervals cover, not
on their order, their number or how they overlap. -/
theorem C38_determined (ts : List ATy) (n n' : Nat) (start stop start' stop' : Val)
    (h : IsIntervals ts n start stop) (h' : IsIntervals ts n' start' stop') (hn : n ≤ intMax)
    (hn' : n' ≤ intMax) (hv : ValidIntervals ts start stop) (hv' : ValidIntervals ts start' stop')
    (hc : ∀ r, Covers ts start stop r ↔ Covers ts start' stop' r) (tl : TL) (h0 : ∀ u, 0 ≤ tl u)
    (fuel : Nat) (hf : 2 * ts.length ≤ fuel) :
    ∃ (S E S' E' : Val) (m m' : Nat),
      intervalGroups fuel start stop true (some "drop".toList) tl (List.replicate 100001 0) =
        .ok ((S, E), tl, List.replicate 100001 0) ∧
      intervalGroups fuel start' stop' true (some "drop".toList) tl (List.replicate 100001 0) =
        .ok ((S', E'), tl, List.replicate 100001 0) ∧
      SameIntervals ts m S E m' S' E' ∧ S.size = m ∧ S'.size = m' := by
  obtain ⟨S, E, m, r1, g⟩ := C38_groups ts n start stop h hn true false _ rfl tl h0 fuel hf
  obtain ⟨S', E', m', r2, g'⟩ := C38_groups ts n' start' stop' h' hn' true false _ rfl tl h0 fuel hf
  refine ⟨S, E, S', E', m, m', r1, r2, ?_, g.intervals.starts.sized.size, g'.intervals.starts.sized.size⟩
  exact sameIntervals g.intervals g'.intervals (groups_present g) (groups_present g') (g.valid hv)
    (g'.valid hv') g.disjoint g'.disjoint (fun r => by rw [g.covers, g'.covers]; exact hc r)

/-- Merging intervals that have been merged changes nothing. -/
theorem C38_idempotent (ts : List ATy) (n : Nat) (start stop : Val) (h : IsIntervals ts n start stop)
    (hn : n ≤ intMax) (hv : ValidIntervals ts start stop) (tl : TL) (h0 : ∀ u, 0 ≤ tl u)
    (fuel : Nat) (hf : 2 * ts.length ≤ fuel) :
    ∃ (S E S' E' : Val) (m m' : Nat),
      intervalGroups fuel start stop true (some "drop".toList) tl (List.replicate 100001 0) =
        .ok ((S, E), tl, List.replicate 100001 0) ∧
      intervalGroups fuel S E true (some "drop".toList) tl (List.replicate 100001 0) =
        .ok ((S', E'), tl, List.replicate 100001 0) ∧
      SameIntervals ts m S E m' S' E' ∧ S.size = m ∧ S'.size = m' ∧ m ≤ n := by
  obtain ⟨S, E, m, r1, g⟩ := C38_groups ts n start stop h hn true false _ rfl tl h0 fuel hf
  have hm : m ≤ n := mergedGroups_le h g.intervals (groups_present g) (g.valid hv) g.disjoint g.covers
  obtain ⟨S', E', m', r2, g'⟩ := C38_groups ts m S E g.intervals (Nat.le_trans hm hn) true false _ rfl
    tl h0 fuel hf
  refine ⟨S, E, S', E', m, m', r1, r2, ?_, g.intervals.starts.sized.size,
    g'.intervals.starts.sized.size, hm⟩
  exact sameIntervals g.intervals g'.intervals (groups_present g) (groups_present g') (g.valid hv)
    (g'.valid (g.valid hv)) g.disjoint g'.disjoint (fun r => (g'.covers r).symm)

/-- The complement of the complement, in bounds that all the intervals are within, is
`vec_interval_groups(missing = "drop")`. -/
theorem C39_twice (ts : List ATy) (n : Nat) (start stop : Val) (h : IsIntervals ts n start stop)
    (hv : ValidIntervals ts start stop) (ht : SameType start stop) (hn : n + 1 < intMax) (l u : Val)
    (hl : IsLimit ts start l) (hu : IsLimit ts start u) (hw : Within ts start stop l u) (tl : TL)
    (h0 : ∀ u, 0 ≤ tl u) (fuel : Nat) (hf : 2 * ts.length ≤ fuel) :
    ∃ (S E S' E' G H : Val) (m m' : Nat),
      intervalComplement fuel start stop (some l) (some u) tl (List.replicate 100001 0) =
        .ok ((S, E), tl, List.replicate 100001 0) ∧
      intervalComplement fuel S E (some l) (some u) tl (List.replicate 100001 0) =
        .ok ((S', E'), tl, List.replicate 100001 0) ∧
      intervalGroups fuel start stop true (some "drop".toList) tl (List.replicate 100001 0) =
        .ok ((G, H), tl, List.replicate 100001 0) ∧
      SameIntervals ts m S' E' m' G H ∧ S'.size = m ∧ G.size = m' := by
  obtain ⟨S, E, k, r1, c⟩ := C39_complement ts n start stop h hv ht (by omega) (some l) (some u)
    (fun x e => by cases e; exact hl) (fun x e => by cases e; exact hu) tl h0 fuel hf
  have hk := complement_le h c
  have tS : ∀ {x : Val}, SameType x start → SameType x S := fun hx => hx.trans c.typeS.symm
  obtain ⟨S', E', m, r2, c'⟩ := C39_complement ts k S E c.intervals c.valid
    ((c.typeS.trans ht).trans c.typeE.symm) (by omega) (some l) (some u)
    (fun x e => by cases e; exact ⟨hl.bounds, tS hl.type, hl.complete⟩)
    (fun x e => by cases e; exact ⟨hu.bounds, tS hu.type, hu.complete⟩) tl h0 fuel hf
  obtain ⟨G, H, m', r3, g⟩ := C38_groups ts n start stop h (by omega) true false _ rfl tl h0 fuel hf
  refine ⟨S, E, S', E', G, H, m, m', r1, r2, r3, ?_, c'.intervals.starts.sized.size,
    g.intervals.starts.sized.size⟩
  refine sameIntervals c'.intervals g.intervals c'.present (groups_present g) c'.valid (g.valid hv)
    c'.disjoint g.disjoint (fun r => ?_)
  rw [c'.covers, c.covers, g.covers]
  constructor
  · rintro ⟨a1, a2, a3⟩
    by_contra hno
    exact a3 ⟨a1, a2, hno⟩
  · rintro hr
    obtain ⟨K, _, q, hkey⟩ := rows_key ts h.ordered
    obtain ⟨i, s, e, hI, g1, g2⟩ := id hr
    obtain ⟨⟨x, hx, hx'⟩, y, hy, hy'⟩ := hw i s e hI
    refine ⟨⟨x, hx, ?_⟩, ⟨y, hy, ?_⟩, fun h => h.2.2 hr⟩
    · rw [← hkey] at g1 hx' ⊢
      exact not_lt.2 (le_trans (not_lt.1 hx') (not_lt.1 g1))
    · rw [← hkey] at g2 hy' ⊢
      exact lt_of_lt_of_le g2 (not_lt.1 hy')

/-! ## Examples -/

example := C38_idempotent [.int] 6 exIvStart exIvStop exIv (by decide) exIv_valid exTl exTl_ok 2 (by decide)

theorem exIv_covers {xs ys : List Int} {r : Int} :
    Covers [.int] (.vec (.atom .int) xs) (.vec (.atom .int) ys) (r, ()) ↔
      ∃ p ∈ xs.zip ys, p.1 ≠ naInt ∧ ¬ AtomLt .int r p.1 ∧ AtomLt .int r p.2 := by
  constructor
  · rintro ⟨i, ⟨(a : Int), ⟨⟩⟩, ⟨(b : Int), ⟨⟩⟩, ⟨h1, h2, h3⟩, h4, h5⟩
    refine ⟨(a, b), ?_, fun h => h3 ⟨h, trivial⟩, fun h => h4 (.inl h), ?_⟩
    · refine List.mem_of_getElem? (i := i) ?_
      rw [List.getElem?_zip_eq_some]
      exact ⟨exIv_row h1, exIv_row h2⟩
    · rcases h5 with h | h
      · exact h
      · exact h.2.elim
  · rintro ⟨⟨a, b⟩, hp, h3, h4, h5⟩
    obtain ⟨i, hi⟩ := List.mem_iff_getElem?.1 hp
    rw [List.getElem?_zip_eq_some] at hi
    refine ⟨i, (a, ()), (b, ()), ⟨⟨xs, [], rfl, hi.1, rfl⟩, ⟨ys, [], rfl, hi.2, rfl⟩, fun h => h3 h.1⟩, ?_, .inl h5⟩
    rintro (h | h)
    · exact h4 h
    · exact h.2

/-- [3, 5) and [1, 4), and [1, 5). -/
theorem exIv_same (r : Row [.int]) :
    Covers [.int] (.vec (.atom .int) ([3, 1] : List Int)) (.vec (.atom .int) ([5, 4] : List Int)) r ↔
      Covers [.int] (.vec (.atom .int) ([1] : List Int)) (.vec (.atom .int) ([5] : List Int)) r := by
  obtain ⟨(r : Int), ⟨⟩⟩ := r
  rw [exIv_covers, exIv_covers]
  have e : ∀ a b : Int, AtomLt .int a b ↔ a ≠ b ∧ (a = naInt ∨ (b ≠ naInt ∧ a < b)) := fun _ _ => Iff.rfl
  simp only [List.zip_cons_cons, List.zip_nil_right, List.mem_cons, List.not_mem_nil, or_false,
    exists_eq_or_imp, exists_eq_left, e, naInt]
  omega

theorem exIv_lt {xs ys : List Int} (h : ∀ p ∈ xs.zip ys, p.2 ≠ naInt ∧ p.1 < p.2) :
    ValidIntervals [.int] (.vec (.atom .int) xs) (.vec (.atom .int) ys) := by
  rintro i ⟨(a : Int), ⟨⟩⟩ ⟨(b : Int), ⟨⟩⟩ ⟨h1, h2, _⟩
  have := h (a, b) (by
    refine List.mem_of_getElem? (i := i) ?_
    rw [List.getElem?_zip_eq_some]
    exact ⟨exIv_row h1, exIv_row h2⟩)
  exact .inl ⟨Int.ne_of_lt this.2, .inr this⟩

example := C38_determined [.int] 2 1 _ _ _ _
  (exIv_intervals (xs := [3, 1]) (ys := [5, 4]) rfl rfl (by unfold IsInt; decide) (by unfold IsInt; decide) (by decide))
  (exIv_intervals (xs := [1]) (ys := [5]) rfl rfl (by unfold IsInt; decide) (by unfold IsInt; decide) (by decide))
  (by decide) (by decide) (exIv_lt (by decide)) (exIv_lt (by decide)) exIv_same exTl exTl_ok 2 (by decide)

theorem exIv_within : Within [.int] exIvStart exIvStop (exLimit (-2)) (exLimit 12) := by
  rintro i ⟨(a : Int), ⟨⟩⟩ ⟨(b : Int), ⟨⟩⟩ ⟨h1, h2, h3⟩
  have e1 := exIv_row h1
  have e2 := exIv_row h2
  have ha : a ≠ naInt := fun h => h3 ⟨h, trivial⟩
  have hz : (a, b) ∈ ([5, naInt, 1, 3, 8, 1] : List Int).zip [6, naInt, 4, 5, 9, 2] := by
    refine List.mem_of_getElem? (i := i) ?_
    rw [List.getElem?_zip_eq_some]
    exact ⟨e1, e2⟩
  have key : ∀ p ∈ ([5, naInt, 1, 3, 8, 1] : List Int).zip [6, naInt, 4, 5, 9, 2], p.1 ≠ naInt →
      p.2 ≠ naInt ∧ -2 < p.1 ∧ p.2 < 12 := by decide
  obtain ⟨k1, k2, k3⟩ := key _ hz ha
  have k2 : -2 < a := k2
  have k3 : b < 12 := k3
  refine ⟨⟨((-2 : Int), ()), ⟨_, [], rfl, rfl, rfl⟩, ?_⟩, ((12 : Int), ()), ⟨_, [], rfl, rfl, rfl⟩, ?_⟩
  · rintro (h | h)
    · have h : a ≠ -2 ∧ (a = naInt ∨ ((-2 : Int) ≠ naInt ∧ a < -2)) := h
      rcases h.2 with h | h
      · exact ha h
      · omega
    · exact h.2
  · rintro (h | h)
    · have h : (12 : Int) ≠ b ∧ ((12 : Int) = naInt ∨ (b ≠ naInt ∧ 12 < b)) := h
      rcases h.2 with h | h
      · exact absurd h (by decide)
      · omega
    · exact h.2

example := C39_twice [.int] 6 exIvStart exIvStop exIv exIv_valid rfl (by decide)
  (exLimit (-2)) (exLimit 12) (exLimit_ok (by unfold IsInt; decide) (by decide))
  (exLimit_ok (by unfold IsInt; decide) (by decide)) exIv_within exTl exTl_ok 2 (by decide)

-- the complement in [-2, 12), and its complement
example : C39_run (intervalComplement 2 exIvStart exIvStop (some (exLimit (-2))) (some (exLimit 12))
    exTl exStatic) = some ([-2, 6, 9], [1, 8, 12]) := by decide +kernel

example : C39_run (intervalComplement 2 (.vec (.atom .int) ([-2, 6, 9] : List Int))
    (.vec (.atom .int) ([1, 8, 12] : List Int)) (some (exLimit (-2))) (some (exLimit 12))
    exTl exStatic) = some ([1, 8], [6, 9]) := by decide +kernel

example : C39_run (intervalGroups 2 exIvStart exIvStop true (some "drop".toList) exTl exStatic) =
    some ([1, 8], [6, 9]) := by decide +kernel

end Vctrs
