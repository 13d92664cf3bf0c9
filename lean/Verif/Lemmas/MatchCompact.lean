import Verif.Lemmas.MatchReorder

/-!
# The result of matching from the compact matches
-/

namespace Vctrs

open Spec

/-! ## Outcomes -/

/-- Two families of outcomes differ in the order of the rows of a needle only. -/
def SameOuts (raw outs : Nat → Outcome) (n : Nat) : Prop :=
  ∀ i, i < n → raw i = outs i ∨ ∃ R R', raw i = .rows R ∧ outs i = .rows R' ∧ R.Perm R'

theorem SameOuts.found {raw outs : Nat → Outcome} {n : Nat} (h : SameOuts raw outs n) {i : Nat}
    (hi : i < n) : (raw i).found.Perm (outs i).found := by
  rcases h i hi with e | ⟨R, R', e1, e2, e3⟩
  · rw [e]
  · rw [e1, e2]
    exact e3

theorem SameOuts.mem {raw outs : Nat → Outcome} {n : Nat} (h : SameOuts raw outs n) {r : Nat} :
    r ∈ allFound raw n ↔ r ∈ allFound outs n := by
  unfold allFound
  simp only [List.mem_flatMap, List.mem_range]
  constructor
  · rintro ⟨i, hi, hr⟩
    exact ⟨i, hi, (h.found hi).mem_iff.1 hr⟩
  · rintro ⟨i, hi, hr⟩
    exact ⟨i, hi, (h.found hi).mem_iff.2 hr⟩

/-- The number of pairs when needles without a match count for one. -/
def totalPairs (outs : Nat → Outcome) (n : Nat) : Nat :=
  ((List.range n).map (fun i => max 1 (outs i).found.length)).sum

theorem totalPairs_succ (outs : Nat → Outcome) (n : Nat) :
    totalPairs outs (n + 1) = totalPairs outs n + max 1 (outs n).found.length := by
  unfold totalPairs
  rw [List.range_succ, List.map_append, List.sum_append]
  simp

theorem totalPairs_mono (outs : Nat → Outcome) {i n : Nat} (h : i ≤ n) :
    totalPairs outs i ≤ totalPairs outs n := by
  induction h with
  | refl => exact Nat.le_refl _
  | step _ ih => rw [totalPairs_succ]; omega

theorem totalPairs_congr {raw outs : Nat → Outcome} {n : Nat} (h : SameOuts raw outs n) :
    totalPairs raw n = totalPairs outs n := by
  unfold totalPairs
  congr 1
  apply List.map_congr_left
  intro i hi
  rw [(h.found (List.mem_range.1 hi)).length_eq]

theorem totalPairs_one {outs : Nat → Outcome} {n : Nat} (h : ∀ i, i < n → (outs i).found.length ≤ 1) :
    totalPairs outs n = n := by
  unfold totalPairs
  have : (List.range n).map (fun i => max 1 (outs i).found.length) = (List.range n).map (fun _ => 1) := by
    apply List.map_congr_left
    intro i hi
    have := h i (List.mem_range.1 hi)
    omega
  rw [this]
  simp

theorem values_length (inc : MIncomplete) (nm : MUnmatched) (o : Outcome) :
    (o.values inc nm).length ≤ max 1 o.found.length := by
  cases o with
  | incomplete => have := values_incomplete inc nm; omega
  | unmatched => have := values_unmatched inc nm; omega
  | rows R => simp [Outcome.values, Outcome.found]

theorem needlePairs_length (inc : MIncomplete) (nm : MUnmatched) (outs : Nat → Outcome) (n : Nat) :
    (needlePairs inc nm outs n).length ≤ totalPairs outs n := by
  induction n with
  | zero => simp [needlePairs]
  | succ n ih =>
    rw [needlePairs_succ, totalPairs_succ, List.length_append]
    have := values_length inc nm (outs n)
    unfold pairsAt
    rw [List.length_map]
    omega

theorem nodup_or_again {outs : Nat → Outcome} {n : Nat} (h : ∀ i, i < n → (outs i).found.Nodup) :
    ¬ (allFound outs n).Nodup ↔ FoundAgain outs n := by
  unfold allFound
  rw [List.nodup_flatMap]
  constructor
  · intro hn
    refine Classical.byContradiction fun hna => hn ⟨fun i hi => h i (List.mem_range.1 hi), ?_⟩
    refine (range_pairwise_lt n).imp_of_mem ?_
    intro i j hi hj hij r h1 h2
    exact hna ⟨i, j, r, hij, List.mem_range.1 hj, h1, h2⟩
  · rintro ⟨i, j, r, h1, h2, h3, h4⟩ ⟨_, hp⟩
    have := List.pairwise_iff_getElem.1 hp i j (by rw [List.length_range]; omega)
      (by rw [List.length_range]; omega) h1
    simp only [List.getElem_range] at this
    exact this h3 h4

theorem SameOuts.again {raw outs : Nat → Outcome} {n : Nat} (h : SameOuts raw outs n) :
    FoundAgain raw n ↔ FoundAgain outs n := by
  constructor
  · rintro ⟨i, j, r, h1, h2, h3, h4⟩
    exact ⟨i, j, r, h1, h2, (h.found (by omega)).mem_iff.1 h3, (h.found h2).mem_iff.1 h4⟩
  · rintro ⟨i, j, r, h1, h2, h3, h4⟩
    exact ⟨i, j, r, h1, h2, (h.found (by omega)).mem_iff.2 h3, (h.found h2).mem_iff.2 h4⟩

theorem SameOuts.several {raw outs : Nat → Outcome} {n : Nat} (h : SameOuts raw outs n) :
    SeveralMatches raw n ↔ SeveralMatches outs n := by
  constructor
  · rintro ⟨i, h1, h2⟩
    exact ⟨i, h1, (h.found h1).length_eq ▸ h2⟩
  · rintro ⟨i, h1, h2⟩
    exact ⟨i, h1, (h.found h1).length_eq.symm ▸ h2⟩

theorem SameOuts.incomplete {raw outs : Nat → Outcome} {n : Nat} (h : SameOuts raw outs n) {i : Nat}
    (hi : i < n) : raw i = .incomplete ↔ outs i = .incomplete := by
  rcases h i hi with e | ⟨R, R', e1, e2, e3⟩
  · rw [e]
  · rw [e1, e2]
    simp

theorem SameOuts.unmatched {raw outs : Nat → Outcome} {n : Nat} (h : SameOuts raw outs n) {i : Nat}
    (hi : i < n) : raw i = .unmatched ↔ outs i = .unmatched := by
  rcases h i hi with e | ⟨R, R', e1, e2, e3⟩
  · rw [e]
  · rw [e1, e2]
    simp

theorem SameOuts.values {raw outs : Nat → Outcome} {n : Nat} (h : SameOuts raw outs n) {i : Nat}
    (hi : i < n) (inc : MIncomplete) (nm : MUnmatched) :
    ((raw i).values inc nm).Perm ((outs i).values inc nm) := by
  rcases h i hi with e | ⟨R, R', e1, e2, e3⟩
  · rw [e]
  · rw [e1, e2]
    exact e3.map _

theorem perm_flatMap {α β : Type} {l : List α} {f g : α → List β} (h : ∀ a ∈ l, (f a).Perm (g a)) :
    (l.flatMap f).Perm (l.flatMap g) := by
  induction l with
  | nil => exact List.Perm.refl _
  | cons a l ih =>
    rw [List.flatMap_cons, List.flatMap_cons]
    exact (h a List.mem_cons_self).append (ih fun b hb => h b (List.mem_cons_of_mem _ hb))

theorem SameOuts.pairs {raw outs : Nat → Outcome} {n : Nat} (h : SameOuts raw outs n)
    (inc : MIncomplete) (nm : MUnmatched) :
    (needlePairs inc nm raw n).Perm (needlePairs inc nm outs n) :=
  perm_flatMap fun _ hi => (h.values (List.mem_range.1 hi) inc nm).map _

theorem map_fst_const {α β : Type} (a : α) (l : List β) :
    (l.map (fun v => (a, v))).map (·.1) = List.replicate l.length a := by
  rw [List.map_map]
  exact List.map_const' ..

theorem SameOuts.pairs_fst {raw outs : Nat → Outcome} {n : Nat} (h : SameOuts raw outs n)
    (inc : MIncomplete) (nm : MUnmatched) :
    (needlePairs inc nm raw n).map (·.1) = (needlePairs inc nm outs n).map (·.1) := by
  unfold needlePairs
  rw [List.map_flatMap, List.map_flatMap, List.flatMap_def, List.flatMap_def]
  congr 1
  apply List.map_congr_left
  intro i hi
  rw [map_fst_const, map_fst_const, (h.values (List.mem_range.1 hi) inc nm).length_eq]

theorem needlePairs_sorted {outs : Nat → Outcome} {n : Nat} (inc : MIncomplete) (nm : MUnmatched)
    (h : ∀ i, i < n → (outs i).found.Pairwise (· < ·)) :
    (needlePairs inc nm outs n).Pairwise PairLe := by
  unfold needlePairs
  rw [List.pairwise_flatMap]
  constructor
  · intro i hi
    rw [List.pairwise_map]
    have hv : ((outs i).values inc nm).Pairwise (· ≤ ·) := by
      have := h i (List.mem_range.1 hi)
      cases ho : outs i with
      | incomplete => cases inc <;> simp [Outcome.values]
      | unmatched => cases nm <;> simp [Outcome.values]
      | rows R =>
        rw [ho] at this
        simp only [Outcome.values, List.pairwise_map]
        refine List.Pairwise.imp ?_ this
        intro a b hab
        omega
    exact hv.imp fun h => .inr ⟨rfl, h⟩
  · refine (range_pairwise_lt n).imp ?_
    intro i j hij x hx y hy
    obtain ⟨v, _, rfl⟩ := List.mem_map.1 hx
    obtain ⟨w, _, rfl⟩ := List.mem_map.1 hy
    left
    dsimp only
    omega

theorem needlePairs_int {outs : Nat → Outcome} {n m : Nat} {inc : MIncomplete} {nm : MUnmatched}
    (hn : n ≤ intMax) (hm : m ≤ intMax) (hi : ∀ v, inc = .value v → IsInt v)
    (hu : ∀ v, nm = .value v → IsInt v) (hr : ∀ i, i < n → ∀ r ∈ (outs i).found, r < m) :
    ∀ x ∈ needlePairs inc nm outs n, IsInt x.1 ∧ IsInt x.2 := by
  intro x hx
  unfold needlePairs at hx
  obtain ⟨i, h1, h2⟩ := List.mem_flatMap.1 hx
  rw [List.mem_range] at h1
  obtain ⟨v, h3, rfl⟩ := List.mem_map.1 h2
  have nat : ∀ k : Nat, k < intMax → IsInt ((k : Int) + 1) := by
    intro k hk
    unfold IsInt naInt
    unfold intMax at hk ⊢
    omega
  refine ⟨nat i (by omega), ?_⟩
  cases ho : outs i with
  | incomplete =>
    rw [ho] at h3
    cases hinc : inc with
    | value w =>
      rw [hinc] at h3
      simp only [Outcome.values, List.mem_singleton] at h3
      rw [h3]
      exact hi w hinc
    | _ => rw [hinc] at h3; simp [Outcome.values] at h3
  | unmatched =>
    rw [ho] at h3
    cases hnm : nm with
    | value w =>
      rw [hnm] at h3
      simp only [Outcome.values, List.mem_singleton] at h3
      rw [h3]
      exact hu w hnm
    | _ => rw [hnm] at h3; simp [Outcome.values] at h3
  | rows R =>
    rw [ho] at h3
    simp only [Outcome.values, List.mem_map] at h3
    obtain ⟨r, hr', rfl⟩ := h3
    have := hr i h1 r (by rw [ho]; exact hr')
    exact nat r (by omega)

/-! ## Sizes -/

theorem recorded_perm {a : AState} {n : Nat} (hlt : ∀ x ∈ a.ex, x.1 < n) :
    (byNeedle a n).Perm (recorded a n) := by
  have hkey := recorded_key_lt hlt
  have hfl : byNeedle a n = (List.range n).flatMap (fun i => (recorded a n).filter (fun x => x.1 == i)) := by
    unfold byNeedle
    rw [List.flatMap_def, List.flatMap_def]
    congr 1
    apply List.map_congr_left
    intro i hi
    rw [recorded_filter (List.mem_range.1 hi)]
  rw [hfl]
  generalize recorded a n = U at *
  let G : Nat → Nat × Int × Int := fun k => U.getD k (0, 0, 0)
  have hU : U = (List.range U.length).map G := list_as_map U _
  have hG : ∀ k, k < U.length → U[k]? = some (G k) := by
    intro k hk
    simp [G, hk]
  have := (range_filter_flatMap_perm (N := U.length) (n := n) (key := fun k => (G k).1)
    (fun k hk => hkey _ (List.mem_of_getElem? (hG k hk)))).map G
  rw [← hU, List.map_flatMap] at this
  refine (List.Perm.of_eq ?_).trans this
  rw [List.flatMap_def, List.flatMap_def]
  congr 1
  apply List.map_congr_left
  intro i _
  conv => lhs; rw [hU]
  rw [List.filter_map]
  rfl

theorem hitRows_length {g : Int → Nat} : ∀ (E : List (Int × Int)), (∀ x ∈ E, 1 ≤ x.2) →
    ((hitRows g E).length : Int) = (E.map (·.2)).sum
  | [], _ => rfl
  | x :: E, h => by
    rw [show x :: E = [x] ++ E from rfl, hitRows_append, hitRows_one, List.length_append,
      List.length_map, List.length_range, List.map_append, List.sum_append]
    have := hitRows_length (g := g) E fun y hy => h y (List.mem_cons_of_mem _ hy)
    have hx := h x List.mem_cons_self
    simp only [List.map_cons, List.map_nil, List.sum_cons, List.sum_nil]
    omega

theorem outIs_sum {mu : MMultiple} {m : Nat} {g : Int → Nat} {E : List (Int × Int)} {o : Outcome}
    (h : OutIs mu m g E o) (h1 : mu ≠ .first) (h2 : mu ≠ .last) :
    (E.map (·.2)).sum = ((max 1 o.found.length : Nat) : Int) := by
  rcases h with ⟨rfl, rfl⟩ | ⟨rfl, rfl⟩ | ⟨h0, hE, R, rfl, _, _, h3⟩
  · rfl
  · rfl
  · have hR := h3 h1 h2
    subst hR
    have hp := hitRows_pos (g := g) h0 fun x hx => (hE x hx).2.1
    rw [← hitRows_length (g := g) E fun x hx => (hE x hx).2.1]
    simp only [Outcome.found]
    omega

theorem perm_sum {l l' : List Int} (h : l.Perm l') : l.sum = l'.sum := by
  induction h with
  | nil => rfl
  | cons x _ ih => rw [List.sum_cons, List.sum_cons, ih]
  | swap x y l => simp only [List.sum_cons]; omega
  | trans _ _ h1 h2 => rw [h1, h2]

theorem sizes_sum {a : AState} {n : Nat} (hlt : ∀ x ∈ a.ex, x.1 < n) {outs : Nat → Outcome}
    (h : ∀ i, i < n → ((ents a i).map (·.2)).sum = ((max 1 (outs i).found.length : Nat) : Int)) :
    ((recorded a n).map (fun x => x.2.2)).sum = (totalPairs outs n : Int) := by
  rw [← perm_sum ((recorded_perm hlt).map (fun x => x.2.2))]
  unfold byNeedle totalPairs
  have : ∀ k, k ≤ n → ((((List.range k).flatMap (fun i => (ents a i).map (fun x => (i, x)))).map
      (fun x : Nat × Int × Int => x.2.2)).sum : Int) =
      ((((List.range k).map (fun i => max 1 (outs i).found.length)).sum : Nat) : Int) := by
    intro k
    induction k with
    | zero => intro _; rfl
    | succ k ih =>
      intro hk
      rw [List.range_succ, List.flatMap_append, List.map_append, List.sum_append, ih (by omega),
        List.map_append, List.sum_append, List.flatMap_singleton, List.map_map]
      have := h k (by omega)
      simp only [List.map_cons, List.map_nil, List.sum_cons, List.sum_nil, Nat.add_zero]
      rw [Int.natCast_add, ← this]
      rfl
  exact this n (Nat.le_refl _)

theorem recorded_length_le {a : AState} {n : Nat} (h : ∀ x ∈ recorded a n, 1 ≤ x.2.2) :
    ((recorded a n).length : Int) ≤ ((recorded a n).map (fun x => x.2.2)).sum := by
  generalize recorded a n = U at h
  induction U with
  | nil => simp
  | cons x U ih =>
    have h1 := h x List.mem_cons_self
    have h2 := ih fun y hy => h y (List.mem_cons_of_mem _ hy)
    simp only [List.length_cons, List.map_cons, List.sum_cons]
    omega

theorem outIs_pos {mu : MMultiple} {m : Nat} {g : Int → Nat} {E : List (Int × Int)} {o : Outcome}
    (h : OutIs mu m g E o) : ∀ x ∈ E, 1 ≤ x.2 := by
  intro x hx
  rcases h with ⟨rfl, rfl⟩ | ⟨rfl, rfl⟩ | ⟨h0, hE, _⟩
  · rw [List.mem_singleton] at hx
    rw [hx]
  · rw [List.mem_singleton] at hx
    rw [hx]
  · exact (hE x hx).2.1

theorem recorded_pos {a : AState} {n : Nat} (hlt : ∀ x ∈ a.ex, x.1 < n)
    (h : ∀ i, i < n → ∀ x ∈ ents a i, 1 ≤ x.2) : ∀ x ∈ recorded a n, 1 ≤ x.2.2 := by
  intro x hx
  have := (recorded_perm hlt).mem_iff.2 hx
  unfold byNeedle at this
  obtain ⟨i, hi, h1⟩ := List.mem_flatMap.1 this
  obtain ⟨y, hy, rfl⟩ := List.mem_map.1 h1
  exact h i (List.mem_range.1 hi) y hy

theorem perm_eq_of_short {R R' : List Nat} (h : R.Perm R') (hl : R.length ≤ 1) : R = R' := by
  rcases R with _ | ⟨a, _ | ⟨b, R⟩⟩
  · exact (List.nil_perm.1 h).symm
  · exact (List.singleton_perm.1 h).symm ▸ rfl
  · simp at hl

theorem SameOuts.eq_of_short {raw outs : Nat → Outcome} {n : Nat} (h : SameOuts raw outs n) {i : Nat}
    (hi : i < n) (hl : (raw i).found.length ≤ 1) : raw i = outs i := by
  rcases h i hi with e | ⟨R, R', e1, e2, e3⟩
  · exact e
  · rw [e1, e2]
    rw [e1] at hl
    rw [perm_eq_of_short e3 hl]

theorem needlePairs_congr {raw outs : Nat → Outcome} {n : Nat} (inc : MIncomplete) (nm : MUnmatched)
    (h : ∀ i, i < n → raw i = outs i) : needlePairs inc nm raw n = needlePairs inc nm outs n := by
  unfold needlePairs
  rw [List.flatMap_def, List.flatMap_def]
  congr 1
  apply List.map_congr_left
  intro i hi
  rw [h i (List.mem_range.1 hi)]

/-! ## The expansion -/

theorem take_or_all {α : Type} {pre : List α} {r l : List (Option α)} {cap loc : Nat}
    (h : l = pre.map some ++ r) (hc : pre.length + r.length = cap) (hl : loc = pre.length) :
    initd (if loc < cap then l.take loc else l) = .ok pre := by
  by_cases hlt : loc < cap
  · rw [if_pos hlt, h, hl, List.take_append_of_le_length (by rw [List.length_map])]
    rw [← List.length_map (f := some), List.take_length]
    exact initd_map_some pre
  · have : r = [] := List.eq_nil_of_length_eq_zero (by omega)
    rw [if_neg hlt, h, this, List.append_nil]
    exact initd_map_some pre

theorem abs_first {e : MEnv} {n : Nat} {ms : MState} {a : AState} (h : Abs e n ms a) :
    ms.first = (recorded a n).map (fun x => x.2.1) := by
  rw [h.first]
  unfold recorded
  rw [List.map_append, List.map_map]
  rfl

theorem abs_size {e : MEnv} {n : Nat} {ms : MState} {a : AState} (h : Abs e n ms a)
    (hm : e.multiple ≠ .any) : ms.size = (recorded a n).map (fun x => x.2.2) := by
  rw [h.size hm]
  unfold recorded
  rw [List.map_append, List.map_map]
  rfl

theorem abs_locs {e : MEnv} {n : Nat} {ms : MState} {a : AState} (h : Abs e n ms a)
    (hm : e.multiple ≠ .any) : ms.locs = (recorded a n).map (fun x => (x.1 : Int)) := by
  rw [h.locs hm]
  unfold recorded
  rw [List.map_append, List.map_map]
  rfl

theorem outIs_found_lt {mu : MMultiple} {m : Nat} {g : Int → Nat} {E : List (Int × Int)} {o : Outcome}
    (h : OutIs mu m g E o) (hg : ∀ k : Int, 0 ≤ k → k < m → g k < m) : ∀ r ∈ o.found, r < m := by
  rcases h with ⟨rfl, rfl⟩ | ⟨rfl, rfl⟩ | ⟨h0, hE, R, rfl, h1, h2, h3⟩
  · intro r hr; simp [Outcome.found] at hr
  · intro r hr; simp [Outcome.found] at hr
  · have hrow : ∀ r ∈ hitRows g E, r < m := by
      intro r hr
      unfold hitRows at hr
      obtain ⟨q, q1, rfl⟩ := List.mem_map.1 hr
      obtain ⟨y, y1, y2, y3⟩ := mem_flatLocs.1 q1
      have := hE y y1
      exact hg q (by omega) (by omega)
    intro r hr
    simp only [Outcome.found] at hr
    by_cases m1 : mu = .first
    · obtain ⟨k, rfl, hk⟩ := h1 m1
      rw [List.mem_singleton] at hr
      exact hr ▸ hrow k hk.1
    by_cases m2 : mu = .last
    · obtain ⟨k, rfl, hk⟩ := h2 m2
      rw [List.mem_singleton] at hr
      exact hr ▸ hrow k hk.1
    rw [h3 m1 m2] at hr
    exact hrow r hr

theorem checks_all {mu : MMultiple} (h : checksNeedles mu = true) :
    mu = .all ∨ mu = .error ∨ mu = .warning := by
  cases mu
  · exact .inl rfl
  · cases h
  · cases h
  · cases h
  · exact .inr (.inr rfl)
  · exact .inr (.inl rfl)

/-- Without a check for several matches there are none. -/
theorem outIs_short {mu : MMultiple} {m : Nat} {g : Int → Nat} {E : List (Int × Int)} {o : Outcome}
    (h : OutIs mu m g E o) (hch : checksNeedles mu = false)
    (hany : mu = .any → ∃ f, E = [(f, 1)]) : o.found.length ≤ 1 := by
  rcases h with ⟨rfl, rfl⟩ | ⟨rfl, rfl⟩ | ⟨h0, hE, R, rfl, h1, h2, h3⟩
  · simp [Outcome.found]
  · simp [Outcome.found]
  · simp only [Outcome.found]
    cases mu with
    | first => obtain ⟨k, rfl, _⟩ := h1 rfl; simp
    | last => obtain ⟨k, rfl, _⟩ := h2 rfl; simp
    | any =>
      rw [h3 (by simp) (by simp)]
      obtain ⟨f, rfl⟩ := hany rfl
      rw [hitRows_one]
      simp
    | all => cases hch
    | error => cases hch
    | warning => cases hch

/-- `expand_compact_indices`: the pairs of the needles and of the rows that are left, a warning, or
an error. -/
theorem expandCompact_ok {fuel : Nat} {e : MEnv} {ms : MState} {noMatch remaining : MUnmatched}
    {relationship : MRelationship} {n m : Nat} {nonEqui : Bool} {tl : TL} {a : AState}
    {g : Int → Nat} {raw outs : Nat → Outcome}
    (habs : Abs e n ms a)
    (hone : e.anyFilters = true → ∀ i, i < n → ents a i = [a.pr i])
    (hany : e.multiple = .any → ∀ i, i < n → (a.pr i).2 = 1)
    (ho : ∀ k : Int, 0 ≤ k → k < m → rdI e.oHaystack k = .ok ((g k : Int) + 1) ∧ g k < m)
    (hE : ∀ i, i < n → OutIs e.multiple m g (ents a i) (raw i))
    (hinc : ∀ i, i < n → e.incomplete ≠ .compare ∧ e.incomplete ≠ .exact ∨ raw i ≠ .incomplete)
    (hsame : SameOuts raw outs n)
    (hup : ∀ i, i < n → (outs i).found.Pairwise (· < ·))
    (hasc : nonEqui = false → ∀ i, i < n → raw i = outs i)
    (hm : m ≤ intMax) (hn : n ≤ intMax)
    (hiv : ∀ v, e.incomplete = .value v → IsInt v) (hnv : ∀ v, noMatch = .value v → IsInt v)
    (hsz : e.multiple = .first ∨ e.multiple = .last → (recorded a n).length ≤ intMax)
    (h0 : ∀ u, 0 ≤ tl u) (hf : 2 ≤ fuel) :
    RetOr (expandCompact fuel e ms noMatch remaining relationship n m nonEqui tl
        (List.replicate 100001 0)) (fun r =>
        r.2 = (tl, List.replicate 100001 0) ∧
        r.1.needles = (needlePairs e.incomplete noMatch outs n ++
          remainingPairs remaining outs n m).map (·.1) ∧
        r.1.haystack = (needlePairs e.incomplete noMatch outs n ++
          remainingPairs remaining outs n m).map (·.2) ∧
        (r.1.warned = true ↔ Warned e.multiple relationship outs n) ∧
        ¬ Rejected e.incomplete noMatch remaining e.multiple relationship outs n m)
      (Fails (Rejected e.incomplete noMatch remaining e.multiple relationship outs n m)) := by
  have hnd : ∀ i, i < n → (raw i).found.Nodup := fun i hi =>
    (hsame.found hi).nodup_iff.2 ((hup i hi).imp fun h => Nat.ne_of_lt h)
  have hndo : ∀ i, i < n → (outs i).found.Nodup := fun i hi => (hup i hi).imp fun h => Nat.ne_of_lt h
  have hshort : checksNeedles e.multiple = false → ∀ i, i < n → (raw i).found.length ≤ 1 := by
    intro hch i hi
    refine outIs_short (hE i hi) hch fun hm => ⟨(a.pr i).1, ?_⟩
    unfold ents
    rw [habs.any hm, ← hany hm i hi]
    rfl
  have hcheckseveral : SeveralMatches raw n → checksNeedles e.multiple = true := by
    rintro ⟨i, h1, h2⟩
    cases hch : checksNeedles e.multiple with
    | true => rfl
    | false => have := hshort hch i h1; omega
  have htot := totalPairs_congr hsame
  unfold expandCompact
  dsimp only
  -- the size of the result
  refine RetOr.bind (P := fun cap => cap = totalPairs raw n ∧
    ((e.multiple = .all ∨ e.multiple = .error ∨ e.multiple = .warning) → totalPairs raw n ≤ intMax)) ?_ ?_
  · have one : checksNeedles e.multiple = false → totalPairs raw n = n := fun h => totalPairs_one (hshort h)
    have all : e.multiple ≠ .any → e.multiple ≠ .first → e.multiple ≠ .last →
        ms.size.sum = (totalPairs raw n : Int) := by
      intro h1 h2 h3
      rw [abs_size habs h1]
      exact sizes_sum habs.lt fun i hi => outIs_sum (hE i hi) h2 h3
    have big : (e.multiple = .all ∨ e.multiple = .error ∨ e.multiple = .warning) →
        RetOr (if ms.size.sum > (intMax : Int) then .error .abort else .ok ms.size.sum.toNat : C Nat)
        (fun cap => cap = totalPairs raw n ∧
          ((e.multiple = .all ∨ e.multiple = .error ∨ e.multiple = .warning) → totalPairs raw n ≤ intMax))
        (Fails (Rejected e.incomplete noMatch remaining e.multiple relationship outs n m)) := by
      intro hmu
      have hs := all (by rcases hmu with h | h | h <;> rw [h] <;> simp)
        (by rcases hmu with h | h | h <;> rw [h] <;> simp)
        (by rcases hmu with h | h | h <;> rw [h] <;> simp)
      by_cases hb : ms.size.sum > (intMax : Int)
      · rw [if_pos hb]
        refine RetOr.abort (.tooMany hmu ?_)
        show intMax < totalPairs outs n
        omega
      · rw [if_neg hb]
        refine RetOr.ok ⟨?_, fun _ => ?_⟩ <;> omega
    unfold expandSize
    cases hmu : e.multiple with
    | any => rw [hmu] at one; exact RetOr.ok ⟨(one rfl).symm, fun h => by simp at h⟩
    | first => rw [hmu] at one; exact RetOr.ok ⟨(one rfl).symm, fun h => by simp at h⟩
    | last => rw [hmu] at one; exact RetOr.ok ⟨(one rfl).symm, fun h => by simp at h⟩
    | all => rw [hmu] at big; exact big (.inl rfl)
    | error => rw [hmu] at big; exact big (.inr (.inl rfl))
    | warning => rw [hmu] at big; exact big (.inr (.inr rfl))
  rintro cap ⟨rfl, hcap⟩
  have hlen : e.multiple ≠ .any → (recorded a n).length ≤ intMax := by
    intro h1
    by_cases h2 : e.multiple = .first ∨ e.multiple = .last
    · exact hsz h2
    · have h3 : e.multiple = .all ∨ e.multiple = .error ∨ e.multiple = .warning := by
        cases hmu : e.multiple <;> simp_all
      have h4 := hcap h3
      have h5 := recorded_length_le (recorded_pos habs.lt fun i hi => outIs_pos (hE i hi))
      rw [sizes_sum habs.lt fun i hi => outIs_sum (hE i hi) (fun h => h2 (.inl h)) (fun h => h2 (.inr h))] at h5
      omega
  -- the order of the locations
  obtain ⟨oLocs, hol, hol2⟩ : ∃ oLocs, (if (e.multiple == MMultiple.any) = true then .ok ([], tl, List.replicate 100001 0)
      else vecOrder fuel (.vec (.atom .int) ms.locs) chrsAsc chrsSmallest true tl (List.replicate 100001 0) :
      C (List Int × TL × List Nat)) = .ok (oLocs, tl, List.replicate 100001 0) ∧
      (e.multiple ≠ .any → ∃ p : List Nat, oLocs = p.map (fun (k : Nat) => (k : Int) + 1) ∧
        p.map (fun k => (recorded a n)[k]?) = (byNeedle a n).map some) := by
    by_cases hmu : e.multiple = .any
    · rw [if_pos (by rw [hmu]; rfl)]
      exact ⟨[], rfl, fun h => absurd hmu h⟩
    · rw [if_neg (by simpa using hmu), abs_locs habs hmu]
      obtain ⟨p, h1, h2⟩ := locs_order habs.lt (hlen hmu) h0 fuel
      exact ⟨_, h1, fun _ => ⟨p, rfl, h2⟩⟩
  rw [hol, ok_bind]
  dsimp only
  generalize hx : (XEnv.mk e.oHaystack ms.first ms.size ms.locs (e.multiple == .any) e.incomplete
    noMatch e.multiple relationship (e.anyFilters && !(e.multiple == .any)) e.filters ms.filterLoc
    e.haystack oLocs remaining.retains) = x
  have hskip : x.skip = true ↔ e.multiple = .any := by rw [← hx]; simp
  have hskip' : x.skip = false ↔ e.multiple ≠ .any := by rw [← hx]; simp
  have xmu : x.multiple = e.multiple := by rw [← hx]
  have xinc : x.incomplete = e.incomplete := by rw [← hx]
  have xnm : x.noMatch = noMatch := by rw [← hx]
  have xre : x.relationship = relationship := by rw [← hx]
  have xret : x.retain = remaining.retains := by rw [← hx]
  have xoh : x.oHaystack = e.oHaystack := by rw [← hx]
  have hreads : XReads x a n := by
    refine ⟨?_, ?_, ?_, ?_, ?_, ?_⟩
    · rw [← hx]; exact abs_first habs
    · intro hs
      rw [← hx]; exact abs_size habs (hskip'.1 hs)
    · intro hs
      rw [← hx]; exact abs_locs habs (hskip'.1 hs)
    · intro hs
      obtain ⟨p, h1, h2⟩ := hol2 (hskip'.1 hs)
      exact ⟨p, by rw [← hx]; exact h1, h2⟩
    · intro hs
      have := hskip.1 hs
      exact ⟨habs.any this, hany this⟩
    · intro hfl i hi
      rw [← hx] at hfl
      simp only [Bool.and_eq_true, Bool.not_eq_true', beq_eq_false_iff_ne, ne_eq] at hfl
      refine ⟨hone hfl.1 i hi, fun h0 => ?_⟩
      rw [← hx]
      exact habs.filter hfl.1 hfl.2 i hi h0
  have hN : ms.first.length = needleOff (ents a) n := by
    rw [abs_first habs, List.length_map, ← (recorded_perm habs.lt).length_eq, byNeedle_length]
  rw [hN]
  -- the loop
  have loop := expandLoop_ok (e := x) (cap := totalPairs raw n) (m := m)
    (N := needleOff (ents a) n) (n := n)
    (s := ⟨alloc Int (totalPairs raw n), alloc Int (totalPairs raw n),
      0, checksNeedles e.multiple, checksHaystack e.multiple relationship, false, false, naInt, naInt,
      checksHaystack e.multiple relationship || remaining.retains,
      if (checksHaystack e.multiple relationship || remaining.retains) = true then
        List.replicate m false else [], false⟩)
    (g := g) (Es := ents a) (outs := raw) (fun h => by rw [xmu]; exact hskip.1 h)
    (by rw [xinc]; exact hinc)
    (by
      refine ⟨⟨⟨alloc Int (totalPairs raw n), rfl, by simp [alloc]⟩,
        ⟨alloc Int (totalPairs raw n), rfl, by simp [alloc]⟩, rfl⟩,
        ⟨?_, ?_, ?_, ?_, ?_, ?_⟩, rfl, ?_, (fun h => by cases h), ?_⟩
      · intro h
        dsimp only
        rw [← xret, h, Bool.or_true]
      · intro h
        dsimp only at h ⊢
        rw [if_pos h]
        simp only [List.not_mem_nil, decide_false]
        rw [List.map_const', List.length_range]
      · dsimp only
        rw [xmu, xre]
        simp
      · intro h
        dsimp only at h ⊢
        rw [h, Bool.true_or]
      · simp
      · intro h
        exact absurd List.nodup_nil h
      · dsimp only
        rw [xmu]
        simp
      · simp)
    rfl rfl (by rw [xoh]; exact ho) (by rw [xmu]; exact hE)
    (fun i hi j y s hy => hreads.round hi hy)
    (fun hs i hi j hj => hreads.atEnd hs hi hj)
    (by
      intro i hi
      have h1 := needlePairs_length x.incomplete x.noMatch raw i
      have h2 := totalPairs_mono raw (show i + 1 ≤ n by omega)
      rw [totalPairs_succ] at h2
      omega)
    n (Nat.le_refl _)
  refine RetOr.bind (loop.weaken ?_) ?_
  · rintro ⟨j, hj, h1 | h1 | h1 | h1⟩
    · exact .incomplete (by rw [← xinc]; exact h1.1) j hj ((hsame.incomplete hj).1 h1.2)
    · exact .unmatched (by rw [← xnm]; exact h1.1) j hj ((hsame.unmatched hj).1 h1.2)
    · refine .several (by rw [← xmu, ← xre]; exact h1.1) (hsame.several.1 ⟨j, hj, h1.2⟩)
    · refine .again (by rw [← xre]; exact h1.1) (hsame.again.1 ?_)
      rw [← allFound_succ] at h1
      obtain ⟨i1, i2, r, a1, a2, a3, a4⟩ := (nodup_or_again fun i hi => hnd i (by omega)).1 h1.2
      exact ⟨i1, i2, r, a1, by omega, a3, a4⟩
  rintro s ⟨h1, _, _, h2⟩
  rw [xinc, xnm] at h1 h2
  rw [xmu] at h1
  obtain ⟨rn, n1, n2⟩ := h1.out.n
  obtain ⟨rh, r1, r2⟩ := h1.out.h
  rw [take_or_all (pre := (needlePairs e.incomplete noMatch raw n).map (·.1)) (r := rn)
    (by rw [n1, List.map_map]; rfl) (by rw [List.length_map]; exact n2)
    (by rw [List.length_map]; exact h1.out.loc), ok_bind,
    take_or_all (pre := (needlePairs e.incomplete noMatch raw n).map (·.2)) (r := rh)
    (by rw [r1, List.map_map]; rfl) (by rw [List.length_map]; exact r2)
    (by rw [List.length_map]; exact h1.out.loc), ok_bind]
  -- the order of the matches of a needle
  have reorder : (if (s.anyNeedles && nonEqui) = true then
      expandReorder fuel ((needlePairs e.incomplete noMatch raw n).map (·.1))
        ((needlePairs e.incomplete noMatch raw n).map (·.2)) tl (List.replicate 100001 0)
    else .ok ((needlePairs e.incomplete noMatch raw n).map (·.2), tl, List.replicate 100001 0) :
      C (List Int × TL × List Nat)) =
      .ok ((needlePairs e.incomplete noMatch outs n).map (·.2), tl, List.replicate 100001 0) := by
    by_cases hr : (s.anyNeedles && nonEqui) = true
    · rw [if_pos hr]
      rw [h1.anyNeedles, Bool.and_eq_true, Bool.and_eq_true] at hr
      refine expandReorder_ok (hsame.pairs e.incomplete noMatch).symm
        (needlePairs_sorted e.incomplete noMatch hup)
        (needlePairs_int hn hm hiv hnv fun i hi => outIs_found_lt (hE i hi) fun k a b => (ho k a b).2)
        ?_ h0 hf
      have h3 : e.multiple = .all ∨ e.multiple = .error ∨ e.multiple = .warning := by
        have := hr.1.1
        exact checks_all this
      have := hcap h3
      have := needlePairs_length e.incomplete noMatch raw n
      omega
    · rw [if_neg hr]
      have : ∀ i, i < n → raw i = outs i := by
        cases hne : nonEqui with
        | false => exact hasc hne
        | true =>
          rw [hne, Bool.and_true, h1.anyNeedles] at hr
          intro i hi
          refine hsame.eq_of_short hi ?_
          cases hch : checksNeedles e.multiple with
          | false => exact hshort hch i hi
          | true =>
            rw [hch, Bool.true_and, severalB_iff] at hr
            refine Nat.le_of_not_lt fun h => hr ⟨i, hi, h⟩
      rw [needlePairs_congr _ _ this]
  rw [reorder, ok_bind]
  dsimp only
  rw [hsame.pairs_fst]
  -- the rows that are left
  have hdet : remaining ≠ .drop → s.detected = (List.range m).map (fun r => decide (r ∈ allFound raw n)) := by
    intro hr
    refine h1.track.det (h1.track.retain ?_)
    rw [xret]
    cases remaining with
    | drop => exact absurd rfl hr
    | _ => rfl
  refine RetOr.bind ((expandRemaining_ok hdet).weaken ?_) ?_
  · rintro ⟨h3, r, h4, h5⟩
    exact .remaining h3 r h4 fun h => h5 (hsame.mem.2 h)
  rintro r ⟨rfl, h3⟩
  have hrem : leftPairs remaining (allFound raw n) m = remainingPairs remaining outs n m := by
    unfold leftPairs remainingPairs leftOver
    have : (fun r => decide (r ∉ allFound raw n)) = (fun r => decide (r ∉ allFound outs n)) := by
      funext r
      rw [decide_eq_decide, hsame.mem]
    rw [this]
    rfl
  have hagain : ¬ (allFound raw n).Nodup ↔ FoundAgain outs n := (nodup_or_again hnd).trans hsame.again
  refine RetOr.ok ⟨rfl, ?_, ?_, ?_, ?_⟩
  · dsimp only
    rw [hrem]
  · dsimp only
    rw [hrem]
  · dsimp only
    rw [h1.warned, xmu, xre, h1.track.any, xmu, xre]
    simp only [Bool.or_eq_true, Bool.and_eq_true, beq_iff_eq, decide_eq_true_eq, severalB_iff]
    constructor
    · rintro (⟨c1, c2, c3⟩ | ⟨⟨c1, c2, c3⟩, c4, c5⟩)
      · exact .several c1 (hsame.several.1 c3)
      · exact .manyToMany c1 (hsame.several.1 c3) (hagain.1 c5)
    · rintro (⟨c1, c2⟩ | ⟨c1, c2, c3⟩)
      · exact .inl ⟨c1, by rw [c1]; rfl, hsame.several.2 c2⟩
      · have hch := hcheckseveral (hsame.several.2 c2)
        refine .inr ⟨⟨c1, hch, hsame.several.2 c2⟩, ?_, hagain.2 c3⟩
        rw [c1]
        exact hch
  · intro hrej
    rcases hrej with ⟨c1, i, c2, c3⟩ | ⟨c1, i, c2, c3⟩ | ⟨c1, c2⟩ | ⟨c1, c2⟩ | ⟨c1, r, c2, c3⟩ | ⟨c1, c2⟩
    · exact (h2 i c2).1 ⟨c1, (hsame.incomplete c2).2 c3⟩
    · exact (h2 i c2).2 ⟨c1, (hsame.unmatched c2).2 c3⟩
    · have c3 := hsame.several.2 c2
      have := h1.fine (by rw [hcheckseveral c3, severalB_iff.2 c3]; rfl)
      rw [xmu, xre] at this
      rcases c1 with c | c | c
      · exact this.1 c
      · exact this.2.1 c
      · exact this.2.2 c
    · have := h1.track.rel (hagain.2 c2)
      rw [xre] at this
      rcases c1 with c | c
      · exact this.1 c
      · exact this.2 c
    · exact h3 ⟨c1, r, c2, fun h => c3 (hsame.mem.1 h)⟩
    · have := hcap c1
      have h4 : intMax < totalPairs outs n := c2
      omega

end Vctrs
