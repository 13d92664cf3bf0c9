import Verif.Lemmas.IntervalGroups

namespace Vctrs

open Spec

/-! ## Filling from the front -/

/-- The first elements of a vector are `l`. -/
structure FillOk (cap : Nat) (v : FillInt) (l : List Nat) : Prop where
  len : v.1.length = cap
  pos : v.2 = l.length
  val : ∀ (j i : Nat), l[j]? = some i → v.1[j]? = some (some ((i : Int) + 1))

theorem FillOk.start (cap : Nat) : FillOk cap (alloc Int cap, 0) [] := ⟨by simp, rfl, by simp⟩

theorem FillOk.push {cap : Nat} {v : FillInt} {l : List Nat} (h : FillOk cap v l)
    (hl : l.length < cap) (i : Nat) :
    Ret (v.push ((i : Int) - 0 + 1)) (fun v => FillOk cap v (l ++ [i])) := by
  rw [Int.sub_zero]
  unfold FillInt.push
  have hv : v.2 < v.1.length := by rw [h.len, h.pos]; exact hl
  rw [wr_ok hv, ok_bind]
  refine Ret.ok ⟨by simpa using h.len, by simp [h.pos], ?_⟩
  intro j i' hj
  dsimp only
  rw [getElem?_set' hv]
  by_cases hjl : j = v.2
  · rw [if_pos hjl]
    rw [hjl, h.pos, List.getElem?_append_right (by omega), Nat.sub_self] at hj
    cases hj
    rfl
  · rw [if_neg hjl]
    have hlt : j < l.length := by
      have := (List.getElem?_eq_some_iff.1 hj).1
      simp at this
      have := h.pos
      omega
    rw [List.getElem?_append_left hlt] at hj
    exact h.val j i' hj

theorem FillOk.done {cap : Nat} {v : FillInt} {l : List Nat} (h : FillOk cap v l)
    (hl : l.length ≤ cap) : initd (intResize v.1 v.2) = .ok (locs1 l) := by
  have hlen := h.len
  have hpos := h.pos
  have key : ∀ w : List (Option Int), w.length = l.length →
      (∀ j, j < l.length → w[j]? = v.1[j]?) → initd w = .ok (locs1 l) := by
    intro w hw hwv
    refine initd_ok (by rw [hw]; simp [locs1]) ?_
    intro j hj
    have hj' : j < l.length := by simpa [locs1] using hj
    rw [hwv j hj', h.val j _ (List.getElem?_eq_getElem hj')]
    simp [locs1]
  unfold intResize
  split
  · exact key _ (by omega) (fun _ _ => rfl)
  · refine key _ (by simp; omega) ?_
    intro j hj
    rw [List.getElem?_append_left (by simp; omega), List.getElem?_take_of_lt (by omega)]

/-! ## The bounds -/

/-- `m` intervals from `A` to `B`, in order and with gaps. -/
structure Chain {K : Type} [LinearOrder K] (m : Nat) (A B : Nat → K) : Prop where
  lt : ∀ j, j < m → A j < B j
  sep : ∀ i j, i < j → j < m → B i < A j

section
variable {K : Type} [LinearOrder K] {m : Nat} {A B : Nat → K}

theorem Chain.monoA (h : Chain m A B) {i j : Nat} (hij : i ≤ j) (hj : j < m) : A i ≤ A j := by
  rcases Nat.lt_or_eq_of_le hij with hij | rfl
  · exact le_of_lt (lt_trans (h.lt i (by omega)) (h.sep i j hij hj))
  · exact le_refl _

theorem Chain.monoB (h : Chain m A B) {i j : Nat} (hij : i ≤ j) (hj : j < m) : B i ≤ B j := by
  rcases Nat.lt_or_eq_of_le hij with hij | rfl
  · exact le_of_lt (lt_trans (h.sep i j hij hj) (h.lt j hj))
  · exact le_refl _

/-- `c` intervals start before or at the bound. -/
def LowerAt (m : Nat) (A : Nat → K) (L : Option K) (c : Nat) : Prop :=
  match L with
  | none => c = 0
  | some l => c ≤ m ∧ (∀ j, j < c → A j ≤ l) ∧ ∀ j, c ≤ j → j < m → l < A j

/-- `c` intervals end before the bound. -/
def UpperAt (m : Nat) (B : Nat → K) (U : Option K) (c : Nat) : Prop :=
  match U with
  | none => c = m
  | some u => c ≤ m ∧ (∀ j, j < c → B j < u) ∧ ∀ j, c ≤ j → j < m → u ≤ B j

/-- The lower bound is in, or at the end of, the last interval that starts before it. -/
def LowerIn (B : Nat → K) (L : Option K) (c : Nat) : Prop := ∃ l, L = some l ∧ 0 < c ∧ l ≤ B (c - 1)

/-- The upper bound is in, or at the start of, the first interval that does not end before it. -/
def UpperIn (m : Nat) (A : Nat → K) (U : Option K) (c : Nat) : Prop :=
  ∃ u, U = some u ∧ c < m ∧ A c ≤ u

/-- How a bound compares with the intervals. -/
structure BoundCmp (x start stop : Val) (m : Nat) (F L : Nat → Nat) (A B : Nat → K) (b : K) : Prop where
  start : ∀ j, j < m → ∃ c, polyCompare x 0 start (F j : Int) = .ok c ∧ KeyCmp b (A j) c
  stop : ∀ j, j < m → ∃ c, polyCompare x 0 stop (L j : Int) = .ok c ∧ KeyCmp b (B j) c

/-- The list of the first `m` values of a function. -/
def tab (m : Nat) (F : Nat → Nat) : List Nat := (List.range m).map F

theorem tab_rd {m : Nat} {F : Nat → Nat} {j : Nat} (hj : j < m) :
    rd (locs1 (tab m F)) j = .ok ((F j : Int) + 1) :=
  locs1_get (by unfold tab; rw [List.getElem?_map, List.getElem?_range hj]; rfl)

theorem tab_rdI {m : Nat} {F : Nat → Nat} {j : Nat} {i : Int} (hi : i = (j : Int)) (hj : j < m) :
    rdI (locs1 (tab m F)) i = .ok ((F j : Int) + 1) := by
  subst hi
  refine rdI_get ?_
  unfold locs1 tab
  rw [List.getElem?_map, List.getElem?_map, List.getElem?_range hj]
  rfl

theorem tab_length {m : Nat} {F : Nat → Nat} : (locs1 (tab m F)).length = m := by
  simp [locs1, tab]

variable {start stop : Val} {F E : Nat → Nat}

theorem lowerLoop_ok (h : Chain m A B) {x : Val} {l : K} (hb : BoundCmp x start stop m F E A B l) :
    Ret (lowerLoop x start stop (locs1 (tab m F)) (locs1 (tab m E))) (fun r => ∃ c,
      LowerAt m A (some l) c ∧ r.1 = c ∧ r.2.1 = (c : Int) - 1 ∧
        ((LowerIn B (some l) c ∧ r.2.2 = (c : Int) - 1) ∨ (¬ LowerIn B (some l) c ∧ r.2.2 = (c : Int)))) := by
  unfold lowerLoop
  rw [tab_length]
  refine Ret.forBrk (fun i s => s.1 = i ∧ (∀ j, j < i → A j ≤ l) ∧ s.2.1 = (i : Int) - 1 ∧
    ((LowerIn B (some l) i ∧ s.2.2 = (i : Int) - 1) ∨ (¬ LowerIn B (some l) i ∧ s.2.2 = (i : Int)))) _ ?_ ?_ ?_
  · refine ⟨rfl, by intro j hj; omega, rfl, .inr ⟨?_, rfl⟩⟩
    rintro ⟨_, _, h0, _⟩
    omega
  · rintro i ⟨i', after, before⟩ hi ⟨h1, h2, h3, h4⟩
    dsimp only at h1 h3 h4
    subst h1
    obtain ⟨c, hc, hc'⟩ := hb.stop i' hi
    obtain ⟨d, hd, hd'⟩ := hb.start i' hi
    refine Ret.bind_eq (tab_rd hi) ?_
    refine Ret.bind_eq (tab_rd hi) ?_
    rw [add_sub_one, add_sub_one]
    dsimp only
    rw [hc, ok_bind]
    by_cases hin : LowerIn B (some l) i'
    · obtain ⟨l', e, h0, hle⟩ := hin
      cases e
      have hlA : l < A i' := lt_of_le_of_lt hle (h.sep _ _ (by omega) hi)
      have hlB := lt_trans hlA (h.lt i' hi)
      rw [if_neg (fun e => absurd (hc'.gt.1 e) (not_lt.2 (le_of_lt hlB))), hd, ok_bind,
        if_neg (fun e => absurd (hd'.ge_zero.1 e) (not_le.2 hlA))]
      refine Ret.ok ⟨i', ⟨by omega, h2, ?_⟩, rfl, h3, h4⟩
      intro j hj hjm
      exact lt_of_lt_of_le hlA (h.monoA hj hjm)
    · have hbef : before = (i' : Int) := by
        rcases h4 with h4 | h4
        · exact absurd h4.1 hin
        · exact h4.2
      subst h3 hbef
      by_cases h5 : c = 1
      · rw [if_pos h5]
        have hlt := hc'.gt.1 h5
        refine Ret.ok ⟨rfl, ?_, ?_, .inr ⟨?_, ?_⟩⟩
        · intro j hj
          rcases Nat.lt_or_eq_of_le (Nat.le_of_lt_succ hj) with hj | rfl
          · exact h2 j hj
          · exact le_of_lt (lt_trans (h.lt _ hi) hlt)
        · dsimp only; push_cast; omega
        · rintro ⟨_, e, _, hle⟩
          cases e
          exact absurd hlt (not_lt.2 hle)
        · dsimp only; push_cast; omega
      · rw [if_neg h5, hd, ok_bind]
        have hle : l ≤ B i' := not_lt.1 (fun h => h5 (hc'.gt.2 h))
        by_cases h6 : d ≥ 0
        · rw [if_pos h6]
          refine Ret.ok ⟨rfl, ?_, ?_, .inl ⟨⟨l, rfl, by omega, hle⟩, ?_⟩⟩
          · intro j hj
            rcases Nat.lt_or_eq_of_le (Nat.le_of_lt_succ hj) with hj | rfl
            · exact h2 j hj
            · exact hd'.ge_zero.1 h6
          · dsimp only; push_cast; omega
          · dsimp only; push_cast; omega
        · rw [if_neg h6]
          have hlA : l < A i' := not_le.1 (fun h => h6 (hd'.ge_zero.2 h))
          refine Ret.ok ⟨i', ⟨by omega, h2, ?_⟩, rfl, rfl, .inr ⟨hin, rfl⟩⟩
          intro j hj hjm
          exact lt_of_lt_of_le hlA (h.monoA hj hjm)
  · rintro ⟨i, after, before⟩ ⟨h1, h2, h3, h4⟩
    exact ⟨m, ⟨le_refl _, h2, by intro j hj hjm; omega⟩, h1, h3, h4⟩

theorem upperLoop_ok (h : Chain m A B) {x : Val} {u : K} (hb : BoundCmp x start stop m F E A B u) :
    ∀ (size : Nat) (after before : Int), size ≤ m → (∀ j, size ≤ j → j < m → u ≤ B j) →
    before = (size : Int) →
    ((UpperIn m A (some u) size ∧ after = (size : Int)) ∨
      (¬ UpperIn m A (some u) size ∧ after = (size : Int) - 1)) →
    Ret (upperLoop x start stop (locs1 (tab m F)) (locs1 (tab m E)) size after before) (fun r => ∃ c,
      UpperAt m B (some u) c ∧ r.1 = c ∧ r.2.2 = (c : Int) ∧
        ((UpperIn m A (some u) c ∧ r.2.1 = (c : Int)) ∨
          (¬ UpperIn m A (some u) c ∧ r.2.1 = (c : Int) - 1))) := by
  intro size
  induction size with
  | zero =>
    intro after before _ h1 h2 h3
    exact Ret.ok ⟨0, ⟨by omega, by intro j hj; omega, h1⟩, rfl, h2, h3⟩
  | succ size ih =>
    intro after before hm h1 h2 h3
    have hi : size < m := by omega
    obtain ⟨c, hc, hc'⟩ := hb.stop size hi
    obtain ⟨d, hd, hd'⟩ := hb.start size hi
    rw [upperLoop]
    refine Ret.bind_eq (tab_rd hi) ?_
    refine Ret.bind_eq (tab_rd hi) ?_
    rw [add_sub_one, add_sub_one]
    dsimp only
    rw [hd, ok_bind]
    have hstop : B size < u → Ret (.ok (size + 1, after, before) : C (Nat × Int × Int)) (fun r => ∃ c,
      UpperAt m B (some u) c ∧ r.1 = c ∧ r.2.2 = (c : Int) ∧
        ((UpperIn m A (some u) c ∧ r.2.1 = (c : Int)) ∨
          (¬ UpperIn m A (some u) c ∧ r.2.1 = (c : Int) - 1))) := by
      intro hBu
      refine Ret.ok ⟨size + 1, ⟨hm, ?_, h1⟩, rfl, h2, h3⟩
      intro j hj
      exact lt_of_le_of_lt (h.monoB (by omega) hi) hBu
    have hle : ∀ (hu : u ≤ B size) (j : Nat), size ≤ j → j < m → u ≤ B j :=
      fun hu j hj hjm => le_trans hu (h.monoB hj hjm)
    by_cases hin : UpperIn m A (some u) (size + 1)
    · obtain ⟨u', e, hlt, hle'⟩ := hin
      cases e
      have hBu : B size < u := lt_of_lt_of_le (h.sep _ _ (by omega) hlt) hle'
      have hAu : A size < u := lt_trans (h.lt _ hi) hBu
      rw [if_neg (fun e => absurd (hd'.lt.1 e) (not_lt.2 (le_of_lt hAu))), hc, ok_bind,
        if_neg (fun e => absurd (hc'.le_zero.1 e) (not_le.2 hBu))]
      exact hstop hBu
    · have haft : after = (size : Int) := by
        rcases h3 with h3 | h3
        · exact absurd h3.1 hin
        · rw [h3.2]; push_cast; omega
      by_cases h5 : d = -1
      · rw [if_pos h5]
        have huA := hd'.lt.1 h5
        refine ih _ _ (by omega) (hle (le_of_lt (lt_trans huA (h.lt _ hi)))) (by push_cast at h2; omega)
          (.inr ⟨?_, by omega⟩)
        rintro ⟨_, e, _, hA⟩
        cases e
        exact absurd huA (not_lt.2 hA)
      · rw [if_neg h5, hc, ok_bind]
        have hAu : A size ≤ u := not_lt.1 (fun h => h5 (hd'.lt.2 h))
        by_cases h6 : c ≤ 0
        · rw [if_pos h6]
          exact ih _ _ (by omega) (hle (hc'.le_zero.1 h6)) (by push_cast at h2; omega)
            (.inl ⟨⟨u, rfl, hi, hAu⟩, haft⟩)
        · rw [if_neg h6]
          exact hstop (not_le.1 (fun h => h6 (hc'.le_zero.2 h)))

end

/-! ## The gaps -/

theorem fill_push {cap : Nat} {v : FillInt} {l : List Nat} (h : FillOk cap v l)
    (hl : l.length < cap) (i : Nat) :
    Ret (v.push ((i : Int) + 1 - 1 + 1)) (fun v => FillOk cap v (l ++ [i])) := by
  have e : (i : Int) + 1 - 1 + 1 = (i : Int) - 0 + 1 := by omega
  rw [e]
  exact h.push hl i

/-- The ends of the intervals before the gaps `j` to `j + n`. -/
def before (E : Nat → Nat) (j n : Nat) : List Nat := (List.range' j n).map (fun i => E (i - 1))

/-- The starts of the intervals after the gaps `j` to `j + n`. -/
def after (F : Nat → Nat) (j n : Nat) : List Nat := (List.range' j n).map F

theorem middleGaps_ok {m c1 c2 : Nat} {F E : Nat → Nat} {i size : Nat} (hi : i < size) (hs : size ≤ m)
    {vs ve : FillInt} {ls le : List Nat} (h1 : FillOk c1 vs ls) (h2 : FillOk c2 ve le)
    (hc1 : ls.length + (size - i - 1) ≤ c1) (hc2 : le.length + (size - i - 1) ≤ c2) :
    Ret (middleGaps (locs1 (tab m F)) (locs1 (tab m E)) i size vs ve) (fun r =>
      FillOk c1 r.1 (ls ++ before E (i + 1) (size - i - 1)) ∧
      FillOk c2 r.2 (le ++ after F (i + 1) (size - i - 1))) := by
  unfold middleGaps
  rw [if_pos hi, tab_rd (by omega : i < m), ok_bind, ok_bind]
  dsimp only
  refine Ret.bind (Ret.forFrom (fun j (s : Int × FillInt × FillInt) => s.1 = (E (j - 1) : Int) ∧
    FillOk c1 s.2.1 (ls ++ before E (i + 1) (j - i - 1)) ∧
    FillOk c2 s.2.2 (le ++ after F (i + 1) (j - i - 1))) ?_ ?_) ?_
  · refine ⟨by dsimp only; rw [Nat.add_sub_cancel]; omega, ?_, ?_⟩
    · have e : i + 1 - i - 1 = 0 := by omega
      rw [e]
      simpa [before] using h1
    · have e : i + 1 - i - 1 = 0 := by omega
      rw [e]
      simpa [after] using h2
  · rintro j ⟨p, vs, ve⟩ hj hj' ⟨h3, h4, h5⟩
    dsimp only at h3 h4 h5 ⊢
    have hjm : j < m := by omega
    have ej : j + 1 - i - 1 = (j - i - 1) + 1 := by omega
    have ek : i + 1 + 1 * (j - i - 1) = j := by omega
    have e1 : before E (i + 1) (j + 1 - i - 1) = before E (i + 1) (j - i - 1) ++ [E (j - 1)] := by
      unfold before
      rw [ej, List.range'_concat, List.map_append, ek]
      rfl
    have e2 : after F (i + 1) (j + 1 - i - 1) = after F (i + 1) (j - i - 1) ++ [F j] := by
      unfold after
      rw [ej, List.range'_concat, List.map_append, ek]
      rfl
    refine Ret.bind_eq (tab_rd hjm) ?_
    refine Ret.bind_eq (tab_rd hjm) ?_
    subst h3
    have e0 : (E (j - 1) : Int) + 1 = (E (j - 1) : Int) + 1 - 1 + 1 := by omega
    rw [e0]
    refine Ret.bind (fill_push h4 (by simp [before]; omega) _) (fun vs' h6 => ?_)
    refine Ret.bind (fill_push h5 (by simp [after]; omega) _) (fun ve' h7 => ?_)
    refine Ret.ok ⟨?_, ?_, ?_⟩
    · dsimp only; rw [Nat.add_sub_cancel]; omega
    · rw [e1, ← List.append_assoc]
      exact h6
    · rw [e2, ← List.append_assoc]
      exact h7
  · rintro ⟨p, vs, ve⟩ ⟨_, h3, h4⟩
    have e : i + 1 + (size - (i + 1)) - i - 1 = size - i - 1 := by omega
    dsimp only at h3 h4
    rw [e] at h3 h4
    exact Ret.ok ⟨h3, h4⟩

theorem middleGaps_none {starts stops : List Int} {i size : Nat} (hi : size ≤ i) (vs ve : FillInt) :
    middleGaps starts stops i size vs ve = .ok (vs, ve) := by
  unfold middleGaps
  rw [if_neg (by omega), ok_bind]
  dsimp only
  have e : size - i = 0 := by omega
  rw [e]
  rfl

theorem before_append (E : Nat → Nat) (j n k : Nat) :
    before E j n ++ before E (j + n) k = before E j (n + k) := by
  unfold before
  rw [← List.map_append]
  congr 1
  have := List.range'_append (s := j) (m := n) (n := k) (step := 1)
  rwa [Nat.one_mul] at this

theorem after_append (F : Nat → Nat) (j n k : Nat) :
    after F j n ++ after F (j + n) k = after F j (n + k) := by
  unfold after
  rw [← List.map_append]
  congr 1
  have := List.range'_append (s := j) (m := n) (n := k) (step := 1)
  rwa [Nat.one_mul] at this

theorem before_length (E : Nat → Nat) (j n : Nat) : (before E j n).length = n := by simp [before]

theorem after_length (F : Nat → Nat) (j n : Nat) : (after F j n).length = n := by simp [after]

theorem before_one (E : Nat → Nat) (j : Nat) : before E j 1 = [E (j - 1)] := rfl

theorem after_one (F : Nat → Nat) (j : Nat) : after F j 1 = [F j] := rfl

section
variable {K : Type} [LinearOrder K] {m : Nat} {A B : Nat → K}

theorem lowerGap_ok {c1 c2 : Nat} {F E : Nat → Nat} {L : Option K} {c : Nat} {bef : Int} (hc : c < m)
    (hb : (LowerIn B L c ∧ bef = (c : Int) - 1) ∨ (¬ LowerIn B L c ∧ bef = (c : Int)))
    (h1 : LowerIn B L c → 0 < c1) (h2 : 0 < c2) {vs ve : FillInt} (hvs : FillOk c1 vs [])
    (hve : FillOk c2 ve []) :
    Ret (lowerGap (locs1 (tab m F)) (locs1 (tab m E)) ((c : Int) - 1) bef vs ve) (fun r =>
      (r.1 = true ↔ ¬ LowerIn B L c) ∧ FillOk c1 r.2.1 (before E (c + r.1.toNat) (1 - r.1.toNat)) ∧
        FillOk c2 r.2.2 (after F c 1)) := by
  unfold lowerGap
  have hend : rdI (locs1 (tab m F)) ((c : Int) - 1 + 1) = .ok ((F c : Int) + 1) :=
    tab_rdI (by omega) hc
  rcases hb with ⟨hin, rfl⟩ | ⟨hin, rfl⟩
  · have h0 : 0 < c := hin.choose_spec.2.1
    rw [if_pos rfl, tab_rdI (j := c - 1) (by omega) (by omega), ok_bind]
    refine Ret.bind (Ret.bind (fill_push hvs (h1 hin) _) (fun v hv =>
      Ret.ok (P := fun r : Bool × FillInt => r.1 = false ∧ FillOk c1 r.2 [E (c - 1)]) ⟨rfl, hv⟩)) ?_
    rintro ⟨a, v⟩ ⟨h3, h4⟩
    dsimp only at h3 h4 ⊢
    subst h3
    rw [hend, ok_bind]
    refine Ret.bind (fill_push hve h2 _) (fun w hw => Ret.ok ⟨?_, h4, hw⟩)
    simp [hin]
  · rw [if_neg (by omega), ok_bind]
    dsimp only
    rw [hend, ok_bind]
    refine Ret.bind (fill_push hve h2 _) (fun w hw => Ret.ok ⟨?_, hvs, hw⟩)
    simp [hin]

theorem upperGap_ok {c1 c2 : Nat} {F E : Nat → Nat} {U : Option K} {c : Nat} {aft : Int} (hc : 0 < c)
    (hm : c ≤ m)
    (hb : (UpperIn m A U c ∧ aft = (c : Int)) ∨ (¬ UpperIn m A U c ∧ aft = (c : Int) - 1))
    {vs ve : FillInt} {ls le : List Nat} (hvs : FillOk c1 vs ls) (hve : FillOk c2 ve le)
    (h1 : ls.length < c1) (h2 : UpperIn m A U c → le.length < c2) :
    Ret (upperGap (locs1 (tab m F)) (locs1 (tab m E)) aft (c : Int) vs ve) (fun r =>
      (r.1 = true ↔ ¬ UpperIn m A U c) ∧ FillOk c1 r.2.1 (ls ++ before E c 1) ∧
        FillOk c2 r.2.2 (le ++ after F c (1 - r.1.toNat))) := by
  unfold upperGap
  rw [tab_rdI (j := c - 1) (by omega) (by omega), ok_bind]
  refine Ret.bind (fill_push hvs h1 _) (fun v hv => ?_)
  rcases hb with ⟨hin, rfl⟩ | ⟨hin, rfl⟩
  · have h0 : c < m := hin.choose_spec.2.1
    rw [if_pos rfl, tab_rdI (j := c) rfl h0, ok_bind]
    refine Ret.bind (fill_push hve (h2 hin) _) (fun w hw => Ret.ok ⟨?_, hv, hw⟩)
    simp [hin]
  · rw [if_neg (by omega)]
    refine Ret.ok ⟨by simp [hin], hv, ?_⟩
    have e : le ++ after F c (1 - true.toNat) = le := by simp [after]
    dsimp only
    rw [e]
    exact hve

theorem boundsGap_ok (h : Chain m A B) {c1 c2 : Nat} {F E : Nat → Nat} {l u : K} (hlu : l < u) {c d : Nat}
    (hc : LowerAt m A (some l) c) (hd : UpperAt m B (some u) d) (hdc : d ≤ c) {bef aft : Int}
    (hb : (LowerIn B (some l) c ∧ bef = (c : Int) - 1) ∨ (¬ LowerIn B (some l) c ∧ bef = (c : Int)))
    (ha : (UpperIn m A (some u) d ∧ aft = (d : Int)) ∨ (¬ UpperIn m A (some u) d ∧ aft = (d : Int) - 1))
    (h1 : 0 < m → 0 < c1) (h2 : 0 < m → 0 < c2) {vs ve : FillInt} (hvs : FillOk c1 vs [])
    (hve : FillOk c2 ve []) :
    Ret (boundsGap (locs1 (tab m F)) (locs1 (tab m E)) ((c : Int) - 1) bef aft (d : Int) vs ve) (fun r =>
      (r.1 = true ↔ 0 < d + 1 - c ∧ ¬ LowerIn B (some l) c) ∧
      (r.2.1 = true ↔ 0 < d + 1 - c ∧ ¬ UpperIn m A (some u) d) ∧
      FillOk c1 r.2.2.1 (before E (c + r.1.toNat) (d + 1 - c - r.1.toNat)) ∧
      FillOk c2 r.2.2.2 (after F c (d + 1 - c - r.2.1.toNat))) := by
  obtain ⟨hcm, hc1, hc2⟩ := hc
  obtain ⟨hdm, hd1, hd2⟩ := hd
  -- at most one interval holds both bounds
  have hcd : c ≤ d + 1 := by
    by_contra hh
    have e1 : u ≤ B d := hd2 d (le_refl _) (by omega)
    have e2 : A (c - 1) ≤ l := hc1 (c - 1) (by omega)
    have e3 : B d < A (c - 1) := h.sep _ _ (by omega) (by omega)
    order
  have hsame : c = d + 1 → LowerIn B (some l) c ∧ UpperIn m A (some u) d := by
    intro e
    have e1 : u ≤ B d := hd2 d (le_refl _) (by omega)
    have e2 : A d ≤ l := hc1 d (by omega)
    refine ⟨⟨l, rfl, by omega, ?_⟩, ⟨u, rfl, by omega, ?_⟩⟩
    · rw [e, Nat.add_sub_cancel]
      order
    · order
  unfold boundsGap
  rcases hb with ⟨hin, rfl⟩ | ⟨hin, rfl⟩ <;> rcases ha with ⟨hup, rfl⟩ | ⟨hup, rfl⟩
  · have h0 : 0 < c := hin.choose_spec.2.1
    have h0' : d < m := hup.choose_spec.2.1
    simp only [decide_true, if_true]
    rw [tab_rdI (j := c - 1) (by omega) (by omega), ok_bind, ok_bind, tab_rdI (j := d) rfl h0',
      ok_bind, ok_bind]
    by_cases e : c = d + 1
    · have e' : (c : Int) - 1 = (d : Int) := by omega
      have e2 : d + 1 - c = 0 := by omega
      simp only [e', decide_true, Bool.and_true, Bool.not_true, Bool.and_false, Bool.false_eq_true,
        if_false, ok_bind]
      exact Ret.ok ⟨by simp [hin], by simp [hup], by rw [e2]; exact hvs, by rw [e2]; exact hve⟩
    · have e' : ¬ ((c : Int) - 1 = (d : Int)) := by omega
      have e2 : d + 1 - c = 1 := by omega
      simp only [e', decide_false, Bool.and_true, Bool.not_true, Bool.not_false, Bool.and_false,
        if_true]
      refine Ret.bind (fill_push hvs (h1 (by omega)) _) (fun v hv => ?_)
      refine Ret.bind (fill_push hve (h2 (by omega)) _) (fun w hw => ?_)
      have e3 : c = d := by omega
      refine Ret.ok ⟨by simp [hin], by simp [hup], ?_, ?_⟩
      · rw [e2]; exact hv
      · rw [e2, e3]; exact hw
  · have h0 : 0 < c := hin.choose_spec.2.1
    have e : c = d := by
      by_contra hh
      exact hup (hsame (by omega)).2
    subst e
    have e' : ¬ ((c : Int) = (c : Int) - 1) := by omega
    have e2 : c + 1 - c = 1 := by omega
    simp only [e', decide_true, decide_false, if_true, Bool.false_eq_true, if_false, Bool.and_false,
      Bool.false_and, Bool.not_false, Bool.and_true]
    rw [tab_rdI (j := c - 1) (by omega) (by omega), ok_bind, ok_bind, ok_bind]
    refine Ret.bind (fill_push hvs (h1 (by omega)) _) (fun v hv => ?_)
    rw [ok_bind]
    refine Ret.ok ⟨by simp [hin], by simp [hup, e2], ?_, ?_⟩
    · rw [e2]; exact hv
    · rw [e2]; exact hve
  · have h0 : d < m := hup.choose_spec.2.1
    have e : c = d := by
      by_contra hh
      exact hin (hsame (by omega)).1
    subst e
    have e' : ¬ ((c : Int) = (c : Int) - 1) := by omega
    have e2 : c + 1 - c = 1 := by omega
    simp only [e', decide_true, decide_false, if_true, Bool.false_eq_true, if_false, Bool.and_false,
      Bool.false_and, Bool.not_false, Bool.and_true]
    rw [ok_bind, tab_rdI (j := c) rfl h0, ok_bind, ok_bind, ok_bind]
    refine Ret.bind (fill_push hve (h2 (by omega)) _) (fun w hw => ?_)
    refine Ret.ok ⟨by simp [hin, e2], by simp [hup], ?_, ?_⟩
    · rw [e2]; exact hvs
    · rw [e2]; exact hw
  · have e : c = d := by
      by_contra hh
      exact hin (hsame (by omega)).1
    subst e
    have e' : ¬ ((c : Int) = (c : Int) - 1) := by omega
    have e'' : ¬ ((c : Int) - 1 = (c : Int)) := by omega
    have e2 : c + 1 - c = 1 := by omega
    simp only [e', decide_false, Bool.false_eq_true, if_false, Bool.false_and, ok_bind]
    refine Ret.ok ⟨by simp [hin, e2], by simp [hup, e2], ?_, ?_⟩
    · rw [e2]; exact hvs
    · rw [e2]; exact hve

/-- The gaps, from the bounds' positions `c` and `d`. -/
structure GapsAt (m : Nat) (A B : Nat → K) (L U : Option K) (F E : Nat → Nat) (c d : Nat)
    (r : Bool × Bool × List Int × List Int) (j n : Nat) : Prop where
  lower : LowerAt m A L c
  upper : UpperAt m B U d
  first : j = c + (if L.isSome then 0 else 1)
  count : n = d + (if U.isSome then 1 else 0) - j
  addLower : r.1 = true ↔ L.isSome ∧ 0 < n ∧ ¬ LowerIn B L c
  addUpper : r.2.1 = true ↔ U.isSome ∧ 0 < n ∧ ¬ UpperIn m A U d
  starts : r.2.2.1 = locs1 (before E (j + r.1.toNat) (n - r.1.toNat))
  stops : r.2.2.2 = locs1 (after F j (n - r.2.1.toNat))

/-- A bound and its proxy. -/
def BoundIs (x : Option Val) (start stop : Val) (m : Nat) (F E : Nat → Nat) (A B : Nat → K)
    (b : Option K) : Prop :=
  match x, b with
  | none, none => True
  | some x, some b => BoundCmp x start stop m F E A B b
  | _, _ => False

theorem complementLocs_ok (h : Chain m A B) {F E : Nat → Nat} {start stop : Val} {x y : Option Val}
    {L U : Option K} (hL : BoundIs x start stop m F E A B L) (hU : BoundIs y start stop m F E A B U)
    (hlu : ∀ l u, L = some l → U = some u → l < u) :
    Ret (complementLocs start stop x y (locs1 (tab m F)) (locs1 (tab m E))) (fun r => ∃ c d j n,
      GapsAt m A B L U F E c d r j n) := by
  have hup0 : ∀ u : K, ¬ UpperIn m A (some u) m := by
    rintro u ⟨_, _, hlt, _⟩
    omega
  unfold complementLocs
  dsimp only
  rw [tab_length]
  rcases x with _ | x <;> rcases L with _ | l <;> try exact hL.elim
  · rw [ok_bind]
    rcases y with _ | y <;> rcases U with _ | u <;> try exact hU.elim
    · rw [ok_bind]
      simp only [Option.isSome_none, Bool.false_and, Bool.false_eq_true, if_false, ok_bind]
      rcases Nat.eq_zero_or_pos m with rfl | hm
      · rw [middleGaps_none (by omega), ok_bind]
        dsimp only
        have hf := (FillOk.start (((0 : Nat) : Int) - 1 + 0).toNat).done (by simp)
        dsimp only at hf
        rw [hf, ok_bind, ok_bind]
        exact Ret.ok ⟨0, 0, 1, 0, ⟨rfl, rfl, rfl, rfl, by simp, by simp, rfl, rfl⟩⟩
      · have ec : ((m : Int) - 1 + 0).toNat = m - 1 := by omega
        rw [ec]
        refine Ret.bind (middleGaps_ok hm (le_refl _) (FillOk.start _) (FillOk.start _)
          (by simp) (by simp)) ?_
        rintro ⟨vs, ve⟩ ⟨h1, h2⟩
        dsimp only at h1 h2 ⊢
        rw [h1.done (by simp [before]), ok_bind, h2.done (by simp [after]), ok_bind]
        exact Ret.ok ⟨0, m, 1, m - 1, ⟨rfl, rfl, rfl, by simp, by simp, by simp, rfl, rfl⟩⟩
    · refine Ret.bind (upperLoop_ok h hU m _ _ (le_refl _) (by intro j h1 h2; omega) rfl
        (.inr ⟨hup0 u, rfl⟩)) ?_
      rintro ⟨d, aft, bef⟩ ⟨d', hd, rfl, h3, h4⟩
      dsimp only at h3 h4 ⊢
      subst h3
      have hdm := hd.1
      have ec1 : ((m : Int) - 1 + 1).toNat = m := by omega
      have ec2 : ((m : Int) - 1 + 0).toNat = m - 1 := by omega
      simp only [Option.isSome_none, Option.isSome_some, Bool.false_and, Bool.true_and,
        Bool.false_eq_true, if_false, if_true, ok_bind, ec1, ec2]
      rcases Nat.eq_zero_or_pos d with rfl | hd0
      · rw [middleGaps_none (by omega), ok_bind]
        dsimp only
        simp only [Nat.lt_irrefl, decide_false, Bool.false_eq_true, if_false, ok_bind]
        have hf := (FillOk.start m).done (by simp)
        have hg := (FillOk.start (m - 1)).done (by simp)
        dsimp only at hf hg
        rw [hf, ok_bind, hg, ok_bind]
        exact Ret.ok ⟨0, 0, 1, 0, ⟨rfl, hd, rfl, rfl, by simp, by simp, rfl, rfl⟩⟩
      · refine Ret.bind (middleGaps_ok hd0 hdm (FillOk.start _) (FillOk.start _)
          (by simp; omega) (by simp; omega)) ?_
        rintro ⟨vs, ve⟩ ⟨h1, h2⟩
        dsimp only at h1 h2 ⊢
        rw [decide_eq_true hd0, if_pos rfl]
        refine Ret.bind (upperGap_ok hd0 hdm h4 h1 h2 (by simp [before]; omega) ?_) ?_
        · intro hin
          have := hin.choose_spec.2.1
          simp [after]
          omega
        · rintro ⟨b, vs', ve'⟩ ⟨h5, h6, h7⟩
          dsimp only at h5 h6 h7 ⊢
          have hb : b.toNat = 0 ∨ b.toNat = 1 := by cases b <;> simp
          have e1 : 0 + 1 + (d - 0 - 1) = d := by omega
          have e2 : before E (0 + 1) (d - 0 - 1) ++ before E d 1 = before E 1 d := by
            have := before_append E (0 + 1) (d - 0 - 1) 1
            rw [e1] at this
            rw [this]
            congr 1
            omega
          have e3 : after F (0 + 1) (d - 0 - 1) ++ after F d (1 - b.toNat) = after F 1 (d - b.toNat) := by
            have := after_append F (0 + 1) (d - 0 - 1) (1 - b.toNat)
            rw [e1] at this
            rw [this]
            congr 1
            omega
          rw [List.nil_append, e2] at h6
          rw [List.nil_append, e3] at h7
          have hcap : d - b.toNat ≤ m - 1 := by
            rcases Nat.lt_or_eq_of_le hdm with hlt | rfl
            · omega
            · have : b = true := h5.2 (hup0 u)
              subst this
              rfl
          rw [h6.done (by rw [before_length]; omega), ok_bind,
            h7.done (by rw [after_length]; omega), ok_bind]
          exact Ret.ok ⟨0, d, 1, d, ⟨rfl, hd, rfl, by simp, by simp, by simp [h5, hd0], rfl, rfl⟩⟩
  · refine Ret.bind (lowerLoop_ok h hL) ?_
    rintro ⟨c, aft, bef⟩ ⟨c', hc, rfl, h3, h4⟩
    dsimp only at h3 h4 ⊢
    subst h3
    have hcm := hc.1
    rcases y with _ | y <;> rcases U with _ | u <;> try exact hU.elim
    · rw [ok_bind]
      dsimp only
      have ec1 : ((m : Int) - 1 + 1).toNat = m := by omega
      have ec2 : ((m : Int) - 1 + 0).toNat = m - 1 := by omega
      simp only [Option.isSome_none, Option.isSome_some, Bool.false_and, Bool.true_and, Bool.and_false,
        Bool.false_eq_true, if_false, if_true, ok_bind, ec1, ec2]
      by_cases hlt : c < m
      · rw [decide_eq_true hlt, if_pos rfl]
        refine Ret.bind (lowerGap_ok hlt h4 ?_ (by omega) (FillOk.start _) (FillOk.start _)) ?_
        · intro hin
          have := hin.choose_spec.2.1
          omega
        · rintro ⟨b, vs, ve⟩ ⟨h5, h6, h7⟩
          dsimp only at h5 h6 h7 ⊢
          have hb : b.toNat = 0 ∨ b.toNat = 1 := by cases b <;> simp
          have hc0 : b.toNat = 0 → 0 < c := by
            intro e
            have : LowerIn B (some l) c := by
              by_contra hh
              rw [h5.2 hh] at e
              cases e
            exact this.choose_spec.2.1
          refine Ret.bind (middleGaps_ok hlt (le_refl _) h6 h7 (by rw [before_length]; omega)
            (by rw [after_length]; omega)) ?_
          rintro ⟨vs', ve'⟩ ⟨h8, h9⟩
          dsimp only at h8 h9 ⊢
          have e2 : before E (c + b.toNat) (1 - b.toNat) ++ before E (c + 1) (m - c - 1) =
              before E (c + b.toNat) (m - c - b.toNat) := by
            have e1 : c + b.toNat + (1 - b.toNat) = c + 1 := by omega
            have := before_append E (c + b.toNat) (1 - b.toNat) (m - c - 1)
            rw [e1] at this
            rw [this]
            congr 1
            omega
          have e3 : after F c 1 ++ after F (c + 1) (m - c - 1) = after F c (m - c) := by
            rw [after_append]
            congr 1
            omega
          rw [e2] at h8
          rw [e3] at h9
          rw [h8.done (by rw [before_length]; omega), ok_bind,
            h9.done (by rw [after_length]; omega), ok_bind]
          exact Ret.ok ⟨c, m, c, m - c, ⟨hc, rfl, by simp, by simp,
            by rw [h5]; simp [hlt], by simp, rfl, rfl⟩⟩
      · rw [decide_eq_false hlt]
        simp only [Bool.false_eq_true, if_false, ok_bind]
        rw [middleGaps_none (by omega), ok_bind]
        dsimp only
        have hf := (FillOk.start (m - 1)).done (by simp)
        have hg := (FillOk.start m).done (by simp)
        dsimp only at hf hg
        rw [hf, ok_bind, hg, ok_bind]
        have e : m - c = 0 := by omega
        exact Ret.ok ⟨c, m, c, 0, ⟨hc, rfl, by simp, by simp [e], by simp, by simp, rfl, rfl⟩⟩
    · refine Ret.bind (upperLoop_ok h hU m _ _ (le_refl _) (by intro j h1 h2; omega) rfl
        (.inr ⟨hup0 u, rfl⟩)) ?_
      rintro ⟨d, aft, bef'⟩ ⟨d', hd, rfl, h3, h4'⟩
      dsimp only at h3 h4' ⊢
      subst h3
      have hdm := hd.1
      have ec1 : ((m : Int) - 1 + 1).toNat = m := by omega
      simp only [Option.isSome_some, Bool.true_and, if_true, ec1]
      by_cases hlt : c < d
      · rw [decide_eq_true hlt]
        simp only [if_true, Bool.not_true, Bool.false_eq_true, if_false]
        refine Ret.bind (lowerGap_ok (by omega) h4 (fun _ => by omega) (by omega) (FillOk.start _)
          (FillOk.start _)) ?_
        rintro ⟨b, vs, ve⟩ ⟨h5, h6, h7⟩
        dsimp only at h5 h6 h7 ⊢
        have hb : b.toNat = 0 ∨ b.toNat = 1 := by cases b <;> simp
        have hc0 : b.toNat = 0 → 0 < c := by
          intro e
          have : LowerIn B (some l) c := by
            by_contra hh
            rw [h5.2 hh] at e
            cases e
          exact this.choose_spec.2.1
        refine Ret.bind (middleGaps_ok hlt hdm h6 h7 (by rw [before_length]; omega)
          (by rw [after_length]; omega)) ?_
        rintro ⟨vs', ve'⟩ ⟨h8, h9⟩
        dsimp only at h8 h9 ⊢
        have e2 : before E (c + b.toNat) (1 - b.toNat) ++ before E (c + 1) (d - c - 1) =
            before E (c + b.toNat) (d - c - b.toNat) := by
          have e1 : c + b.toNat + (1 - b.toNat) = c + 1 := by omega
          have := before_append E (c + b.toNat) (1 - b.toNat) (d - c - 1)
          rw [e1] at this
          rw [this]
          congr 1
          omega
        have e3 : after F c 1 ++ after F (c + 1) (d - c - 1) = after F c (d - c) := by
          rw [after_append]
          congr 1
          omega
        rw [e2] at h8
        rw [e3] at h9
        refine Ret.bind (upperGap_ok (by omega) hdm h4' h8 h9 (by rw [before_length]; omega) ?_) ?_
        · intro hin
          have := hin.choose_spec.2.1
          rw [after_length]
          omega
        · rintro ⟨b', vs'', ve''⟩ ⟨h10, h11, h12⟩
          dsimp only at h10 h11 h12 ⊢
          have hb' : b'.toNat = 0 ∨ b'.toNat = 1 := by cases b' <;> simp
          have e4 : before E (c + b.toNat) (d - c - b.toNat) ++ before E d 1 =
              before E (c + b.toNat) (d + 1 - c - b.toNat) := by
            have e1 : c + b.toNat + (d - c - b.toNat) = d := by omega
            have := before_append E (c + b.toNat) (d - c - b.toNat) 1
            rw [e1] at this
            rw [this]
            congr 1
            omega
          have e5 : after F c (d - c) ++ after F d (1 - b'.toNat) = after F c (d + 1 - c - b'.toNat) := by
            have e1 : c + (d - c) = d := by omega
            have := after_append F c (d - c) (1 - b'.toNat)
            rw [e1] at this
            rw [this]
            congr 1
            omega
          have hcap : d - c + (1 - b'.toNat) ≤ m := by
            rcases Nat.lt_or_eq_of_le hdm with hlt | rfl
            · omega
            · have : b' = true := h10.2 (hup0 u)
              subst this
              simp
          rw [e4] at h11
          rw [e5] at h12
          rw [ok_bind]
          dsimp only
          rw [h11.done (by rw [before_length]; omega), ok_bind,
            h12.done (by rw [after_length]; omega), ok_bind]
          have hpos : 0 < d + 1 - c := by omega
          exact Ret.ok ⟨c, d, c, d + 1 - c, ⟨hc, hd, by simp, by simp,
            by rw [h5]; simp [hpos], by rw [h10]; simp [hpos], rfl, rfl⟩⟩
      · rw [decide_eq_false hlt]
        simp only [Bool.false_eq_true, if_false, ok_bind, Bool.not_false, if_true]
        rw [middleGaps_none (by omega), ok_bind]
        dsimp only
        refine Ret.bind (boundsGap_ok h (hlu l u rfl rfl) hc hd (by omega) h4 h4' (fun h => h)
          (fun h => h) (FillOk.start _) (FillOk.start _)) ?_
        rintro ⟨b, b', vs, ve⟩ ⟨h5, h6, h7, h8⟩
        dsimp only at h5 h6 h7 h8 ⊢
        have hcap1 : d + 1 - c - b.toNat ≤ m := by
          by_contra hh
          have e0 : c = 0 ∧ d = m := by omega
          have : b = true := h5.2 ⟨by omega, by rintro ⟨_, _, h0, _⟩; omega⟩
          subst this
          simp at hh
          omega
        have hcap2 : d + 1 - c - b'.toNat ≤ m := by
          by_contra hh
          have e0 : c = 0 ∧ d = m := by omega
          have : b' = true := h6.2 ⟨by omega, by rintro ⟨_, _, h0, _⟩; omega⟩
          subst this
          simp at hh
          omega
        rw [h7.done (by rw [before_length]; exact hcap1), ok_bind,
          h8.done (by rw [after_length]; exact hcap2), ok_bind]
        exact Ret.ok ⟨c, d, c, d + 1 - c, ⟨hc, hd, by simp, by simp,
          by rw [h5]; simp, by rw [h6]; simp, rfl, rfl⟩⟩

end

end Vctrs
