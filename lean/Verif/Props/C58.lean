import Verif.Props.C57

/-! # C58: `vec_equal(na_equal = FALSE)` -/

namespace Vctrs

open Spec

theorem dblEqualNaPropagate_spec (x y : Dbl) : dblEqualNaPropagate x y =
    if isNan x || isNan y then none else some (dblEqualNaEqual x y) := by
  unfold dblEqualNaPropagate
  by_cases hx : isNan x = true
  · simp [hx]
  by_cases hy : isNan y = true
  · simp [hy]
  rw [Bool.not_eq_true] at hx hy
  simp [hx, hy, dblEqualNaEqual, dblClassify_number.2 hx]

theorem equalNaPropagate_spec : (t : ATy) → (x y : t.El) → equalNaPropagate t x y =
    if isMissing t x || isMissing t y then none else some (equalNaEqual t x y)
  | .lgl, (_ : Int), (_ : Int) => rfl
  | .int, (_ : Int), (_ : Int) => rfl
  | .dbl, (x : Dbl), (y : Dbl) => dblEqualNaPropagate_spec x y
  | .cpl, (x : Dbl × Dbl), (y : Dbl × Dbl) => by
      show (match dblEqualNaPropagate x.1 y.1, dblEqualNaPropagate x.2 y.2 with
        | some r, some i => some (r && i)
        | _, _ => none) = if (isNan x.1 || isNan x.2) || (isNan y.1 || isNan y.2) then none
          else some (dblEqualNaEqual x.1 y.1 && dblEqualNaEqual x.2 y.2)
      rw [dblEqualNaPropagate_spec, dblEqualNaPropagate_spec]
      cases isNan x.1 <;> cases isNan x.2 <;> cases isNan y.1 <;> cases isNan y.2 <;> rfl
  | .chr, (_ : Name), (_ : Name) => rfl
  | .raw, (_ : BitVec 8), (_ : BitVec 8) => rfl

/-- Row `i` is different: up to some vector the rows are the same and complete, and there they are
complete but not the same. -/
def RowDiffers (x y : Val) (i : Nat) : Prop :=
  ∃ (k : Nat) (p q : Val), (leaves x)[k]? = some p ∧ (leaves y)[k]? = some q ∧
    AtLeaf (fun t a b => ¬ SameAtom t a b ∧ ¬ MissingAtom t a ∧ ¬ MissingAtom t b) p q i ∧
    ∀ (j : Nat) (p' q' : Val), j < k → (leaves x)[j]? = some p' → (leaves y)[j]? = some q' →
      AtLeaf (fun t a b => SameAtom t a b ∧ ¬ MissingAtom t a ∧ ¬ MissingAtom t b) p' q' i

/-- Row `i` is complete and the same in every vector. -/
def RowSameComplete (x y : Val) (i : Nat) : Prop :=
  ∀ (j : Nat) (p q : Val), (leaves x)[j]? = some p → (leaves y)[j]? = some q →
    AtLeaf (fun t a b => SameAtom t a b ∧ ¬ MissingAtom t a ∧ ¬ MissingAtom t b) p q i

theorem rowResult_ne {l : List (Option Bool)} {v : Option Bool} (hv : v ≠ some true) :
    rowResult l = v ↔ ∃ k : Nat, l[k]? = some v ∧ ∀ j : Nat, j < k → l[j]? = some (some true) := by
  unfold rowResult
  constructor
  · intro h
    cases hf : l.find? equalDecides with
    | none => rw [hf] at h; exact absurd h.symm hv
    | some w =>
      rw [hf] at h
      cases (show w = v from h)
      rw [List.find?_eq_some_iff_getElem] at hf
      obtain ⟨-, k, hk, he, hj⟩ := hf
      refine ⟨k, by rw [List.getElem?_eq_getElem hk, he], fun j hj' => ?_⟩
      have := hj j hj'
      rw [List.getElem?_eq_getElem (by omega)]
      simpa [equalDecides] using this
  · rintro ⟨k, hk, hj⟩
    have : l.find? equalDecides = some v := by
      rw [List.find?_eq_some_iff_getElem]
      obtain ⟨hk', he⟩ := List.getElem?_eq_some_iff.1 hk
      refine ⟨by simp [equalDecides, hv], k, hk', he, fun j hj' => ?_⟩
      have := (List.getElem?_eq_some_iff.1 (hj j hj')).2
      simp [equalDecides, this]
    rw [this]
    rfl

theorem rowResult_all {l : List (Option Bool)} :
    rowResult l = some true ↔ ∀ (j : Nat) (v : Option Bool), l[j]? = some v → v = some true := by
  unfold rowResult
  constructor
  · intro h
    cases hf : l.find? equalDecides with
    | none =>
      intro j v hv
      have := List.find?_eq_none.1 hf v (List.mem_of_getElem? hv)
      simpa [equalDecides] using this
    | some w =>
      rw [hf] at h
      cases (show w = some true from h)
      have := List.find?_some hf
      simp [equalDecides] at this
  · intro h
    have : l.find? equalDecides = none := by
      rw [List.find?_eq_none]
      intro v hv
      obtain ⟨j, hj⟩ := List.mem_iff_getElem?.1 hv
      simp [equalDecides, h j v hj]
    rw [this]
    rfl

/-- NA, FALSE and TRUE are given exactly as stated. -/
theorem C58_equal (x y : Val) (n : Nat) (hx : x.size = n) (hy : y.size = n)
    (h : LeavesMatch n x y) :
    ∃ out : List (Option Bool), rEqual false x y = .ok out ∧ out.length = n ∧
      ∀ i, i < n → (out[i]? = some none ↔ RowUndecided x y i) ∧
        (out[i]? = some (some false) ↔ RowDiffers x y i) ∧
        (out[i]? = some (some true) ↔ RowSameComplete x y i) := by
  obtain ⟨hc, s1, s2, c1, c2⟩ := packed_compat h.len h.cols
  have hnl : NoList (packLeaves n (leaves x)) := by
    intro xs hm
    rw [c1] at hm
    obtain ⟨k, hk⟩ := List.mem_iff_getElem?.1 hm
    have hk' := (List.getElem?_eq_some_iff.1 hk).1
    have hl := h.len
    obtain ⟨t, ws, ys, e, -⟩ := h.cols k _ _ hk (List.getElem?_eq_getElem (by omega))
    cases e
  obtain ⟨G, hG, he⟩ := vecEqual_ok false hc (cellsTotal_of_supported false hc hnl.supported)
  rw [s1, c1] at he
  rw [s1, c1, c2] at hG
  refine ⟨(List.range n).map fun i =>
    rowResult ((List.range (leaves x).length).map fun c => G c i), ?_, by simp, fun i hi => ?_⟩
  · unfold rEqual
    rw [proxyVal_ok, ok_bind, proxyVal_ok, ok_bind, hx, hy]
    exact he
  have hex : ∀ j : Nat, j < (leaves x).length → ∃ p q, (leaves x)[j]? = some p ∧
      (leaves y)[j]? = some q := fun j hj => by
    have hl := h.len
    exact ⟨_, _, List.getElem?_eq_getElem hj, List.getElem?_eq_getElem (by omega)⟩
  have hlist : ∀ (j : Nat) (v : Option Bool),
      ((List.range (leaves x).length).map fun c => G c i)[j]? = some v ↔
        j < (leaves x).length ∧ G j i = v := by
    intro j v
    by_cases hj : j < (leaves x).length
    · simp [hj]
    · rw [List.getElem?_eq_none (by simp; omega)]
      simp [hj]
  -- what each cell says
  have hcell : ∀ (j : Nat) (p q : Val), (leaves x)[j]? = some p → (leaves y)[j]? = some q →
      (G j i = none ↔ AtLeaf (fun t a b => MissingAtom t a ∨ MissingAtom t b) p q i) ∧
      (G j i = some false ↔
        AtLeaf (fun t a b => ¬ SameAtom t a b ∧ ¬ MissingAtom t a ∧ ¬ MissingAtom t b) p q i) ∧
      (G j i = some true ↔
        AtLeaf (fun t a b => SameAtom t a b ∧ ¬ MissingAtom t a ∧ ¬ MissingAtom t b) p q i) := by
    intro j p q hp hq
    have hg := hG j i p q hp hq hi
    obtain ⟨t, xs, ys, rfl, rfl, l1, l2⟩ := h.cols j p q hp hq
    have gx := List.getElem?_eq_getElem (l := xs) (i := i) (by omega)
    have gy := List.getElem?_eq_getElem (l := ys) (i := i) (by omega)
    rw [cellEqual_vec (t := .atom t) gx gy] at hg
    have hg' : (Except.ok (equalNaPropagate t xs[i] ys[i]) : C (Option Bool)) = .ok (G j i) := hg
    injection hg' with hg'
    rw [equalNaPropagate_spec] at hg'
    rw [atLeaf_vec gx gy, atLeaf_vec gx gy, atLeaf_vec gx gy, ← hg']
    have m1 : isMissing t xs[i] = true ↔ MissingAtom t xs[i] := missingScalar_iff (.atom t) _
    have m2 : isMissing t ys[i] = true ↔ MissingAtom t ys[i] := missingScalar_iff (.atom t) _
    have m3 := equalNaEqual_same t xs[i] ys[i]
    rw [← m1, ← m2, ← m3]
    cases isMissing t xs[i] <;> cases isMissing t ys[i] <;> cases equalNaEqual t xs[i] ys[i] <;> simp
  rw [List.getElem?_map, List.getElem?_range hi, Option.map_some, Option.some_inj, Option.some_inj,
    Option.some_inj]
  have hfirst : ∀ v : Option Bool, v ≠ some true → ∀ P : Val → Val → Prop,
      (∀ (j : Nat) (p q : Val), (leaves x)[j]? = some p → (leaves y)[j]? = some q →
        (G j i = v ↔ P p q)) →
      (rowResult ((List.range (leaves x).length).map fun c => G c i) = v ↔
        ∃ (k : Nat) (p q : Val), (leaves x)[k]? = some p ∧ (leaves y)[k]? = some q ∧ P p q ∧
        ∀ (j : Nat) (p' q' : Val), j < k → (leaves x)[j]? = some p' → (leaves y)[j]? = some q' →
          AtLeaf (fun t a b => SameAtom t a b ∧ ¬ MissingAtom t a ∧ ¬ MissingAtom t b) p' q' i) := by
    intro v hv P hP
    rw [rowResult_ne hv]
    constructor
    · rintro ⟨k, hk, hj⟩
      obtain ⟨hkl, hk⟩ := (hlist k v).1 hk
      obtain ⟨p, q, hp, hq⟩ := hex k hkl
      refine ⟨k, p, q, hp, hq, (hP k p q hp hq).1 hk, fun j p' q' hjk hp' hq' => ?_⟩
      exact (hcell j p' q' hp' hq').2.2.1 ((hlist j _).1 (hj j hjk)).2
    · rintro ⟨k, p, q, hp, hq, hPk, hj⟩
      have hkl := (List.getElem?_eq_some_iff.1 hp).1
      refine ⟨k, (hlist k v).2 ⟨hkl, (hP k p q hp hq).2 hPk⟩, fun j hjk => ?_⟩
      obtain ⟨p', q', hp', hq'⟩ := hex j (by omega)
      exact (hlist j _).2 ⟨by omega, (hcell j p' q' hp' hq').2.2.2 (hj j p' q' hjk hp' hq')⟩
  refine ⟨hfirst none (by simp) _ (fun j p q hp hq => (hcell j p q hp hq).1),
    hfirst (some false) (by simp) _ (fun j p q hp hq => (hcell j p q hp hq).2.1), ?_⟩
  rw [rowResult_all]
  constructor
  · intro hall j p q hp hq
    have hjl := (List.getElem?_eq_some_iff.1 hp).1
    exact (hcell j p q hp hq).2.2.1 (hall j _ ((hlist j _).2 ⟨hjl, rfl⟩))
  · intro hall j v hv
    obtain ⟨hjl, rfl⟩ := (hlist j v).1 hv
    obtain ⟨p, q, hp, hq⟩ := hex j hjl
    exact (hcell j p q hp hq).2.2.2 (hall j p q hp hq)

/-! ## Examples -/

/-- `(1L, 1L, NA)` and `("a", NA, "a")`. -/
def C58_x : Val := .df 3 [.vec (.atom .int) [(1 : Int), (1 : Int), naInt],
  .vec (.atom .chr) [(some ['a'] : Name), (none : Name), (some ['a'] : Name)]]

/-- `(1L, 2L, 1L)` and a data frame of `("a", "a", "b")`. -/
def C58_y : Val := .df 3 [.vec (.atom .int) [(1 : Int), (2 : Int), (1 : Int)],
  .df 3 [.vec (.atom .chr) [(some ['a'] : Name), (some ['a'] : Name), (some ['b'] : Name)]]]

/-- In the second row the difference is met before the missing value, in the third the missing
value before the difference. -/
example : rEqual false C58_x C58_y = .ok [some true, some false, none] := by decide +kernel

theorem C58_match : LeavesMatch 3 C58_x C58_y := by
  refine ⟨rfl, fun k p q hp hq => ?_⟩
  match k, hp, hq with
  | 0, hp, hq => cases hp; cases hq; exact ⟨_, _, _, rfl, rfl, rfl, rfl⟩
  | 1, hp, hq => cases hp; cases hq; exact ⟨_, _, _, rfl, rfl, rfl, rfl⟩
  | k + 2, hp, _ => simp [C58_x, leaves, leavesAll] at hp

example : ∃ out : List (Option Bool), rEqual false C58_x C58_y = .ok out ∧ out.length = 3 ∧
    ∀ i, i < 3 → (out[i]? = some none ↔ RowUndecided C58_x C58_y i) ∧
      (out[i]? = some (some false) ↔ RowDiffers C58_x C58_y i) ∧
      (out[i]? = some (some true) ↔ RowSameComplete C58_x C58_y i) :=
  C58_equal C58_x C58_y 3 rfl rfl C58_match

end Vctrs
