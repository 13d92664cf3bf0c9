import Verif.Lemmas.PtypeFold

/-!
# C41: the common type of bare types is a commutative, associative, idempotent partial join

The statements are about the model `vecPtype2` of src/ptype2.c:29-93, for all `NULL`, unspecified
and bare objects with or without dimensions (an R array has at least one dimension).
-/

namespace Vctrs

open Spec

/-- The common type is the least type to which both types convert. -/
theorem C41_join {x y r : RObj} {a b : Kind} (hx : x.dim ≠ some []) (hy : y.dim ≠ some [])
    (ha : HasKind x a) (hb : HasKind y b) (h : vecPtype2 x y = .ok r) :
    ∃ c, HasKind r c ∧ IsJoin a b c := by
  obtain ⟨h1, _, _⟩ := vecPtype2_sig hx hy h
  refine ⟨kindOf r, hasKind_kindOf r, ?_⟩
  rw [ha.eq, hb.eq]
  exact kJoin_isJoin (sigJoin_some.mp h1).1

example : vecPtype2 (.lgl [1, 0] none) (.bare .double 2 (some [2, 1])) =
    .ok (.bare .double 0 (some [0, 1])) := by cbv

example : HasKind (.lgl [1, 0] none) .lgl := .lgl (.inr (.inr ⟨1, by simp, by decide⟩))

/-- There is no common type exactly when no type is above both types or the shapes clash, except
that logical and complex have none although they both convert to complex.  The outcome is then an
incompatible type error. -/
theorem C41_undefined {x y : RObj} {a b : Kind} (hx : x.dim ≠ some []) (hy : y.dim ≠ some [])
    (ha : HasKind x a) (hb : HasKind y b) :
    vecPtype2 x y = .error .abort ↔
      (∀ c : Kind, ¬ (a.Le c ∧ b.Le c)) ∨ (a = .lgl ∧ b = .cpl) ∨ (a = .cpl ∧ b = .lgl) ∨
        ∃ d e, x.dim = some d ∧ y.dim = some e ∧ Clash d e := by
  rw [vecPtype2_eq hx hy]
  have e1 : ofSig (sigJoin (sig x) (sig y)) = .error .abort ↔ sigJoin (sig x) (sig y) = none := by
    cases sigJoin (sig x) (sig y) <;> simp [ofSig]
  have e2 : sigJoin (sig x) (sig y) = none ↔
      kJoin a b = none ∨ shJoin (shNorm x.dim) (shNorm y.dim) = none := by
    rw [ha.eq, hb.eq]
    unfold sigJoin sig
    dsimp only
    cases kJoin (kindOf x) (kindOf y) <;> simp
  have e3 : shJoin (shNorm x.dim) (shNorm y.dim) = none ↔
      ∃ d e, x.dim = some d ∧ y.dim = some e ∧ Clash d e := by
    rcases hdx : x.dim with _ | _ | ⟨u, d⟩
    · simp [shNorm, shJoin]
    · exact absurd hdx hx
    · rcases hdy : y.dim with _ | _ | ⟨v, e⟩
      · simp [shNorm, shJoin]
      · exact absurd hdy hy
      · simp only [shNorm, shJoin, Option.map_eq_none_iff, Option.some.injEq]
        rw [zipLong_eq_none (a := u) (b := v)]
        constructor
        · intro h; exact ⟨_, _, rfl, rfl, h⟩
        · rintro ⟨_, _, rfl, rfl, h⟩; exact h
  rw [e1, e2, e3, kJoin_none]
  simp only [or_assoc]

example : vecPtype2 (.lgl [1] none) (.bare .complex 1 none) = .error .abort := by cbv

example : vecPtype2 (.bare .integer 1 none) (.bare .character 1 none) = .error .abort := by cbv

/-- Nothing but a type or an incompatible type error comes out. -/
theorem C41_outcome {x y : RObj} (hx : x.dim ≠ some []) (hy : y.dim ≠ some []) :
    (∃ r, vecPtype2 x y = .ok r) ∨ vecPtype2 x y = .error .abort := by
  rw [vecPtype2_eq hx hy]
  cases sigJoin (sig x) (sig y) with
  | none => exact .inr rfl
  | some s => exact .inl ⟨_, rfl⟩

example : vecPtype2 (.bare .integer 2 (some [2, 3])) (.bare .integer 2 (some [2, 2])) =
    .error .abort := by cbv

/-- The common type of an object with itself is its prototype. -/
theorem C41_idempotent {x : RObj} (hx : x.dim ≠ some []) : vecPtype2 x x = vecPtype x := by
  rw [vecPtype2_eq hx hx, vecPtype_ok hx]
  unfold sigJoin sig
  dsimp only
  rw [kJoin_self]
  dsimp only
  have : shJoin (shNorm x.dim) (shNorm x.dim) = some (shNorm x.dim) := by
    rcases x.dim with _ | _ | ⟨u, d⟩
    · rfl
    · rfl
    · simp only [shNorm, shJoin, zipLong_self]
      rfl
  rw [this]
  rfl

example : vecPtype2 (.bare .raw 6 (some [2, 3])) (.bare .raw 6 (some [2, 3])) =
    .ok (.bare .raw 0 (some [0, 3])) := by cbv

/-- The order of the two objects does not matter, for the result or for the error. -/
theorem C41_commutative {x y : RObj} (hx : x.dim ≠ some []) (hy : y.dim ≠ some []) :
    vecPtype2 x y = vecPtype2 y x := by
  rw [vecPtype2_eq hx hy, vecPtype2_eq hy hx, sigJoin_comm]

example : vecPtype2 (.bare .double 2 (some [2, 1])) (.lgl [1, 0] none) =
    .ok (.bare .double 0 (some [0, 1])) := by cbv

/-- Both groupings of three objects agree where both are defined. -/
theorem C41_associative {x y z a b r s : RObj} (hx : x.dim ≠ some []) (hy : y.dim ≠ some [])
    (hz : z.dim ≠ some []) (h1 : vecPtype2 x y = .ok a) (h2 : vecPtype2 a z = .ok r)
    (h3 : vecPtype2 y z = .ok b) (h4 : vecPtype2 x b = .ok s) : r = s := by
  obtain ⟨p1, q1, _⟩ := vecPtype2_sig hx hy h1
  obtain ⟨p2, q2, e2⟩ := vecPtype2_sig q1 hz h2
  obtain ⟨p3, q3, _⟩ := vecPtype2_sig hy hz h3
  obtain ⟨p4, q4, e4⟩ := vecPtype2_sig hx q3 h4
  rw [e2, e4]
  rw [sigJoin_some] at p1 p2 p3 p4
  have k := kJoin_assoc p1.1 p2.1 p3.1 p4.1
  have d : (sig r).2 = (sig s).2 := by
    have h := shJoin_assoc x.dim y.dim z.dim
    have u1 : shJoin (shNorm x.dim) (shNorm y.dim) = some (sig a).2 := p1.2
    have u3 : shJoin (shNorm y.dim) (shNorm z.dim) = some (sig b).2 := p3.2
    rw [u1, u3] at h
    have h' : shJoin (sig a).2 (shNorm z.dim) = shJoin (shNorm x.dim) (sig b).2 := h
    have u2 : shJoin (sig a).2 (shNorm z.dim) = some (sig r).2 := p2.2
    have u4 : shJoin (shNorm x.dim) (sig b).2 = some (sig s).2 := p4.2
    rw [u2, u4] at h'
    exact Option.some.inj h'
  rw [k, d]

example : vecPtype2 (.bare .integer 1 none) (.bare .double 3 (some [3, 1])) =
      .ok (.bare .double 0 (some [0, 1])) ∧
    vecPtype2 (.bare .double 0 (some [0, 1])) (.bare .complex 4 (some [1, 4])) =
      .ok (.bare .complex 0 (some [0, 4])) ∧
    vecPtype2 (.bare .double 3 (some [3, 1])) (.bare .complex 4 (some [1, 4])) =
      .ok (.bare .complex 0 (some [0, 4])) ∧
    vecPtype2 (.bare .integer 1 none) (.bare .complex 0 (some [0, 4])) =
      .ok (.bare .complex 0 (some [0, 4])) := ⟨by cbv, by cbv, by cbv, by cbv⟩

/-- One grouping may be defined and the other not: logical and complex have no common type. -/
theorem C41_grouping :
    (vecPtype2 (.lgl [1] none) (.bare .integer 1 none) >>= fun a =>
      vecPtype2 a (.bare .complex 1 none)) = .ok (.bare .complex 0 none) ∧
    (vecPtype2 (.lgl [1] none) (.bare .complex 1 none) >>= fun a =>
      vecPtype2 a (.bare .integer 1 none)) = .error .abort := ⟨by cbv, by cbv⟩

/-- `NULL` is neutral, on both sides. -/
theorem C41_null {x : RObj} (hx : x.dim ≠ some []) :
    vecPtype2 .null x = vecPtype x ∧ vecPtype2 x .null = vecPtype x := by
  have h : vecPtype2 .null x = vecPtype x := by
    unfold vecPtype2
    rw [vecTypeof_ok, ok_bind, vecTypeof_ok, ok_bind]
    rfl
  refine ⟨h, ?_⟩
  rw [C41_commutative hx (by simp [RObj.dim]), h]

example : vecPtype2 (.bare .character 6 (some [2, 3])) .null =
    .ok (.bare .character 0 (some [0, 3])) := by cbv

/-- An unspecified vector is neutral, on both sides, for all but `NULL`. -/
theorem C41_unspecified {x u : RObj} (hx : x.dim ≠ some []) (hn : x ≠ .null)
    (hu : HasKind u .uns) : vecPtype2 u x = vecPtype x ∧ vecPtype2 x u = vecPtype x := by
  have hd : u.dim = none := dim_of_kind (.inr hu.eq.symm)
  have hku : kindOf u = .uns := hu.eq.symm
  have hkx : kindOf x ≠ .null := by
    cases hc : x with
    | null => exact absurd hc hn
    | uns n => simp [kindOf]
    | lgl xs d =>
      by_cases h : d = none ∧ xs ≠ [] ∧ ∀ v ∈ xs, v = naInt
      · have : kindOf (.lgl xs d) = .uns := if_pos h
        rw [this]; simp
      · rw [kindOf_lgl h]; simp
    | bare t n d => cases t <;> simp [kindOf]
  have h : vecPtype2 u x = vecPtype x := by
    unfold vecPtype2
    rw [vecTypeof_ok, ok_bind, vecTypeof_ok, ok_bind, hku]
    rw [if_neg (by simp [kindTy]), if_neg (by cases hk : kindOf x <;> simp_all [kindTy]),
      if_pos (show kindTy Kind.uns = VType.unspecified from rfl)]
  refine ⟨h, ?_⟩
  rw [C41_commutative hx (by rw [hd]; simp), h]

example : HasKind (.lgl [naInt, naInt] none) .uns := .missing (by simp) (by simp)

example : vecPtype2 (.lgl [naInt, naInt] none) (.bare .list 6 (some [2, 3])) =
    .ok (.bare .list 0 (some [0, 3])) := by cbv

end Vctrs
