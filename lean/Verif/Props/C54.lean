import Verif.Lemmas.Shape

/-!
# C54: the common shape of two arrays is a commutative and associative partial join

The statements are about the model `vecShape2` of src/shape.c:69-132, for all dimension vectors of
R arrays (there is at least one dimension) and for vectors without dimensions (`none`).
-/

namespace Vctrs

open Spec

/-- Unless two sizes clash, the result is the common shape: every axis after the first is recycled
independently of the others. -/
theorem C54_common_shape {x y : List Int} (hx : x ≠ []) (hy : y ≠ []) (h : ¬ Clash x y) :
    ∃ r, vecShape2 (some x) (some y) = .ok (some r) ∧ IsCommonShape x y r := by
  obtain ⟨a, x, rfl⟩ := List.exists_cons_of_ne_nil hx
  obtain ⟨b, y, rfl⟩ := List.exists_cons_of_ne_nil hy
  cases hz : zipLong x y with
  | none => exact absurd (zipLong_eq_none.mp hz) h
  | some r => exact ⟨0 :: r, by rw [vecShape2_eq, hz], isCommonShape_of_zipLong hz⟩

example : ¬ Clash [5, 1, 3] [2, 4] := by
  have : zipLong [1, 3] [4] ≠ none := by decide
  exact fun h => this (zipLong_eq_none.mpr h)

example : vecShape2 (some [5, 1, 3]) (some [2, 4]) = .ok (some [0, 4, 3]) := by cbv

/-- The error is raised exactly when along some axis after the first the sizes differ and neither
is 1; nothing else can go wrong. -/
theorem C54_fails {x y : List Int} (hx : x ≠ []) (hy : y ≠ []) :
    vecShape2 (some x) (some y) = .error .abort ↔ Clash x y := by
  obtain ⟨a, x, rfl⟩ := List.exists_cons_of_ne_nil hx
  obtain ⟨b, y, rfl⟩ := List.exists_cons_of_ne_nil hy
  rw [← zipLong_eq_none, vecShape2_eq]
  cases zipLong x y <;> simp

example : vecShape2 (some [5, 2, 3]) (some [2, 2, 4]) = .error .abort := by cbv

example : Clash [5, 2, 3] [2, 2, 4] := ⟨2, 3, 4, by decide, Or.inl rfl, Or.inl rfl, by decide⟩

/-- The common shape, when there is one, is determined by the two shapes. -/
theorem C54_unique {x y r s : List Int} (hr : IsCommonShape x y r) (hs : IsCommonShape x y s) :
    r = s := by
  have axis : ∀ (d : List Int) (i : Nat), ∃ n, IsAxis d i n := by
    intro d i
    by_cases h : i < d.length
    · exact ⟨d[i], Or.inl (by simp [h])⟩
    · exact ⟨1, Or.inr ⟨by omega, rfl⟩⟩
  apply List.ext_getElem?
  intro i
  by_cases hi : i < r.length
  · have hi' : i < s.length := by rw [hs.axes, ← hr.axes]; exact hi
    by_cases h0 : i = 0
    · subst h0; rw [hr.rows, hs.rows]
    · obtain ⟨a, ha⟩ := axis x i
      obtain ⟨b, hb⟩ := axis y i
      have h1 := hr.common i a b r[i] (by omega) ha hb (by simp [hi])
      have h2 := hs.common i a b s[i] (by omega) ha hb (by simp [hi'])
      rw [List.getElem?_eq_getElem hi, List.getElem?_eq_getElem hi']
      unfold CommonAxis at h1 h2
      have : r[i] = s[i] := by omega
      rw [this]
  · have hi' : ¬ i < s.length := by rw [hs.axes, ← hr.axes]; exact hi
    rw [List.getElem?_eq_none (by omega), List.getElem?_eq_none (by omega)]

example : IsCommonShape [5, 1, 3] [2, 4] [0, 4, 3] :=
  isCommonShape_of_zipLong (x := [1, 3]) (y := [4]) (r := [4, 3]) (by decide)

/-- The order of the two arrays does not matter, for the result or for the error. -/
theorem C54_symmetric {x y : Option (List Int)} (hx : x ≠ some []) (hy : y ≠ some []) :
    vecShape2 x y = vecShape2 y x := by
  rw [vecShape2_join hx hy, vecShape2_join hy hx, shJoin_comm]

example : vecShape2 (some [2, 4]) (some [5, 1, 3]) = .ok (some [0, 4, 3]) := by cbv

/-- Combining three shapes gives the same result, or the same error, for both groupings. -/
theorem C54_associative {x y z : Option (List Int)} (hx : x ≠ some []) (hy : y ≠ some [])
    (hz : z ≠ some []) :
    (vecShape2 x y >>= fun r => vecShape2 r z) = (vecShape2 y z >>= fun r => vecShape2 x r) := by
  have h := shJoin_assoc x y z
  rw [vecShape2_join hx hy, vecShape2_join hy hz]
  cases h1 : shJoin (shNorm x) (shNorm y) with
  | none =>
    rw [h1] at h
    cases h2 : shJoin (shNorm y) (shNorm z) with
    | none => rfl
    | some b =>
      rw [h2] at h
      obtain ⟨b1, b2⟩ := shJoin_norm h2
      dsimp only
      rw [ok_bind, vecShape2_join hx (b1 hy hz), b2,
        show shJoin (shNorm x) b = none from h.symm]
      rfl
  | some a =>
    rw [h1] at h
    obtain ⟨a1, a2⟩ := shJoin_norm h1
    cases h2 : shJoin (shNorm y) (shNorm z) with
    | none =>
      rw [h2] at h
      dsimp only
      rw [ok_bind, vecShape2_join (a1 hx hy) hz, a2,
        show shJoin a (shNorm z) = none from h]
      rfl
    | some b =>
      rw [h2] at h
      obtain ⟨b1, b2⟩ := shJoin_norm h2
      dsimp only
      rw [ok_bind, ok_bind, vecShape2_join (a1 hx hy) hz,
        vecShape2_join hx (b1 hy hz), a2, b2]
      have h' : shJoin a (shNorm z) = shJoin (shNorm x) b := h
      rw [h']

example : (vecShape2 (some [5, 1]) none >>= fun r => vecShape2 r (some [1, 4, 2]))
    = .ok (some [0, 4, 2]) := by cbv

/-- The common shape of an array with itself is its shape, and a vector without dimensions does
not affect the shape of the other. -/
theorem C54_neutral {a : Int} {x : List Int} :
    vecShape2 (some (a :: x)) (some (a :: x)) = .ok (some (0 :: x)) ∧
      vecShape2 none (some (a :: x)) = .ok (some (0 :: x)) ∧
      vecShape2 (some (a :: x)) none = .ok (some (0 :: x)) ∧ vecShape2 none none = .ok none := by
  refine ⟨?_, rfl, rfl, rfl⟩
  rw [vecShape2_eq, zipLong_self]

example : vecShape2 none (some [3, 2]) = .ok (some [0, 2]) := by cbv

end Vctrs
