import Verif.Props.C04
import Verif.Props.C09

/-! # C09: laws between the set operations and `vec_unique()` -/

namespace Vctrs

open Spec

variable {α : Type} {ops : PolyOps α}

/-- The union is `vec_unique()` of both vectors combined. -/
theorem C09_union_unique (he : EqvHash ops) (x y : List α) (hn : (x ++ y).length ≤ 2147483647) :
    setUnion ops x y = vecUnique ops (x ++ y) := by
  have h := hn
  rw [List.length_append] at h
  rw [C04_unique he _ hn, setUnion_ok he x y (show x.length ≤ 2147483647 by omega)
    (show y.length ≤ 2147483647 by omega)]

/-- The symmetric difference is one difference followed by the other. -/
theorem C09_symmetric_differences (he : EqvHash ops) (x y : List α) (hn : x.length ≤ 2147483647)
    (hm : y.length ≤ 2147483647) :
    ∃ a b, setDifference ops x y = .ok a ∧ setDifference ops y x = .ok b ∧
      setSymmetricDifference ops x y = .ok (a ++ b) := by
  refine ⟨_, _, setDifference_ok he x y hn, setDifference_ok he y x hm, ?_⟩
  rw [setSymmetricDifference_ok he x y hn hm]
  congr 2
  congr 1
  funext b
  rw [any_flip he]

/-- Removing what is not common leaves the intersection. -/
theorem C09_difference_twice (he : EqvHash ops) (x y : List α) (hn : x.length ≤ 2147483647) :
    ∃ d, setDifference ops x y = .ok d ∧ setDifference ops x d = setIntersect ops x y := by
  refine ⟨_, setDifference_ok he x y hn, ?_⟩
  rw [setDifference_ok he x _ hn, setIntersect_ok he x y hn]
  congr 1
  apply List.filter_congr
  intro a ha
  rw [Bool.eq_iff_iff, Bool.not_eq_true', ← Bool.not_eq_true, any_iff_mem he,
    filter_nub_mem he x _ (fun a b h => by rw [any_congr he y a b h])]
  have hax : Mem ops.eq a x := ⟨a, mem_nub_of_mem ha, he.refl a⟩
  simp [hax]

/-- The intersection and the difference share out the values of `vec_unique(x)`. -/
theorem C09_shared_out (he : EqvHash ops) (x y : List α) (hn : x.length ≤ 2147483647) :
    ∃ a b u, setIntersect ops x y = .ok a ∧ setDifference ops x y = .ok b ∧ vecUnique ops x = .ok u ∧
      (a ++ b).Perm u ∧ a.length + b.length = u.length := by
  have h := List.filter_append_perm (fun a => y.any (fun b => ops.eq a b)) (nub ops.eq x)
  refine ⟨_, _, _, setIntersect_ok he x y hn, setDifference_ok he x y hn, C04_unique he x hn, h, ?_⟩
  rw [← List.length_append]
  exact h.length_eq

/-- A vector with itself. -/
theorem C09_self (he : EqvHash ops) (x : List α) (hn : x.length ≤ 2147483647) :
    setIntersect ops x x = vecUnique ops x ∧ setUnion ops x x = vecUnique ops x ∧
      setDifference ops x x = .ok [] ∧ setSymmetricDifference ops x x = .ok [] := by
  have hself : ∀ a ∈ nub ops.eq x, x.any (fun b => ops.eq a b) = true := fun a ha =>
    (any_iff_mem he x a).2 ⟨a, mem_nub_of_mem ha, he.refl a⟩
  have hd : (nub ops.eq x).filter (fun a => !x.any (fun b => ops.eq a b)) = [] := by
    rw [List.filter_eq_nil_iff]
    intro a ha
    rw [hself a ha]
    simp
  refine ⟨?_, ?_, ?_, ?_⟩
  · rw [setIntersect_ok he x x hn, C04_unique he x hn, List.filter_eq_self.2 hself]
  · rw [setUnion_ok he x x hn hn, C04_unique he x hn]
    rw [nub_append, List.filter_eq_nil_iff.2, List.append_nil]
    intro a ha
    rw [any_flip he, hself a ha]
    simp
  · rw [setDifference_ok he x x hn, hd]
  · obtain ⟨a, b, h1, h2, h3⟩ := C09_symmetric_differences he x x hn hn
    rw [setDifference_ok he x x hn, hd] at h1 h2
    cases h1
    cases h2
    exact h3

example : setUnion exOps10 [3, 2, 13] [15, 3, 5, 12, 4] = vecUnique exOps10 [3, 2, 13, 15, 3, 5, 12, 4] ∧
    vecUnique exOps10 [3, 2, 13, 15, 3, 5, 12, 4] = .ok [3, 2, 15, 4] := by decide +kernel

example : setDifference exOps10 [3, 2, 13, 1] [15, 3, 5, 4, 11] = .ok [2] ∧
    setDifference exOps10 [15, 3, 5, 4, 11] [3, 2, 13, 1] = .ok [15, 4] ∧
    setSymmetricDifference exOps10 [3, 2, 13, 1] [15, 3, 5, 4, 11] = .ok [2, 15, 4] := by decide +kernel

example : setDifference exOps10 [3, 2, 13, 1] [15, 3, 11] = .ok [2] ∧
    setDifference exOps10 [3, 2, 13, 1] [2] = .ok [3, 1] ∧
    setIntersect exOps10 [3, 2, 13, 1] [15, 3, 11] = .ok [3, 1] := by decide +kernel

end Vctrs
