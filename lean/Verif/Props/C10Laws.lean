import Verif.Props.C10

/-!
# C10: the ids of the ids

No new model.
-/

namespace Vctrs

open Spec

variable {α : Type} {ops : PolyOps α}

/-- The ids of the ids are the ids, with the same number of groups: `vec_group_id()` is idempotent. -/
theorem C10_again (he : EqvHash ops) {iops : PolyOps Nat} (hi : EqvHash iops)
    (heq : ∀ a b, iops.eq a b = (a == b)) (x : List α) (hn : x.length ≤ 2147483647) :
    ∃ out n, groupId ops x = .ok (out, n) ∧ groupId iops out = .ok (out, n) := by
  obtain ⟨out, n, h1, h2, h3, _, h5, h6⟩ := C10_group_id he x hn
  refine ⟨out, n, h1, ?_⟩
  have hf : iops.eq = fun a b => a == b := by funext a b; exact heq a b
  have hg := groupId_ok hi out (by rw [h2]; exact hn)
  rw [hg, hf, h6]
  congr 2
  · conv => rhs; rw [← List.map_id out]
    refine List.map_congr_left (fun a ha => ?_)
    have ha' := (h5 a).1 ha
    simp only [id]
    unfold classOf
    rw [h6]
    have hlt : a - 1 < ((List.range n).map (· + 1)).length := by simp; omega
    have hfi : List.findIdx (fun b => b == a) ((List.range n).map (· + 1)) = a - 1 := by
      rw [List.findIdx_eq hlt]
      refine ⟨by simp; omega, ?_⟩
      intro j hj
      simp
      omega
    have hfi' : List.findIdx (fun b => (fun a b => a == b) b a) ((List.range n).map (· + 1)) = a - 1 := hfi
    omega
  · simp

example : groupId exOps10 [3, 2, 13, 7, 12, 5] = .ok ([1, 2, 1, 3, 2, 4], 4) ∧
    groupId exOps [1, 2, 1, 3, 2, 4] = .ok ([1, 2, 1, 3, 2, 4], 4) := by decide +kernel
example : ∃ out n, groupId exOps10 [3, 2, 13, 7, 12, 5] = .ok (out, n) ∧ groupId exOps out = .ok (out, n) :=
  C10_again exOps10_eqv exOps_eqv (fun _ _ => rfl) _ (by decide)

end Vctrs
