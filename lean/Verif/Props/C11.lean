import Verif.Lemmas.Group
import Verif.Props.Ex

/-! # C11: vec_group_rle -/

namespace Vctrs

open Spec

variable {α : Type} {ops : PolyOps α}

theorem rleExpand_length (R : List (Nat × Nat)) :
    (rleExpand R).length = (R.map (·.2)).sum := by
  simp [rleExpand, List.length_flatMap]

/-- Expanding the encoding gives `vec_group_id(x)`; lengths are positive and add up to the
size; adjacent groups differ; the attribute `n` agrees. -/
theorem C11_group_rle (he : EqvHash ops) (x : List α) (hn : x.length ≤ 2147483647) :
    ∃ g l n ids, groupRle ops x = .ok (g, l, n) ∧ groupId ops x = .ok (ids, n) ∧
      g.length = l.length ∧
      (g.zip l).flatMap (fun r => List.replicate r.2 r.1) = ids ∧
      (∀ k ∈ l, 0 < k) ∧ l.sum = x.length ∧
      (∀ (i u v : Nat), g[i]? = some u → g[i + 1]? = some v → u ≠ v) := by
  obtain ⟨R, h1, h2, h3, h4⟩ := groupRle_ok he x hn
  refine ⟨_, _, _, _, h1, groupId_ok he x hn, by simp, ?_, ?_, ?_, ?_⟩
  · rw [← h2, List.zip_map', rleExpand]
    simp
  · intro k hk
    obtain ⟨r, hr, rfl⟩ := List.mem_map.1 hk
    exact h3 r hr
  · rw [← rleExpand_length, h2]; simp
  · intro i u v hu hv
    rw [List.getElem?_map] at hu hv
    cases hi : R[i]? with
    | none => simp [hi] at hu
    | some r =>
      cases hi' : R[i + 1]? with
      | none => simp [hi'] at hv
      | some r' =>
        simp [hi] at hu
        simp [hi'] at hv
        rw [← hu, ← hv]
        obtain ⟨a1, a2⟩ := List.getElem?_eq_some_iff.1 hi
        obtain ⟨b1, b2⟩ := List.getElem?_eq_some_iff.1 hi'
        have := List.isChain_iff_getElem.1 h4 i b1
        rw [a2, b2] at this
        exact this

example : groupRle exOps10 [3, 13, 2, 2, 12, 3, 7] = .ok ([1, 2, 1, 3], [2, 3, 1, 1], 3) := by
  decide +kernel

end Vctrs
