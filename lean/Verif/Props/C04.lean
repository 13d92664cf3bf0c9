import Verif.Props.Ex

/-! # C04: vec_unique keeps the first occurrence of every distinct value, in order -/

namespace Vctrs

open Spec

variable {α : Type} {ops : PolyOps α}

/-- `vec_unique_loc(x)` lists, in increasing order, exactly the (one-based) positions no
earlier element of which equals them. -/
theorem C04_unique_loc (he : EqvHash ops) (x : List α) (hn : x.length ≤ 2147483647) :
    ∃ loc, uniqueLoc ops x = .ok loc ∧ loc.Pairwise (· < ·) ∧
      ∀ l, l ∈ loc ↔ ∃ i, l = i + 1 ∧ IsFirst ops.eq x i := by
  refine ⟨_, uniqueLoc_ok he x hn, ?_, ?_⟩
  · rw [List.pairwise_map]
    unfold firsts
    refine List.Pairwise.imp ?_ (List.Pairwise.sublist List.filter_sublist List.pairwise_lt_range)
    intro a b h; omega
  · intro l
    simp only [List.mem_map, mem_firsts]
    constructor
    · rintro ⟨i, ⟨_, hf⟩, rfl⟩; exact ⟨i, rfl, hf⟩
    · rintro ⟨i, rfl, hf⟩
      refine ⟨i, ⟨?_, hf⟩, rfl⟩
      obtain ⟨b, hb, _⟩ := hf
      exact (List.getElem?_eq_some_iff.1 hb).1

/-- `vec_unique(x)` is the list of first occurrences. -/
theorem C04_unique (he : EqvHash ops) (x : List α) (hn : x.length ≤ 2147483647) :
    vecUnique ops x = .ok (nub ops.eq x) := by
  unfold vecUnique
  rw [uniqueLoc_ok he x hn, ok_bind]
  exact sliceLoc_firsts x

/-- No two elements of `vec_unique(x)` are equal, its elements come from `x`, and every
element of `x` equals one of them. -/
theorem C04_unique_distinct_covers (he : EqvHash ops) (x : List α) (hn : x.length ≤ 2147483647) :
    ∃ u, vecUnique ops x = .ok u ∧ u.Pairwise (fun a b => ops.eq a b = false) ∧
      (∀ a ∈ u, a ∈ x) ∧ ∀ a ∈ x, ∃ b ∈ u, ops.eq b a = true :=
  ⟨_, C04_unique he x hn, nub_pairwise _ _, fun _ h => mem_nub_of_mem h,
    fun a h => nub_covers he.refl he.trans x a h⟩

example : uniqueLoc exOps [4, 2, 4, 7, 2, 9] = .ok [1, 2, 4, 6] ∧
    vecUnique exOps10 [14, 2, 4, 7, 12, 9] = .ok [14, 2, 7, 9] := by decide +kernel

end Vctrs
