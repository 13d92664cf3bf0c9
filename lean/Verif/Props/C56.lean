import Verif.Lemmas.Chop

/-!
# C56: vec_c concatenates
-/

namespace Vctrs

variable {α : Type}

/-- **C56** (`vec_c()`, also `list_unchop()` without indices): the concatenation of the non-`NULL`
inputs in order. -/
theorem C56_concat (na : α) {xs : List (Option (List α))} (hx : ∃ x ∈ xs, x ≠ none)
    (hn : (xs.filterMap id).flatten.length ≤ intMax) :
    vecC na xs = .ok (some (xs.filterMap id).flatten) := vecC_ok na hx hn

example : vecC 0 [some [1, 2], none, some [], some [3]] = .ok (some [1, 2, 3]) := by decide +kernel
example : ∃ x ∈ [some [1, 2], none, some ([] : List Nat), some [3]], x ≠ none := ⟨some [], by simp, by simp⟩

/-- **C56**: only `NULL`s (or nothing) give `NULL`. -/
theorem C56_null (na : α) {xs : List (Option (List α))} (hx : ∀ x ∈ xs, x = none) : vecC na xs = .ok none := by
  unfold vecC
  rw [if_pos]
  rw [List.all_eq_true]
  intro x h
  rw [hx x h]; rfl

example : vecC 0 [(none : Option (List Nat)), none] = .ok none := by decide +kernel

/-- **C56** (associativity): concatenating in two steps gives the same result. -/
theorem C56_assoc (na : α) {xs ys : List (Option (List α))} (hx : ∃ x ∈ xs, x ≠ none)
    (hn : ((xs ++ ys).filterMap id).flatten.length ≤ intMax) :
    ∃ c, vecC na xs = .ok c ∧ vecC na (c :: ys) = vecC na (xs ++ ys) := by
  have h1 : ((xs ++ ys).filterMap id).flatten = (xs.filterMap id).flatten ++ (ys.filterMap id).flatten := by
    rw [List.filterMap_append, List.flatten_append]
  rw [h1, List.length_append] at hn
  refine ⟨_, vecC_ok na hx (by omega), ?_⟩
  rw [vecC_ok na ⟨_, List.mem_cons_self, by simp⟩, vecC_ok na (xs := xs ++ ys), h1]
  · rfl
  · obtain ⟨x, h, h'⟩ := hx
    exact ⟨x, List.mem_append_left _ h, h'⟩
  · rw [h1, List.length_append]; omega
  · simpa using hn

example : vecC 0 [some [1, 2, 3], some [4]] = vecC 0 ([some [1, 2], none, some [3]] ++ [some [4]]) := by
  decide +kernel

end Vctrs
