import Verif.Props.C46
import Verif.Props.C49

/-!
# C49: slicing an array twice

No new model.
-/

namespace Vctrs

open Spec

variable {α : Type}

/-- Every element has a multi-index. -/
theorem offset_surj : ∀ (ds : List Nat) (k : Nat), k < ds.prod → ∃ js, ValidIndex ds js ∧ arrayOffset ds js = k
  | [], k, h => ⟨[], trivial, by simp at h; simp [arrayOffset, h]⟩
  | d :: ds, k, h => by
    rw [List.prod_cons] at h
    have hd : 0 < d := Nat.pos_of_ne_zero (fun h0 => by rw [h0] at h; simp at h)
    obtain ⟨js, h1, h2⟩ := offset_surj ds (k / d) (Nat.div_lt_of_lt_mul h)
    exact ⟨k % d :: js, ⟨Nat.mod_lt _ hd, h1⟩, by simp only [arrayOffset, h2]; exact Nat.mod_add_div k d⟩

/-- `vec_slice(vec_slice(x, i), j)` is `vec_slice(x, vec_slice(i, j))` for an array `x`; `i` and `j` may have missing
locations.  Full statement: without `hfit` and `hfit'`, see `C49_slice_array_partial`. -/
theorem C49_slice_slice_partial (na : α) {d : Nat} {ds : List Nat} {x : List α} {l t : List Int}
    (hfit : DimsFit (d :: ds)) (hfit' : DimsFit (l.length :: ds)) (hx : x.length = (d :: ds).prod)
    (hl : SubscriptOk d (.locs l)) (ht : SubscriptOk l.length (.locs t)) :
    ∃ y lt z, sliceShaped na (d :: ds) x (.locs l) = .ok (l.length :: ds, y) ∧
      sliceBase naInt l (.locs t) = .ok lt ∧
      sliceShaped na (l.length :: ds) y (.locs t) = .ok (t.length :: ds, z) ∧
      sliceShaped na (d :: ds) x (.locs lt) = .ok (t.length :: ds, z) := by
  have hsz : ∀ m : List Int, (subscriptSize (.locs m)).toNat = m.length := by simp [subscriptSize]
  obtain ⟨y, h1, h2, h3⟩ := C49_slice_array_partial na hfit hx hl (by intro i n h; cases h)
  rw [hsz] at h1 h2 h3
  obtain ⟨lt, h4, h5, h6⟩ := C46_slice naInt ht
  rw [hsz] at h5 h6
  obtain ⟨z, h7, h8, h9⟩ := C49_slice_array_partial na hfit' (x := y) (by rw [h2, List.prod_cons]) ht
    (by intro i n h; cases h)
  rw [hsz] at h7 h8 h9
  have hlt : SubscriptOk d (.locs lt) := by
    intro v hv
    obtain ⟨i, hi⟩ := List.mem_iff_getElem?.1 hv
    have hil : i < lt.length := (List.getElem?_eq_some_iff.1 hi).1
    obtain ⟨loc, _, h10⟩ := h6 i (by omega)
    rw [hi] at h10
    split at h10
    · cases h10; exact .inl rfl
    · exact hl v (List.mem_of_getElem? h10.symm)
  obtain ⟨w, g1, g2, g3⟩ := C49_slice_array_partial na hfit hx hlt (by intro i n h; cases h)
  rw [hsz, h5] at g1 g2 g3
  refine ⟨y, lt, z, h1, h4, h7, ?_⟩
  rw [g1]
  congr 2
  apply List.ext_getElem?
  intro k
  by_cases hk : k < t.length * ds.prod
  · obtain ⟨js, hv, rfl⟩ := offset_surj (t.length :: ds) k (by rw [List.prod_cons]; exact hk)
    cases js with
    | nil => exact hv.elim
    | cons i js =>
      obtain ⟨hi, hjs⟩ := hv
      obtain ⟨loc, e1, e2⟩ := h9 i js hi hjs
      obtain ⟨loc', e3, e4⟩ := h6 i hi
      rw [e1] at e3
      cases e3
      obtain ⟨v, e5, e6⟩ := g3 i js hi hjs
      simp only [subscriptAt] at e5
      rw [e2, e6]
      rw [e5] at e4
      split at e4
      · rename_i hna
        cases e4
        rw [if_pos rfl, if_pos hna]
      · rename_i hna
        rw [if_neg hna]
        have hp : (loc - 1).toNat < l.length := (List.getElem?_eq_some_iff.1 e4.symm).1
        obtain ⟨v', e7, e8⟩ := h3 (loc - 1).toNat js hp hjs
        simp only [subscriptAt] at e7
        rw [← e4] at e7
        cases e7
        rw [e8]
  · rw [List.getElem?_eq_none (by omega), List.getElem?_eq_none (by omega)]

/-- A 2 × 3 array sliced at rows 2, NA, 1, and then at rows 3, NA, 1, 2. -/
example : sliceShaped (-1) [2, 3] [0, 1, 2, 3, 4, 5] (.locs [2, naInt, 1]) =
      .ok ([3, 3], [1, -1, 0, 3, -1, 2, 5, -1, 4]) ∧
    sliceBase naInt [2, naInt, 1] (.locs [3, naInt, 1, 2]) = .ok [1, naInt, 2, naInt] ∧
    sliceShaped (-1) [3, 3] [1, -1, 0, 3, -1, 2, 5, -1, 4] (.locs [3, naInt, 1, 2]) =
      .ok ([4, 3], [0, -1, 1, -1, 2, -1, 3, -1, 4, -1, 5, -1]) ∧
    sliceShaped (-1) [2, 3] [0, 1, 2, 3, 4, 5] (.locs [1, naInt, 2, naInt]) =
      .ok ([4, 3], [0, -1, 1, -1, 2, -1, 3, -1, 4, -1, 5, -1]) := by decide +kernel
example : DimsFit [2, 3] ∧ DimsFit [3, 3] ∧ SubscriptOk 2 (.locs [2, naInt, 1]) ∧
    SubscriptOk 3 (.locs [3, naInt, 1, 2]) := by
  refine ⟨dimsFit_of_pos (by decide) (by decide), dimsFit_of_pos (by decide) (by decide), ?_, ?_⟩
  · intro v hv; simp at hv; rcases hv with rfl | rfl | rfl <;> simp [naInt]
  · intro v hv; simp at hv; rcases hv with rfl | rfl | rfl | rfl <;> simp [naInt]

end Vctrs
