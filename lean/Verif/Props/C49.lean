import Verif.Lemmas.Assign

/-!
# C49: slicing an array selects whole rows in every higher dimension

`arrayOffset dims js` is the column-major position of the multi-index `js`.
-/

namespace Vctrs

open Spec

variable {α : Type}

/-- No partial product of the dimensions computed by `vec_strides()` and `new_strides_info()`
leaves the range of `int`; implied by a total size within `int` when no extent is zero. -/
def DimsFit (dim : List Nat) : Prop :=
  dim.prod ≤ intMax ∧ ∀ k ≤ dim.length, (dim.take k).prod ≤ intMax ∧ (dim.tail.take k).prod ≤ intMax

theorem take_prod_le {l : List Nat} (h : ∀ e ∈ l, 0 < e) (k : Nat) : (l.take k).prod ≤ l.prod := by
  conv_rhs => rw [← List.take_append_drop k l, List.prod_append_nat]
  refine Nat.le_mul_of_pos_right _ ?_
  have : ∀ e ∈ l.drop k, 0 < e := fun e he => h e (List.mem_of_mem_drop he)
  generalize l.drop k = m at this
  induction m with
  | nil => simp
  | cons a m ih =>
    rw [List.prod_cons]
    exact Nat.mul_pos (this a (by simp)) (ih (fun e he => this e (by simp [he])))

/-- Arrays without zero extents: the total size decides. -/
theorem dimsFit_of_pos {dim : List Nat} (h : ∀ e ∈ dim, 0 < e) (ht : dim.prod ≤ intMax) :
    DimsFit dim := by
  refine ⟨ht, fun k _ => ⟨Nat.le_trans (take_prod_le h k) ht, ?_⟩⟩
  cases dim with
  | nil => simp [intMax]
  | cons d ds =>
    refine Nat.le_trans (take_prod_le (fun e he => h e (by simp at he; simp [he])) k) ?_
    simp only [List.tail_cons]
    rw [List.prod_cons] at ht
    exact Nat.le_trans (Nat.le_mul_of_pos_left _ (h d (by simp))) ht

theorem dimOk_of_fit {d : Nat} {ds : List Nat} (h : DimsFit (d :: ds)) : DimOk d ds := by
  refine ⟨fun k hk => ?_, fun k hk => ?_, by simpa using h.1⟩
  · have := (h.2 (k + 1) (by simp; omega)).1
    simpa using this
  · simpa using (h.2 k (by simp; omega)).2

/-- **C49** (`vec_slice()` of an array with dimensions `d :: ds`): for every subscript, in every
representation, the call reads no memory outside the data, the result has dimensions `m :: ds` where
`m` is the number of locations, and at every multi-index `(i, js)` it holds the element at
`(location i, js)`, or the missing value where location `i` is missing.

Partial: products of dimensions have to fit `int` (`DimsFit`; also the result's size, for a
repeated subscript).  The code computes these products in `int`, and larger or degenerate arrays
do overflow, see `C49_strides_overflow` and `C49_missing_overflow`. -/
theorem C49_slice_array_partial (na : α) {d : Nat} {ds : List Nat} {x : List α} {s : Subscript}
    (hfit : DimsFit (d :: ds)) (hx : x.length = (d :: ds).prod) (hs : SubscriptOk d s)
    (hrep : ∀ i n, s = .rep i n → n.toNat * ds.prod ≤ intMax) :
    ∃ out, sliceShaped na (d :: ds) x s = .ok ((subscriptSize s).toNat :: ds, out) ∧
      out.length = (subscriptSize s).toNat * ds.prod ∧
      ∀ i js, i < (subscriptSize s).toNat → ValidIndex ds js → ∃ loc, subscriptAt s i = some loc ∧
        out[arrayOffset ((subscriptSize s).toNat :: ds) (i :: js)]? =
          if loc = naInt then some na
          else x[arrayOffset (d :: ds) ((loc - 1).toNat :: js)]? := by
  have hok := dimOk_of_fit hfit
  rw [List.prod_cons] at hx
  have hd : d ≤ intMax := by simpa using (hfit.2 1 (by simp)).1
  suffices key : Ret (sliceShaped na (d :: ds) x s) (fun r => r.1 = (subscriptSize s).toNat :: ds ∧
      r.2.length = (subscriptSize s).toNat * ds.prod ∧
      ∀ k v, r.2[k]? = some v → ArrVal na d x (subscriptSize s).toNat (subscriptAt s) k v) by
    obtain ⟨⟨dim, out⟩, hr, h1, h2, h3⟩ := key
    simp only at h1 h2 h3
    refine ⟨out, by rw [hr, h1], h2, ?_⟩
    intro i js hi hjs
    have hlt : (subscriptSize s).toNat * arrayOffset ds js + i < out.length := by
      rw [h2]; exact col_lt (offset_lt hjs) hi
    have := (arrVal_at hi).1 (h3 _ _ (List.getElem?_eq_getElem hlt))
    obtain ⟨w, hw, hv⟩ := this
    refine ⟨w, hw, ?_⟩
    simp only [arrayOffset]
    rw [Nat.add_comm, List.getElem?_eq_getElem hlt]
    rcases hv with ⟨h4, h5⟩ | ⟨h4, h5, h6⟩
    · rw [if_pos h4, h5]
    · rw [if_neg h4, ← h6, Nat.add_comm]
  have weaken : ∀ {m : Nat} {f g : Nat → Option Int} {c : C (List Nat × List α)},
      (∀ j, j < m → f j = g j) →
      Ret c (fun r => r.1 = m :: ds ∧ r.2.length = m * ds.prod ∧
        ∀ k v, r.2[k]? = some v → ArrVal na d x m f k v) →
      Ret c (fun r => r.1 = m :: ds ∧ r.2.length = m * ds.prod ∧
        ∀ k v, r.2[k]? = some v → ArrVal na d x m g k v) := by
    intro m f g c hfg h
    refine h.mono ?_
    rintro r ⟨h1, h2, h3⟩
    refine ⟨h1, h2, fun k v hv => ?_⟩
    obtain ⟨w, hw, h4⟩ := h3 k v hv
    have hk : k < m * ds.prod := by rw [← h2]; exact (List.getElem?_eq_some_iff.1 hv).1
    have hm : 0 < m := Nat.pos_of_ne_zero (fun h0 => by rw [h0] at hk; simp at hk)
    exact ⟨w, by rw [← hfg _ (Nat.mod_lt _ hm)]; exact hw, h4⟩
  cases s with
  | rep i n =>
    obtain ⟨h0, h1⟩ := hs
    obtain ⟨m, rfl⟩ := Int.eq_ofNat_of_zero_le h0
    have := sliceShapedRep_ok na hok hx (n := m) (by simpa using hrep i m rfl) h1
    refine weaken ?_ this
    intro j hj
    have : (j : Int) < (m : Int) := by
      have : j < m := hj
      omega
    exact (if_pos this).symm
  | seq start n step =>
    obtain ⟨h0, h1, h2, h3, h4⟩ := hs
    obtain ⟨m, rfl⟩ := Int.eq_ofNat_of_zero_le h0
    have := sliceShapedSeq_ok na hok hx (n := m) (start := start) (step := step) h1 h2 (by
      rcases Nat.eq_zero_or_pos m with h | h
      · exact Or.inr ⟨h, h3⟩
      · have := h4 0 (by omega)
        simp at this
        exact Or.inl this.2) (fun j hj => h4 j (by omega))
    refine weaken ?_ this
    intro j hj
    have : (j : Int) < (m : Int) := by
      have : j < m := hj
      omega
    exact (if_pos this).symm
  | locs l =>
    have := sliceShapedIndex_ok na hok hx hd hs
    exact weaken (fun j _ => rfl) this

/-- A 2 × 3 × 2 array sliced at rows 2, NA, 1. -/
example : sliceShaped (-1) [2, 3, 2] [0, 1, 2, 3, 4, 5, 6, 7, 8, 9, 10, 11] (.locs [2, naInt, 1]) =
    .ok ([3, 3, 2], [1, -1, 0, 3, -1, 2, 5, -1, 4, 7, -1, 6, 9, -1, 8, 11, -1, 10]) := by
  decide +kernel

example : DimsFit [2, 3, 2] ∧ SubscriptOk 2 (.locs [2, naInt, 1]) ∧
    SubscriptOk 2 (.seq 1 2 (-1)) ∧ SubscriptOk 2 (.rep naInt 3) := by
  refine ⟨dimsFit_of_pos (by decide) (by decide), ?_, ⟨by omega, Or.inr rfl, by omega, by omega, ?_⟩,
    by omega, Or.inl rfl⟩
  · intro v hv; simp at hv; rcases hv with rfl | rfl | rfl <;> simp [naInt]
  · intro j hj; omega

/-- An array with a zero extent. -/
example : DimsFit [3, 0, 7] := by
  refine ⟨by decide, fun k hk => ?_⟩
  have : k ≤ 3 := hk
  rcases show k = 0 ∨ k = 1 ∨ k = 2 ∨ k = 3 by omega with rfl | rfl | rfl | rfl <;> decide

/-- The same offsets are computed in `int`: for every array with at least three dimensions whose
first two extents multiply to more than `INT_MAX` (65536 × 65536 × 1, or the empty 65536 × 65536 ×
0), `vec_strides()` overflows, whatever the subscript. -/
theorem C49_strides_overflow (na : α) {d e f : Nat} {ds : List Nat} (x : List α) (s : Subscript)
    (hd : d ≤ intMax) (h : intMax < d * e) : sliceShaped na (d :: e :: f :: ds) x s = .error .ub := by
  have hst : vecStrides (d :: e :: f :: ds) (ds.length + 2) = .error .ub := by
    unfold vecStrides
    refine bind_err_of ?_
    rw [show ds.length + 2 = 1 + 1 + ds.length by omega]
    have e1 : ∀ (g : Nat → List (Option Nat) × Nat → C (List (Option Nat) × Nat)) (n : Nat) s,
        forN (1 + 1 + n) g s = (do
          let s ← g 0 s
          let s ← g 1 s
          forFrom g 2 n s) := by
      intro g n s
      unfold forN
      rw [show 1 + 1 + n = n + 1 + 1 by omega]
      rfl
    rw [e1]
    simp only [rd, List.getElem?_cons_zero, List.getElem?_cons_succ, ok_bind, Nat.one_mul]
    rw [chkNat_ok hd]
    simp only [ok_bind]
    rw [wr_ok (by simp)]
    simp only [ok_bind]
    have : chkNat (d * e) = .error .ub := if_pos h
    rw [this]
    rfl
  have hinfo : newStridesInfo (d :: e :: f :: ds) = .error .ub := by
    unfold newStridesInfo
    exact bind_err_of hst
  cases s with
  | rep i n => exact bind_err_of hinfo
  | seq a b c => exact bind_err_of hinfo
  | locs l => exact bind_err_of hinfo

example : (65536 : Nat) ≤ intMax ∧ intMax < 65536 * 65536 := by decide

/-- An empty array suffices: no element exists and none is selected. -/
example : sliceShaped 0 [65536, 65536, 0] [] (.locs []) = .error .ub :=
  C49_strides_overflow 0 [] _ (by decide) (by decide)

/-- Filling `vec_init(x, n)` for an array multiplies the shape and `n` in `int`. -/
theorem C49_missing_overflow (na : α) {d : Nat} {ds : List Nat} (x : List α) {n : Nat}
    (hfit : DimsFit (d :: ds)) (h : intMax < ds.prod * n) :
    sliceShaped na (d :: ds) x (.rep naInt n) = .error .ub := by
  have hok := dimOk_of_fit hfit
  have hinfo : newStridesInfo (d :: ds) = .ok ⟨d :: ds,
      (List.range ds.length).map (fun k => d * (ds.take k).prod), ds.length, ds.prod⟩ := by
    simp only [newStridesInfo, List.length_cons, Nat.add_sub_cancel, vecStrides_ok hok,
      shapeElemN_ok hok, ok_bind]
  have : chkNat (ds.prod * n) = .error .ub := if_pos h
  simp only [sliceShaped, sliceShapedRep, hinfo, ok_bind, if_true, Int.toNat_natCast, this]
  rfl

example : DimsFit [1, 2] ∧ intMax < [2].prod * 1073741824 :=
  ⟨dimsFit_of_pos (by decide) (by decide), by decide⟩

end Vctrs
