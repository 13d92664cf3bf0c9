import Verif.Lemmas.Size

/-!
# C02: vec_recycle and vec_recycle_common
-/

namespace Vctrs

open Spec

variable {α : Type}

/-- `vec_recycle(x, size)` succeeds iff `x` has that size or size 1; then it is `x` itself or its
only value repeated. -/
theorem C02_recycle (na : α) (x : List α) (n : Nat) :
    (x.length = n → ffiRecycle na (.vec x) [(n : Int)] = .ok (.vec x)) ∧
    (∀ a, x = [a] → ffiRecycle na (.vec x) [(n : Int)] = .ok (.vec (List.replicate n a))) ∧
    (x.length ≠ n → x.length ≠ 1 → ffiRecycle na (.vec x) [(n : Int)] = .error .abort) := by
  have h : ffiRecycle na (.vec x) [(n : Int)] = vecCheckRecycle na (.vec x) n := rfl
  rw [h, vecCheckRecycle_ok]
  refine ⟨?_, ?_, ?_⟩
  · rintro rfl
    split
    · rfl
    · simp
  · rintro a rfl; rfl
  · intro h1 h2
    split
    · simp at h2
    · rw [if_neg h1]

/-- The size of a recycled vector is the requested one. -/
theorem C02_size (na : α) (x y : List α) (n : Nat)
    (h : ffiRecycle na (.vec x) [(n : Int)] = .ok (.vec y)) : y.length = n := by
  obtain ⟨h1, h2, h3⟩ := C02_recycle na x n
  by_cases hx : x.length = n
  · rw [h1 hx] at h; cases h; exact hx
  · by_cases hx1 : x.length = 1
    · obtain ⟨a, rfl⟩ := List.length_eq_one_iff.1 hx1
      rw [h2 a rfl] at h; cases h; simp
    · rw [h3 hx hx1] at h; cases h

/-- Recycling once to the common size never fails and gives every non-`NULL` input that size. -/
theorem C02_recycle_common (na : α) (xs : List (Arg α)) (n : Nat)
    (hv : .scalar ∉ xs) (hn : CommonSize (argSizes xs) n) :
    ∃ ys, ffiRecycleCommon na xs = .ok ys ∧ ys.length = xs.length ∧
      ∀ i : Nat, (xs[i]? = some .null → ys[i]? = some .null) ∧
        (∀ x, xs[i]? = some (.vec x) → x.length = n → ys[i]? = some (.vec x)) ∧
        (∀ a, xs[i]? = some (.vec [a]) → ys[i]? = some (.vec (List.replicate n a))) := by
  have hflat := flat_plain xs
  have hsz : vecSizeCommon (xs.map .plain) (-1) = .ok (n : Int) := by
    rcases vecSizeCommon_cases (xs.map Dot.plain) (-1) with ⟨h1, _⟩ | ⟨_, ⟨h1, _⟩ | ⟨m, h1, h2⟩ | ⟨h1, _⟩⟩
    · rw [hflat] at h1; exact absurd h1 hv
    · rw [hflat] at h1; rw [h1] at hn; exact absurd hn.1 (by simp)
    · rw [hflat] at h1; rw [commonSize_unique hn h1]; exact h2
    · rw [hflat] at h1; exact absurd h1 (commonSize_not_conflict hn)
  -- what each input becomes
  let rec1 : Arg α → Arg α := fun x => match x with
    | .vec [a] => .vec (List.replicate n a)
    | x => x
  have hstep : ∀ x ∈ xs, vecCheckRecycle na x n = .ok (rec1 x) := by
    intro x hx
    cases x with
    | null => rfl
    | scalar => exact absurd hx hv
    | vec a =>
      rw [vecCheckRecycle_ok]
      have hmem : a.length ∈ argSizes xs := by
        simp only [argSizes, List.mem_filterMap]
        exact ⟨.vec a, hx, rfl⟩
      have := hn.2 _ hmem
      match a with
      | [] => simp at this; simp [this, rec1]
      | [b] => rfl
      | b :: c :: l => simp at this; simp [this, rec1]
  have hret : Ret (vecRecycleCommonOpts na xs n) (fun ys => ys = xs.map rec1) := by
    simp only [vecRecycleCommonOpts]
    rw [if_neg (by omega)]
    refine Ret.mono (Ret.forN (fun i (s : List (Arg α)) =>
      s = (xs.take i).map rec1 ++ xs.drop i) (by simp) ?_) ?_
    · rintro i s hi rfl
      have hri : rd ((xs.take i).map rec1 ++ xs.drop i) i = .ok xs[i] := by
        apply rd_of_getElem?
        rw [List.getElem?_append_right (by simp)]
        simp [hi, Nat.min_eq_left (Nat.le_of_lt hi)]
      refine Ret.bind_eq hri (Ret.bind_eq (hstep _ (List.getElem_mem hi)) ?_)
      refine Ret.of_eq (wr_ok (by simp; omega)) ?_
      rw [List.set_append_right _ _ (by simp), List.take_add_one, List.getElem?_eq_getElem hi]
      simp only [List.length_map, List.length_take, Nat.min_eq_left (Nat.le_of_lt hi), Nat.sub_self,
        List.map_append, List.append_assoc]
      congr 1
      conv_lhs => rw [List.drop_eq_getElem_cons hi]
      rfl
    · rintro s rfl
      simp
  obtain ⟨ys, h1, rfl⟩ := hret
  refine ⟨xs.map rec1, ?_, by simp, ?_⟩
  · simp only [ffiRecycleCommon, hsz, ok_bind, h1]
  · intro i
    refine ⟨fun h => by simp [h, rec1], fun x h hx => ?_, fun a h => by simp [h, rec1]⟩
    simp only [List.getElem?_map, h, Option.map_some]
    match x with
    | [] => rfl
    | [b] => simp at hx; subst hx; simp [rec1]
    | b :: c :: l => rfl

/-- When there is no common size recycling fails with the same user error. -/
theorem C02_recycle_common_fails (na : α) (xs : List (Arg α)) (hc : SizeConflict (argSizes xs)) :
    ffiRecycleCommon na xs = .error .abort := by
  have hflat := flat_plain xs
  have : vecSizeCommon (xs.map .plain) (-1) = .error .abort := by
    rcases vecSizeCommon_cases (xs.map Dot.plain) (-1) with ⟨_, h⟩ | ⟨_, ⟨h1, _⟩ | ⟨m, h1, h2⟩ | ⟨_, h⟩⟩
    · exact h
    · rw [hflat] at h1; obtain ⟨s, hs, _⟩ := hc; rw [h1] at hs; simp at hs
    · rw [hflat] at h1; exact absurd hc (commonSize_not_conflict h1)
    · exact h
  simp only [ffiRecycleCommon, this, error_bind]

/-- The R entry point reads the first element of `size` without checking that there is one
(src/size.c:245): `vec_recycle(x, integer())` is an out-of-bounds read. -/
theorem C02_recycle_empty_size (na : α) (x : List α) : ffiRecycle na (.vec x) [] = .error .ub := rfl

/-- A negative size reaches an internal error rather than a user error (src/utils.c:896-898). -/
theorem C02_recycle_negative (na a : α) (n : Int) (h : n < 0) :
    ffiRecycle na (.vec [a]) [n] = .error .internal := by
  have h1 : ¬ (([a].length : Int) = n) := by simp; omega
  have : ffiRecycle na (.vec [a]) [n] = vecCheckRecycle na (.vec [a]) n := rfl
  rw [this]
  unfold vecCheckRecycle
  simp only [if_neg h1]
  rw [if_pos (by simp)]
  unfold compactRep
  rw [if_pos h]
  rfl

example : ffiRecycle 0 (.vec [7]) [3] = .ok (.vec [7, 7, 7]) := by decide +kernel
example : ffiRecycle 0 (.vec [7]) [0] = .ok (.vec []) := by decide +kernel
example : ffiRecycleCommon 0 [.vec [7], .null, .vec [1, 2, 3]] =
    .ok [.vec [7, 7, 7], .null, .vec [1, 2, 3]] := by decide +kernel
example : CommonSize (argSizes [.vec [7], .null, .vec [1, 2, 3]]) 3 :=
  ⟨by decide +kernel, by decide +kernel⟩
example : SizeConflict (argSizes [.vec [7, 8], .null, .vec [1, 2, 3]]) :=
  ⟨2, by decide, 3, by decide, by omega, by omega, by omega⟩

end Vctrs
