import Verif.Model.CheckArg
import Verif.Props.C73
import Verif.Props.C79
import Verif.Props.C90
import Verif.Props.C94

/-!
# C94: the size given to `vec_check_size()` and `list_check_all_size()`
-/

namespace Vctrs.Spec

/-- One number `k` is given, as a double or an integer. -/
def WholeGiven : OptObj → Int → Prop
  | .num (.dbl [d]), k => ¬ IsNaN d ∧ dblVal d = k * 2 ^ 1074
  | .num (.int [i]), k => i = k
  | _, _ => False

/-- One double is given that is missing, or below all values of a signed type of 64 bits. -/
def NoSsize : OptObj → Prop
  | .num (.dbl [d]) => IsNaN d ∨ dblVal d < -(2 ^ 63) * 2 ^ 1074
  | _ => False

end Vctrs.Spec

namespace Vctrs
open Spec

variable {β : Type}

theorem tdiv_between {v p : Int} {a b : Nat} (hp : 0 < p) (h1 : -(a : Int) * p ≤ v) (h2 : v ≤ b * p) :
    -(a : Int) ≤ v.tdiv p ∧ v.tdiv p ≤ b := by
  rcases Int.le_total 0 v with hv | hv
  · rw [Int.tdiv_eq_ediv_of_nonneg hv]
    have := Int.ediv_nonneg hv (Int.le_of_lt hp)
    exact ⟨by omega, Int.ediv_le_of_le_mul hp h2⟩
  · obtain ⟨w, rfl⟩ : ∃ w, v = -w := ⟨-v, by omega⟩
    rw [Int.neg_tdiv, Int.tdiv_eq_ediv_of_nonneg (by omega)]
    have h3 := Int.ediv_nonneg (a := w) (by omega) (Int.le_of_lt hp)
    have h4 : w / p ≤ a := Int.ediv_le_of_le_mul hp (by rw [Int.neg_mul] at h1; omega)
    omega

theorem rArgDblAsSsize_one (d : Dbl) :
    (∃ k, (¬ IsNaN d ∧ dblVal d = k * 2 ^ 1074) ∧ k ≤ 2 ^ 52 ∧ ¬ (IsNaN d ∨ dblVal d < -(2 ^ 63) * 2 ^ 1074) ∧
      rArgDblAsSsize [d] = .ok k) ∨
    ((IsNaN d ∨ dblVal d < -(2 ^ 63) * 2 ^ 1074) ∧ rArgDblAsSsize [d] = .error .ub) ∨
    (¬ (IsNaN d ∨ dblVal d < -(2 ^ 63) * 2 ^ 1074) ∧ (∀ k, dblVal d = k * 2 ^ 1074 → 2 ^ 52 < k) ∧
      rArgDblAsSsize [d] = .error .abort) := by
  have hpos : (0 : Int) < 2 ^ 1074 := by decide +kernel
  unfold rArgDblAsSsize
  rw [if_neg (by simp), show rd [d] 0 = .ok d from rfl, ok_bind]
  by_cases hn : IsNaN d
  · refine .inr (.inl ⟨.inl hn, ?_⟩)
    have hnan := (isNan_iff d).2 hn
    rw [if_neg (by unfold dblLtOp; rw [hnan]; simp)]
    unfold dblToSsize
    rw [if_pos hnan]
    rfl
  · have hnan := isNan_false hn
    have e3 : dblLtOp (intToDbl (2 ^ 52)) d = true ↔ 2 ^ 52 * 2 ^ 1074 < dblVal d := by
      have hs := intToDbl_spec (n := 2 ^ 52) (by decide)
      unfold dblLtOp
      rw [hs.1, hnan, hs.2]
      simp only [Bool.not_false, Bool.and_self, Bool.true_and, decide_eq_true_eq]
    by_cases h1 : 2 ^ 52 * 2 ^ 1074 < dblVal d
    · refine .inr (.inr ⟨?_, ?_, if_pos (e3.2 h1)⟩)
      · rintro (h | h)
        · exact hn h
        · have : (0 : Int) < 2 ^ 52 * 2 ^ 1074 := by decide +kernel
          have : -(2 ^ 63) * 2 ^ 1074 < (0 : Int) := by decide +kernel
          omega
      · intro k hk
        rw [hk] at h1
        exact Int.lt_of_mul_lt_mul_right h1 (by omega)
    · rw [if_neg (fun h => h1 (e3.1 h))]
      unfold dblToSsize
      rw [hnan, if_neg (by decide)]
      dsimp only
      by_cases h2 : dblVal d < -(2 ^ 63) * 2 ^ 1074
      · refine .inr (.inl ⟨.inr h2, ?_⟩)
        have hw := Int.emod_add_mul_ediv (dblVal d) (2 ^ 1074)
        rw [dblVal_whole h2, Int.zero_add, Int.mul_comm] at hw
        have h3 : dblVal d / 2 ^ 1074 < -(2 ^ 63) := by
          rw [← hw] at h2
          exact Int.lt_of_mul_lt_mul_right h2 (by omega)
        rw [← hw, Int.mul_tdiv_cancel _ (by omega), if_pos h3]
        rfl
      · have hb := tdiv_between (v := dblVal d) (p := 2 ^ 1074) (a := 2 ^ 63) (b := 2 ^ 52) hpos
          (by rw [← pow_cast]; omega) (by rw [← pow_cast]; omega)
        rw [← pow_cast, ← pow_cast] at hb
        rw [if_neg (by omega), if_neg (by omega), ok_bind]
        by_cases hf : dblVal d = (dblVal d).tdiv (2 ^ 1074) * 2 ^ 1074
        · refine .inl ⟨_, ⟨hn, hf⟩, hb.2, ?_, if_neg (fun h => h hf)⟩
          rintro (h | h)
          · exact hn h
          · exact h2 h
        · refine .inr (.inr ⟨?_, ?_, if_pos hf⟩)
          · rintro (h | h)
            · exact hn h
            · exact h2 h
          · intro k hk
            exact absurd (by rw [hk, Int.mul_tdiv_cancel _ (by omega)]) hf

/-- What `r_arg_as_ssize()` gives. -/
theorem rArgAsSsize_spec (s : OptObj) :
    (∃ k, WholeGiven s k ∧ ¬ NoSsize s ∧ rArgAsSsize s = .ok k ∧ (OptOk s → k ≤ 2 ^ 52)) ∨
    (NoSsize s ∧ rArgAsSsize s = .error .ub) ∨
    (¬ NoSsize s ∧ (∀ k, WholeGiven s k → 2 ^ 52 < k) ∧ rArgAsSsize s = .error .abort) := by
  match s with
  | .null => exact .inr (.inr ⟨id, fun _ h => h.elim, rfl⟩)
  | .chr _ => exact .inr (.inr ⟨id, fun _ h => h.elim, rfl⟩)
  | .other _ => exact .inr (.inr ⟨id, fun _ h => h.elim, rfl⟩)
  | .num (.lgl _) => exact .inr (.inr ⟨id, fun _ h => h.elim, rfl⟩)
  | .num (.int []) => exact .inr (.inr ⟨id, fun _ h => h.elim, rfl⟩)
  | .num (.int [i]) => 
    refine .inl ⟨i, rfl, id, rfl, fun h => ?_⟩
    have : i ≤ intMax := (h i (by simp)).2
    unfold intMax at this
    omega
  | .num (.int (_ :: _ :: l)) => exact .inr (.inr ⟨id, fun _ h => h.elim, by unfold rArgAsSsize; exact if_pos (by simp)⟩)
  | .num (.dbl []) => exact .inr (.inr ⟨id, fun _ h => h.elim, rfl⟩)
  | .num (.dbl (_ :: _ :: l)) =>
    exact .inr (.inr ⟨id, fun _ h => h.elim, by unfold rArgAsSsize rArgDblAsSsize; exact if_pos (by simp)⟩)
  | .num (.dbl [d]) =>
    rcases rArgDblAsSsize_one d with ⟨k, h1, h4, h2, h3⟩ | ⟨h1, h2⟩ | ⟨h1, h2, h3⟩
    · exact .inl ⟨k, h1, h2, h3, fun _ => h4⟩
    · exact .inr (.inl ⟨h1, h2⟩)
    · exact .inr (.inr ⟨h1, fun k hk => h2 k hk.2, h3⟩)

theorem wholeGiven_unique {s : OptObj} {k l : Int} (h1 : WholeGiven s k) (h2 : WholeGiven s l) : k = l := by
  match s with
  | .num (.int [i]) => exact h1.symm.trans h2
  | .num (.dbl [d]) =>
    have hpos : (0 : Int) < 2 ^ 1074 := by decide +kernel
    exact Int.eq_of_mul_eq_mul_right (by omega) (h1.2.symm.trans h2.2)

/-- **C94** (`list_check_all_size()`): passes if the size that is given is that of all elements, and is an error
otherwise, except for missing doubles and numbers below -2^63.  Missing: those are not an error, `C94_check_undefined`. -/
theorem C94_check_all_size_partial {vsize : β → C Nat} {xs : List β} {sizes : List Nat} {s : OptObj}
    (hs : List.Forall₂ (fun x n => vsize x = .ok n) xs sizes) (hd : ¬ NoSsize s) :
    (∃ k, WholeGiven s k ∧ (∀ n ∈ sizes, (n : Int) = k) ∧ ffiListCheckAllSize vsize xs s = .ok ()) ∨
    ((∀ k, WholeGiven s k → 2 ^ 52 < k ∨ ∃ n ∈ sizes, (n : Int) ≠ k) ∧
      ffiListCheckAllSize vsize xs s = .error .abort) := by
  unfold ffiListCheckAllSize
  rcases rArgAsSsize_spec s with ⟨k, h1, _, h3, _⟩ | ⟨h1, _⟩ | ⟨_, h2, h3⟩
  · rw [h3, ok_bind]
    rcases C73_check_size (size := k) hs with ⟨h4, h5⟩ | ⟨h4, h5⟩
    · exact .inl ⟨k, h1, h4, h5⟩
    · exact .inr ⟨fun l hl => .inr (wholeGiven_unique h1 hl ▸ h4), h5⟩
  · exact absurd h1 hd
  · rw [h3]
    exact .inr ⟨fun k hk => .inl (h2 k hk), rfl⟩

/-- **C94** (`vec_check_size()`): passes if and only if the size that is given is that of the vector, and is an error
otherwise, except for missing doubles and numbers below -2^63.  Missing: those are not an error, `C94_check_undefined`. -/
theorem C94_check_size_partial {vsize : β → C Nat} {x : β} {n : Nat} {s : OptObj} (hn : vsize x = .ok n)
    (hl : n ≤ intMax) (hd : ¬ NoSsize s) :
    (WholeGiven s n ∧ ffiVecCheckSize vsize x s = .ok ()) ∨
    (¬ WholeGiven s n ∧ ffiVecCheckSize vsize x s = .error .abort) := by
  unfold ffiVecCheckSize vecCheckSize
  rcases rArgAsSsize_spec s with ⟨k, h1, _, h3, _⟩ | ⟨h1, _⟩ | ⟨_, h2, h3⟩
  · rw [h3, ok_bind, hn, ok_bind]
    by_cases h : (n : Int) = k
    · exact .inl ⟨h ▸ h1, if_neg (fun h' => h' h)⟩
    · exact .inr ⟨fun h' => h (wholeGiven_unique h' h1), if_pos h⟩
  · exact absurd h1 hd
  · rw [h3]
    refine .inr ⟨fun h => ?_, rfl⟩
    have := h2 _ h
    unfold intMax at hl
    omega

/-- Disagreement: a missing double, or a number below -2^63, is converted to an integer before it is compared, which is
undefined, and nothing else is. -/
theorem C94_check_undefined {vsize : β → C Nat} (x : β) (xs : List β) (s : OptObj) (hx : vsize x ≠ .error .ub) :
    (NoSsize s ↔ ffiVecCheckSize vsize x s = .error .ub) ∧ (NoSsize s → ffiListCheckAllSize vsize xs s = .error .ub) := by
  unfold ffiVecCheckSize vecCheckSize ffiListCheckAllSize
  rcases rArgAsSsize_spec s with ⟨k, _, h1, h3, _⟩ | ⟨h1, h3⟩ | ⟨h1, _, h3⟩
  · refine ⟨⟨fun h => absurd h h1, fun h => ?_⟩, fun h => absurd h h1⟩
    rw [h3, ok_bind] at h
    cases hv : vsize x with
    | error e =>
      rw [hv] at h hx
      cases h
      exact absurd rfl hx
    | ok n =>
      rw [hv, ok_bind] at h
      split at h <;> cases h
  · rw [h3]
    exact ⟨⟨fun _ => rfl, fun _ => h1⟩, fun _ => rfl⟩
  · refine ⟨⟨fun h => absurd h h1, fun h => ?_⟩, fun h => absurd h h1⟩
    rw [h3] at h
    cases h

/-- **C94** (`list_all_size()`): says whether all elements have the size that is given, up to the first that has not; a
scalar among those is an error, and so is what is not one whole number up to 2^52.  Missing: missing doubles and numbers
below -2^63 are not an error. -/
theorem C94_all_size_partial (proxy : KObj → Option (C KObj)) {xs : KObj} (ht : xs.ty = .list) {s : OptObj}
    (hok : OptOk s) :
    (∀ k r, WholeGiven s k → ¬ NoSsize s → k ≤ 2 ^ 52 → AllSized proxy k xs.cols r → ffiListAllSize proxy xs s = r) ∧
    (¬ NoSsize s → (∀ k, WholeGiven s k → 2 ^ 52 < k) → ffiListAllSize proxy xs s = .error .abort) ∧
    (NoSsize s → ffiListAllSize proxy xs s = .error .ub) := by
  unfold ffiListAllSize
  rcases rArgAsSsize_spec s with ⟨k, h1, h2, h3, h4⟩ | ⟨h1, h3⟩ | ⟨h1, h2, h3⟩
  · refine ⟨fun l r hl _ _ h => ?_, fun _ h => ?_, fun h => absurd h h2⟩
    · rw [h3, ok_bind, wholeGiven_unique h1 hl]
      exact C79_all_size proxy ht h
    · have := h k h1
      have := h4 hok
      omega
  · rw [h3]
    exact ⟨fun _ _ _ h => absurd h1 h, fun h => absurd h1 h, fun _ => rfl⟩
  · rw [h3]
    exact ⟨fun k _ h _ h' => absurd (h2 k h) (by omega), fun _ _ => rfl, fun h => absurd h h1⟩

/-- Disagreement: any integer is a size for the empty list, also a negative one and a missing one. -/
theorem C94_check_empty (vsize : β → C Nat) (i : Int) : ffiListCheckAllSize vsize [] (.num (.int [i])) = .ok () := rfl

/-- `vec_check_size(1:5, size = NA_real_)` is undefined; `size = NA` and `size = NA_integer_` are errors. -/
theorem C94_check_witness :
    ffiVecCheckSize (fun x : List Int => .ok x.length) [1, 2, 3, 4, 5] (.num (.dbl [0x7FF00000000007A2#64])) = .error .ub ∧
    ffiVecCheckSize (fun x : List Int => .ok x.length) [1, 2, 3, 4, 5] (.num (.lgl [naInt])) = .error .abort ∧
    ffiVecCheckSize (fun x : List Int => .ok x.length) [1, 2, 3, 4, 5] (.num (.int [naInt])) = .error .abort := by
  decide +kernel

-- `vec_check_size(1:5, size = 5)`, and `list_check_all_size(list(1:2, 3:4), size = 2L)`.
example : ffiVecCheckSize (fun x : List Int => .ok x.length) [1, 2, 3, 4, 5] (.num (.dbl [0x4014000000000000#64])) =
    .ok () := by decide +kernel
example : ¬ NoSsize (.num (.dbl [0x4014000000000000#64])) ∧ WholeGiven (.num (.dbl [0x4014000000000000#64])) 5 := by
  unfold NoSsize WholeGiven IsNaN
  decide +kernel
example : ffiListCheckAllSize (fun x : List Int => .ok x.length) [[1, 2], [3, 4]] (.num (.int [2])) = .ok () := by decide
example : ffiListCheckAllSize (fun x : List Int => .ok x.length) [[1, 2], [3]] (.num (.int [2])) = .error .abort := by decide
example : OptOk (.num (.int [4])) ∧ WholeGiven (.num (.int [4])) 4 ∧
    AllSized (fun _ => none) 4 [exMatrix79, exScalar79] (.ok false) :=
  ⟨by show ∀ v ∈ [(4 : Int)], naInt ≤ v ∧ v ≤ intMax; decide, rfl, .other exMatrix79_size (by decide)⟩

end Vctrs
