import Verif.Model.RecycleArg
import Verif.Props.C02
import Verif.Props.C15Arg

/-!
# C02: `vec_recycle()` with any object for `size`
-/

namespace Vctrs
open Spec

variable {α : Type}

theorem castTimes_none {o : OptObj} (h : castTimes o = .ok none) : o = .null := by
  cases o with
  | null => rfl
  | chr x => cases h
  | other n => cases h
  | num x =>
    unfold castTimes at h
    dsimp only at h
    cases hc : numCast x .int with
    | error e => rw [hc] at h; cases h
    | ok y =>
      rw [hc] at h
      cases y <;> cases h

/-- **C02**: `vec_recycle(x, size)` for any `size` and what it does: `size` is read as integers; the first of them is the
size; without any, an element is read that does not exist; a negative one is an internal error for `x` of size 1. -/
theorem C02_size_argument (na : α) (x : List α) {s : OptObj} (hok : OptOk s) :
    (s = .null ∧ ffiRecycleArg na (.vec x) s = .ok .null) ∨
    (∃ (n : Nat) (rest : List Int), IntegersOf s (n :: rest) ∧
      ((x.length = n ∧ ffiRecycleArg na (.vec x) s = .ok (.vec x)) ∨
       (∃ a, x = [a] ∧ ffiRecycleArg na (.vec x) s = .ok (.vec (List.replicate n a))) ∨
       (x.length ≠ n ∧ x.length ≠ 1 ∧ ffiRecycleArg na (.vec x) s = .error .abort))) ∨
    (∃ (i : Int) (rest : List Int), i < 0 ∧ IntegersOf s (i :: rest) ∧
      ((x.length = 1 ∧ ffiRecycleArg na (.vec x) s = .error .internal) ∨
       (x.length ≠ 1 ∧ ffiRecycleArg na (.vec x) s = .error .abort))) ∨
    (IntegersOf s [] ∧ ffiRecycleArg na (.vec x) s = .error .ub) ∨
    ((∀ ts, ¬ IntegersOf s ts) ∧ ffiRecycleArg na (.vec x) s = .error .abort) := by
  have e : ffiRecycleArg na (.vec x) s = (do
      match ← castTimes s with
      | none => .ok .null
      | some v => ffiRecycle na (.vec x) v) := rfl
  rw [e]
  rcases castTimes_ok hok with ⟨ts, h1, h2⟩ | ⟨h1, h2 | h2⟩
  · rw [h2, ok_bind]
    dsimp only
    match ts with
    | [] => exact .inr (.inr (.inr (.inl ⟨h1, rfl⟩)))
    | i :: rest =>
      have e2 : ffiRecycle na (.vec x) (i :: rest) = ffiRecycle na (.vec x) [i] := rfl
      rw [e2]
      by_cases hi : i < 0
      · refine .inr (.inr (.inl ⟨i, rest, hi, h1, ?_⟩))
        by_cases hx : x.length = 1
        · obtain ⟨a, rfl⟩ := List.length_eq_one_iff.1 hx
          exact .inl ⟨rfl, C02_recycle_negative na a i hi⟩
        · refine .inr ⟨hx, ?_⟩
          have e3 : ffiRecycle na (.vec x) [i] = vecCheckRecycle na (.vec x) i := rfl
          rw [e3]
          unfold vecCheckRecycle
          dsimp only
          rw [if_neg (by omega), if_neg (by simpa using hx)]
      · obtain ⟨n, rfl⟩ := Int.eq_ofNat_of_zero_le (Int.not_lt.1 hi)
        obtain ⟨h3, h4, h5⟩ := C02_recycle na x n
        refine .inr (.inl ⟨n, rest, h1, ?_⟩)
        by_cases hx : x.length = n
        · exact .inl ⟨hx, h3 hx⟩
        · by_cases hx1 : x.length = 1
          · obtain ⟨a, rfl⟩ := List.length_eq_one_iff.1 hx1
            exact .inr (.inl ⟨a, rfl, h4 a rfl⟩)
          · exact .inr (.inr ⟨hx, hx1, h5 hx hx1⟩)
  · exact .inl ⟨castTimes_none h2, by rw [h2]; rfl⟩
  · rw [h2]
    exact .inr (.inr (.inr (.inr ⟨h1, rfl⟩)))

/-- `NULL` is recycled to any size, also to objects that are no sizes. -/
theorem C02_null (na : α) (s : OptObj) : ffiRecycleArg na .null s = .ok .null := rfl

-- `vec_recycle(7L, TRUE)`, and `vec_recycle(7L, c(2L, 5L))`, which takes the first size.
example : OptOk (.num (.lgl [1])) ∧ IntegersOf (.num (.lgl [1])) [1] :=
  ⟨by show ∀ v ∈ [(1 : Int)], v = 0 ∨ v = 1 ∨ v = naInt; decide, .lgl [1], rfl, by unfold naInt intMax; decide, rfl⟩
example : ffiRecycleArg 0 (.vec [7]) (.num (.lgl [1])) = .ok (.vec [7]) := by decide
example : ffiRecycleArg 0 (.vec [7]) (.num (.int [2, 5])) = .ok (.vec [7, 7]) := by decide
example : ffiRecycleArg 0 (.vec [7]) (.num (.int [naInt])) = .error .internal := by decide

end Vctrs
