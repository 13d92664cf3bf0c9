import Verif.Model.FillArg
import Verif.Props.C17
import Verif.Props.C90

/-!
# C17: `vec_fill_missing()` with any objects for its options
-/

namespace Vctrs

namespace Spec

/-- The first string of `direction` is `s`. -/
def FirstString (o : OptObj) (s : String) : Prop := ∃ l dim, o = .chr ⟨some s.toList :: l, dim⟩

/-- `max_fill` is `NULL`, or a single positive number that is an integer. -/
def MaxFill (o : OptObj) (m : Option Nat) : Prop := (o = .null ∧ m = none) ∨ ∃ n : Nat, 0 < n ∧ IsInteger o n ∧ m = some n

end Spec

open Spec

variable {α : Type} {missing : α → Bool}

/-- **C17**: with the documented options missing values are filled from above, from below, or first in one and then in
the other direction; anything else is an error. -/
theorem C17_arguments (x : List α) {direction maxFill : OptObj} (hok : OptOk maxFill) :
    (∃ m out, MaxFill maxFill m ∧ ffiFillMissing missing x direction maxFill = .ok out ∧
      ((FirstString direction "down" ∧ FilledDown missing x false m out) ∨
       (FirstString direction "downup" ∧ FilledDown missing x true m out) ∨
       (FirstString direction "up" ∧ FilledDown missing x.reverse false m out.reverse) ∨
       (FirstString direction "updown" ∧ FilledDown missing x.reverse true m out.reverse))) ∨
    (((∀ s ∈ ["down", "up", "downup", "updown"], ¬ FirstString direction s) ∨ ∀ m, ¬ MaxFill maxFill m) ∧
      ffiFillMissing missing x direction maxFill = .error .abort) := by
  unfold ffiFillMissing
  rcases C90_fill_direction direction with ⟨d, ⟨s, l, dim, rfl, t, ht, rfl⟩, h1⟩ | ⟨hno, h1⟩
  · rw [h1, ok_bind]
    rcases C90_max_fill hok with ⟨m, hm, h2⟩ | ⟨hm, h2⟩
    · rw [h2, ok_bind]
      left
      simp only [fillStrings, List.mem_cons, List.not_mem_nil, or_false, Prod.mk.injEq] at ht
      rcases ht with ⟨rfl, rfl⟩ | ⟨rfl, rfl⟩ | ⟨rfl, rfl⟩ | ⟨rfl, rfl⟩
      · obtain ⟨out, h3, h4⟩ := C17_fill_down (missing := missing) x false m
        exact ⟨m, out, hm, h3, .inl ⟨⟨l, dim, rfl⟩, h4⟩⟩
      · obtain ⟨out, h3, h4⟩ := C17_fill_up (missing := missing) x false m
        exact ⟨m, out, hm, h3, .inr (.inr (.inl ⟨⟨l, dim, rfl⟩, h4⟩))⟩
      · obtain ⟨out, h3, h4⟩ := C17_fill_down (missing := missing) x true m
        exact ⟨m, out, hm, h3, .inr (.inl ⟨⟨l, dim, rfl⟩, h4⟩)⟩
      · obtain ⟨out, h3, h4⟩ := C17_fill_up (missing := missing) x true m
        exact ⟨m, out, hm, h3, .inr (.inr (.inr ⟨⟨l, dim, rfl⟩, h4⟩))⟩
    · rw [h2]
      exact .inr ⟨.inr hm, rfl⟩
  · rw [h1]
    refine .inr ⟨.inl fun s hs ⟨l, dim, h⟩ => ?_, rfl⟩
    simp only [List.mem_cons, List.not_mem_nil, or_false] at hs
    rcases hs with rfl | rfl | rfl | rfl
    · exact hno (true, false) ⟨_, _, _, h, _, by simp [fillStrings], rfl⟩
    · exact hno (false, false) ⟨_, _, _, h, _, by simp [fillStrings], rfl⟩
    · exact hno (true, true) ⟨_, _, _, h, _, by simp [fillStrings], rfl⟩
    · exact hno (false, true) ⟨_, _, _, h, _, by simp [fillStrings], rfl⟩

-- `vec_fill_missing(c(NA, 1, NA, NA, 2), "downup", max_fill = 1)`, and a wrong direction.
example : ffiFillMissing (· == 0) [0, 1, 0, 0, 2] (.chr ⟨[some "downup".toList], none⟩) (.num (.int [1])) =
    .ok [1, 1, 1, 0, 2] := by decide
example : ffiFillMissing (· == 0) [0, 1] (.chr ⟨[some "left".toList], none⟩) .null = .error .abort := by decide
example : FirstString (.chr ⟨[some "downup".toList], none⟩) "downup" ∧ OptOk (.num (.int [1])) ∧
    MaxFill (.num (.int [1])) (some 1) :=
  ⟨⟨[], none, rfl⟩, by show ∀ v ∈ [(1 : Int)], naInt ≤ v ∧ v ≤ intMax; decide,
    .inr ⟨1, by decide, ⟨.int [1], rfl, by decide, by decide, rfl⟩, rfl⟩⟩

end Vctrs
