import Verif.Lemmas.OrderTop

/-! # Concrete data for the examples on ordering -/

namespace Vctrs

open Spec

/-- No string has a TRUELENGTH. -/
def exTl : TL := fun _ => 0

/-- The counts of `int_order_counting()` as the calls before have left them. -/
def exStatic : List Nat := List.replicate 100001 0

theorem exStatic_ok : StaticOk exStatic := rfl

theorem exTl_ok : ∀ u, 0 ≤ exTl u := fun _ => Int.le_refl _

/-- `"asc"`. -/
def exAsc : List Name := [some "asc".toList]

/-- `"desc"`. -/
def exDesc : List Name := [some "desc".toList]

/-- `"largest"`. -/
def exLargest : List Name := [some "largest".toList]

/-- `"smallest"`. -/
def exSmallest : List Name := [some "smallest".toList]

/-- The result of an ordering without the shared state. -/
def exRun (r : C (OrderInfo × TL × List Nat)) : Option OrderInfo :=
  match r with
  | .ok (i, _, _) => some i
  | .error _ => none

/-- What an ordering ended with. -/
def exErr {α : Type} (r : C α) : Option Err :=
  match r with
  | .ok _ => none
  | .error e => some e

theorem exErr_eq {α : Type} {r : C α} {e : Err} (h : exErr r = some e) : r = .error e := by
  cases r with
  | ok a => simp [exErr] at h
  | error e' => simp [exErr] at h; rw [h]

end Vctrs
