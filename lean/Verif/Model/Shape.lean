import Verif.Base

/-!
# Common shape of arrays

Model of the reduction of the dimensions of two arrays to a common shape (`src/shape.c`).  The
attribute `dim` is an integer vector, or absent for a vector without dimensions.
-/

namespace Vctrs

/-- `vec_shape()`, src/shape.c:138-158: the dimensions with the first one put to zero.  Dimensions
that are not an integer vector do not occur in the model. -/
def vecShape (dims : Option (List Int)) : C (Option (List Int)) :=
  match dims with
  | none => pure none
  | some d =>
    if d.length = 0 then .error .internal
    else do
      let d ← wr d 0 0
      pure (some d)

/-- `vec_dimension2()`, src/shape.c:160-177: the common size of one axis. -/
def vecDimension2 (x y : Int) : C Int :=
  if x = y then pure x
  else if x = 1 then pure y
  else if y = 1 then pure x
  else .error .abort

/-- One axis of the two arrays, src/shape.c:118-124. -/
def shapeStep (x y : List Int) (i : Nat) (out : List (Option Int)) : C (List (Option Int)) := do
  let a ← rd x i
  let b ← rd y i
  let d ← vecDimension2 a b
  wr out i (some d)

/-- One axis of the array with more axes, src/shape.c:126-128. -/
def shapeRest (m : List Int) (i : Nat) (out : List (Option Int)) : C (List (Option Int)) := do
  let a ← rd m i
  wr out i (some a)

/-- `vec_shape2_impl()`, src/shape.c:69-132.  The vectors and argument names that are only used in
the error message are left out.  Both loops run on one counter that starts at 1. -/
def vecShape2 (xd yd : Option (List Int)) : C (Option (List Int)) :=
  match xd, yd with
  | none, yd => vecShape yd
  | some x, none => vecShape (some x)
  | some x, some y => do
    let m := if x.length ≥ y.length then x else y
    let max := if x.length ≥ y.length then x.length else y.length
    let min := if x.length ≥ y.length then y.length else x.length
    if max = 0 then .error .internal
    else do
      let out ← wr (alloc Int max) 0 (some (0 : Int))
      let out ← forFrom (shapeStep x y) 1 (min - 1) out
      let i := if 1 < min then min else 1
      let out ← forFrom (shapeRest m) i (max - i) out
      let out ← initd out
      pure (some out)

end Vctrs
