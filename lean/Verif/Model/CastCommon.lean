import Verif.Model.Cast
import Verif.Model.Ptype

/-!
# Casting to the common type: src/cast.c

Bare logical, integer and double vectors without dimensions, and `NULL`.
-/

namespace Vctrs

/-- A vector as an argument of `vec_ptype_common()`, src/cast.c:255. -/
def numObj : Option NumVec → RObj
  | none => .null
  | some (.lgl x) => .lgl x none
  | some (.int x) => .bare .integer x.length none
  | some (.dbl x) => .bare .double x.length none

/-- An empty vector, `to` in src/cast.c:248. -/
def tyObj : Option NumTy → RObj
  | none => .null
  | some .lgl => .lgl [] none
  | some .int => .bare .integer 0 none
  | some .dbl => .bare .double 0 none

/-- The type as an argument of `vec_cast_opts()`, src/cast.c:276; only these types occur. -/
def objTy : RObj → C (Option NumTy)
  | .null => .ok none
  | .lgl [] none => .ok (some .lgl)
  | .bare .integer 0 none => .ok (some .int)
  | .bare .double 0 none => .ok (some .dbl)
  | _ => .error .internal

/-- `vec_cast_opts`, src/cast.c:20-74, with `NULL`, :26-37; vectors and empty vectors pass the checks there. -/
def castOrNull (x : Option NumVec) (to : Option NumTy) : C (Option NumVec) :=
  match x, to with
  | none, _ => .ok none
  | some x, none => .ok (some x)
  | some x, some to => do .ok (some (← numCast x to))

/-- `vec_cast_common_opts`, src/cast.c:247-283: a list and its names. -/
def vecCastCommon (xs : List (Option NumVec)) (names : Option (List Name)) (to : Option NumTy) :
    C (List (Option NumVec) × Option (List Name)) := do
  let r ← vecPtypeCommon (tyObj to) (xs.map fun x => .plain (numObj x))
  let type ← objTy r
  let out ← forN xs.length (fun i (out : List (Option NumVec)) => do
    let elt ← rd xs i
    wr out i (← castOrNull elt type)) (List.replicate xs.length none)
  .ok (out, names)

end Vctrs
