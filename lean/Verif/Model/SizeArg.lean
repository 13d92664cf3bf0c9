import Verif.Model.Cast
import Verif.Model.Size
import Verif.Model.Table

/-!
# Sizes that are given as arguments: src/size.c, src/size-common.c, src/slice.c
-/

namespace Vctrs

variable {α : Type}

/-- An R object given for a size, as `vec_as_ssize()` looks at it, src/size.c:317-380. -/
inductive SizeObj where
  /-- An object with a class and its cast to double, `none` if that fails. -/
  | object (cast : Option (List Dbl))
  | dbl (x : List Dbl)
  | int (x : List Int)
  /-- Any other type. -/
  | other
  deriving DecidableEq, Repr

/-- `out != floor(out)`, src/size.c:344.  The floor of a double is a double; infinities are their own floor. -/
def dblFractional (x : Dbl) : Bool := isNan x || decide (dblVal x % 2 ^ 1074 ≠ 0)

/-- The C conversion `(r_ssize) out`, src/size.c:357, to a signed type of 64 bits: undefined if the value does not fit. -/
def dblToSsize (x : Dbl) : C Int :=
  if isNan x then .error .ub
  else
    let n := (dblVal x).tdiv (2 ^ 1074)
    if n < -(2 ^ 63) then .error .ub
    else if 2 ^ 63 ≤ n then .error .ub
    else .ok n

/-- The double case of `vec_as_ssize`, src/size.c:335-358.  `R_SSIZE_MAX` is `R_XLEN_T_MAX`, 2^52, of R. -/
def dblAsSsize (x : List Dbl) : C Int :=
  if x.length ≠ 1 then .error .abort
  else do
    let out ← rd x 0
    if dblEqOp out (intToDbl naInt) then .error .abort
    else if dblFractional out then .error .abort
    else if dblLtOp (intToDbl (2 ^ 52)) out then .error .abort
    else dblToSsize out

/-- The integer case of `vec_as_ssize`, src/size.c:360-372. -/
def intAsSsize (x : List Int) : C Int :=
  if x.length ≠ 1 then .error .abort
  else do
    let out ← rd x 0
    if out = naInt then .error .abort else .ok out

/-- `vec_as_ssize`, src/size.c:314-381. -/
def vecAsSsize : SizeObj → C Int
  | .object none => .error .abort
  | .object (some x) => dblAsSsize x
  | .dbl x => dblAsSsize x
  | .int x => intAsSsize x
  | .other => .error .abort

/-- `vec_as_short_length`, src/size.c:292-311. -/
def vecAsShortLength (n : SizeObj) : C Int := do
  let out ← vecAsSsize n
  if out < 0 then .error .abort
  else if out > (intMax : Int) then .error .abort
  else .ok out

/-- `vec_size_common(..., .size = , .absent = )`: `ffi_size_common`, src/size-common.c:6-53; `absentOk` says whether
`.absent` is `NULL` or one integer. -/
def sizeCommonArg (xs : List (Dot (Arg α))) (size : Option SizeObj) (absentOk : Bool) (absent : Option Int) : C Int :=
  match size with
  | some size => vecAsShortLength size
  | none => if absentOk then ffiSizeCommon xs absent else .error .abort

/-- `vec_recycle_common(..., .size = )`: `ffi_recycle_common`, src/size-common.c:125-155. -/
def recycleCommonArg (na : α) (xs : List (Arg α)) (size : Option SizeObj) : C (List (Arg α)) := do
  let common ← (match size with
    | none => vecSizeCommon (xs.map .plain) (-1)
    | some size => vecAsShortLength size : C Int)
  vecRecycleCommonOpts na xs common

/-- `vec_init(x, n)`: `ffi_init`, src/slice.c:444-451. -/
def initArg (h : Name → BitVec 32) (x : NVal) (n : SizeObj) : C NVal := do
  let n ← vecAsShortLength n
  nvalInit h x n

end Vctrs
