import Verif.Model.RepArg
import Verif.Model.Size

/-!
# `vec_recycle()` with any object for `size`: src/size.c
-/

namespace Vctrs

variable {α : Type}

/-- `vec_recycle(x, size)`: `ffi_recycle`, src/size.c:231-254.  The cast of `size`, :240-244, is that of `times` in rep.c:
`vec_cast(size, r_globals.empty_int)`. -/
def ffiRecycleArg (na : α) (x : Arg α) (size : OptObj) : C (Arg α) :=
  if x matches .null then .ok .null
  else do
    match ← castTimes size with
    | none => .ok .null
    | some v => ffiRecycle na x v

end Vctrs
