import Verif.Model.Kinds
import Verif.Model.Options
import Verif.Model.SizeArg
import Verif.Model.Split

/-!
# The size given to `vec_check_size()`, `list_check_all_size()` and `list_all_size()`: src/assert.c, src/size.c, src/rlang/rlang.c
-/

namespace Vctrs

variable {β : Type}

/-- The double case of `r_arg_as_ssize`, src/rlang/rlang.c:39-54.  `R_SSIZE_MAX` is `R_XLEN_T_MAX`, 2^52, of R.  The
truncation of a double is a double, so that `out != (int_least64_t) out` compares values. -/
def rArgDblAsSsize (x : List Dbl) : C Int :=
  if x.length ≠ 1 then .error .abort
  else do
    let out ← rd x 0
    if dblLtOp (intToDbl (2 ^ 52)) out then .error .abort
    else do
      let t ← dblToSsize out
      if dblVal out ≠ t * 2 ^ 1074 then .error .abort else .ok t

/-- `r_arg_as_ssize`, src/rlang/rlang.c:36-67.  Classes are not looked at. -/
def rArgAsSsize (n : OptObj) : C Int :=
  match n with
  | .num (.dbl x) => rArgDblAsSsize x
  | .num (.int x) => if x.length ≠ 1 then .error .abort else rd x 0
  | _ => .error .abort

/-- `vec_check_size(x, size)`: `ffi_vec_check_size`, src/assert.c:22-32. -/
def ffiVecCheckSize (vsize : β → C Nat) (x : β) (size : OptObj) : C Unit := do
  let size ← rArgAsSsize size
  vecCheckSize vsize x size

/-- `list_check_all_size(x, size)` of a list: `ffi_list_check_all_size`, src/assert.c:99-113. -/
def ffiListCheckAllSize (vsize : β → C Nat) (xs : List β) (size : OptObj) : C Unit := do
  let size ← rArgAsSsize size
  listCheckAllSize vsize xs size

/-- `list_all_size(x, size)` of a list: `ffi_list_all_size`, src/size.c:115-122. -/
def ffiListAllSize (proxy : KObj → Option (C KObj)) (xs : KObj) (size : OptObj) : C Bool := do
  let size ← rArgAsSsize size
  listAllSize proxy xs size

end Vctrs
