import Verif.Model.Rep
import Verif.Model.Options

/-!
# Repetition with any object for `times`: src/rep.c
-/

namespace Vctrs

variable {α : Type}

/-- `vec_cast(times, r_globals.empty_int)`, src/rep.c:55-59 and :81-85, for a bare vector or an object without such a cast;
`none` is `NULL`, which is cast to itself. -/
def castTimes (times : OptObj) : C (Option (List Int)) :=
  match times with
  | .null => .ok none
  | .num x => do
    match ← numCast x .int with
    | .int v => .ok (some v)
    | _ => .error .internal
  | _ => .error .abort

/-- `ffi_vec_rep`, src/rep.c:46-70.  The size of `NULL` is 0. -/
def ffiVecRep (x : List α) (times : OptObj) : C (List α) := do
  match ← castTimes times with
  | none => .error .abort
  | some v =>
    if v.length ≠ 1 then .error .abort
    else do
      let t ← rd v 0
      vecRep x t

/-- `ffi_vec_rep_each`, src/rep.c:109-119, with the cast in `vec_rep_each`, :81-87.  For `NULL` the size 0 is compared with
that of `x`, :164-169; if they agree then `r_int_cbegin()` of `NULL`, :171, is an error of R. -/
def ffiVecRepEach (x : List α) (times : OptObj) : C (List α) := do
  match ← castTimes times with
  | none => .error .abort
  | some v => vecRepEach x v

end Vctrs
