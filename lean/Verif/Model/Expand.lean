import Verif.Model.Rep

/-!
# Grid expansion: src/expand.c

`r_ssize` values are non-negative here and held in `Nat`.  Names, name repair and attributes are
not modelled.
-/

namespace Vctrs

variable {α : Type}

/-- `R_XLEN_T_MAX` (Rinternals.h), used as `R_SSIZE_MAX` (src/rlang/rlang-types.h:27). -/
def ssizeMax : Nat := 4503599627370496

/-- `r_ssize_mult`, src/rlang/c-utils.h:78-105, for non-negative arguments. -/
def ssizeMult (x y : Nat) : C Nat :=
  if x > 0 then
    if y > 0 then
      if x > ssizeMax / y then .error .internal else .ok (x * y)
    else .ok (x * y)
  else .ok (x * y)

/-- C division `x / y` of non-negative values. -/
def cdiv (x y : Nat) : C Nat := if y = 0 then .error .ub else .ok (x / y)

/-- `r_ssize_as_integer`, src/rlang/c-utils.h. -/
def ssizeAsInteger (x : Nat) : C Int := if x > intMax then .error .internal else .ok x

/-- `enum vctrs_expand_vary`, src/expand.h. -/
inductive Vary where
  | slowest | fastest
  deriving DecidableEq, Repr

/-- `vec_expand_grid`, src/expand.c:28-117: the columns and the number of rows.  `none` inputs
are `NULL`. -/
def expandGrid (inputs : List (Option (List α))) (vary : Vary) : C (List (List α) × Nat) := do
  let xs := inputs.filterMap id
  let n := xs.length
  let sizes := xs.map List.length
  let (cumulative, size) ← forN n (fun i (s : List (Option Nat) × Nat) => do
    let (cumulative, size) := s
    let sz ← rd sizes i
    let size ← ssizeMult size sz
    let cumulative ← wr cumulative i (some size)
    .ok (cumulative, size)) (alloc Nat n, 1)
  if size > intMax then .error .abort
  else do
    let out ← forN n (fun i (out : List (Option (List α))) => do
      let x ← rd xs i
      let (timesEach, times) ← (if size ≠ 0 then do
          let c ← rdU cumulative i
          let sz ← rd sizes i
          match vary with
          | .slowest => do
            let te ← cdiv size c
            let t ← cdiv c sz
            .ok (te, t)
          | .fastest => do
            let te ← cdiv c sz
            let t ← cdiv size c
            .ok (te, t)
        else .ok (0, 0) : C (Nat × Nat))
      let timesEach ← ssizeAsInteger timesEach
      let x ← vecRepEach x [timesEach]
      let times ← ssizeAsInteger times
      let x ← vecRep x times
      wr out i (some x)) (alloc (List α) n)
    let out ← initd out
    .ok (out, size)

/-- `vec_interleave_indices`, src/slice-interleave.c:12-52. -/
def interleaveIndices (n size : Nat) : C (List (List Nat)) := do
  let total ← ssizeMult n size
  if total > intMax then .error .abort
  else do
    let out ← forN n (fun i (out : List (Option (List Nat))) => do
      let start := i + 1
      let elt ← forN size (fun j (elt : List (Option Nat)) =>
        wr elt j (some (start + n * j))) (alloc Nat size)
      let elt ← initd elt
      wr out i (some elt)) (alloc (List Nat) n)
    initd out

end Vctrs
