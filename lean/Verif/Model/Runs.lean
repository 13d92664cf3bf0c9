import Verif.Base

/-!
# Runs: src/runs.c

Vectors are lists of proxy elements with the `EQUAL_NA_EQUAL` function of their type.
`r_ssize` positions are `Int` because the loops may run backwards.  The boolean buffers
(`r_new_vector_bool`) and the result vectors are uninitialised when allocated.
-/

namespace Vctrs

variable {α : Type}

/-- `enum vctrs_run_bound`, src/runs.c:4-7. -/
inductive RunBound where
  | start | «end»
  deriving DecidableEq, Repr

/-- `compute_iter_loc`, src/runs.c:344-350. -/
def iterLoc (size : Nat) : RunBound → Int
  | .start => 0
  | .end => (size : Int) - 1

/-- `compute_iter_step`, src/runs.c:353-359. -/
def iterStep : RunBound → Int
  | .start => 1
  | .end => -1

/-- `VEC_DETECT_RUN_BOUNDS_BOOL`, src/runs.c:187-209, on the buffer allocated at :162.
State of the loop: buffer, `ref`, `loc`. -/
def detectBoundsBool (eq : α → α → Bool) (x : List α) (which : RunBound) : C (List Bool) := do
  let size := x.length
  let vOut := alloc Bool size
  if size = 0 then initd vOut
  else do
    let loc := iterLoc size which
    let step := iterStep which
    let ref ← rdI x loc
    let vOut ← wrI vOut loc (some true)
    let (vOut, _, _) ← forFrom (fun _ (s : List (Option Bool) × α × Int) => do
      let (vOut, ref, loc) := s
      let elt ← rdI x loc
      let vOut ← wrI vOut loc (some (!eq elt ref))
      .ok (vOut, elt, loc + step)) 1 (size - 1) (vOut, ref, loc + step)
    initd vOut

/-- `VEC_COL_DETECT_RUN_BOUNDS_BOOL`, src/runs.c:293-308. -/
def colDetectBoundsBool (eq : α → α → Bool) (x : List α) (size : Nat) (which : RunBound)
    (vOut : List (Option Bool)) : C (List (Option Bool)) := do
  let loc := iterLoc size which
  let step := iterStep which
  let ref ← rdI x loc
  let (vOut, _, _) ← forFrom (fun _ (s : List (Option Bool) × α × Int) => do
    let (vOut, ref, loc) := s
    let elt ← rdI x loc
    let o ← (if loc < 0 then .error .ub else rdU vOut loc.toNat : C Bool)
    let vOut ← wrI vOut loc (some (o && eq ref elt))
    .ok (vOut, elt, loc + step)) 1 (size - 1) (vOut, ref, loc + step)
  .ok vOut

/-- `df_detect_run_bounds_bool`, src/runs.c:245-275.  A column is its equality together with
its values; columns of all types are represented in one cell type `α`. -/
def dfDetectBoundsBool (cols : List ((α → α → Bool) × List α)) (size : Nat) (which : RunBound) :
    C (List Bool) := do
  let vOut := alloc Bool size
  if size = 0 then initd vOut
  else do
    let loc := iterLoc size which
    let step := iterStep which
    let vOut ← wrI vOut loc (some false)
    let (vOut, _) ← forFrom (fun _ (s : List (Option Bool) × Int) => do
      let (vOut, loc) := s
      let vOut ← wrI vOut loc (some true)
      .ok (vOut, loc + step)) 1 (size - 1) (vOut, loc + step)
    let vOut ← forN cols.length (fun i vOut => do
      let (eq, x) ← rd cols i
      colDetectBoundsBool eq x size which vOut) vOut
    let vOut ← forN size (fun i vOut => do
      let o ← rdU vOut i
      wr vOut i (some (!o))) vOut
    initd vOut

/-- `vec_detect_run_bounds`, src/runs.c:20-36. -/
def detectRunBounds (w : List Bool) : C (List Bool) := do
  let out ← forN w.length (fun i out => do
    let b ← rd w i
    wr out i (some b)) (alloc Bool w.length)
  initd out

/-- `vec_locate_run_bounds`, src/runs.c:47-76, given the buffer `v_where`.  `write` is the
assignment `v_out[j] = loc + 1`. -/
def locateRunBoundsW (write : List (Option Nat) → Int → Option Nat → C (List (Option Nat)))
    (w : List Bool) (which : RunBound) : C (List Nat) := do
  let size := w.length
  let n ← forN size (fun i n => do
    let b ← rd w i
    .ok (n + b.toNat)) 0
  let j := iterLoc n which
  let loc := iterLoc size which
  let step := iterStep which
  let (out, _, _) ← forN size (fun _ (s : List (Option Nat) × Int × Int) => do
    let (out, j, loc) := s
    let out ← write out j (some (loc + 1).toNat)
    let b ← rdI w loc
    .ok (out, j + step * (b.toNat : Int), loc + step)) (alloc Nat n, j, loc)
  initd out

/-- `vec_locate_run_bounds`, src/runs.c:47-76: a write outside `v_out` is undefined
behaviour. -/
def locateRunBounds (w : List Bool) (which : RunBound) : C (List Nat) :=
  locateRunBoundsW wrI w which

/-- The assignment of src/runs.c:70 in a memory where the cells just before and just after
`v_out` exist and are not part of the result: a write there is lost, a write any further away
is still undefined behaviour. -/
def wrSlack (l : List (Option Nat)) (j : Int) (v : Option Nat) : C (List (Option Nat)) :=
  if j = -1 ∨ j = l.length then .ok l else wrI l j v

/-- `vec_identify_runs`, src/runs.c:85-107, given `v_starts`: ids and attribute `n`. -/
def identifyRuns (starts : List Bool) : C (List Nat × Nat) := do
  let (out, n) ← forN starts.length (fun i (s : List (Option Nat) × Nat) => do
    let (out, n) := s
    let b ← rd starts i
    let n := n + b.toNat
    let out ← wr out i (some n)
    .ok (out, n)) (alloc Nat starts.length, 0)
  let out ← initd out
  .ok (out, n)

/-- `vec_run_sizes`, src/runs.c:116-143, given `v_ends`. -/
def runSizes (ends : List Bool) : C (List Nat) := do
  let size := ends.length
  let n ← forN size (fun i n => do
    let b ← rd ends i
    .ok (n + b.toNat)) 0
  let (out, _, _) ← forN size (fun i (s : List (Option Nat) × Nat × Nat) => do
    let (out, j, count) := s
    let b ← rd ends i
    let out ← wr out j (some count)
    .ok (out, j + b.toNat, (!b).toNat * count + 1)) (alloc Nat n, 0, 1)
  initd out

/-- `vec_run_sizes(x)` for an atomic or list vector. -/
def vecRunSizes (eq : α → α → Bool) (x : List α) : C (List Nat) := do
  let ends ← detectBoundsBool eq x .end
  runSizes ends

end Vctrs
