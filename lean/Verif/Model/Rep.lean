import Verif.Model.Runs
import Verif.Model.Dictionary

/-!
# Repetition: src/rep.c

`times` is an R integer: `Int` in the C `int` range with `naInt` for NA.  Casting `times`
to integer is in `RepArg.lean`.  `vec_check_recycle` for a size one `x` (src/size.c:205-228)
repeats the only element.
-/

namespace Vctrs

variable {α : Type}

/-- `times_is_oob`, src/rep.c:213-215 (never true for a C `int`). -/
def timesIsOob (times : Int) : Bool := decide (times > (intMax : Int))

/-- `multiply_would_overflow`, src/rep.c:219-221.  The product is computed in double
precision; both factors are below 2^31, so the comparison with `R_LEN_T_MAX` is exact and is
modelled on integers. -/
def multiplyWouldOverflow (x y : Nat) : Bool := decide (x * y > intMax)

/-- `plus_would_overflow`, src/rep.c:225-227. -/
def plusWouldOverflow (x y : Nat) : Bool := decide ((x : Int) > (intMax : Int) - (y : Int))

/-- `check_rep_times` / `check_rep_each_times`, src/rep.c:233-245, :278-291.  All the
failures are user errors. -/
def checkRepTimes (times : Int) : C Unit :=
  if times < 0 then
    if times = naInt then .error .abort else .error .abort
  else if timesIsOob times then .error .abort
  else .ok ()

/-- `for (j = 0; j < reps; ++j, ++k) v[k] = i` (src/rep.c:146-148, :196-198). -/
def writeRun (v : List (Option Nat)) (k i reps : Nat) : C (List (Option Nat) × Nat) :=
  forN reps (fun _ (s : List (Option Nat) × Nat) => do
    let (v, k) := s
    let v ← wr v k (some i)
    .ok (v, k + 1)) (v, k)

/-- `vec_rep`, src/rep.c:6-45. -/
def vecRep (x : List α) (times : Int) : C (List α) := do
  checkRepTimes times
  if times = 1 then .ok x
  else do
    let t := times.toNat
    let n := x.length
    if n = 1 then do
      let a ← rd x 0
      .ok (List.replicate t a)
    else if multiplyWouldOverflow n t then .error .abort
    else do
      let (v, _) ← forN t (fun _ (s : List (Option Nat) × Nat) =>
        forFrom (fun j (s : List (Option Nat) × Nat) => do
          let (v, k) := s
          let v ← wr v k (some j)
          .ok (v, k + 1)) 1 n s) (alloc Nat (n * t), 0)
      let sub ← initd v
      sliceLoc x sub

/-- `vec_rep_each_uniform`, src/rep.c:125-155. -/
def vecRepEachUniform (x : List α) (times : Int) : C (List α) := do
  checkRepTimes times
  let t := times.toNat
  let n := x.length
  if multiplyWouldOverflow n t then .error .abort
  else do
    let (v, _) ← forFrom (fun i (s : List (Option Nat) × Nat) => writeRun s.1 s.2 i t)
      1 n (alloc Nat (n * t), 0)
    let sub ← initd v
    sliceLoc x sub

/-- `vec_rep_each_impl`, src/rep.c:157-205. -/
def vecRepEachImpl (x : List α) (times : List Int) : C (List α) := do
  let n := x.length
  if n ≠ times.length then .error .abort
  else do
    let size ← forN times.length (fun i size => do
      let t ← rd times i
      checkRepTimes t
      if plusWouldOverflow size t.toNat then .error .abort
      else .ok (size + t.toNat)) 0
    let (v, _) ← forFrom (fun i (s : List (Option Nat) × Nat) => do
      let t ← rd times (i - 1)
      writeRun s.1 s.2 i t.toNat) 1 n (alloc Nat size, 0)
    let sub ← initd v
    sliceLoc x sub

/-- `vec_rep_each`, src/rep.c:76-107. -/
def vecRepEach (x : List α) (times : List Int) : C (List α) := do
  if times.length = 1 then do
    let t ← rd times 0
    if t = 1 then .ok x
    else if t = 0 then sliceLoc x []
    else vecRepEachUniform x t
  else vecRepEachImpl x times

/-- `vec_unrep`, src/rep.c:346-376: the columns `key` and `times`. -/
def vecUnrep (eq : α → α → Bool) (x : List α) : C (List α × List Nat) := do
  let times ← vecRunSizes eq x
  let (loc, _) ← forN times.length (fun i (s : List (Option Nat) × Nat) => do
    let (loc, current) := s
    let loc ← wr loc i (some current)
    let t ← rd times i
    .ok (loc, current + t)) (alloc Nat times.length, 1)
  let loc ← initd loc
  let key ← sliceLoc x loc
  .ok (key, times)

end Vctrs
