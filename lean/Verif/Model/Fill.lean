import Verif.Model.Dictionary

/-!
# Filling missing values: src/fill.c

`na` is the logical vector of `vec_detect_missing()` (see C29).  `maxFill = none` is
`INFINITE_FILL`.  `loc` is an `Int`: it is -1 when filling an empty vector upwards.
-/

namespace Vctrs

variable {α : Type}

/-- "Increment `loc` to the first non-missing value", src/fill.c:62-68, :90-96. -/
def firstNonMissing (na : List Bool) : C Int :=
  forBrk na.length (fun i loc => do
    let b ← rd na i
    if !b then .ok (.brk (i : Int)) else .ok (.next loc)) 0

/-- "Decrement `loc` to the last non-missing value", src/fill.c:135-141, :163-169.  Iteration `k`
of the descending loop is at `i = size - 1 - k`. -/
def lastNonMissing (na : List Bool) : C Int :=
  forBrk na.length (fun k loc => do
    let i := na.length - 1 - k
    let b ← rd na i
    if !b then .ok (.brk (i : Int)) else .ok (.next loc)) ((na.length : Int) - 1)

/-- `vec_fill_missing_down`, src/fill.c:58-83. -/
def fillDown (na : List Bool) (leading : Bool) : C (List Nat) := do
  let size := na.length
  let out := alloc Nat size
  let (out, loc) ← (if leading then do
      let loc ← firstNonMissing na
      let out ← forDown (fun i out => wr out i (some (loc + 1).toNat)) loc.toNat out
      .ok (out, loc)
    else .ok (out, 0) : C (List (Option Nat) × Int))
  let (out, _) ← forFrom (fun i (s : List (Option Nat) × Int) => do
    let (out, loc) := s
    let b ← rd na i
    let loc := if !b then (i : Int) else loc
    let out ← wr out i (some (loc + 1).toNat)
    .ok (out, loc)) loc.toNat (size - loc.toNat) (out, loc)
  initd out

/-- `vec_fill_missing_down_with_max_fill`, src/fill.c:86-128. -/
def fillDownMax (na : List Bool) (leading : Bool) (maxFill : Nat) : C (List Nat) := do
  let size := na.length
  let out := alloc Nat size
  let (out, loc) ← (if leading then do
      let loc ← firstNonMissing na
      let (out, _) ← forDown (fun i (s : List (Option Nat) × Nat) => do
        let (out, nFill) := s
        if nFill = maxFill then do
          let out ← wr out i (some (i + 1))
          .ok (out, nFill)
        else do
          let out ← wr out i (some (loc + 1).toNat)
          .ok (out, nFill + 1)) loc.toNat (out, 0)
      .ok (out, loc)
    else .ok (out, 0) : C (List (Option Nat) × Int))
  let (out, _, _) ← forFrom (fun i (s : List (Option Nat) × Int × Nat) => do
    let (out, loc, nFill) := s
    let b ← rd na i
    if !b then do
      let out ← wr out i (some (i + 1))
      .ok (out, (i : Int), 0)
    else if nFill = maxFill then do
      let out ← wr out i (some (i + 1))
      .ok (out, loc, nFill)
    else do
      let out ← wr out i (some (loc + 1).toNat)
      .ok (out, loc, nFill + 1)) loc.toNat (size - loc.toNat) (out, loc, 0)
  initd out

/-- `vec_fill_missing_up`, src/fill.c:131-156. -/
def fillUp (na : List Bool) (leading : Bool) : C (List Nat) := do
  let size := na.length
  let out := alloc Nat size
  let (out, loc) ← (if leading then do
      let loc ← lastNonMissing na
      let out ← forFrom (fun i out => wr out i (some (loc + 1).toNat)) (loc + 1).toNat (size - (loc + 1).toNat) out
      .ok (out, loc)
    else .ok (out, (size : Int) - 1) : C (List (Option Nat) × Int))
  let (out, _) ← forDown (fun i (s : List (Option Nat) × Int) => do
    let (out, loc) := s
    let b ← rd na i
    let loc := if !b then (i : Int) else loc
    let out ← wr out i (some (loc + 1).toNat)
    .ok (out, loc)) (loc + 1).toNat (out, loc)
  initd out

/-- `vec_fill_missing_up_with_max_fill`, src/fill.c:159-201. -/
def fillUpMax (na : List Bool) (leading : Bool) (maxFill : Nat) : C (List Nat) := do
  let size := na.length
  let out := alloc Nat size
  let (out, loc) ← (if leading then do
      let loc ← lastNonMissing na
      let (out, _) ← forFrom (fun i (s : List (Option Nat) × Nat) => do
        let (out, nFill) := s
        if nFill = maxFill then do
          let out ← wr out i (some (i + 1))
          .ok (out, nFill)
        else do
          let out ← wr out i (some (loc + 1).toNat)
          .ok (out, nFill + 1)) (loc + 1).toNat (size - (loc + 1).toNat) (out, 0)
      .ok (out, loc)
    else .ok (out, (size : Int) - 1) : C (List (Option Nat) × Int))
  let (out, _, _) ← forDown (fun i (s : List (Option Nat) × Int × Nat) => do
    let (out, loc, nFill) := s
    let b ← rd na i
    if !b then do
      let out ← wr out i (some (i + 1))
      .ok (out, (i : Int), 0)
    else if nFill = maxFill then do
      let out ← wr out i (some (i + 1))
      .ok (out, loc, nFill)
    else do
      let out ← wr out i (some (loc + 1).toNat)
      .ok (out, loc, nFill + 1)) (loc + 1).toNat (out, loc, 0)
  initd out

/-- The locations computed in `vec_fill_missing`, src/fill.c:35-49. -/
def fillLoc (na : List Bool) (down leading : Bool) (maxFill : Option Nat) : C (List Nat) :=
  if down then
    match maxFill with
    | some m => fillDownMax na leading m
    | none => fillDown na leading
  else
    match maxFill with
    | some m => fillUpMax na leading m
    | none => fillUp na leading

/-- `vec_fill_missing`, src/fill.c:25-55; `missing` is `vec_detect_missing()`. -/
def fillMissing (missing : α → Bool) (x : List α) (down leading : Bool) (maxFill : Option Nat) :
    C (List α) := do
  let loc ← fillLoc (x.map missing) down leading maxFill
  sliceLoc x loc

end Vctrs
