import Verif.Model.OptionsLoc

/-!
# The size given to `vec_as_location()` and `num_as_location()`: src/subscript-loc.c

`Subscript.lean` has sizes that are natural numbers.  Here the size is the C `int` that was given, which is not checked.
-/

namespace Vctrs

/-- The size in `ffi_as_location`, src/subscript-loc.c:522-542, for a subscript that is not a character vector. -/
def parseLocSize (n : OptObj) : C Int :=
  match n with
  | .null => .error .internal
  | .num x => do
    let v ← match x with
      | .int v => (.ok v : C (List Int))
      | _ => do
        match ← numCast x .int with
        | .int v => .ok v
        | _ => .error .internal
    if v.length ≠ 1 then .error .internal
    else rd v 0
  | _ => .error .abort

/-- The scan of `int_as_location`, src/subscript-loc.c:161-200, with any `n`. -/
def intScanAny (subscript : List Int) (n : Int) (opts : LocOpts) : C LocScan :=
  forBrk subscript.length (fun i (s : LocScan) => do
    let elt ← rd subscript i
    if elt = naInt then
      match opts.missing with
      | .propagate => .ok (.next s)
      | .remove => .ok (.next { s with nMissing := s.nMissing + 1 })
      | .error => .error .abort
    else if elt = 0 then
      match opts.zero with
      | .remove => .ok (.next { s with nZero := s.nZero + 1 })
      | .error => .error .abort
      | .ignore => .ok (.next s)
    else if elt < 0 then
      match opts.negative with
      | .invert => .ok (.brk { s with inv := true })
      | .error => .error .abort
      | .ignore => do
        let a ← cAbs elt
        if a > n then
          match opts.oob with
          | .error => .error .abort
          | .extend => .error .abort
          | .remove => .ok (.next { s with nOob := s.nOob + 1 })
        else .ok (.next s)
    else if elt > n then
      match opts.oob with
      | .error => .error .abort
      | .extend => .ok (.next { s with nOob := s.nOob + 1 })
      | .remove => .ok (.next { s with nOob := s.nOob + 1 })
    else .ok (.next s)) ⟨0, 0, 0, false⟩

/-- `int_filter_oob`, src/subscript-loc.c:340-378, for an unnamed subscript, with any `n`. -/
def intFilterOobAny (subscript : List Int) (n : Int) (nOob : Nat) : C (List Int) := do
  if nOob > subscript.length then .error .abort
  else do
    let nSubscript := subscript.length
    let (out, _) ← forN nSubscript (fun i (s : List (Option Int) × Nat) => do
      let elt ← rd subscript i
      let a ← cAbs elt
      if a ≤ n ∨ elt = naInt then do
        let out ← wr s.1 s.2 (some elt)
        .ok (out, s.2 + 1)
      else .ok s) (alloc Int (nSubscript - nOob), 0)
    initd out

/-- `int_check_consecutive`, src/subscript-loc.c:380-437, with any `n`. -/
def intCheckConsecutiveAny (subscript : List Int) (n : Int) (nExtend : Nat) : C Unit := do
  let (extended, newN, nExt, iExt) ← forN subscript.length
    (fun i (s : List (Option Int) × Int × Int × Nat) => do
      let (extended, newN, nExt, iExt) := s
      let elt ← rd subscript i
      if elt ≤ n then .ok s
      else if elt - 1 = newN then .ok (extended, newN + 1, nExt - 1, iExt)
      else do
        let extended ← wr extended iExt (some (elt - 1))
        .ok (extended, newN, nExt, iExt + 1))
    (alloc Int nExtend, n, (nExtend : Int), 0)
  if nExt ≠ (iExt : Int) then .error .internal
  else if iExt = 0 then .ok ()
  else do
    let populated ← initd (extended.take iExt)
    let sorted := qsortInt populated
    forN iExt (fun i _ => do
      let elt ← rd sorted i
      if elt ≠ newN + i then .error .abort else .ok ()) ()

/-- `int_invert_location`, src/subscript-loc.c:233-292, with any `n`: `r_alloc_logical()` of a negative length is an error of
R. -/
def intInvertLocationAny (subscript : List Int) (n : Int) (opts : LocOpts) : C (List Int) :=
  if n < 0 then .error .abort else intInvertLocation subscript n.toNat opts

/-- `int_as_location`, src/subscript-loc.c:145-231, for an unnamed subscript, with any `n`. -/
def intAsLocationAny (subscript : List Int) (n : Int) (opts : LocOpts) : C (List Int) := do
  let s ← intScanAny subscript n opts
  if s.inv then intInvertLocationAny subscript n opts
  else do
    let subscript ← (if s.nMissing > 0 then do
        let (r, _) ← intFilter (ν := Unit) subscript none s.nMissing naInt
        .ok r
      else .ok subscript : C (List Int))
    let subscript ← (if s.nZero > 0 then do
        let (r, _) ← intFilter (ν := Unit) subscript none s.nZero 0
        .ok r
      else .ok subscript : C (List Int))
    if s.nOob > 0 then
      match opts.oob with
      | .error => .error .internal
      | .extend => do
        intCheckConsecutiveAny subscript n s.nOob
        .ok subscript
      | .remove => intFilterOobAny subscript n s.nOob
    else .ok subscript

/-- `ffi_as_location`, src/subscript-loc.c:513-562, for an unnamed integer subscript, as called by `num_as_location()`,
R/subscript-loc.R:115-140. -/
def ffiAsLocation (subscript : List Int) (n missing negative oob zero : OptObj) : C (List Int) := do
  let n ← parseLocSize n
  let opts ← parseLocOpts missing negative oob zero
  intAsLocationAny subscript n opts

end Vctrs
