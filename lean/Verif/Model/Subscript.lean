import Verif.Model.Slice

/-!
# Conversion of subscripts to locations: src/subscript-loc.c, src/rlang/vec-lgl.c

Logical subscripts are `List (Option Bool)` (`none` is `NA`), integer subscripts `List Int` with
`naInt`, strings are opaque with `NA_character_` as `none`.  Names of subscripts are modelled for
`r_lgl_which()` and `int_filter()`; elsewhere they are only copied and are left out.  Errors signalled
to the user are `abort`.
-/

namespace Vctrs

variable {ν : Type}

/-- `enum subscript_missing`, src/subscript-loc.h:9-13. -/
inductive LocMissing where
  | propagate | remove | error
  deriving DecidableEq, Repr

/-- `enum num_loc_negative`, src/subscript-loc.h:14-18. -/
inductive LocNegative where
  | invert | error | ignore
  deriving DecidableEq, Repr

/-- `enum num_loc_oob`, src/subscript-loc.h:19-23. -/
inductive LocOob where
  | error | remove | extend
  deriving DecidableEq, Repr

/-- `enum num_loc_zero`, src/subscript-loc.h:24-28. -/
inductive LocZero where
  | remove | error | ignore
  deriving DecidableEq, Repr

/-- `struct location_opts`, src/subscript-loc.h:30-36, without the type actions; the defaults are
the zero-initialised ones used by `vec_as_location()` and `vec_slice()`. -/
structure LocOpts where
  negative : LocNegative := .invert
  oob : LocOob := .error
  zero : LocZero := .remove
  missing : LocMissing := .propagate

/-- `r_lgl_sum`, src/rlang/vec-lgl.c:4-28. -/
def lglSum (x : List (Option Bool)) (naTrue : Bool) : C Nat :=
  if naTrue then
    forN x.length (fun i sum => do
      let v ← rd x i
      .ok (sum + (if v = some false then 0 else 1))) 0
  else
    forN x.length (fun i sum => do
      let v ← rd x i
      .ok (sum + (if v = some true then 1 else 0))) 0

/-- The first loops of `r_lgl_which`, src/rlang/vec-lgl.c:50-76: `elt i x_elt` is the value stored
and `keep x_elt` whether the output position advances. -/
def lglWhichLoop (x : List (Option Bool)) (outN : Nat) (elt : Nat → Option Bool → Int)
    (keep : Option Bool → Bool) : C (List (Option Int)) := do
  let (out, _) ← forBrk x.length (fun i (s : List (Option Int) × Nat) => do
    let (out, j) := s
    if j < outN then do
      let v ← rd x i
      let out ← wr out j (some (elt i v))
      .ok (.next (out, j + (if keep v then 1 else 0)))
    else .ok (.brk s)) (alloc Int outN, 0)
  .ok out

/-- `elt` at src/rlang/vec-lgl.c:57 and :65: `missing * na + !missing * x_elt * (i + 1)`. -/
def whichElt (na : Int) (i : Nat) (v : Option Bool) : Int :=
  match v with
  | none => na
  | some true => (i : Int) + 1
  | some false => 0

/-- `r_lgl_which`, src/rlang/vec-lgl.c:30-104.  `v_x[i]` is 0, 1 or `NA_LOGICAL`.  Sizes above
`INT_MAX` are the internal error at :42-44. -/
def lglWhich (x : List (Option Bool)) (names : Option (List ν)) (naPropagate : Bool) :
    C (List Int × Option (List ν)) := do
  let outN ← lglSum x naPropagate
  if outN > intMax then .error .internal
  else do
    let out ← (if naPropagate then
        if names.isSome then
          lglWhichLoop x outN (fun i v => whichElt (-(i : Int) - 1) i v) (fun v => decide (v ≠ some false))
        else lglWhichLoop x outN (fun i v => whichElt naInt i v) (fun v => decide (v ≠ some false))
      else lglWhichLoop x outN (fun i _ => (i : Int) + 1) (fun v => decide (v = some true)) :
      C (List (Option Int)))
    match names with
    | none => do
      let out ← initd out
      .ok (out, none)
    | some nms =>
      if naPropagate then do
        let (out, outNames) ← forN outN (fun i (s : List (Option Int) × List (Option ν)) => do
          let loc ← rdU s.1 i
          let absLoc := loc.natAbs
          let out ← wr s.1 i (some (if loc = (absLoc : Int) then loc else naInt))
          let nm ← rdI nms ((absLoc : Int) - 1)
          let outNames ← wr s.2 i (some nm)
          .ok (out, outNames)) (out, alloc ν outN)
        let out ← initd out
        let outNames ← initd outNames
        .ok (out, some outNames)
      else do
        let outNames ← forN outN (fun i (outNames : List (Option ν)) => do
          let loc ← rdU out i
          let nm ← rdI nms (loc - 1)
          wr outNames i (some nm)) (alloc ν outN)
        let out ← initd out
        let outNames ← initd outNames
        .ok (out, some outNames)

/-- `lgl_any_na`, used at src/subscript-loc.c:73. -/
def lglAnyNa (x : List (Option Bool)) : Bool := x.any (fun v => v.isNone)

/-- `lgl_as_location`, src/subscript-loc.c:59-143, for an unnamed subscript. -/
def lglAsLocation (subscript : List (Option Bool)) (n : Nat) (opts : LocOpts) : C (List Int) :=
  let subscriptN := subscript.length
  if subscriptN = n then
    if opts.missing = .error && lglAnyNa subscript then .error .abort
    else do
      let (out, _) ← lglWhich (ν := Unit) subscript none (decide (opts.missing = .propagate))
      .ok out
  else if subscriptN = 1 then do
    let elt ← rd subscript 0
    match elt with
    | none =>
      match opts.missing with
      | .propagate => .ok (List.replicate n naInt)
      | .remove => .ok []
      | .error => .error .abort
    | some true => .ok ((List.range n).map (fun i : Nat => (i : Int) + 1))
    | some false => .ok []
  else .error .abort

/-- `int_filter`, src/subscript-loc.c:294-329, on the locations and (optional) names. -/
def intFilter (subscript : List Int) (names : Option (List ν)) (nFilter : Nat) (value : Int) :
    C (List Int × Option (List ν)) := do
  if nFilter > subscript.length then .error .abort
  else do
    let size := subscript.length
    let (out, outNames, _) ← forN size (fun i (s : List (Option Int) × List (Option ν) × Nat) => do
      let (out, outNames, j) := s
      let elt ← rd subscript i
      if elt ≠ value then do
        let out ← wr out j (some elt)
        let outNames ← (match names with
          | none => .ok outNames
          | some nms => do
            let nm ← rd nms i
            wr outNames j (some nm) : C (List (Option ν)))
        .ok (out, outNames, j + 1)
      else .ok s) (alloc Int (size - nFilter), alloc ν (size - nFilter), 0)
    let out ← initd out
    match names with
    | none => .ok (out, none)
    | some _ => do
      let outNames ← initd outNames
      .ok (out, some outNames)

/-- `abs()` on `int`: undefined for `INT_MIN`. -/
def cAbs (i : Int) : C Int := if i = naInt then .error .ub else .ok (i.natAbs : Int)

/-- `int_filter_oob`, src/subscript-loc.c:340-378, for an unnamed subscript. -/
def intFilterOob (subscript : List Int) (n nOob : Nat) : C (List Int) := do
  if nOob > subscript.length then .error .abort
  else do
    let nSubscript := subscript.length
    let (out, _) ← forN nSubscript (fun i (s : List (Option Int) × Nat) => do
      let elt ← rd subscript i
      let a ← cAbs elt
      if a ≤ (n : Int) ∨ elt = naInt then do
        let out ← wr s.1 s.2 (some elt)
        .ok (out, s.2 + 1)
      else .ok s) (alloc Int (nSubscript - nOob), 0)
    initd out

/-- Insertion into a sorted list, for `qsortInt`. -/
def insertInt (a : Int) : List Int → List Int
  | [] => [a]
  | b :: l => if a ≤ b then a :: b :: l else b :: insertInt a l

/-- `qsort` with `qsort_int_compare_scalar` (src/subscript-loc.c:422): the C library sorts the
array; on `int`s every sorting algorithm returns the same array. -/
def qsortInt : List Int → List Int
  | [] => []
  | a :: l => insertInt a (qsortInt l)

/-- `int_check_consecutive`, src/subscript-loc.c:380-437. -/
def intCheckConsecutive (subscript : List Int) (n nExtend : Nat) : C Unit := do
  let (extended, newN, nExt, iExt) ← forN subscript.length
    (fun i (s : List (Option Int) × Int × Int × Nat) => do
      let (extended, newN, nExt, iExt) := s
      let elt ← rd subscript i
      if elt ≤ (n : Int) then .ok s
      else if elt - 1 = newN then .ok (extended, newN + 1, nExt - 1, iExt)
      else do
        let extended ← wr extended iExt (some (elt - 1))
        .ok (extended, newN, nExt, iExt + 1))
    (alloc Int nExtend, (n : Int), (nExtend : Int), 0)
  if nExt ≠ (iExt : Int) then .error .internal
  else if iExt = 0 then .ok ()
  else do
    let populated ← initd (extended.take iExt)
    let sorted := qsortInt populated
    forN iExt (fun i _ => do
      let elt ← rd sorted i
      if elt ≠ newN + i then .error .abort else .ok ()) ()

/-- `int_invert_location`, src/subscript-loc.c:233-292. -/
def intInvertLocation (subscript : List Int) (n : Nat) (opts : LocOpts) : C (List Int) := do
  let sel ← forN subscript.length (fun i (sel : List (Option Bool)) => do
    let j ← rd subscript i
    if j = naInt then
      match opts.missing with
      | .propagate => .error .abort
      | .remove => .ok sel
      | .error => .error .abort
    else if j = 0 then
      match opts.zero with
      | .remove => .ok sel
      | .ignore => .ok sel
      | .error => .error .abort
    else if j > 0 then .error .abort
    else do
      let j := -j
      if j > (n : Int) then
        match opts.oob with
        | .remove => .ok sel
        | .extend => .error .abort
        | .error => .error .abort
      else wrI sel (j - 1) (some false)) (List.replicate n (some true))
  lglAsLocation sel n opts

/-- Counters of the scan in `int_as_location`; `inv` records that the scan ended at
`return int_invert_location(...)`. -/
structure LocScan where
  nZero : Nat
  nOob : Nat
  nMissing : Nat
  inv : Bool
  deriving DecidableEq, Repr

/-- The scan of `int_as_location`, src/subscript-loc.c:161-200. -/
def intScan (subscript : List Int) (n : Nat) (opts : LocOpts) : C LocScan :=
  forBrk subscript.length (fun i (s : LocScan) => do
    let elt ← rd subscript i
    if elt = naInt then
      match opts.missing with
      | .propagate => .ok (.next s)
      | .remove => .ok (.next { s with nMissing := s.nMissing + 1 })
      | .error => .error .abort
    else if elt = 0 then
      match opts.zero with
      | .remove => .ok (.next { s with nZero := s.nZero + 1 })
      | .error => .error .abort
      | .ignore => .ok (.next s)
    else if elt < 0 then
      match opts.negative with
      | .invert => .ok (.brk { s with inv := true })
      | .error => .error .abort
      | .ignore => do
        let a ← cAbs elt
        if a > (n : Int) then
          match opts.oob with
          | .error => .error .abort
          | .extend => .error .abort
          | .remove => .ok (.next { s with nOob := s.nOob + 1 })
        else .ok (.next s)
    else if elt > (n : Int) then
      match opts.oob with
      | .error => .error .abort
      | .extend => .ok (.next { s with nOob := s.nOob + 1 })
      | .remove => .ok (.next { s with nOob := s.nOob + 1 })
    else .ok (.next s)) ⟨0, 0, 0, false⟩

/-- `int_as_location`, src/subscript-loc.c:145-231, for an unnamed subscript. -/
def intAsLocation (subscript : List Int) (n : Nat) (opts : LocOpts) : C (List Int) := do
  let s ← intScan subscript n opts
  if s.inv then intInvertLocation subscript n opts
  else do
    let subscript ← (if s.nMissing > 0 then do
        let (r, _) ← intFilter (ν := Unit) subscript none s.nMissing naInt
        .ok r
      else .ok subscript : C (List Int))
    let subscript ← (if s.nZero > 0 then do
        let (r, _) ← intFilter (ν := Unit) subscript none s.nZero 0
        .ok r
      else .ok subscript : C (List Int))
    if s.nOob > 0 then
      match opts.oob with
      | .error => .error .internal
      | .extend => do
        intCheckConsecutive subscript n s.nOob
        .ok subscript
      | .remove => intFilterOob subscript n s.nOob
    else .ok subscript

/-- A string: `none` is `NA_character_`.  CHARSXPs are interned, so equality is identity. -/
abbrev RStr := Option String

/-- `Rf_match(names, subscript, NA)` (base R) for one element: the 1-based location of the first
equal string. -/
def rMatch (names : List RStr) (elt : RStr) : Int :=
  match names.findIdx? (fun s => decide (s = elt)) with
  | some i => (i : Int) + 1
  | none => naInt

/-- `chr_as_location`, src/subscript-loc.c:454-512.  `names` is `none` for `NULL`.  The removal of
missing locations goes through `vec_detect_complete()` and `vec_slice()` with a logical subscript. -/
def chrAsLocation (subscript : List RStr) (names : Option (List RStr)) (opts : LocOpts) :
    C (List Int) := do
  match names with
  | none => .error .abort
  | some names => do
    let matched := subscript.map (rMatch names)
    let (p, removeMissing) ← forN matched.length (fun k (s : List Int × Bool) => do
      let elt ← rd subscript k
      if elt = some "" then .error .abort
      else if elt = none then do
        let p ← wr s.1 k naInt
        match opts.missing with
        | .propagate => .ok (p, s.2)
        | .remove => .ok (p, true)
        | .error => .error .abort
      else do
        let v ← rd s.1 k
        if v = naInt then .error .abort else .ok s) (matched, false)
    if removeMissing then
      if opts.missing ≠ .remove then .error .internal
      else do
        let notMissing := p.map (fun v => some (decide (v ≠ naInt)))
        let loc ← lglAsLocation notMissing p.length {}
        sliceBase naInt p (.locs loc)
    else .ok p

/-- A subscript after `vec_as_subscript_opts()` (src/subscript.c:5-95; casting of classed and double
subscripts is not part of this model). -/
inductive RSubscript where
  | null
  | lgl (x : List (Option Bool))
  | int (x : List Int)
  | chr (x : List RStr)
  deriving DecidableEq, Repr

/-- `vec_as_location_opts`, src/subscript-loc.c:30-56. -/
def vecAsLocation (subscript : RSubscript) (n : Nat) (names : Option (List RStr)) (opts : LocOpts) :
    C (List Int) :=
  match subscript with
  | .null => .ok []
  | .lgl x => lglAsLocation x n opts
  | .int x => intAsLocation x n opts
  | .chr x => chrAsLocation x names opts

end Vctrs
