import Verif.Model.Table
import Verif.Model.Cast

/-!
# Subscripts of any type and with names: src/subscript.c, src/subscript-loc.c

`Subscript.lean` has the conversion of unnamed logical, integer and character subscripts to locations.  Here are
the conversion of arbitrary objects to such subscripts, and the names of subscripts.
-/

namespace Vctrs

/-- `enum subscript_type_action`, src/subscript.h:17-20. -/
inductive TypeAction where
  | cast | error
  deriving DecidableEq, Repr

/-- The type actions of `struct subscript_opts`, src/subscript.h:22-29. -/
structure TypeOpts where
  logical : TypeAction := .cast
  numeric : TypeAction := .cast
  character : TypeAction := .cast

/-- A logical, integer or character subscript. -/
inductive BareSub where
  | lgl (x : List (Option Bool))
  | int (x : List Int)
  | chr (x : List RStr)
  deriving DecidableEq, Repr

/-- An R object used as a subscript.  `obj` is an object with a class; its fields say whether it is coercible with
logical, integer and character vectors and what the cast then gives (S3 methods), an error being `.error`.  Other
types of vectors, such as lists, are `vector`; functions, environments and so on are `scalar`. -/
inductive SubObj where
  | null
  | symbol (s : String)
  | lgl (x : List (Option Bool))
  | int (x : List Int)
  | dbl (x : List Dbl)
  | chr (x : List RStr)
  | obj (toLgl : Option (C (List (Option Bool)))) (toInt : Option (C (List Int))) (toChr : Option (C (List RStr)))
  | vector
  | scalar

/-- The first switch of `vec_as_subscript_opts`, src/subscript.c:18-32. -/
def subscriptPrepare (opts : TypeOpts) (x : SubObj) : SubObj :=
  match x with
  | .null => if opts.numeric = .cast then .int [] else .null
  | .symbol s => if opts.character = .cast then .chr [some s] else .symbol s
  | x => x

/-- `obj_is_vector`, src/subscript.c:35. -/
def subIsVector (x : SubObj) : Bool :=
  match x with
  | .null => false
  | .symbol _ => false
  | .scalar => false
  | _ => true

/-- `obj_cast_subscript`, src/subscript.c:97-131. -/
def objCastSubscript (toLgl : Option (C (List (Option Bool)))) (toInt : Option (C (List Int)))
    (toChr : Option (C (List RStr))) : C BareSub :=
  match toLgl with
  | some c => do .ok (.lgl (← c))
  | none =>
    match toInt with
    | some c => do .ok (.int (← c))
    | none =>
      match toChr with
      | some c => do .ok (.chr (← c))
      | none => .error .abort

/-- `isfinite()` of C. -/
def dblFinite (x : Dbl) : Bool := decide (x.toNat % 2 ^ 63 / 2 ^ 52 ≠ 2047)

/-- `!isfinite(elt) || elt <= INT_MIN || elt > INT_MAX`, src/subscript.c:154. -/
def dblOutOfInt (elt : Dbl) : Bool :=
  !dblFinite elt || dblLeOp elt (intToDbl naInt) || dblLtOp (intToDbl intMax) elt

/-- The loop of `dbl_cast_subscript`, src/subscript.c:133-173; the state is the output, or `none` when the fallback
is called. -/
def dblCastStep (x : List Dbl) (i : Nat) (s : Option (List (Option Int))) : C (Ctl (Option (List (Option Int)))) :=
  match s with
  | none => .ok (.brk none)
  | some out => do
    let elt ← rd x i
    if isNan elt then do
      let out ← wr out i (some naInt)
      .ok (.next (some out))
    else if dblOutOfInt elt then .ok (.brk none)
    else do
      let eltInt ← dblToInt elt
      if !dblEqOp elt (intToDbl eltInt) then .ok (.brk none)
      else do
        let out ← wr out i (some eltInt)
        .ok (.next (some out))

/-- `dbl_cast_subscript`, src/subscript.c:133-173, with `dbl_cast_subscript_fallback`, :175-199: the cast to integer,
whose error is a lossy cast. -/
def dblCastSubscript (x : List Dbl) : C (List Int) := do
  let s ← forBrk x.length (dblCastStep x) (some (alloc Int x.length))
  match ← castOut s with
  | some out => .ok out
  | none => do
    match ← numCast (.dbl x) .int with
    | .int out => .ok out
    | _ => .error .internal

/-- The cast of an object or a double, src/subscript.c:41-45, and the types left for the last switch, :72-77. -/
def subscriptCast (x : SubObj) : C BareSub :=
  match x with
  | .lgl x => .ok (.lgl x)
  | .int x => .ok (.int x)
  | .chr x => .ok (.chr x)
  | .dbl x => do .ok (.int (← dblCastSubscript x))
  | .obj l i c => objCastSubscript l i c
  | _ => .error .abort

/-- `vec_is_unspecified` on a logical vector, src/unspecified.c:37-75. -/
def lglUnspecified (x : List (Option Bool)) : Bool := !x.isEmpty && x.all (fun v => v.isNone)

/-- Unspecified vectors where logical ones are not allowed, src/subscript.c:53-69. -/
def subscriptUnspecified (opts : TypeOpts) (x : BareSub) : BareSub :=
  match x with
  | .lgl l =>
    if opts.logical = .error && lglUnspecified l then
      if opts.numeric = .cast then .int (List.replicate l.length naInt)
      else .chr (List.replicate l.length none)
    else .lgl l
  | x => x

/-- The last switch of `vec_as_subscript_opts`, src/subscript.c:71-83. -/
def subscriptAction (opts : TypeOpts) (x : BareSub) : TypeAction :=
  match x with
  | .lgl _ => opts.logical
  | .int _ => opts.numeric
  | .chr _ => opts.character

/-- `vec_as_subscript_opts`, src/subscript.c:5-94; `dimN` is `vec_dim_n(subscript)`.  Errors are conditions returned
in `err`.  The names are those of the object. -/
def vecAsSubscript (x : SubObj) (nms : Option (List Name)) (dimN : Nat) (opts : TypeOpts) :
    C (BareSub × Option (List Name)) :=
  if dimN ≠ 1 then .error .abort
  else
    let x := subscriptPrepare opts x
    if !subIsVector x then .error .abort
    else do
      let x ← subscriptCast x
      let x := subscriptUnspecified opts x
      if subscriptAction opts x = .error then .error .abort
      else .ok (x, nms)

/-! ## Locations with names -/

/-- `lgl_as_location`, src/subscript-loc.c:59-143. -/
def lglAsLocationN (subscript : List (Option Bool)) (nms : Option (List Name)) (n : Nat) (opts : LocOpts) :
    C (List Int × Option (List Name)) :=
  let subscriptN := subscript.length
  if subscriptN = n then
    if opts.missing = .error && lglAnyNa subscript then .error .abort
    else lglWhich subscript nms (decide (opts.missing = .propagate))
  else if subscriptN = 1 then do
    let elt ← rd subscript 0
    let (out, recycleSize) ← (match elt with
      | none =>
        match opts.missing with
        | .propagate => .ok (List.replicate n naInt, n)
        | .remove => .ok ([], 0)
        | .error => .error .abort
      | some true => .ok ((List.range n).map (fun i : Nat => (i : Int) + 1), n)
      | some false => .ok ([], 0) : C (List Int × Nat))
    match nms with
    | none => .ok (out, none)
    | some nms => do
      let nm ← rd nms 0
      .ok (out, some (List.replicate recycleSize nm))
  else .error .abort

/-- `int_filter_oob`, src/subscript-loc.c:340-378. -/
def intFilterOobN (subscript : List Int) (nms : Option (List Name)) (n nOob : Nat) :
    C (List Int × Option (List Name)) := do
  if nOob > subscript.length then .error .abort
  else do
    let size := subscript.length
    let (out, outNames, _) ← forN size (fun i (s : List (Option Int) × List (Option Name) × Nat) => do
      let (out, outNames, j) := s
      let elt ← rd subscript i
      let a ← cAbs elt
      if a ≤ (n : Int) ∨ elt = naInt then do
        let out ← wr out j (some elt)
        let outNames ← (match nms with
          | none => .ok outNames
          | some nms => do
            let nm ← rd nms i
            wr outNames j (some nm) : C (List (Option Name)))
        .ok (out, outNames, j + 1)
      else .ok s) (alloc Int (size - nOob), alloc Name (size - nOob), 0)
    let out ← initd out
    match nms with
    | none => .ok (out, none)
    | some _ => do
      let outNames ← initd outNames
      .ok (out, some outNames)

/-- `int_as_location`, src/subscript-loc.c:145-231; `int_invert_location` makes a logical vector without names. -/
def intAsLocationN (subscript : List Int) (nms : Option (List Name)) (n : Nat) (opts : LocOpts) :
    C (List Int × Option (List Name)) := do
  let s ← intScan subscript n opts
  if s.inv then do .ok (← intInvertLocation subscript n opts, none)
  else do
    let r ← (if s.nMissing > 0 then intFilter subscript nms s.nMissing naInt else .ok (subscript, nms) :
      C (List Int × Option (List Name)))
    let r ← (if s.nZero > 0 then intFilter r.1 r.2 s.nZero 0 else .ok r : C (List Int × Option (List Name)))
    if s.nOob > 0 then
      match opts.oob with
      | .error => .error .internal
      | .extend => do
        intCheckConsecutive r.1 n s.nOob
        .ok r
      | .remove => intFilterOobN r.1 r.2 n s.nOob
    else .ok r

/-- The loop of `chr_as_location`, src/subscript-loc.c:472-496: the locations and `remove_missing`. -/
def chrLocLoop (subscript : List RStr) (names : List RStr) (opts : LocOpts) : C (List Int × Bool) :=
  forN (subscript.map (rMatch names)).length (fun k (s : List Int × Bool) => do
    let elt ← rd subscript k
    if elt = some "" then .error .abort
    else if elt = none then do
      let p ← wr s.1 k naInt
      match opts.missing with
      | .propagate => .ok (p, s.2)
      | .remove => .ok (p, true)
      | .error => .error .abort
    else do
      let v ← rd s.1 k
      if v = naInt then .error .abort else .ok s) (subscript.map (rMatch names), false)

/-- `chr_as_location`, src/subscript-loc.c:454-512. -/
def chrAsLocationN (subscript : List RStr) (nms : Option (List Name)) (names : Option (List RStr)) (opts : LocOpts) :
    C (List Int × Option (List Name)) :=
  match names with
  | none => .error .abort
  | some names => do
    let (p, removeMissing) ← chrLocLoop subscript names opts
    if removeMissing then
      if opts.missing ≠ .remove then .error .internal
      else do
        let loc ← lglAsLocation (p.map (fun v => some (decide (v ≠ naInt)))) p.length {}
        let out ← sliceBase naInt p (.locs loc)
        let nms ← sliceNames nms (.locs loc)
        .ok (out, nms)
    else .ok (p, nms)

/-- `vec_as_location_opts`, src/subscript-loc.c:30-56; the type `double` does not occur after
`vec_as_subscript_opts`. -/
def vecAsLocationN (x : SubObj) (nms : Option (List Name)) (dimN : Nat) (n : Nat) (names : Option (List RStr))
    (topts : TypeOpts) (opts : LocOpts) : C (List Int × Option (List Name)) := do
  let (x, nms) ← vecAsSubscript x nms dimN topts
  match x with
  | .lgl x => lglAsLocationN x nms n opts
  | .int x => intAsLocationN x nms n opts
  | .chr x => chrAsLocationN x nms names opts

end Vctrs
