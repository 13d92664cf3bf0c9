import Verif.Model.MatchExpand
import Verif.Model.SetNames
import Verif.Model.Cast
import Verif.Model.Rank

/-!
# Options given as R objects: src/match.c, src/rank.c, src/fill.c
-/

namespace Vctrs

/-- An object given as an option: `NULL`, a character vector with its dimensions, a bare logical, integer or double
vector without dimensions, or anything else, of some length, which has no cast to integer (src/cast.c:46-72; methods of
foreign classes are left out). -/
inductive OptObj where
  | null
  | chr (x : ChrObj)
  | num (x : NumVec)
  | other (len : Nat)

/-- `r_length`. -/
def OptObj.length : OptObj → Nat
  | .null => 0
  | .chr x => x.elts.length
  | .num x => numSize x
  | .other n => n

/-- `r_is_string`, src/rlang/vec.h:332-337, with the string. -/
def asRString : OptObj → C (Option (List Char))
  | .chr x =>
    if x.elts.length = 1 then do
      let s ← rd x.elts 0
      .ok s
    else .ok none
  | _ => .ok none

/-- A sequence of `if (!strcmp(s, ...)) return ...` that ends in the error `e`, as at src/match.c:1382-1388. -/
def strcmpReturn {α : Type} (e : Err) (s : List Char) : List (List Char × α) → C α
  | [] => .error e
  | (t, a) :: l => if s = t then .ok a else strcmpReturn e s l

/-- `vec_cast(x, r_globals.empty_int)` for an option followed by `r_int_get(x, 0)`, src/match.c:1360-1367, :1503-1510 and
:1554-1561. -/
def optIntGet (x : OptObj) : C Int :=
  match x with
  | .null => .error .ub
  | .num x => do
    match ← numCast x .int with
    | .int v => rd v 0
    | _ => .error .internal
  | _ => .error .abort

/-- `parse_incomplete`, src/match.c:1309-1371. -/
def parseIncomplete (x : OptObj) : C MIncomplete := do
  if x.length ≠ 1 then .error .abort
  else do
    match ← asRString x with
    | some s => strcmpReturn .abort s [("compare".toList, .compare), ("match".toList, .exact), ("drop".toList, .drop),
        ("error".toList, .error)]
    | none => do
      let v ← optIntGet x
      .ok (.value v)

/-- `parse_no_match`, src/match.c:1467-1514, and `parse_remaining`, src/match.c:1518-1565. -/
def parseUnmatched (x : OptObj) : C MUnmatched := do
  if x.length ≠ 1 then .error .abort
  else do
    match ← asRString x with
    | some s => strcmpReturn .abort s [("error".toList, .error), ("drop".toList, .drop)]
    | none => do
      let v ← optIntGet x
      .ok (.value v)

/-- `parse_multiple`, src/match.c:1374-1394. -/
def parseMultiple (x : OptObj) : C MMultiple := do
  match ← asRString x with
  | none => .error .abort
  | some s => strcmpReturn .abort s [("all".toList, .all), ("any".toList, .any), ("first".toList, .first), ("last".toList, .last),
      ("warning".toList, .warning), ("error".toList, .error)]

/-- `parse_relationship`, src/match.c:1398-1417. -/
def parseRelationship (x : OptObj) : C MRelationship := do
  match ← asRString x with
  | none => .error .abort
  | some s => strcmpReturn .abort s [("none".toList, .none), ("one-to-one".toList, .oneToOne), ("one-to-many".toList, .oneToMany),
      ("many-to-one".toList, .manyToOne), ("many-to-many".toList, .manyToMany),
      ("warn-many-to-many".toList, .warnManyToMany)]

/-- `parse_condition`, src/match.c:1272-1304, and `parse_filter`, src/match.c:1430-1461; `one` is
`parse_condition_one` or `parse_filter_one`. -/
def parseColumns {α : Type} (one : Name → C α) (x : OptObj) (nCols : Nat) : C (List α) :=
  match x with
  | .chr x => do
    let size ← x.size
    if size = 1 then do
      let elt ← rd x.elts 0
      let op ← one elt
      let ops ← forN nCols (fun i ops => wr ops i (some op)) (alloc α nCols)
      initd ops
    else if size = nCols then do
      let ops ← forN nCols (fun i ops => do
        let elt ← rd x.elts i
        let op ← one elt
        wr ops i (some op)) (alloc α nCols)
      initd ops
    else .error .abort
  | _ => .error .abort

/-- `parse_ties`, src/rank.c:208-224; internal errors, `arg_match0()` comes first in R (R/rank.R:98). -/
def parseTies (x : OptObj) : C Ties := do
  match ← asRString x with
  | none => .error .internal
  | some s => strcmpReturn .internal s [("min".toList, .min), ("max".toList, .max), ("sequential".toList, .sequential),
      ("dense".toList, .dense)]

/-- `parse_direction`, src/fill.c:207-238: whether to fill down and whether to fill leading missing values; further elements
are ignored. -/
def parseFillDirection (x : OptObj) : C (Bool × Bool) :=
  match x with
  | .chr x =>
    if x.elts.length = 0 then .error .abort
    else do
      match ← rd x.elts 0 with
      | none => .error .abort
      | some s => strcmpReturn .abort s [("down".toList, (true, false)), ("up".toList, (false, false)),
          ("downup".toList, (true, true)), ("updown".toList, (false, true))]
  | _ => .error .abort

/-- `parse_max_fill`, src/fill.c:245-265, and `r_is_positive_number`, src/utils.c:1195-1202; `none` is `INFINITE_FILL`. -/
def parseMaxFill (x : OptObj) : C (Option Nat) :=
  match x with
  | .null => .ok none
  | .num x => do
    match ← numCast x .int with
    | .int v =>
      if v.length = 1 then do
        let n ← rd v 0
        if n ≠ naInt ∧ n > 0 then .ok (some n.toNat) else .error .abort
      else .error .abort
    | _ => .error .internal
  | _ => .error .abort

end Vctrs
