import Verif.Model.Options
import Verif.Model.SubscriptNames
import Verif.Model.Expand

/-!
# More options given as R objects: src/subscript-loc.c, src/subscript.c, src/expand.c, src/rank.c, src/order.c
-/

namespace Vctrs

/-- The test of the type and the length and `r_chr_get_c_string(x, 0)`, src/subscript-loc.c:567-571, :583-587, :599-603 and
:615-619, and `CHAR(STRING_ELT(x, 0))`, src/subscript.c:271-275.  The characters of a missing string are `NA`. -/
def firstCString (x : OptObj) : C (List Char) :=
  match x with
  | .chr x =>
    if x.elts.length = 0 then .error .abort
    else do
      match ← rd x.elts 0 with
      | none => .ok "NA".toList
      | some s => .ok s
  | _ => .error .abort

/-- `parse_subscript_arg_missing`, src/subscript-loc.c:564-579. -/
def parseLocMissing (x : OptObj) : C LocMissing := do
  let s ← firstCString x
  strcmpReturn .abort s [("propagate".toList, .propagate), ("remove".toList, .remove), ("error".toList, .error)]

/-- `parse_loc_negative`, src/subscript-loc.c:580-595. -/
def parseLocNegative (x : OptObj) : C LocNegative := do
  let s ← firstCString x
  strcmpReturn .abort s [("invert".toList, .invert), ("error".toList, .error), ("ignore".toList, .ignore)]

/-- `parse_loc_oob`, src/subscript-loc.c:596-611. -/
def parseLocOob (x : OptObj) : C LocOob := do
  let s ← firstCString x
  strcmpReturn .abort s [("error".toList, .error), ("remove".toList, .remove), ("extend".toList, .extend)]

/-- `parse_loc_zero`, src/subscript-loc.c:612-627. -/
def parseLocZero (x : OptObj) : C LocZero := do
  let s ← firstCString x
  strcmpReturn .abort s [("remove".toList, .remove), ("error".toList, .error), ("ignore".toList, .ignore)]

/-- The options of `ffi_as_location`, src/subscript-loc.c:550-559.  The order of the fields is that of the initialiser. -/
def parseLocOpts (missing negative oob zero : OptObj) : C LocOpts := do
  let m ← parseLocMissing missing
  let n ← parseLocNegative negative
  let o ← parseLocOob oob
  let z ← parseLocZero zero
  .ok { negative := n, oob := o, zero := z, missing := m }

/-- `parse_subscript_arg_type`, src/subscript.c:268-282. -/
def parseTypeAction (x : OptObj) : C TypeAction := do
  let s ← firstCString x
  strcmpReturn .abort s [("cast".toList, .cast), ("error".toList, .error)]

/-- The options of `ffi_as_subscript` and `ffi_as_subscript_result`, src/subscript.c:214-220 and :243-249. -/
def parseTypeOpts (logical numeric character : OptObj) : C TypeOpts := do
  let l ← parseTypeAction logical
  let n ← parseTypeAction numeric
  let c ← parseTypeAction character
  .ok { logical := l, numeric := n, character := c }

/-- `parse_vary`, src/expand.c:124-138; internal errors, `arg_match0()` comes first in R (R/expand.R:59-63). -/
def parseVary (x : OptObj) : C Vary := do
  match ← asRString x with
  | none => .error .internal
  | some s => strcmpReturn .internal s [("slowest".toList, .slowest), ("fastest".toList, .fastest)]

/-- `parse_incomplete`, src/rank.c:228-242: is the rank of incomplete rows missing. -/
def parseRankIncomplete (x : OptObj) : C Bool := do
  match ← asRString x with
  | none => .error .internal
  | some s => strcmpReturn .internal s [("rank".toList, false), ("na".toList, true)]

/-- `parse_nan_distinct`, src/order.c:4685-4701; the conversion to `bool` at the end is a test for 0. -/
def parseNanDistinct (x : OptObj) : C Bool :=
  match x with
  | .num (.lgl x) =>
    if x.length ≠ 1 then .error .abort
    else do
      let c ← rd x 0
      if c = naInt then .error .abort else .ok (decide (c ≠ 0))
  | _ => .error .abort

/-- `r_arg_as_bool`, src/rlang/vec.h:339-345, and `r_bool_as_int`, src/utils.c:1188-1193, with `r_is_bool`,
src/rlang/vec.h:309-315. -/
def rArgAsBool (x : OptObj) : C Bool := do
  let isBool ← match x with
    | .num (.lgl x) =>
      if x.length = 1 then do
        let c ← rd x 0
        .ok (decide (c ≠ naInt))
      else .ok false
    | _ => .ok false
  if isBool then
    match x with
    | .num (.lgl x) => do
      let c ← rd x 0
      .ok (decide (c ≠ 0))
    | _ => .error .ub
  else .error .abort

end Vctrs
