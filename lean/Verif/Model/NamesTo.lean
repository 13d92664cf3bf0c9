import Verif.Model.Rbind

/-!
# The `.names_to` column of `vec_rbind()`: src/bind.c
-/

namespace Vctrs

/-- `r_chr_find`, src/utils.c:1095-1110; `none` is `-1`.  Strings are compared by their addresses. -/
def chrFind (x : List Name) (value : Name) : C (Option Nat) :=
  forBrk x.length (fun i _ => do
    let s ← rd x i
    .ok (if s = value then .brk (some i) else .next none)) none

/-- The type of the column, src/bind.c:332: character if the inputs have names. -/
def indexPtype (hasNames : Bool) : NVal := if hasNames then .vec (.atom .chr) [] none else .vec (.atom .int) [] none

/-- `cbind_names_to`, src/bind.c:327-349: names are not repaired. -/
def cbindNamesTo (h : Name → BitVec 32) (hasNames : Bool) (namesTo : Name) (ptype : NVal) : C NVal :=
  vecCbind h [indexPtype hasNames, ptype] (some [namesTo, some []]) none .none

/-- The names of a data frame; `r_names()` of anything else is not looked at. -/
def NVal.colNames : NVal → C (List Name)
  | .df _ cn _ _ => .ok cn
  | _ => .error .internal

/-- The common type and the place of the column, src/bind.c:103-116. -/
def namesToPlace (h : Name → BitVec 32) (hasNames : Bool) (namesTo : Name) (ptype : NVal) : C (NVal × Nat) := do
  let cn ← ptype.colNames
  match ← chrFind cn namesTo with
  | some k => .ok (ptype, k)
  | none => do .ok (← cbindNamesTo h hasNames namesTo ptype, 0)

/-- `vec_rbind`, src/bind.c:46-254, from line 92 on; `cast` is `vec_cast_common()`, :119-124. -/
def vecRbindTo (h : Name → BitVec 32) (cast : List NVal → NVal → C (List NVal)) (xs : List NVal) (names : Option (List Name))
    (ptype : NVal) (spec : NameSpec) (namesTo : Option Name) : C NVal :=
  match namesTo with
  | none => do
    let xs ← cast xs ptype
    vecRbind h xs names ptype spec none
  | some t =>
    if spec.isZap then .error .abort
    else do
      let (ptype, k) ← namesToPlace h names.isSome t ptype
      let xs ← cast xs ptype
      vecRbind h xs names ptype spec (some k)

end Vctrs
