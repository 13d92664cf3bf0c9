import Verif.Model.Cast
import Verif.Model.Names

/-!
# Dates and date-times: src/type-date-time.c

Attributes are a list of names and character vectors, as R keeps them; the date-time functions of base R are
parameters.
-/

namespace Vctrs

/-- Elements of an R vector that may be a date or date-time. -/
inductive TimeElts
  | int (x : List Int)
  | dbl (x : List Dbl)
  | other

/-- A vector with its attributes in order; those that are not character vectors are left out. -/
structure TimeVec where
  elts : TimeElts
  attribs : List (String × List Name)

/-- `Rf_getAttrib` on the attributes of `TimeVec`. -/
def attribGet (a : List (String × List Name)) (k : String) : Option (List Name) :=
  match a with
  | [] => none
  | p :: a => if p.1 = k then some p.2 else attribGet a k

/-- `Rf_setAttrib`: the value is replaced, or put last. -/
def attribSet (a : List (String × List Name)) (k : String) (v : List Name) : List (String × List Name) :=
  match a with
  | [] => [(k, v)]
  | p :: a => if p.1 = k then (k, v) :: a else p :: attribSet a k v

/-- `tzone_get`, src/type-date-time.c:416-440; the value is the only element of the result. -/
def tzoneGet (tzone : Option (List Name)) : C Name :=
  match tzone with
  | none => .ok (some [])
  | some [] => .error .abort
  | some (z :: _) => .ok z

/-- `tzone_is_local`, src/type-date-time.c:443-446. -/
def tzoneIsLocal (z : Name) : Bool := z == some []

/-- `tzone_union`, src/type-date-time.c:448-454. -/
def tzoneUnion (x y : Name) : Name := if tzoneIsLocal x then y else x

/-- `tzone_equal`, src/type-date-time.c:457-476; equal strings have equal bytes, so the last comparison decides. -/
def tzoneEqual (x y : Name) : Bool := cString x == cString y

/-! ## Common type -/

/-- The classes of this file. -/
inductive TimeCls
  | date
  | ct
  | lt
  deriving DecidableEq

/-- The type of a date or date-time: its class and its attribute `tzone`. -/
structure TimeType where
  cls : TimeCls
  tzone : Option (List Name)
  deriving DecidableEq

/-- `new_empty_datetime`, src/type-date-time.c:324-326, on one time zone. -/
def newEmptyDatetime (z : Name) : TimeType := ⟨.ct, some [z]⟩

/-- `date_datetime_ptype2`, src/type-date-time.c:33-44. -/
def dateDatetimePtype2 (x y : TimeType) : C TimeType := do
  let z ← if x.cls = .date then tzoneGet y.tzone else tzoneGet x.tzone
  .ok (newEmptyDatetime z)

/-- `datetime_datetime_ptype2`, src/type-date-time.c:48-59. -/
def datetimeDatetimePtype2 (x y : TimeType) : C TimeType := do
  let xz ← tzoneGet x.tzone
  let yz ← tzoneGet y.tzone
  .ok (newEmptyDatetime (tzoneUnion xz yz))

/-- The part of `vec_ptype2_dispatch_native` for dates and date-times, src/ptype2-dispatch.c:26-36, with the pairs
of src/typeof2-s3.c:199-269. -/
def timePtype2 (x y : TimeType) : C TimeType :=
  match x.cls, y.cls with
  | .date, .date => .ok ⟨.date, none⟩
  | .date, _ => dateDatetimePtype2 x y
  | _, .date => dateDatetimePtype2 x y
  | _, _ => datetimeDatetimePtype2 x y

/-- `vec_ptype_common_opts` on dates and date-times, src/ptype-common.c:43-68 with :92-113: the type of the first
is kept by `vec_ptype`, the rest are joined from the left.  There is none for no inputs. -/
def timeCommon (ts : List TimeType) : C (Option TimeType) :=
  match ts with
  | [] => .ok none
  | t :: ts => do .ok (some (← ts.foldlM timePtype2 t))

/-! ## Constructors and validation -/

/-- `Rf_coerceVector(x, REALSXP)` on integers. -/
def coerceReal (x : List Int) : List Dbl := x.map (fun i => if i = naInt then naReal else intToDbl i)

/-- The switch of `date_validate`, src/type-date-time.c:336-347, and of `datetime_validate_type`, :379-392. -/
def validateType (x : TimeVec) : C TimeVec :=
  match x.elts with
  | .dbl _ => .ok x
  | .int l => .ok { x with elts := .dbl (coerceReal l) }
  | .other => .error .internal

/-- `datetime_validate_tzone`, src/type-date-time.c:364-377. -/
def datetimeValidateTzone (x : TimeVec) : TimeVec :=
  match attribGet x.attribs "tzone" with
  | some _ => x
  | none => { x with attribs := attribSet x.attribs "tzone" [some []] }

/-- `datetime_validate`, src/type-date-time.c:357-362. -/
def datetimeValidate (x : TimeVec) : C TimeVec := validateType (datetimeValidateTzone x)

/-- Attributes with `names` only; `r_attrib_poke_names` after `SET_ATTRIB(out, R_NilValue)`. -/
def namesOnly (a : List (String × List Name)) : List (String × List Name) :=
  match attribGet a "names" with
  | none => []
  | some l => [("names", l)]

/-- `new_date`, src/type-date-time.c:270-286. -/
def newDate (x : TimeVec) : C TimeVec :=
  match x.elts with
  | .dbl l => .ok ⟨.dbl l, attribSet (namesOnly x.attribs) "class" [some "Date".toList]⟩
  | _ => .error .abort

/-- `new_datetime`, src/type-date-time.c:294-321; `tzone` is `NULL` or a character vector. -/
def newDatetime (x : TimeVec) (tzone : Option (List Name)) : C TimeVec :=
  match x.elts with
  | .dbl l =>
    let tzone := match tzone with
      | none => [some []]
      | some t => t
    .ok ⟨.dbl l, attribSet (attribSet (namesOnly x.attribs) "class" [some "POSIXct".toList, some "POSIXt".toList])
      "tzone" tzone⟩
  | _ => .error .abort

/-! ## Casts -/

/-- `datetime_rezone`, src/type-date-time.c:397-410. -/
def datetimeRezone (x : TimeVec) (tzone : Name) : C TimeVec := do
  let xz ← tzoneGet (attribGet x.attribs "tzone")
  if tzoneEqual xz tzone then .ok x
  else .ok { x with attribs := attribSet x.attribs "tzone" [tzone] }

/-- `posixct_as_posixct`, src/type-date-time.c:167-179. -/
def posixctAsPosixct (x to : TimeVec) : C TimeVec := do
  let tz ← tzoneGet (attribGet to.attribs "tzone")
  let x ← datetimeValidate x
  datetimeRezone x tz

/-- The functions of base R: the day on which an instant falls in a time zone, and the first instant of a day. -/
structure Calendar where
  day : Name → Dbl → Dbl
  midnight : Name → Dbl → Dbl

/-- The loop of `posixt_as_date`, src/type-date-time.c:141-156; the flag is `lossy`. -/
def asDateLossy (ct roundtrip : List Dbl) (size : Nat) : C Bool :=
  forBrk size (fun i (_ : Bool) => do
    let c ← rd ct i
    if isNan c then .ok (.next false)
    else do
      let r ← rd roundtrip i
      if !dblEqOp c r then .ok (.brk true) else .ok (.next false)) false

/-- `posixt_as_date`, src/type-date-time.c:131-160, from `posixct_as_date`, :101-111.  `none` is a lossy cast, which
is an error for the user. -/
def posixctAsDate (cal : Calendar) (x : TimeVec) : C (Option (List Dbl)) := do
  let ct ← datetimeValidate x
  let tz ← tzoneGet (attribGet ct.attribs "tzone")
  match ct.elts with
  | .dbl l => do
    let out := l.map (cal.day tz)
    let roundtrip := out.map (cal.midnight tz)
    let lossy ← asDateLossy l roundtrip out.length
    .ok (if lossy then none else some out)
  | _ => .error .internal

end Vctrs
