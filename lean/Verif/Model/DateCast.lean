import Verif.Model.DateTime

/-!
# Casts from and to `POSIXlt`: src/type-date-time.c

The functions of base R are parameters.
-/

namespace Vctrs

/-- The functions of base R on broken-down times `L`: `as.Date()` of one, `as.POSIXct()` of one in a time zone,
`as.POSIXlt()` of an instant in a time zone, and a date read from its string in a time zone (R/type-date-time.R:563-571). -/
structure Clock (L : Type) where
  day : L → Dbl
  instant : Name → L → Dbl
  broken : Name → Dbl → L
  midnight : Name → Dbl → L

/-- The day of an instant and the first instant of a day, through broken-down times: `posixct_as_date`,
src/type-date-time.c:101-111, and `date_as_posixct`, :69-80. -/
def Clock.calendar {L : Type} (k : Clock L) : Calendar :=
  ⟨fun z d => k.day (k.broken z d), fun z d => k.instant z (k.midnight z d)⟩

/-- A `POSIXlt`: its rows and the attribute `tzone`; other attributes are left out. -/
structure LtVec (L : Type) where
  rows : List L
  tzone : Option (List Name)
  deriving DecidableEq

variable {L : Type}

/-- `date_as_date`, src/type-date-time.c:64-66. -/
def dateAsDate (x : TimeVec) : C TimeVec := validateType x

/-- The numbers of a date as `format()` reads them, R/type-date-time.R:563-565. -/
def dateNumbers (x : TimeVec) : C (List Dbl) :=
  match x.elts with
  | .dbl l => .ok l
  | .int l => .ok (coerceReal l)
  | .other => .error .abort

/-- `date_as_posixct`, src/type-date-time.c:69-80, with R/type-date-time.R:574-577; of the attributes only
`tzone` is kept. -/
def dateAsPosixct (k : Clock L) (x : TimeVec) (to : Option (List Name)) : C TimeVec := do
  let tz ← tzoneGet to
  let l ← dateNumbers x
  .ok ⟨.dbl (l.map (fun d => k.instant tz (k.midnight tz d))), [("tzone", [tz])]⟩

/-- `date_as_posixlt`, src/type-date-time.c:83-95. -/
def dateAsPosixlt (k : Clock L) (x : TimeVec) (to : Option (List Name)) : C (LtVec L) := do
  let tz ← tzoneGet to
  let l ← dateNumbers x
  .ok ⟨l.map (k.midnight tz), some [tz]⟩

/-- `posixct_as_posixct_impl`, src/type-date-time.c:174-179. -/
def posixctAsPosixctImpl (x : TimeVec) (tz : Name) : C TimeVec := do
  let x ← datetimeValidate x
  datetimeRezone x tz

/-- `r_as_posixct`, src/type-date-time.c:496-498, on `POSIXlt`. -/
def rAsPosixct (k : Clock L) (x : LtVec L) (tz : Name) : TimeVec :=
  ⟨.dbl (x.rows.map (k.instant tz)), [("tzone", [tz])]⟩

/-- `posixlt_as_posixct_impl`, src/type-date-time.c:190-198. -/
def posixltAsPosixctImpl (k : Clock L) (x : LtVec L) (tz : Name) : C TimeVec := do
  let xz ← tzoneGet x.tzone
  posixctAsPosixctImpl (rAsPosixct k x xz) tz

/-- `posixlt_as_posixct`, src/type-date-time.c:183-188. -/
def posixltAsPosixct (k : Clock L) (x : LtVec L) (to : Option (List Name)) : C TimeVec := do
  let tz ← tzoneGet to
  posixltAsPosixctImpl k x tz

/-- `posixct_as_posixlt_impl`, src/type-date-time.c:209-211; `as.POSIXlt()` takes integers too.  Further names of
the time zone in the result are left out. -/
def posixctAsPosixltImpl (k : Clock L) (x : TimeVec) (tz : Name) : C (LtVec L) :=
  match x.elts with
  | .dbl l => .ok ⟨l.map (k.broken tz), some [tz]⟩
  | .int l => .ok ⟨(coerceReal l).map (k.broken tz), some [tz]⟩
  | .other => .error .abort

/-- `posixct_as_posixlt`, src/type-date-time.c:202-207. -/
def posixctAsPosixlt (k : Clock L) (x : TimeVec) (to : Option (List Name)) : C (LtVec L) := do
  let tz ← tzoneGet to
  posixctAsPosixltImpl k x tz

/-- `posixlt_as_posixlt`, src/type-date-time.c:215-234. -/
def posixltAsPosixlt (k : Clock L) (x : LtVec L) (to : Option (List Name)) : C (LtVec L) := do
  let xz ← tzoneGet x.tzone
  let tz ← tzoneGet to
  if tzoneEqual xz tz then .ok x
  else do
    let out ← posixltAsPosixctImpl k x xz
    let out ← posixctAsPosixctImpl out tz
    posixctAsPosixltImpl k out tz

/-- `posixlt_as_date`, src/type-date-time.c:115-125, with `posixt_as_date`, :131-160; `none` is a lossy cast. -/
def posixltAsDate (k : Clock L) (x : LtVec L) : C (Option (List Dbl)) := do
  let tz ← tzoneGet x.tzone
  let ct ← posixltAsPosixctImpl k x tz
  let ct ← datetimeValidate ct
  let out := x.rows.map k.day
  let roundtrip ← dateAsPosixct k ⟨.dbl out, []⟩ (attribGet ct.attribs "tzone")
  match ct.elts, roundtrip.elts with
  | .dbl l, .dbl r => do
    let lossy ← asDateLossy l r out.length
    .ok (if lossy then none else some out)
  | _, _ => .error .internal

end Vctrs
