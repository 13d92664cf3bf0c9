import Verif.Model.Cast

/-!
# Fields of records and elements of lists

src/fields.c.
-/

namespace Vctrs

/-- What is known of the CHARSXPs of a session: `S` are the objects, compared by address; `naStr` is `NA_STRING` and
`utf8` is `Rf_translateCharUTF8`.  Two strings in different encodings are different objects with the same
translation. -/
structure StrHeap (S : Type) where
  naStr : S
  utf8 : S → List Char

variable {S V : Type} [DecidableEq S]

/-- `equal_string`, src/fields.c:8-19.  The cached translation `x_utf8` is the translation of `x` whenever it is
there. -/
def equalString (H : StrHeap S) (x y : S) : Bool :=
  if x = y then true else decide (H.utf8 y = H.utf8 x)

/-- An index: its type and elements. -/
inductive FieldIndex (S : Type) where
  | int (l : List Int)
  | dbl (l : List Dbl)
  | chr (l : List S)
  | other (n : Nat)

/-- `Rf_length(index)`. -/
def FieldIndex.length {S : Type} : FieldIndex S → Nat
  | .int l => l.length
  | .dbl l => l.length
  | .chr l => l.length
  | .other n => n

/-- `R_IsNA`: a NaN whose low word is 1954 (R's arithmetic.c). -/
def rIsNA (d : Dbl) : Bool := isNan d && decide (d.toNat % 2 ^ 32 = 1954)

/-- The integer branch of `find_offset`, src/fields.c:28-38. -/
def findOffsetInt (n : Nat) (l : List Int) : C Nat := do
  let val ← rd l 0
  if val = naInt then .error .abort
  else
    let val := val - 1
    if val < 0 ∨ val ≥ (n : Int) then .error .abort
    else .ok val.toNat

/-- The double branch of `find_offset`, src/fields.c:39-53.  `val--` is exact here (values are multiples of
`2^-1074`, see `dblVal`): from 1/2 to 2^53 the subtraction does not round, and outside of it the result is out of
bounds however it rounds.  Comparisons with NaN are false; converting NaN to `int` is undefined. -/
def findOffsetDbl (n : Nat) (l : List Dbl) : C Nat := do
  let val ← rd l 0
  if rIsNA val then .error .abort
  else if isNan val then .error .ub
  else
    let v := dblVal val - 2 ^ 1074
    if v < 0 ∨ v ≥ (n : Int) * 2 ^ 1074 then .error .abort
    else if v > (intMax : Int) * 2 ^ 1074 then .error .abort
    else .ok (v / 2 ^ 1074).toNat

/-- One step of the loop over the names, src/fields.c:66-75. -/
def findNameStep (H : StrHeap S) (names : List S) (val : S) (j : Nat) (_ : Option Nat) : C (Ctl (Option Nat)) := do
  let nameJ ← rd names j
  if nameJ = H.naStr then .error .abort
  else if equalString H val nameJ then .ok (.brk (some j))
  else .ok (.next none)

/-- The string branch of `find_offset`, src/fields.c:54-77. -/
def findOffsetChr (H : StrHeap S) (names : Option (List S)) (l : List S) : C Nat :=
  match names with
  | none => .error .abort
  | some names => do
    let val ← rd l 0
    if val = H.naStr then .error .abort
    else if H.utf8 val = [] then .error .abort
    else do
      let r ← forBrk names.length (findNameStep H names val) none
      match r with
      | some j => .ok j
      | none => .error .abort

/-- `find_offset`, src/fields.c:21-82. -/
def findOffset (H : StrHeap S) (n : Nat) (names : Option (List S)) (index : FieldIndex S) : C Nat :=
  if index.length ≠ 1 then .error .abort
  else match index with
    | .int l => findOffsetInt n l
    | .dbl l => findOffsetDbl n l
    | .chr l => findOffsetChr H names l
    | .other _ => .error .abort

/-- A list: its elements and names.  `isList` is `Rf_isVectorList`. -/
structure FieldList (S V : Type) where
  isList : Bool
  elts : List V
  names : Option (List S)

/-- `vctrs_list_get`, src/fields.c:86-90. -/
def listGet (H : StrHeap S) (x : FieldList S V) (index : FieldIndex S) : C V := do
  let idx ← findOffset H x.elts.length x.names index
  rd x.elts idx

/-- `vctrs_list_set`, src/fields.c:92-100; the list is copied first. -/
def listSet (H : StrHeap S) (x : FieldList S V) (index : FieldIndex S) (value : V) : C (FieldList S V) := do
  let idx ← findOffset H x.elts.length x.names index
  let elts ← wr x.elts idx value
  .ok { x with elts := elts }

/-- `check_rcrd`, src/fields.c:104-109. -/
def checkRcrd (x : FieldList S V) : C Unit :=
  if !x.isList then .error .abort
  else if x.elts.length = 0 then .error .abort
  else .ok ()

/-- `vctrs_fields`, src/fields.c:111-115. -/
def rcrdFields (x : FieldList S V) : C (Option (List S)) := do
  checkRcrd x
  .ok x.names

/-- `vctrs_n_fields`, src/fields.c:117-121. -/
def rcrdNFields (x : FieldList S V) : C Nat := do
  checkRcrd x
  .ok x.elts.length

/-- `vctrs_field_get`, src/fields.c:123-126. -/
def fieldGet (H : StrHeap S) (x : FieldList S V) (index : FieldIndex S) : C V := do
  checkRcrd x
  listGet H x index

/-- `vctrs_field_set`, src/fields.c:128-140.  `isVec` is `obj_is_vector` and `size` is `vec_size` of a field; the size
of a record is that of its first field (its proxy is a data frame, `df_raw_size`, src/size.c:183-199). -/
def fieldSet (H : StrHeap S) (isVec : V → Bool) (size : V → Nat) (x : FieldList S V) (index : FieldIndex S)
    (value : V) : C (FieldList S V) := do
  checkRcrd x
  if !isVec value then .error .abort
  else do
    let first ← rd x.elts 0
    if size value ≠ size first then .error .abort
    else listSet H x index value

end Vctrs
