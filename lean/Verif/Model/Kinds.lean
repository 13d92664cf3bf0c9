import Verif.Base

/-!
# Kinds of objects, sizes and `new_data_frame()`

src/utils-dispatch.c, src/type-info.c, src/unspecified.c, src/size.c and src/type-data-frame.c.
-/

namespace Vctrs

/-- `r_typeof()`; `other` stands for all types that are never vectors. -/
inductive RType where
  | null | logical | integer | double | complex | character | raw | list | other
  deriving DecidableEq, Repr

/-- Tags of attributes. -/
inductive KTag where
  | names | dim | class_ | rowNames | other (n : Nat)
  deriving DecidableEq, Repr

/-- Values of attributes; strings are `none` if missing. -/
inductive KVal where
  | chr (l : List (Option String))
  | int (l : List Int)
  | other (n : Nat)
  deriving DecidableEq, Repr

/-- R objects: type, length if neither logical nor a list, missingness of the elements of a logical
vector, elements of a list, attributes in the order of the pairlist, and the `OBJECT` bit. -/
inductive KObj where
  | mk (ty : RType) (len : Nat) (nas : List Bool) (cols : List KObj) (attrs : List (KTag × KVal)) (obj : Bool)

/-- `r_typeof()`, src/rlang/obj.h. -/
def KObj.ty : KObj → RType
  | .mk t _ _ _ _ _ => t

/-- `r_attrib()`, src/rlang/attrib.h. -/
def KObj.attrs : KObj → List (KTag × KVal)
  | .mk _ _ _ _ a _ => a

/-- `r_is_object()`, src/rlang/obj.h. -/
def KObj.obj : KObj → Bool
  | .mk _ _ _ _ _ o => o

/-- `r_list_cbegin()`, src/rlang/vec.h. -/
def KObj.cols : KObj → List KObj
  | .mk _ _ _ c _ _ => c

/-- `r_lgl_cbegin()`, src/rlang/vec.h, up to missingness. -/
def KObj.nas : KObj → List Bool
  | .mk _ _ n _ _ _ => n

/-- `r_length()`, src/rlang/vec.h. -/
def KObj.length : KObj → Nat
  | .mk .list _ _ c _ _ => c.length
  | .mk .logical _ n _ _ _ => n.length
  | .mk .null _ _ _ _ _ => 0
  | .mk _ n _ _ _ _ => n

/-- `r_attrib_get()`, src/rlang/attrib.h: the first node with the tag. -/
def kindGet : List (KTag × KVal) → KTag → Option KVal
  | [], _ => none
  | (t, v) :: l, u => if t = u then some v else kindGet l u

/-- Class of the object as a character vector; R refuses any other class attribute. -/
def kindClass (x : KObj) : C (Option (List (Option String))) :=
  match kindGet x.attrs .class_ with
  | none => .ok none
  | some (.chr l) => .ok (some l)
  | some _ => .error .ub

/-- `enum vctrs_class_type`, src/utils-dispatch.h:6-19. -/
inductive VClass where
  | list | dataFrame | bareAsis | bareDataFrame | bareTibble | bareFactor | bareOrdered | bareDate
  | barePosixct | barePosixlt | unknown | noClass
  deriving DecidableEq, Repr

/-- The bare classes of `class_type_impl`, src/utils-dispatch.c:30-77. -/
def bareClass (cls : List (Option String)) : C (Option VClass) :=
  match cls.length with
  | 1 => do
    let p0 ← rd cls 0
    if p0 = some "data.frame" then .ok (some .bareDataFrame)
    else if p0 = some "factor" then .ok (some .bareFactor)
    else if p0 = some "Date" then .ok (some .bareDate)
    else if p0 = some "AsIs" then .ok (some .bareAsis)
    else .ok none
  | 2 => do
    let p0 ← rd cls 0
    let p1 ← rd cls 1
    if p0 = some "ordered" ∧ p1 = some "factor" then .ok (some .bareOrdered)
    else if p1 = some "POSIXt" then
      if p0 = some "POSIXct" then .ok (some .barePosixct)
      else if p0 = some "POSIXlt" then .ok (some .barePosixlt)
      else .ok none
    else .ok none
  | 3 => do
    let p0 ← rd cls 0
    let p1 ← rd cls 1
    let p2 ← rd cls 2
    if p0 = some "tbl_df" ∧ p1 = some "tbl" ∧ p2 = some "data.frame" then .ok (some .bareTibble)
    else .ok none
  | _ => .ok none

/-- The inherited classes of `class_type_impl`, src/utils-dispatch.c:79-91; the pointer arithmetic is
read at `n - 1`. -/
def inheritedClass (cls : List (Option String)) : C VClass := do
  let last ← rdI cls ((cls.length : Int) - 1)
  if last = some "data.frame" then .ok .dataFrame
  else if last = some "list" then .ok .list
  else .ok .unknown

/-- `class_type_impl`, src/utils-dispatch.c:28-92. -/
def classTypeImpl (cls : List (Option String)) : C VClass := do
  match ← bareClass cls with
  | some t => .ok t
  | none => inheritedClass cls

/-- `class_type`, src/utils-dispatch.c:10-26. -/
def classTypeOf (x : KObj) : C VClass :=
  if !x.obj then .ok .noClass
  else do
    match ← kindClass x with
    | none => .ok .noClass
    | some cls => classTypeImpl cls

/-- `class_type_is_data_frame`, src/utils-dispatch.h:23-33. -/
def VClass.isDf : VClass → Bool
  | .dataFrame | .bareDataFrame | .bareTibble => true
  | _ => false

/-- `is_data_frame`, src/type-data-frame.c:6-10. -/
def isDfObj (x : KObj) : C Bool :=
  if x.ty = .list then do
    let t ← classTypeOf x
    .ok t.isDf
  else .ok false

/-- `Rf_inherits()`: only objects inherit. -/
def kindInherits (x : KObj) (s : String) : C Bool :=
  if !x.obj then .ok false
  else do
    match ← kindClass x with
    | none => .ok false
    | some cls => .ok (cls.any (· == some s))

/-- `enum vctrs_type`, src/type-info.h:6-19. -/
inductive KType where
  | null | unspecified | logical | integer | double | complex | character | raw | list | dataframe
  | scalar | s3
  deriving DecidableEq, Repr

/-- `vec_base_typeof`, src/type-info.c:64-84. -/
def baseTypeof (x : KObj) (proxied : Bool) : C KType :=
  match x.ty with
  | .null => .ok .null
  | .logical => .ok .logical
  | .integer => .ok .integer
  | .double => .ok .double
  | .complex => .ok .complex
  | .character => .ok .character
  | .raw => .ok .raw
  | .list =>
    if !x.obj then .ok .list
    else do
      let df ← isDfObj x
      if df then .ok .dataframe
      else if proxied then .ok .list
      else do
        let inh ← kindInherits x "list"
        if inh then .ok .list else .ok .scalar
  | .other => .ok .scalar

/-- `vec_proxy_info`, src/type-info.c:19-40.  `proxy x` is the outcome of the `vec_proxy()` method
found for `x`, if any. -/
def proxyInfo (proxy : KObj → Option (C KObj)) (x : KObj) : C (KType × KObj) :=
  match (if x.obj then proxy x else none) with
  | none => do
    let t ← baseTypeof x false
    .ok (t, x)
  | some p => do
    let p ← p
    let t ← baseTypeof p true
    .ok (t, p)

/-- `obj_is_list`, src/type-info.c:96-113. -/
def objIsList (x : KObj) : C Bool :=
  if x.ty ≠ .list then .ok false
  else if !x.obj then .ok true
  else do
    let t ← classTypeOf x
    .ok (t == .list || t == .bareAsis)

/-- `obj_is_vector`, src/type-info.c:119-126. -/
def objIsVector (proxy : KObj → Option (C KObj)) (x : KObj) : C Bool :=
  if x.ty = .null then .ok false
  else do
    let i ← proxyInfo proxy x
    .ok (i.1 != .scalar)

/-- `list_all_vectors`, src/type-info.c:134-153. -/
def listAllVectors (proxy : KObj → Option (C KObj)) (x : KObj) : C Bool :=
  if x.ty ≠ .list then .error .internal
  else forBrk x.length (fun i out => do
    let e ← rd x.cols i
    let v ← objIsVector proxy e
    if !v then .ok (.brk false) else .ok (.next out)) true

/-- `vec_is_unspecified`, src/unspecified.c:37-75.  The pointer test for the attributes shared by
unspecified vectors is part of the test of inheritance. -/
def isUnspecified (x : KObj) : C Bool :=
  if x.ty ≠ .logical then .ok false
  else do
    let early ← (if x.attrs.isEmpty then .ok none
      else do
        let inh ← kindInherits x "vctrs_unspecified"
        if inh then .ok (some true)
        else if x.obj then .ok (some false)
        else if (kindGet x.attrs .dim).isSome then .ok (some false)
        else .ok none : C (Option Bool))
    match early with
    | some b => .ok b
    | none =>
      if x.length = 0 then .ok false
      else forBrk x.length (fun i out => do
        let na ← rd x.nas i
        if !na then .ok (.brk false) else .ok (.next out)) true

/-- `vec_typeof`, src/type-info.c:168-187. -/
def typeofObj (x : KObj) : C KType := do
  let u ← isUnspecified x
  if u then .ok .unspecified
  else if !x.obj || (kindGet x.attrs .class_).isNone then baseTypeof x false
  else do
    let t ← classTypeOf x
    if t = .bareDataFrame then .ok .dataframe else .ok .s3

/-- `rownames_size`, src/type-data-frame.c:402-434; `abs()` of the smallest integer is undefined. -/
def rownamesSize (rn : KVal) : C Int :=
  match rn with
  | .chr l => .ok l.length
  | .int l => do
    let compact ← (if l.length = 2 then do
        let a ← rd l 0
        .ok (a == naInt)
      else .ok false : C Bool)
    if compact then do
      let b ← rd l 1
      if b < 0 then chkInt (-b) else .ok b
    else .ok l.length
  | .other _ => .error .internal

/-- `df_rownames_size`, src/size.c:152-164. -/
def dfRownamesSize : List (KTag × KVal) → C Int
  | [] => .ok (-1)
  | (t, v) :: l => if t ≠ .rowNames then dfRownamesSize l else rownamesSize v

/-- `df_size`, src/size.c:168-176. -/
def dfObjSize (x : KObj) : C Int := do
  let n ← dfRownamesSize x.attrs
  if n < 0 then .error .internal else .ok n

/-- `vec_raw_size`, src/size.c:60-73. -/
def objRawSize (x : KObj) : C Int :=
  match kindGet x.attrs .dim with
  | none => .ok x.length
  | some (.int []) => .ok x.length
  | some (.int (d :: _)) => .ok d
  | some _ => .error .internal

/-- The switch of `vec_size_opts`, src/size.c:32-54. -/
def sizeSwitch (t : KType) (data : KObj) : C Int :=
  match t with
  | .null => .ok 0
  | .logical | .integer | .double | .complex | .character | .raw | .list => objRawSize data
  | .dataframe => dfObjSize data
  | _ => .error .abort

/-- `vec_size_opts`, src/size.c:25-57. -/
def objSize (proxy : KObj → Option (C KObj)) (x : KObj) : C Int := do
  let i ← proxyInfo proxy x
  sizeSwitch i.1 i.2

/-- Conversion of an `r_ssize` to `int`. -/
def toInt32 (n : Int) : Int := Int.bmod n 4294967296

/-- `list_sizes`, src/size.c:84-114; names are taken from the attribute, without methods for `names()`. -/
def listSizes (proxy : KObj → Option (C KObj)) (x : KObj) : C (Option KVal × List Int) := do
  let isl ← objIsList x
  if !isl then .error .abort
  else do
    let size ← objSize proxy x
    let out ← forN size.toNat (fun i out => do
      let e ← rd x.cols i
      let s ← objSize proxy e
      wr out i (some (toInt32 s))) (alloc Int size.toNat)
    let out ← initd out
    .ok (kindGet x.attrs .names, out)

/-- `list_all_size`, src/size.c:125-150. -/
def listAllSize (proxy : KObj → Option (C KObj)) (xs : KObj) (size : Int) : C Bool :=
  if xs.ty ≠ .list then .error .internal
  else forBrk xs.length (fun i out => do
    let e ← rd xs.cols i
    let s ← objSize proxy e
    if s ≠ size then .ok (.brk false) else .ok (.next out)) true

/-- `df_raw_size`, src/size.c:178-194. -/
def dfObjRawSize (proxy : KObj → Option (C KObj)) (x : KObj) : C Int := do
  let n ← dfRownamesSize x.attrs
  if n ≥ 0 then .ok n
  else if x.length ≥ 1 then do
    let c ← rd x.cols 0
    objSize proxy c
  else .ok 0

/-- `new_compact_rownames`, src/type-data-frame.c:462-472. -/
def newCompactRownames (n : Int) : KVal :=
  if n ≤ 0 then .int [] else .int [naInt, toInt32 (-n)]

/-- `df_size_from_n`, src/type-data-frame.c:130-146; `none` stands for any other type. -/
def dfSizeFromN (n : Option (List Int)) : C Int :=
  match n with
  | some [out] =>
    if out = naInt then .error .abort
    else if out < 0 then .error .abort
    else .ok out
  | _ => .error .abort

/-- The loop over the dots at src/type-data-frame.c:52-80. -/
def scanDots : List (KTag × KVal) → Bool × Bool → C (Bool × Bool)
  | [], s => .ok s
  | (t, _) :: l, s =>
    if t = .class_ then .error .internal
    else if t = .names then scanDots l (true, s.2)
    else if t = .rowNames then scanDots l (s.1, true)
    else scanDots l s

/-- Names from `x` at src/type-data-frame.c:82-97. -/
def dotsNames (hasNames : Bool) (x : KObj) (dots : List (KTag × KVal)) : List (KTag × KVal) :=
  if !hasNames then
    match (if x.length = 0 then some (.chr []) else kindGet x.attrs .names) with
    | some v => (.names, v) :: dots
    | none => dots
  else dots

/-- The size at src/type-data-frame.c:105. -/
def newDfSize (proxy : KObj → Option (C KObj)) (x : KObj) : Option (Option (List Int)) → C Int
  | some n => dfSizeFromN n
  | none => dfObjRawSize proxy x

/-- The class at src/type-data-frame.c:115-119 and `c_data_frame_class`, :148-154. -/
def newDfClass : Option (Option (List (Option String))) → C (List (Option String))
  | none => .ok [some "data.frame"]
  | some none => .error .abort
  | some (some l) => .ok (l ++ [some "data.frame"])

/-- `ffi_new_data_frame`, src/type-data-frame.c:36-128.  `n` and `cls` are `none` for `NULL`; a value
of `n` that is not an integer vector and a class that is not a character vector are `some none`. -/
def newDataFrameObj (proxy : KObj → Option (C KObj)) (x : KObj) (n : Option (Option (List Int)))
    (cls : Option (Option (List (Option String)))) (dots : List (KTag × KVal)) : C KObj :=
  if x.ty ≠ .list then .error .abort
  else do
    let has ← scanDots dots (false, false)
    let attrib := dotsNames has.1 x dots
    let attrib ← (if !has.2 then do
        let size ← newDfSize proxy x n
        .ok ((KTag.rowNames, newCompactRownames size) :: attrib)
      else .ok attrib : C (List (KTag × KVal)))
    let cls ← newDfClass cls
    .ok (.mk .list 0 [] x.cols ((.class_, .chr cls) :: attrib) true)

end Vctrs
