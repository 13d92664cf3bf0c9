import Verif.Model.ValSlice
import Verif.Model.Names
import Verif.Model.Size

/-!
# Vectors and data frames with names: src/slice.c, src/names.c, src/proxy-restore.c,
src/type-data-frame.c

A value carries the names of its elements or, for a data frame, the names of its columns and its
row names.  Values are bare: no class other than `data.frame`, no other attributes and no
dimensions.  `h` is the hash of a string in the dictionary of `vec_duplicate_any()` (Names.lean).
-/

namespace Vctrs

/-- An R object as these functions see it.  `names` is the `names` attribute, `rowNames` the row
names when they are a character vector (`ROWNAMES_TYPE_identifiers`, src/type-data-frame.c:402-415). -/
inductive NVal
  | null
  | vec (ty : VTy) (xs : List ty.El) (names : Option (List Name))
  | df (rows : Nat) (colNames : List Name) (cols : List NVal) (rowNames : Option (List Name))

/-- `vec_size`, src/size.c: the number of elements or rows. -/
def NVal.size : NVal → Nat
  | .null => 0
  | .vec _ xs _ => xs.length
  | .df n _ _ _ => n

/-- `vec_names_impl`, src/names.c:137-168, for values without dimensions. -/
def NVal.vnames : NVal → Option (List Name)
  | .null => none
  | .vec _ _ nms => nms
  | .df _ _ _ rn => rn

/-- `is_data_frame`. -/
def NVal.isDf : NVal → Bool
  | .df _ _ _ _ => true
  | _ => false

/-! ## Slicing -/

/-- `slice_names`, src/slice.c:262-269: a missing location is named `""`. -/
def sliceNames (names : Option (List Name)) (s : Subscript) : C (Option (List Name)) :=
  match names with
  | none => .ok none
  | some nms => do .ok (some (← sliceBase (some []) nms s))

/-- `slice_rownames`, src/slice.c:270-282. -/
def sliceRownames (h : Name → BitVec 32) (names : Option (List Name)) (s : Subscript) :
    C (Option (List Name)) :=
  match names with
  | none => .ok none
  | some nms => do
    let nms ← sliceBase none nms s
    let nms ← vecAsUniqueNames h nms
    .ok (some nms)

/-- The row names part of `vec_bare_df_restore`, src/proxy-restore.c:215-225. -/
def restoreRownames (h : Name → BitVec 32) (names : Option (List Name)) : C (Option (List Name)) :=
  match names with
  | none => .ok none
  | some nms => do .ok (some (← vecAsUniqueNames h nms))

mutual

/-- `vec_slice_unsafe`, src/slice.c:284-368, with `df_slice`, :174-208 and the restoration of the row
names. -/
def nvalSlice (h : Name → BitVec 32) (s : Subscript) : NVal → C NVal
  | .null => .error .internal
  | .vec t xs nms => do
    let xs ← sliceBase (naElt t) xs s
    let nms ← sliceNames nms s
    .ok (.vec t xs nms)
  | .df n cn cols rn => do
    let cols ← nvalSliceCols h s n cols
    let rn ← sliceRownames h rn s
    let rn ← restoreRownames h rn
    .ok (.df (subscriptSize s).toNat cn cols rn)

/-- The loop of `df_slice`, src/slice.c:184-196. -/
def nvalSliceCols (h : Name → BitVec 32) (s : Subscript) (size : Nat) : List NVal → C (List NVal)
  | [] => .ok []
  | x :: xs =>
    if x.size ≠ size then .error .internal
    else do
      let y ← nvalSlice h s x
      let ys ← nvalSliceCols h s size xs
      .ok (y :: ys)

end

/-- Names as `vec_as_location()` takes them. -/
def nameStrings (names : Option (List Name)) : Option (List RStr) :=
  names.map (fun nms => nms.map (fun n => n.map String.ofList))

/-- `vec_slice_opts`, src/slice.c:409-425. -/
def ffiSlice (h : Name → BitVec 32) (x : NVal) (i : RSubscript) : C NVal :=
  match x with
  | .null => .error .abort
  | x => do
    let loc ← vecAsLocation i x.size (nameStrings x.vnames) {}
    nvalSlice h (.locs loc) x

/-- `vec_init`, src/slice.c:427-441. -/
def nvalInit (h : Name → BitVec 32) (x : NVal) (n : Int) : C NVal :=
  match x with
  | .null => .error .abort
  | x =>
    if n < 0 then .error .abort
    else do
      let i ← compactRep naInt n
      nvalSlice h i x

/-- `vec_check_recycle`, src/size.c:205-228. -/
def nvalRecycle (h : Name → BitVec 32) (x : NVal) (size : Int) : C NVal :=
  match x with
  | .null => .ok .null
  | x =>
    if (x.size : Int) = size then .ok x
    else if x.size = 1 then do
      let i ← compactRep 1 size
      nvalSlice h i x
    else .error .abort

/-! ## Data frames -/

/-- A value as `vec_size_common()` sees it. -/
def sizeArg (x : NVal) : Arg Unit :=
  match x with
  | .null => .null
  | x => .vec (List.replicate x.size ())

/-- `vec_check_size_common(x, 0)` unless a size is given, src/type-data-frame.c:175-180. -/
def sizeOrCommon (xs : List NVal) (size : Option Nat) : C Int :=
  match size with
  | some n => .ok n
  | none => vecSizeCommon (xs.map (fun x => .plain (sizeArg x))) 0

/-- A list of values with names. -/
abbrev NList := List NVal × List Name

/-- `vec_recycle_common_opts`, src/size-common.c:157-184. -/
def nvalRecycleAll (h : Name → BitVec 32) (xs : List NVal) (size : Int) : C (List NVal) :=
  if size < 0 then .ok xs
  else forN xs.length (fun i xs => do
    let elt ← rd xs i
    let r ← nvalRecycle h elt size
    wr xs i r) xs

/-- `x == r_null`. -/
def NVal.isNull : NVal → Bool
  | .null => true
  | _ => false

/-- `df_list_drop_null`, src/type-data-frame.c:266-301.  `r_alloc_list()` is filled with `NULL` and
`r_alloc_character()` with `""`. -/
def dfListDropNull (x : NList) : C NList := do
  let n := x.1.length
  let count ← forN n (fun i count => do
    let col ← rd x.1 i
    .ok (count + if col.isNull then 1 else 0)) 0
  if count = 0 then .ok x
  else do
    let (out, outNames, _) ← forN n (fun i (s : List NVal × List Name × Nat) => do
      let col ← rd x.1 i
      if !col.isNull then do
        let out ← wr s.1 s.2.2 col
        let nm ← rd x.2 i
        let outNames ← wr s.2.1 s.2.2 nm
        .ok (out, outNames, s.2.2 + 1)
      else .ok s) (List.replicate (n - count) .null, List.replicate (n - count) (some []), 0)
    .ok (out, outNames)

/-- The test of `df_list_unpack`, src/type-data-frame.c:312-323: an unnamed data frame. -/
def unpackTest (x : NList) (i : Nat) : C Bool := do
  let nm ← rd x.2 i
  if nm ≠ some [] then .ok false
  else do
    let col ← rd x.1 i
    .ok col.isDf

/-- `r_length` of a data frame. -/
def NVal.width : NVal → Nat
  | .df _ _ cols _ => cols.length
  | _ => 0

/-- A turn of the counting loop, src/type-data-frame.c:340-355. -/
def unpackCount (x : NList) (i : Nat) (s : Nat × List Bool) : C (Nat × List Bool) := do
  if ← unpackTest x i then do
    let col ← rd x.1 i
    let p ← wr s.2 i true
    .ok (s.1 + col.width, p)
  else .ok (s.1 + 1, s.2)

/-- The inner loop of the unpack loop, src/type-data-frame.c:386-389. -/
def unpackCols (colNames : List Name) (cols : List NVal) (s : List NVal × List Name × Nat) :
    C (List NVal × List Name × Nat) :=
  forN cols.length (fun j (s : List NVal × List Name × Nat) => do
    let c ← rd cols j
    let out ← wr s.1 s.2.2 c
    let nm ← rd colNames j
    let outNames ← wr s.2.1 s.2.2 nm
    .ok (out, outNames, s.2.2 + 1)) s

/-- A column that is unpacked, src/type-data-frame.c:371-392. -/
def unpackCol (col : NVal) (s : List NVal × List Name × Nat) : C (List NVal × List Name × Nat) :=
  match col with
  | .df _ cn cols _ => unpackCols cn cols s
  | _ => .error .internal

/-- A turn of the unpack loop, src/type-data-frame.c:362-393. -/
def unpackTurn (x : NList) (unpack : List Bool) (i : Nat) (s : List NVal × List Name × Nat) :
    C (List NVal × List Name × Nat) := do
  let u ← rd unpack i
  let col ← rd x.1 i
  if !u then do
    let out ← wr s.1 s.2.2 col
    let nm ← rd x.2 i
    let outNames ← wr s.2.1 s.2.2 nm
    .ok (out, outNames, s.2.2 + 1)
  else unpackCol col s

/-- `df_list_unpack`, src/type-data-frame.c:303-399. -/
def dfListUnpack (x : NList) : C NList := do
  let n := x.1.length
  let i ← forBrk n (fun i _ => do
    let b ← unpackTest x i
    .ok (if b then .brk i else .next (i + 1))) 0
  if i = n then .ok x
  else do
    let (width, unpack) ← forFrom (unpackCount x) i (n - i) (i, List.replicate n false)
    let (out, outNames, _) ← forN n (unpackTurn x unpack)
      (List.replicate width .null, List.replicate width (some []), 0)
    .ok (out, outNames)

/-- `df_list`, src/type-data-frame.c:230-264; `names` are those of the list `xs`. -/
def dfList (h : Name → BitVec 32) (xs : List NVal) (names : Option (List Name)) (size : Int)
    (unpack : Bool) (repair : NameRepair) : C NList := do
  let xs ← nvalRecycleAll h xs size
  let nms := match names with
    | none => List.replicate xs.length (some [])
    | some nms => nms
  let x ← dfListDropNull (xs, nms)
  let x ← (if unpack then dfListUnpack x else .ok x : C NList)
  let nms ← vecAsNames h x.2 repair
  .ok (x.1, nms)

/-- `df_list()`: `ffi_df_list`, src/type-data-frame.c:202-228. -/
def ffiDfList (h : Name → BitVec 32) (xs : List NVal) (names : Option (List Name)) (size : Option Nat)
    (unpack : Bool) (repair : NameRepair) : C NList := do
  let size ← sizeOrCommon xs size
  dfList h xs names size unpack repair

/-- `data_frame()`: `ffi_data_frame` and `data_frame`, src/type-data-frame.c:163-198. -/
def ffiDataFrame (h : Name → BitVec 32) (xs : List NVal) (names : Option (List Name)) (size : Option Nat)
    (repair : NameRepair) : C NVal := do
  let size ← sizeOrCommon xs size
  let x ← dfList h xs names size true repair
  .ok (.df size.toNat x.2 x.1 none)

/-! ## vec_cbind -/

/-- `cbind_container_type`, src/bind.c:515-533, as far as row names are concerned: the row names of
the first data frame that has some. -/
def cbindRownames (xs : List NVal) : C (Option (List Name)) :=
  forN xs.length (fun i (rn : Option (List Name)) => do
    let x ← rd xs i
    .ok (if x.isDf && rn.isNone then x.vnames else rn)) none

/-- Recycling of the row names, src/bind.c:408-413. -/
def cbindRecycleRownames (h : Name → BitVec 32) (rn : Option (List Name)) (nrow : Int) :
    C (Option (List Name)) :=
  match rn with
  | none => .ok none
  | some rn =>
    if (rn.length : Int) = nrow then .ok (some rn)
    else do
      match ← vecCheckRecycle none (.vec rn) nrow with
      | .vec rn => do .ok (some (← vecAsUniqueNames h rn))
      | _ => .error .internal

/-- What `as_df_col` returns: the data frame, its columns and its names, and `allow_pack`. -/
structure CbindCol where
  whole : NVal
  cols : List NVal
  names : Option (List Name)
  allowPack : Bool

/-- `as_df_col`, src/bind.c:543-564 and `vec_as_df_col`, :586-601.  A data frame without names is only
looked at through `names`. -/
def asDfCol (x : NVal) (outer : Name) : C CbindCol :=
  match x with
  | .df n cn cols rn => .ok ⟨.df n cn cols rn, cols, some cn, true⟩
  | .vec t xs nms =>
    .ok ⟨.df xs.length [outer] [.vec t xs nms] none, [.vec t xs nms],
      if outer ≠ some [] then some [outer] else none, false⟩
  | .null => .error .internal

/-- `has_names ? xs_names_p[i] : strings_empty`, src/bind.c:430. -/
def outerName (names : Option (List Name)) (i : Nat) : C Name :=
  match names with
  | none => .ok (some [])
  | some nms => rd nms i

/-- `r_chr_poke(xs_names, i, strings_empty)` if there are names, src/bind.c:434-437. -/
def pokeEmpty (names : Option (List Name)) (i : Nat) : C (Option (List Name)) :=
  match names with
  | none => .ok none
  | some nms => do .ok (some (← wr nms i (some [])))

/-- State of the conversion loop: the converted inputs (`none` is `NULL`), the names and the number of
columns. -/
structure CbindState where
  conv : List (Option CbindCol)
  outer : Option (List Name)
  ncol : Nat

/-- A turn of the conversion loop, src/bind.c:421-445. -/
def cbindConvert (h : Name → BitVec 32) (xs : List NVal) (nrow : Int) (i : Nat) (s : CbindState) :
    C CbindState := do
  let x ← rd xs i
  if x.isNull then .ok s
  else do
    let x ← nvalRecycle h x nrow
    let outer ← outerName s.outer i
    let d ← asDfCol x outer
    let nms ← (if !d.allowPack then pokeEmpty s.outer i else .ok s.outer : C (Option (List Name)))
    let conv ← wr s.conv i (some d)
    .ok ⟨conv, nms, s.ncol + if outer = some [] then d.cols.length else 1⟩

/-- `chr_assign(names, idx, xnms)` unless the names are `NULL`, src/bind.c:485-489. -/
def cbindNames (names : List Name) (idx : Subscript) (xnms : Option (List Name)) : C (List Name) :=
  match xnms with
  | none => .ok names
  | some xnms => assignBase names idx xnms

/-- A data frame or one of its columns is filled in, src/bind.c:470-492. -/
def cbindPut (outer : Name) (d : CbindCol) (s : List NVal × List Name × Nat) :
    C (List NVal × List Name × Nat) :=
  if outer ≠ some [] then do
    let out ← wr s.1 s.2.2 d.whole
    let nms ← wr s.2.1 s.2.2 outer
    .ok (out, nms, s.2.2 + 1)
  else do
    let idx := Subscript.seq s.2.2 d.cols.length 1
    let out ← assignBase s.1 idx d.cols
    let nms ← cbindNames s.2.1 idx d.names
    .ok (out, nms, s.2.2 + d.cols.length)

/-- A turn of the filling loop, src/bind.c:463-493. -/
def cbindFill (c : CbindState) (i : Nat) (s : List NVal × List Name × Nat) :
    C (List NVal × List Name × Nat) := do
  match ← rd c.conv i with
  | none => .ok s
  | some d => do
    let outer ← outerName c.outer i
    cbindPut outer d s

/-- `vec_cbind`, src/bind.c:371-506, without a `.ptype`.  The container type is a data frame without
columns and only restores the class. -/
def vecCbind (h : Name → BitVec 32) (xs : List NVal) (names : Option (List Name)) (size : Option Nat)
    (repair : NameRepair) : C NVal := do
  let rn ← cbindRownames xs
  let nrow ← sizeOrCommon xs size
  let rn ← cbindRecycleRownames h rn nrow
  let c ← forN xs.length (cbindConvert h xs nrow) ⟨List.replicate xs.length none, names, 0⟩
  let (out, nms, _) ← forN xs.length (cbindFill c)
    (List.replicate c.ncol .null, List.replicate c.ncol (some []), 0)
  let nms ← vecAsNames h nms repair
  let rn ← restoreRownames h rn
  .ok (.df nrow.toNat nms out rn)

end Vctrs
