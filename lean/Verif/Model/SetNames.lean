import Verif.Model.Names

/-!
# `vec_names()`, `vec_set_names()` and names with dimensions: src/names.c

What R itself does when an attribute is set (`Rf_setAttrib()`) and R functions called for classes are
described here too.
-/

namespace Vctrs

/-! ## Names that may be an array -/

/-- A character vector given as names: its elements and its `dim` attribute. -/
structure ChrObj where
  elts : List Name
  dim : Option (List Nat)
  deriving DecidableEq

/-- `vec_size` of a character vector, `vec_raw_size`, src/size.c:60-72. -/
def ChrObj.size (x : ChrObj) : C Nat :=
  match x.dim with
  | none => .ok x.elts.length
  | some [] => .ok x.elts.length
  | some (d :: _) => .ok d

/-- Row `i` of an array with `d` rows, as in the data frame that `vec_proxy_equal` makes of it
(src/proxy.c:142-161 and `vec_proxy_equal.array` in R): every column has `d` cells. -/
def ChrObj.row (x : ChrObj) (d i : Nat) : C (List Name) :=
  (List.range (x.elts.length / d)).mapM (fun k => rd x.elts (k * d + i))

/-- What `duplicated_any` and `vctrs_duplicated` compare (src/dictionary.c:256-279, :595-631): elements, or
rows of an array with two or more dimensions. -/
def ChrObj.keys (x : ChrObj) : C (List (List Name)) :=
  match x.dim with
  | some (d :: _ :: _) => (List.range d).mapM (x.row d)
  | _ => .ok (x.elts.map (fun s => [s]))

/-- Comparison and hash of what is compared; equality of strings is that of their addresses. -/
def keyOps (h : List Name → BitVec 32) : PolyOps (List Name) := ⟨fun a b => decide (a = b), h⟩

/-- `is_unique_names`, src/names.c:244-263. -/
def isUniqueObj (h : List Name → BitVec 32) (x : ChrObj) : C Bool := do
  let keys ← x.keys
  if ← duplicatedAny (keyOps h) keys then .ok false
  else forBrk x.elts.length (fun i _ => do
    let s ← rd x.elts i
    .ok (if needsSuffix s then .brk false else .next true)) true

/-- `as_unique_names_impl`, src/names.c:278-343. -/
def asUniqueObj (h : List Name → BitVec 32) (x : ChrObj) : C ChrObj := do
  let new ← forN x.elts.length (fun i (v : List Name) => do
    let s ← rd v i
    let s ← stripName s
    wr v i s) x.elts
  let keys ← ChrObj.keys ⟨new, x.dim⟩
  let dups ← duplicatedDetect (keyOps h) keys
  let new ← forN x.elts.length (fun i (v : List Name) => do
    let s ← rd v i
    let skip ← (if s = some [] then .ok false else do .ok (!(← rd dups i)) : C Bool)
    if skip then .ok v
    else do
      let s ← appendSuffix s i
      wr v i s) new
  .ok ⟨new, x.dim⟩

/-- `vec_as_unique_names`, src/names.c:235-241. -/
def uniqueObj (h : List Name → BitVec 32) (x : ChrObj) : C ChrObj := do
  if ← isUniqueObj h x then
    if ← anyHasSuffix x.elts then asUniqueObj h x else .ok x
  else asUniqueObj h x

/-! ## Objects with names -/

/-- Row names, src/type-data-frame.c:402-415. -/
inductive RowNms
  | chr (x : ChrObj)
  | automatic (n : Nat)
  | compact (n : Nat)
  deriving DecidableEq

/-- `rownames_size`, src/type-data-frame.c:423-433. -/
def RowNms.size : RowNms → Nat
  | .chr x => x.elts.length
  | .automatic n => n
  | .compact n => n

/-- An R vector: elements or columns, and attributes.  `rowNames` is there for data frames, `isObject` says
whether there is a class, `rest` is everything else. -/
structure AObj (α β : Type) where
  data : List α
  names : Option ChrObj
  dim : Option (List Nat)
  dimNames : Option (List (Option ChrObj))
  rowNames : Option RowNms
  isObject : Bool
  rest : β
  deriving DecidableEq

variable {α β : Type}

/-- `vec_size`, src/size.c:26-72, without a proxy method. -/
def AObj.size (x : AObj α β) : C Nat :=
  match x.rowNames with
  | some rn => .ok rn.size
  | none =>
    match x.dim with
    | none => .ok x.data.length
    | some [] => .ok x.data.length
    | some (d :: _) => .ok d

/-- `Rf_setAttrib(x, R_NamesSymbol, names)` and `names<-` of R: names that are too long are an error, missing
ones are filled in; dimensions of the names are dropped. -/
def rSetNames (x : AObj α β) (names : Option ChrObj) : C (AObj α β) :=
  match names with
  | none => .ok { x with names := none }
  | some nms =>
    if x.data.length < nms.elts.length then .error .abort
    else .ok { x with names := some ⟨nms.elts ++ List.replicate (x.data.length - nms.elts.length) none, none⟩ }

/-- An element of `Rf_setAttrib(x, R_DimNamesSymbol, dimnames)` of R: it must have the length of the extent;
without elements it becomes `NULL`. -/
def rDimName (extent : Nat) (nms : Option ChrObj) : C (Option ChrObj) :=
  match nms with
  | none => .ok none
  | some nms =>
    if nms.elts.length = 0 then .ok none
    else if nms.elts.length ≠ extent then .error .abort
    else .ok (some ⟨nms.elts, none⟩)

/-- `Rf_setAttrib(x, R_DimNamesSymbol, dimnames)` of R. -/
def rSetDimNames (x : AObj α β) (dimNames : List (Option ChrObj)) : C (AObj α β) :=
  match x.dim with
  | none => .error .abort
  | some dim =>
    if dimNames.length ≠ dim.length then .error .abort
    else do
      let dn ← (dim.zip dimNames).mapM (fun p => rDimName p.1 p.2)
      .ok { x with dimNames := some dn }

/-- `names<-` and `rownames<-` for objects with a class (src/names.c:702-715). -/
structure NameMethods (α β : Type) where
  setNames : AObj α β → Option ChrObj → C (AObj α β)
  setRownames : AObj α β → Option ChrObj → C (AObj α β)
  names : AObj α β → C (Option ChrObj)

/-- `check_names`, src/names.c:717-741; `typeOk` says whether the names are `NULL` or of type character. -/
def checkNames (typeOk : Bool) (x : AObj α β) (names : Option ChrObj) : C Unit :=
  match typeOk, names with
  | false, _ => .error .abort
  | true, none => .ok ()
  | true, some nms => do
    let n ← x.size
    let m ← nms.size
    if n ≠ m then .error .abort else .ok ()

/-- The result and what the argument `x` is afterwards: `vec_clone_referenced`, src/owned.h:15-21 and
`r_clone_referenced`, src/utils.c:1308-1314. -/
def afterClone (owned referenced : Bool) (x out : AObj α β) : AObj α β × AObj α β :=
  (out, if owned then out else if referenced then x else out)

/-- New names of dimensions or a copy, src/names.c:758-763. -/
def copyDimNames (x : AObj α β) : List (Option ChrObj) :=
  match x.dimNames, x.dim with
  | some dn, _ => dn
  | none, some dim => List.replicate dim.length none
  | none, none => [none]

/-- `vec_set_rownames`, src/names.c:743-771. -/
def setRownames (ms : NameMethods α β) (x : AObj α β) (names : Option ChrObj) (proxy owned referenced : Bool) :
    C (AObj α β × AObj α β) := do
  if !proxy && x.isObject then .ok (← ms.setRownames x names, x)
  else
    let early ← (match names with
      | some _ => .ok false
      | none =>
        match x.dimNames with
        | none => .ok true
        | some dn => do .ok (← rd dn 0).isNone : C Bool)
    if early then .ok (x, x)
    else
      let dn ← wr (copyDimNames x) 0 names
      .ok (afterClone owned referenced x (← rSetDimNames x dn))

/-- `vec_set_df_rownames`, src/names.c:773-796; `rn` are the row names of `x`. -/
def setDfRownames (h : List Name → BitVec 32) (x : AObj α β) (rn : RowNms) (names : Option ChrObj)
    (proxy owned referenced : Bool) : C (AObj α β × AObj α β) :=
  match names with
  | none =>
    match rn with
    | .chr _ => .ok (afterClone owned referenced x { x with rowNames := some (.compact rn.size) })
    | _ => .ok (x, x)
  | some nms => do
    let nms ← (if proxy then .ok nms else uniqueObj h nms : C ChrObj)
    .ok (afterClone owned referenced x { x with rowNames := some (.chr nms) })

/-- `vec_set_names_impl`, src/names.c:800-834. -/
def setNamesImpl (h : List Name → BitVec 32) (ms : NameMethods α β) (typeOk : Bool) (x : AObj α β)
    (names : Option ChrObj) (proxy owned referenced : Bool) : C (AObj α β × AObj α β) := do
  checkNames typeOk x names
  match x.rowNames with
  | some rn => setDfRownames h x rn names proxy owned referenced
  | none =>
    if x.dim.isSome then setRownames ms x names proxy owned referenced
    else if !proxy && x.isObject then .ok (← ms.setNames x names, x)
    else if names.isNone && x.names.isNone then .ok (x, x)
    else if owned then .ok (afterClone owned referenced x (← rSetNames x names))
    else .ok (← rSetNames x names, x)

/-- `vec_names_impl`, src/names.c:137-168. -/
def namesImpl (ms : NameMethods α β) (x : AObj α β) (proxy : Bool) : C (Option ChrObj) :=
  match x.rowNames with
  | some (.chr rn) => .ok (some rn)
  | some _ => .ok none
  | none =>
    match x.dim with
    | none => if !proxy && x.isObject then ms.names x else .ok x.names
    | some _ =>
      match x.dimNames with
      | none => .ok none
      | some dn => if dn.length < 1 then .ok none else rd dn 0

end Vctrs
