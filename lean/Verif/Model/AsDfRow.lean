import Verif.Model.ArrayNames
import Verif.Model.NameRepair

/-!
# What `vec_rbind()` makes of its inputs: src/bind.c

Vectors are the objects of SetNames.lean.  A data frame always has names here.
-/

namespace Vctrs

variable {α β : Type}

/-- A data frame: names, columns and the number of rows; `attrs` are the other attributes, row names among them. -/
structure BindDf (α β : Type) where
  names : List Name
  cols : List (AObj α β)
  rows : Nat
  attrs : β

/-- An input of `vec_rbind()`. -/
inductive BindIn (α β : Type)
  | null
  | df (x : BindDf α β)
  | vec (x : AObj α β)

/-- What is called on the way: `isUnspecified` is `vec_is_unspecified()` (src/unspecified.c:37-75), `asDf` is
`as.data.frame()` of R, `universal` is as_universal_names() and `dfAttrs` are the attributes of a new data frame. -/
structure RowMethods (α β : Type) where
  isUnspecified : AObj α β → Bool
  asDf : AObj α β → C (BindDf α β)
  universal : Bool → RepFn
  slice : SliceMethods α β
  names : NameMethods α β
  dfAttrs : β

/-- `validate_bind_name_repair`, src/bind.c:603-633. -/
def validateBindRepair (arg : RepairArg) (allowMinimal : Bool) : C RepairOpts := do
  let opts ← newNameRepairOpts arg false
  match opts.type with
  | .custom _ => .ok opts
  | .unique => .ok opts
  | .universal => .ok opts
  | .checkUnique => .ok opts
  | .minimal => if allowMinimal then .ok opts else .error .abort
  | .none => .error .abort

/-- `r_attrib_poke_names()` of a list of `n` columns: names that are too long are an error of `Rf_setAttrib()`, missing ones are
filled in.  Repaired names are always a character vector (src/names.c:10-24). -/
def pokeColNames (n : Nat) (names : NamesObj) : C (List Name) :=
  match names with
  | .chr l => if n < l.length then .error .abort else .ok (l ++ List.replicate (n - l.length) none)
  | _ => .error .internal

/-- `df_repair_names`, src/type-data-frame.c:960-976. -/
def dfRepairNames (h : Name → BitVec 32) (m : RowMethods α β) (opts : RepairOpts) (x : BindDf α β) : C (BindDf α β) := do
  let nms ← vecAsNamesOpts h m.universal x.names opts
  let nms ← pokeColNames x.cols.length nms
  .ok { x with names := nms }

/-- `colnames2`, src/utils.c:958-965; `colnames()` of R is the second of the names of dimensions. -/
def colnames2 (ncol : Nat) (dn : Option (List (Option ChrObj))) : C (List Name) :=
  match dn with
  | none => .ok (List.replicate ncol (some []))
  | some dn => do
    match ← rd dn 1 with
    | none => .ok (List.replicate ncol (some []))
    | some nms => .ok nms.elts

/-- A matrix, src/bind.c:286-292. -/
def matrixRows (h : Name → BitVec 32) (m : RowMethods α β) (opts : RepairOpts) (x : AObj α β) (ncol : Nat) :
    C (BindDf α β) := do
  let out ← m.asDf x
  let nms ← colnames2 ncol x.dimNames
  let nms ← vecAsNamesOpts h m.universal nms opts
  let nms ← pokeColNames out.cols.length nms
  .ok { out with names := nms }

/-- `vec_names2`, src/names.c:178-185. -/
def vecNames2 (ms : NameMethods α β) (x : AObj α β) : C (List Name) := do
  match ← namesImpl ms x false with
  | none => do
    let n ← x.size
    .ok (List.replicate n (some []))
  | some nms => .ok nms.elts

/-- The dimensions are removed, src/bind.c:298-302; R removes `dimnames` with `dim`. -/
def dropDims (x : AObj α β) : AObj α β :=
  match x.dim with
  | none => x
  | some _ => { x with dim := none, dimNames := none }

/-- A vector that is not a matrix, src/bind.c:294-312. -/
def vectorRow (h : Name → BitVec 32) (hs : List Name → BitVec 32) (m : RowMethods α β) (na : α) (opts : RepairOpts)
    (x : AObj α β) : C (BindDf α β) := do
  let nms ← vecNames2 m.names x
  let nms ← vecAsNamesOpts h m.universal nms opts
  let (x, _) ← setNamesImpl hs m.names true (dropDims x) none false false true
  let cols ← chopObj m.slice na x .each
  let nms ← pokeColNames cols.length nms
  .ok ⟨nms, cols, 1, m.dfAttrs⟩

/-- `as_df_row_impl`, src/bind.c:267-313, for an object that is not `NULL` or a data frame. -/
def vecAsDfRow (h : Name → BitVec 32) (hs : List Name → BitVec 32) (m : RowMethods α β) (na : α) (opts : RepairOpts)
    (x : AObj α β) : C (BindDf α β) :=
  match x.dim with
  | none => vectorRow h hs m na opts x
  | some dim =>
    if 2 < dim.length then .error .abort
    else if dim.length = 2 then do
      let ncol ← rd dim 1
      matrixRows h m opts x ncol
    else vectorRow h hs m na opts x

/-- `as_df_row`, src/bind.c:256-265, with `as_df_row_impl`, :267-313. -/
def asDfRow (h : Name → BitVec 32) (hs : List Name → BitVec 32) (m : RowMethods α β) (na : α) (opts : RepairOpts)
    (x : BindIn α β) : C (BindIn α β) :=
  match x with
  | .null => .ok .null
  | .df x => do .ok (.df (← dfRepairNames h m opts x))
  | .vec x =>
    if m.isUnspecified x && x.names.isNone then .ok (.vec x)
    else do .ok (.df (← vecAsDfRow h hs m na opts x))

/-- The loop over the inputs, src/bind.c:59-63, after `ffi_rbind`, :8-44, has looked at `.name_repair`. -/
def rbindInputs (h : Name → BitVec 32) (hs : List Name → BitVec 32) (m : RowMethods α β) (na : α) (repair : RepairArg)
    (xs : List (BindIn α β)) : C (List (BindIn α β)) := do
  let opts ← validateBindRepair repair false
  forN xs.length (fun i (xs : List (BindIn α β)) => do
    let x ← rd xs i
    let x ← asDfRow h hs m na opts x
    wr xs i x) xs

end Vctrs
