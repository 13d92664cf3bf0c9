import Verif.Model.Array
import Verif.Model.ChopTable
import Verif.Model.SetNames

/-!
# Arrays with names of dimensions: src/slice.c, src/slice-chop.c, src/slice-assign.c

Objects are those of SetNames.lean.  A class stands for a class without a proxy method; `vec_restore()` of an object without
a class (src/proxy-restore.c:64-150) gives back the attributes `rest` and leaves names and dimensions alone.
-/

namespace Vctrs

variable {α β : Type}

/-- What is called for objects with a class.  `bracket` is `[` and `shaped` is `vec_slice_fallback()`, both with their variants
for `integer64` (src/slice.c:211-238); `isRestored` is `vec_is_restored()` (:370-394), `restore` is `vec_restore()` and `assign` is
`vec_assign_fallback()` (src/slice-assign.c:382-388). -/
structure SliceMethods (α β : Type) where
  bracket : AObj α β → List Int → C (AObj α β)
  shaped : AObj α β → List Int → C (AObj α β)
  isRestored : AObj α β → AObj α β → Bool
  restore : AObj α β → AObj α β → C (AObj α β)
  assign : AObj α β → List Int → AObj α β → C (AObj α β)

/-- `slice_names`, src/slice.c:262-269, on names that may have dimensions. -/
def sliceChr (names : Option ChrObj) (s : Subscript) : C (Option ChrObj) :=
  match names with
  | none => .ok none
  | some nms => do .ok (some ⟨← sliceBase (some []) nms.elts s, none⟩)

/-- Setting `dimnames`, or nothing for `NULL`, src/slice.c:336-343. -/
def pokeDimNames (x : AObj α β) (dn : Option (List (Option ChrObj))) : C (AObj α β) :=
  match dn with
  | none => .ok x
  | some dn => rSetDimNames x dn

/-- The names of dimensions of a slice, src/slice.c:336-341. -/
def sliceDimNames (dn : Option (List (Option ChrObj))) (s : Subscript) : C (Option (List (Option ChrObj))) :=
  match dn with
  | none => .ok none
  | some dn => do
    let r ← rd dn 0
    let r ← sliceChr r s
    .ok (some (← wr dn 0 r))

/-- A slice of an array without a class, src/slice.c:332-344. -/
def arrSlice (na : α) (x : AObj α β) (dim : List Nat) (s : Subscript) : C (AObj α β) := do
  let (dim, out) ← sliceShaped na dim x.data s
  let dn ← sliceDimNames x.dimNames s
  pokeDimNames ⟨out, none, some dim, none, none, false, x.rest⟩ dn

/-- A slice of a vector without dimensions and without a class, src/slice.c:345-350. -/
def plainSlice (na : α) (x : AObj α β) (s : Subscript) : C (AObj α β) := do
  let out ← sliceBase na x.data s
  let nms ← sliceChr x.names s
  rSetNames ⟨out, none, none, none, none, false, x.rest⟩ nms

/-- `vec_slice_unsafe`, src/slice.c:284-368, without data frames. -/
def sliceObj (m : SliceMethods α β) (na : α) (x : AObj α β) (s : Subscript) : C (AObj α β) :=
  if x.isObject then do
    let i ← compactMaterialize s
    let out ← (if x.dim.isSome then m.shaped x i else m.bracket x i)
    if !m.isRestored out x then m.restore out x else .ok out
  else
    match x.dim with
    | some dim => arrSlice na x dim s
    | none => plainSlice na x s

/-- The names of dimensions of a piece, src/slice-chop.c:379-391. -/
def chopDimNames (dn : Option (List (Option ChrObj))) (rn : Option ChrObj) (s : Subscript) :
    C (Option (List (Option ChrObj))) :=
  match dn with
  | none => .ok none
  | some dn =>
    match rn with
    | some rn => do
      let r ← sliceChr (some rn) s
      .ok (some (← wr dn 0 r))
    | none => .ok (some dn)

/-- `row_names` of `chop_shaped`, src/slice-chop.c:366-369. -/
def chopRowNames (dn : Option (List (Option ChrObj))) : C (Option ChrObj) :=
  match dn with
  | none => .ok none
  | some dn => rd dn 0

/-- `chop_shaped`, src/slice-chop.c:357-402. -/
def chopShaped (na : α) (x : AObj α β) (dim : List Nat) (by_ : ChopBy) : C (List (AObj α β)) := do
  let rn ← chopRowNames x.dimNames
  let n ← x.size
  fillN (indicesOutSize by_ n) (fun _ (st : Nat × Int × Int) => do
    let (index, st) ← indicesNext by_ st
    let (dim, out) ← sliceShaped na dim x.data index
    let dn ← chopDimNames x.dimNames rn index
    let elt ← pokeDimNames ⟨out, none, some dim, none, none, false, x.rest⟩ dn
    .ok (elt, st)) (0, 0, 0)

/-- `chop`, src/slice-chop.c:251-289. -/
def chopPlain (na : α) (x : AObj α β) (by_ : ChopBy) : C (List (AObj α β)) := do
  let n ← x.size
  fillN (indicesOutSize by_ n) (fun _ (st : Nat × Int × Int) => do
    let (index, st) ← indicesNext by_ st
    let elt ← plainSlice na x index
    .ok (elt, st)) (0, 0, 0)

/-- `chop_fallback`, src/slice-chop.c:404-452. -/
def chopFallback (m : SliceMethods α β) (x : AObj α β) (by_ : ChopBy) : C (List (AObj α β)) := do
  let n ← x.size
  fillN (indicesOutSize by_ n) (fun _ (st : Nat × Int × Int) => do
    let (index, st) ← indicesNext by_ st
    let i ← compactMaterialize index
    let elt ← m.bracket x i
    let elt ← (if !m.isRestored elt x then m.restore elt x else .ok elt)
    .ok (elt, st)) (0, 0, 0)

/-- `chop_fallback_shaped`, src/slice-chop.c:454-475. -/
def chopFallbackShaped (m : SliceMethods α β) (x : AObj α β) (by_ : ChopBy) : C (List (AObj α β)) := do
  let n ← x.size
  fillN (indicesOutSize by_ n) (fun _ (st : Nat × Int × Int) => do
    let (index, st) ← indicesNext by_ st
    let i ← compactMaterialize index
    let elt ← m.shaped x i
    .ok (elt, st)) (0, 0, 0)

/-- `vec_chop_base`, src/slice-chop.c:210-250, without data frames. -/
def chopObj (m : SliceMethods α β) (na : α) (x : AObj α β) (by_ : ChopBy) : C (List (AObj α β)) :=
  if x.isObject then
    if x.dim.isSome then chopFallbackShaped m x by_ else chopFallback m x by_
  else
    match x.dim with
    | some dim => chopShaped na x dim by_
    | none => chopPlain na x by_

/-- `vec_chop`, src/slice-chop.c:171-193. -/
def vecChopObj (m : SliceMethods α β) (na : α) (x : AObj α β) (indices : Option (List RSubscript)) (sizes : Option (List Int)) :
    C (List (AObj α β)) :=
  match indices, sizes with
  | some _, some _ => .error .abort
  | some indices, none => do
    let n ← x.size
    let locs ← listAsLocations indices n
    chopObj m na x (.indices locs)
  | none, some sizes => do
    let n ← x.size
    let sizes ← vecAsChopSizes sizes n
    chopObj m na x (.sizes sizes)
  | none, none => chopObj m na x .each

/-! ## Assignment -/

/-- `vec_assign_shaped`, src/slice-assign-array.c:212-226, with `ASSIGN_SHAPED`, :67-72, and the barrier version, :173-178.  A
compact repetition is not recognised. -/
def assignShaped (dim : List Nat) (x : List α) (s : Subscript) (value : List α) : C (List α) :=
  match s with
  | .seq start n step => assignShapedSeq dim x start n step value
  | .locs l => assignShapedIndex dim x l value
  | .rep i n => assignShapedIndex dim x [i, n] value

/-- The names that are assigned to, src/slice-assign.c:402-407: empty strings if there are none. -/
def namesOrBlank (n : Nat) : Option ChrObj → ChrObj
  | none => ⟨List.replicate n (some []), none⟩
  | some nms => nms

/-- `vec_proxy_assign_names`, src/slice-assign.c:390-414. -/
def proxyAssignNames (h : List Name → BitVec 32) (ms : NameMethods α β) (proxy : AObj α β) (s : Subscript) (value : AObj α β)
    (owned : Bool) : C (AObj α β) := do
  match ← namesImpl ms value false with
  | none => .ok proxy
  | some vn => do
    let pn ← namesImpl ms proxy true
    let n ← proxy.size
    let pn := namesOrBlank n pn
    let new ← assignBase pn.elts s vn.elts
    let (out, _) ← setNamesImpl h ms true proxy (some ⟨new, pn.dim⟩) true owned true
    .ok out

/-- `vec_proxy_assign_opts`, src/slice-assign.c:145-187, without data frames; `names` says whether names are assigned. -/
def assignObj (m : SliceMethods α β) (h : List Name → BitVec 32) (ms : NameMethods α β) (proxy : AObj α β) (s : Subscript)
    (value : AObj α β) (owned names : Bool) : C (AObj α β) := do
  let (out, s) ← (if value.isObject then do
      let i ← compactMaterialize s
      .ok (← m.assign proxy i value, .locs i)
    else
      match proxy.dim with
      | some dim => do .ok ({ proxy with data := ← assignShaped dim proxy.data s value.data }, s)
      | none => do .ok ({ proxy with data := ← assignBase proxy.data s value.data }, s) : C (AObj α β × Subscript))
  if names then proxyAssignNames h ms out s value owned else .ok out

end Vctrs
