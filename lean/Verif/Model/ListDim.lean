import Verif.Model.Split
import Verif.Model.Array
import Verif.Model.Chop

/-!
# Lists with dimensions: src/size.c, src/empty.c, src/c-unchop.c

`obj_is_list()` accepts an unclassed list whatever its dimensions (src/type-info.c:97-113), so the functions on
lists also get arrays of lists.  They count with `vec_size()` (the first dimension) or with `r_length()` (the cells).
-/

namespace Vctrs

variable {α β : Type}

/-- A list: its cells in storage order and its attribute `dim` (src/dim.h:6-9).  Names are left out. -/
structure DimList (β : Type) where
  elts : List β
  dim : Option (List Nat)

/-- `vec_size` of a list, `vec_raw_size`, src/size.c:60-72. -/
def DimList.rows (x : DimList β) : Nat :=
  match x.dim with
  | none => x.elts.length
  | some [] => x.elts.length
  | some (d :: _) => d

/-- `list_sizes`, src/size.c:84-114, without names; `vsize` is `vec_size`, an error for scalars. -/
def dimListSizes (vsize : β → C Nat) (x : DimList β) : C (List Nat) := do
  let size := x.rows
  let out ← forN size (fun i out => do
    let e ← rd x.elts i
    let n ← vsize e
    wr out i (some n)) (alloc Nat size)
  initd out

/-- `list_all_size`, src/size.c:125-152. -/
def dimListAllSize (vsize : β → C Nat) (x : DimList β) (size : Nat) : C Bool :=
  forBrk x.elts.length (fun i out => do
    let e ← rd x.elts i
    let n ← vsize e
    if n ≠ size then .ok (.brk false) else .ok (.next out)) true

/-- `vec_slice_unsafe` for a list without names, src/slice.c:331-346: an array is sliced by `vec_slice_shaped`. -/
def dimListSlice (nil : β) (x : DimList β) (loc : List Int) : C (DimList β) :=
  match x.dim with
  | none => do
    let out ← sliceBase nil x.elts (.locs loc)
    .ok ⟨out, none⟩
  | some dim => do
    let out ← sliceShaped nil dim x.elts (.locs loc)
    .ok ⟨out.2, some out.1⟩

/-- The loop that finds the first element to drop, src/empty.c:21-25. -/
def dimFirstEmpty (vsize : β → C Nat) (x : DimList β) : C Nat :=
  forBrk x.rows (fun i (_ : Nat) => do
    let elt ← rd x.elts i
    let n ← vsize elt
    if n = 0 then .ok (.brk i) else .ok (.next (i + 1))) 0

/-- The elements to keep, src/empty.c:32-45, given the first element to drop. -/
def dimKeepMask (vsize : β → C Nat) (x : DimList β) (i : Nat) : C (List Bool) := do
  let size := x.rows
  let vKeep := alloc Bool size
  let vKeep ← forN i (fun j vKeep => wr vKeep j (some true)) vKeep
  let vKeep ← wr vKeep i (some false)
  let vKeep ← forFrom (fun i vKeep => do
    let elt ← rd x.elts i
    let n ← vsize elt
    wr vKeep i (some (decide (n ≠ 0)))) (i + 1) (size - (i + 1)) vKeep
  initd vKeep

/-- `list_drop_empty`, src/empty.c:9-52; `nil` is the missing element `NULL`. -/
def dimDropEmpty (vsize : β → C Nat) (nil : β) (x : DimList β) : C (DimList β) := do
  let i ← dimFirstEmpty vsize x
  if i = x.rows then .ok x
  else do
    let keep ← dimKeepMask vsize x i
    let loc ← vecAsLocation (.lgl (keep.map some)) x.rows none {}
    dimListSlice nil x loc

/-- `list_unchop` with indices, src/c-unchop.c:13-184, as `listUnchop` in Chop.lean: both lists may have dimensions;
`vec_ptype_common()` looks at all cells (src/ptype-common.c:35-66), `list_as_locations` converts all cells
(src/slice-chop.c:479-513); `none` is `NULL` (no common type). -/
def dimUnchop (na : α) (xs : DimList (Option (List α))) (indices : DimList RSubscript) : C (Option (List α)) := do
  let xsSize := xs.rows
  if xsSize ≠ indices.rows then .error .abort
  else if xs.elts.all (fun x => x.isNone) then .ok none
  else do
    let outSize ← forN xsSize (fun i (n : Nat) => do
      let index ← rd indices.elts i
      .ok (n + indexLength index)) 0
    let locs ← listAsLocations indices.elts outSize
    let proxy ← vecInit na [] outSize
    let proxy ← forN xsSize (fun i (proxy : List α) => do
      let x ← rd xs.elts i
      unchopTurn na locs i proxy x) proxy
    .ok (some proxy)

/-- `list_unchop()` without indices, src/c-unchop.c:22-24: `vec_c()` runs over `r_length()` cells (src/c.c:53). -/
def dimUnchopNull (na : α) (xs : DimList (Option (List α))) : C (Option (List α)) := vecC na xs.elts

end Vctrs
