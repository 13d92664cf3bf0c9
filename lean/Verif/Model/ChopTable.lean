import Verif.Model.Table
import Verif.Model.Chop

/-!
# Chopping vectors and data frames with names: src/slice-chop.c

Values are those of Table.lean.
-/

namespace Vctrs

/-- A list of `n` elements, allocated and filled from the first to the last; `S` is the state of the loop. -/
def fillN {α S : Type} (n : Nat) (f : Nat → S → C (α × S)) (s : S) : C (List α) := do
  let (out, _) ← forN n (fun i (p : List (Option α) × S) => do
    let (v, s) ← f i p.2
    let out ← wr p.1 i (some v)
    .ok (out, s)) (alloc α n, s)
  initd out

/-- `chop`, src/slice-chop.c:251-289. -/
def chopNames (t : VTy) (xs : List t.El) (nms : Option (List Name)) (by_ : ChopBy) : C (List NVal) :=
  fillN (indicesOutSize by_ xs.length) (fun _ (st : Nat × Int × Int) => do
    let (index, st) ← indicesNext by_ st
    let elt ← sliceBase (naElt t) xs index
    let eltNames ← sliceNames nms index
    .ok (NVal.vec t elt eltNames, st)) (0, 0, 0)

/-- A data frame of `chop_df` whose columns are being filled in. -/
structure DfShell where
  rows : Nat
  rowNames : Option (List Name)
  cols : List (Option NVal)

/-- The first loop of `chop_df`, src/slice-chop.c:309-325. -/
def chopShells (h : Name → BitVec 32) (size nCols : Nat) (rn : Option (List Name)) (by_ : ChopBy) : C (List DfShell) :=
  fillN (indicesOutSize by_ size) (fun _ (st : Nat × Int × Int) => do
    let (index, st) ← indicesNext by_ st
    let rn ← sliceRownames h rn index
    .ok (⟨(subscriptSize index).toNat, rn, alloc NVal nCols⟩, st)) (0, 0, 0)

/-- The inner loop over the pieces of column `i`, src/slice-chop.c:337-340. -/
def chopPut (i : Nat) (chopped : List NVal) (outSize : Nat) (out : List DfShell) : C (List DfShell) :=
  forN outSize (fun j (out : List DfShell) => do
    let elt ← rd out j
    let v ← rd chopped j
    let cols ← wr elt.cols i (some v)
    wr out j { elt with cols := cols }) out

/-- The last loop of `chop_df`, src/slice-chop.c:346-350; restoring repairs the row names. -/
def chopRestore (h : Name → BitVec 32) (cn : List Name) (out : List DfShell) : C (List NVal) :=
  fillN out.length (fun i (_ : Unit) => do
    let elt ← rd out i
    let rn ← restoreRownames h elt.rowNames
    let cols ← initd elt.cols
    .ok (NVal.df elt.rows cn cols rn, ())) ()

mutual

/-- `vec_chop_unsafe`, src/slice-chop.c:195-208, with `vec_chop_base`, :210-250, and `chop_df`, :292-354. -/
def nvalChop (h : Name → BitVec 32) (by_ : ChopBy) : NVal → C (List NVal)
  | .null => .error .abort
  | .vec t xs nms => chopNames t xs nms by_
  | .df n cn cols rn => do
    let out ← chopShells h n cols.length rn by_
    let out ← nvalChopCols h by_ (indicesOutSize by_ n) 0 cols out
    chopRestore h cn out

/-- The loop over the columns of `chop_df`, src/slice-chop.c:332-343, from column `i`. -/
def nvalChopCols (h : Name → BitVec 32) (by_ : ChopBy) (outSize i : Nat) : List NVal → List DfShell → C (List DfShell)
  | [], out => .ok out
  | x :: xs, out => do
    let chopped ← nvalChop h by_ x
    let out ← chopPut i chopped outSize out
    nvalChopCols h by_ outSize (i + 1) xs out

end

/-- `vec_chop`, src/slice-chop.c:171-193. -/
def vecChopNames (h : Name → BitVec 32) (x : NVal) (indices : Option (List RSubscript)) (sizes : Option (List Int)) :
    C (List NVal) :=
  match indices, sizes with
  | some _, some _ => .error .abort
  | some indices, none => do
    let locs ← listAsLocations indices x.size
    nvalChop h (.indices locs) x
  | none, some sizes => do
    let sizes ← vecAsChopSizes sizes x.size
    nvalChop h (.sizes sizes) x
  | none, none => nvalChop h .each x

end Vctrs
