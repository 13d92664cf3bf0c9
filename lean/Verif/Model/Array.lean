import Verif.Model.Slice

/-!
# Slicing and assigning arrays: src/strides.h, src/slice-array.c, src/slice-assign-array.c

An array is its data (column-major) and its dimensions `dim` (non-empty).  `R_len_t` / `int`
arithmetic is checked for overflow.
-/

namespace Vctrs

variable {α : Type}

/-- `vec_strides`, src/strides.h:86-98. -/
def vecStrides (dim : List Nat) (shapeN : Nat) : C (List Nat) := do
  let (out, _) ← forN shapeN (fun i (s : List (Option Nat) × Nat) => do
    let d ← rd dim i
    let stride ← chkNat (s.2 * d)
    let out ← wr s.1 i (some stride)
    .ok (out, stride)) (alloc Nat shapeN, 1)
  initd out

/-- `vec_steps`, src/strides.h:100-121. -/
def vecSteps (index : List Int) : C (List Int) := do
  let (out, _) ← forN index.length (fun i (s : List (Option Int) × Int) => do
    let cur ← rd index i
    if cur = naInt then do
      let out ← wr s.1 i (some naInt)
      .ok (out, s.2)
    else do
      let d ← chkInt (cur - s.2)
      let out ← wr s.1 i (some d)
      .ok (out, cur)) (alloc Int index.length, 1)
  initd out

/-- `vec_strided_loc`, src/strides.h:123-133. -/
def stridedLoc (shapeIndex strides : List Nat) (shapeN : Nat) : C Nat :=
  forN shapeN (fun i loc => do
    let st ← rd strides i
    let si ← rd shapeIndex i
    let m ← chkNat (st * si)
    chkNat (loc + m)) 0

/-- `vec_shape_index_increment`, src/strides.h:141-149. -/
def shapeIncr (dim : List Nat) (shapeN : Nat) (shapeIndex : List Nat) : C (List Nat) :=
  forBrk shapeN (fun j si => do
    let v ← rd si j
    let si ← wr si j (v + 1)
    let d ← rd dim (j + 1)
    if v + 1 < d then .ok (.brk si)
    else do
      let si ← wr si j 0
      .ok (.next si)) shapeIndex

/-- `shape_elem_n` in `new_strides_info`, src/strides.h:182-185. -/
def shapeElemN (dim : List Nat) : C Nat :=
  forFrom (fun i n => do
    let d ← rd dim i
    chkNat (n * d)) 1 (dim.length - 1) 1

/-- The parts of `struct strides_info` the loops use, `new_strides_info`, src/strides.h:151-206. -/
structure StridesInfo where
  dim : List Nat
  strides : List Nat
  shapeN : Nat
  shapeElemN : Nat

/-- `new_strides_info`, src/strides.h:151-206 (the steps are computed separately). -/
def newStridesInfo (dim : List Nat) : C StridesInfo := do
  let shapeN := dim.length - 1
  let strides ← vecStrides dim shapeN
  let n ← shapeElemN dim
  .ok ⟨dim, strides, shapeN, n⟩

/-- The loop over the shape shared by the macros below (src/slice-array.c:11-31, :58-73, :91-105;
src/slice-assign-array.c:10-30, :46-60): `body loc` runs with the offset of the current column. -/
def forShape {S : Type} (info : StridesInfo) (body : Nat → S → C S) (s : S) : C S := do
  let (_, s) ← forN info.shapeElemN (fun _ (st : List Nat × S) => do
    let loc ← stridedLoc st.1 info.strides info.shapeN
    let s ← body loc st.2
    let si ← shapeIncr info.dim info.shapeN st.1
    .ok (si, s)) (List.replicate info.shapeN 0, s)
  .ok s

/-- `SLICE_SHAPED_INDEX`, src/slice-array.c:3-34, and `SLICE_BARRIER_SHAPED_INDEX`, :143-177.  The
output buffer is written sequentially. -/
def sliceShapedIndex (na : α) (dim : List Nat) (x : List α) (index : List Int) :
    C (List Nat × List α) := do
  let info ← newStridesInfo dim
  let steps ← vecSteps index
  let outDim := dim.set 0 index.length
  let (out, _) ← forShape info (fun loc (s : List (Option α) × Nat) => do
    let (s, _) ← forN index.length (fun j (s : (List (Option α) × Nat) × Int) => do
      let ((out, k), loc) := s
      let step ← rd steps j
      if step = naInt then do
        let out ← wr out k (some na)
        .ok ((out, k + 1), loc)
      else do
        let loc ← chkInt (loc + step)
        let v ← rdI x loc
        let out ← wr out k (some v)
        .ok ((out, k + 1), loc)) (s, (loc : Int))
    .ok s) (alloc α outDim.prod, 0)
  let out ← initd out
  .ok (outDim, out)

/-- `SLICE_SHAPED_COMPACT_REP`, src/slice-array.c:36-76; barrier version :179-220. -/
def sliceShapedRep (na : α) (dim : List Nat) (x : List α) (i n : Int) : C (List Nat × List α) := do
  let info ← newStridesInfo dim
  let indexN := n.toNat
  let outDim := dim.set 0 indexN
  let out := alloc α outDim.prod
  if i = naInt then do
    let outN ← chkNat (info.shapeElemN * indexN)
    let out ← forN outN (fun k out => wr out k (some na)) out
    let out ← initd out
    .ok (outDim, out)
  else do
    let (out, _) ← forShape info (fun loc (s : List (Option α) × Nat) => do
      let loc ← chkInt (loc + (i - 1))
      let elt ← rdI x loc
      forN indexN (fun _ (s : List (Option α) × Nat) => do
        let out ← wr s.1 s.2 (some elt)
        .ok (out, s.2 + 1)) s) (out, 0)
    let out ← initd out
    .ok (outDim, out)

/-- `SLICE_SHAPED_COMPACT_SEQ`, src/slice-array.c:78-108; barrier version :222-254. -/
def sliceShapedSeq (dim : List Nat) (x : List α) (start n step : Int) : C (List Nat × List α) := do
  let info ← newStridesInfo dim
  let outDim := dim.set 0 n.toNat
  let (out, _) ← forShape info (fun loc (s : List (Option α) × Nat) => do
    let loc ← chkInt (loc + start)
    let (s, _) ← forN n.toNat (fun _ (s : (List (Option α) × Nat) × Int) => do
      let ((out, k), loc) := s
      let v ← rdI x loc
      let out ← wr out k (some v)
      let loc ← chkInt (loc + step)
      .ok ((out, k + 1), loc)) (s, loc)
    .ok s) (alloc α outDim.prod, 0)
  let out ← initd out
  .ok (outDim, out)

/-- `vec_slice_shaped`, src/slice-array.c:290-300 with `SLICE_SHAPED`, :110-117. -/
def sliceShaped (na : α) (dim : List Nat) (x : List α) : Subscript → C (List Nat × List α)
  | .rep i n => sliceShapedRep na dim x i n
  | .seq start n step => sliceShapedSeq dim x start n step
  | .locs l => sliceShapedIndex na dim x l

/-- `ASSIGN_SHAPED_INDEX`, src/slice-assign-array.c:3-33 and the barrier version from :111. -/
def assignShapedIndex (dim : List Nat) (x : List α) (index : List Int) (value : List α) :
    C (List α) := do
  let info ← newStridesInfo dim
  let steps ← vecSteps index
  let (out, _) ← forShape info (fun loc (s : List α × Nat) => do
    let (s, _) ← forN index.length (fun j (s : (List α × Nat) × Int) => do
      let ((out, k), loc) := s
      let step ← rd steps j
      if step = naInt then .ok ((out, k + 1), loc)
      else do
        let loc ← chkInt (loc + step)
        let v ← rd value k
        let out ← wrI out loc v
        .ok ((out, k + 1), loc)) (s, (loc : Int))
    .ok s) (x, 0)
  .ok out

/-- `ASSIGN_SHAPED_COMPACT`, src/slice-assign-array.c:35-63. -/
def assignShapedSeq (dim : List Nat) (x : List α) (start n step : Int) (value : List α) :
    C (List α) := do
  let info ← newStridesInfo dim
  let (out, _) ← forShape info (fun loc (s : List α × Nat) => do
    let loc ← chkInt (loc + start)
    let (s, _) ← forN n.toNat (fun _ (s : (List α × Nat) × Int) => do
      let ((out, k), loc) := s
      let v ← rd value k
      let out ← wrI out loc v
      let loc ← chkInt (loc + step)
      .ok ((out, k + 1), loc)) (s, loc)
    .ok s) (x, 0)
  .ok out

end Vctrs
