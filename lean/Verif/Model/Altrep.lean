import Verif.Base
import Verif.Model.Names

/-!
# Run-length encoded lazy string vectors: src/altrep-rle.c
-/

namespace Vctrs

/-- The object made by `altrep_rle_Make()`, src/altrep-rle.c:31-35: `data1` is an integer vector of
run lengths with the strings as names, `data2` is the expanded vector once materialised. -/
structure RleVec where
  rle : List Int
  names : List Name
  data2 : Option (List Name)
  deriving DecidableEq, Repr

/-- `altrep_rle_Make()`, src/altrep-rle.c:31-35. -/
def rleMake (rle : List Int) (names : List Name) : RleVec := ⟨rle, names, none⟩

/-- `altrep_rle_Length()`, src/altrep-rle.c:39-54.  Sums of `int`s held in memory do not overflow
the 64-bit `R_xlen_t`. -/
def rleLength (v : RleVec) : C Int :=
  match v.data2 with
  | some d => .ok d.length
  | none => forN v.rle.length (fun i sz => do .ok (sz + (← rd v.rle i))) 0

/-- Body of the loops of src/altrep-rle.c:82-84 and :91-93; the state is `(i, idx)`. -/
def rleWalkStep (rle : List Int) (_ : Nat) (s : Int × Nat) : C (Ctl (Int × Nat)) :=
  if s.1 < 0 then .ok (.brk s)
  else do
    let n ← rd rle s.2
    .ok (.next (s.1 - n, s.2 + 1))

/-- `find_rle_index()`, src/altrep-rle.c:89-95.  The loop ends after at most `size` steps as `idx`
grows. -/
def findRleIndex (rle : List Int) (i : Int) (size : Nat) : C Int := do
  let s ← forBrk size (rleWalkStep rle) (i, 0)
  .ok ((s.2 : Int) - 1)

/-- `altrep_rle_string_Elt()`, src/altrep-rle.c:71-87.  Reading a string out of bounds is
undefined. -/
def rleElt (v : RleVec) (i : Int) : C Name :=
  match v.data2 with
  | some d => rdI d i
  | none => do
    let s ← forBrk v.rle.length (rleWalkStep v.rle) (i, 0)
    rdI v.names ((s.2 : Int) - 1)

/-- Body of the loop of `altrep_rle_Extract_subset()`, src/altrep-rle.c:119-131. -/
def rleExtractStep (v : RleVec) (indx : List Int) (i : Nat) (out : List (Option Name)) :
    C (List (Option Name)) := do
  let indexElt ← rd indx i
  if indexElt = naInt then wr out i (some none)
  else do
    let rleIdx ← findRleIndex v.rle (indexElt - 1) v.rle.length
    let s ← rdI v.names rleIdx
    wr out i (some s)

/-- `altrep_rle_Extract_subset()`, src/altrep-rle.c:100-135, for integer locations: `none` is the
`NULL` that makes R fall back on the default subsetting. -/
def rleExtractSubset (v : RleVec) (indx : List Int) : C (Option (List Name)) :=
  match v.data2 with
  | some _ => .ok none
  | none => do
    let out ← forN indx.length (rleExtractStep v indx) (alloc Name indx.length)
    let out ← initd out
    .ok (some out)

/-- Inner loop of `altrep_rle_string_Materialize()`, src/altrep-rle.c:152-154. -/
def rleMatInner (v : RleVec) (i : Nat) (_ : Nat) (s : List (Option Name) × Nat) :
    C (List (Option Name) × Nat) := do
  let str ← rd v.names i
  let out ← wr s.1 s.2 (some str)
  .ok (out, s.2 + 1)

/-- Outer loop of `altrep_rle_string_Materialize()`, src/altrep-rle.c:151-155. -/
def rleMatStep (v : RleVec) (i : Nat) (s : List (Option Name) × Nat) :
    C (List (Option Name) × Nat) := do
  let n ← rd v.rle i
  forN n.toNat (rleMatInner v i) s

/-- `altrep_rle_string_Materialize()`, src/altrep-rle.c:138-161: the expanded vector, and the object
that remembers it.  Allocating a negative length is an error. -/
def rleMaterialize (v : RleVec) : C (List Name × RleVec) :=
  match v.data2 with
  | some d => .ok (d, v)
  | none => do
    let sz ← rleLength v
    if sz < 0 then .error .abort
    else do
      let s ← forN v.rle.length (rleMatStep v) (alloc Name sz.toNat, 0)
      let out ← initd s.1
      .ok (out, { v with data2 := some out })

end Vctrs
