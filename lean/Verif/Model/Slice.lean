import Verif.Base

/-!
# Slicing and assignment: src/slice.c, src/slice-assign.c, src/utils.c

Locations are `int`s (`Int`, `naInt` is `NA_integer_`).  The same macros are instantiated for all
atomic types and, with a write barrier, for character vectors and lists; the element type is a
parameter and `na` is the `NA_VALUE` of the instance.  A pointer incremented past the data in the
last iteration of a compact loop is not dereferenced and is ignored.
-/

namespace Vctrs

variable {α : Type}

/-- What `vec_slice_unsafe()` accepts: `compact_rep` (utils.c:895-909), `compact_seq`
(utils.c:839-861) or an integer vector. -/
inductive Subscript where
  | rep (i : Int) (n : Int)
  | seq (start : Int) (n : Int) (step : Int)
  | locs (l : List Int)
  deriving DecidableEq, Repr

/-- `compact_rep`, src/utils.c:895-909. -/
def compactRep (i n : Int) : C Subscript :=
  if n < 0 then .error .internal else .ok (.rep i n)

/-- `compact_seq`, src/utils.c:839-861 and `init_compact_seq`, :827-833. -/
def compactSeq (start size : Int) (increasing : Bool) : C Subscript :=
  if start < 0 then .error .internal
  else if size < 0 then .error .internal
  else if !increasing && decide (size > start + 1) then .error .internal
  else .ok (.seq start size (if increasing then 1 else -1))

/-- `compact_materialize`, src/utils.c:930-938, with `compact_rep_materialize`, :915-924 and
`compact_seq_materialize`, :868-883. -/
def compactMaterialize : Subscript → C (List Int)
  | .rep i n => do
    let out ← forN n.toNat (fun k out => wr out k (some i)) (alloc Int n.toNat)
    initd out
  | .seq start n step => do
    let (out, _) ← forN n.toNat (fun k (s : List (Option Int) × Int) => do
      let out ← wr s.1 k (some s.2)
      .ok (out, s.2 + step)) (alloc Int n.toNat, start + 1)
    initd out
  | .locs l => .ok l

/-- `vec_subscript_size`, src/utils.c:940-948. -/
def subscriptSize : Subscript → Int
  | .rep _ n => n
  | .seq _ n _ => n
  | .locs l => l.length

/-- `SLICE_SUBSCRIPT`, src/slice.c:5-19; `SLICE_BARRIER_SUBSCRIPT`, :97-112. -/
def sliceSubscript (na : α) (x : List α) (subscript : List Int) : C (List α) := do
  let n := subscript.length
  let out ← forN n (fun i out => do
    let j ← rd subscript i
    let v ← (if j = naInt then .ok na else rdI x (j - 1) : C α)
    wr out i (some v)) (alloc α n)
  initd out

/-- `SLICE_COMPACT_REP`, src/slice.c:21-38; `SLICE_BARRIER_COMPACT_REP`, :115-131.  A negative
length is an R error in the allocator. -/
def sliceCompactRep (na : α) (x : List α) (j n : Int) : C (List α) := do
  if n < 0 then .error .abort
  else do
    let elt ← (if j = naInt then .ok na else rdI x (j - 1) : C α)
    let out ← forN n.toNat (fun i out => wr out i (some elt)) (alloc α n.toNat)
    initd out

/-- `SLICE_COMPACT_SEQ`, src/slice.c:40-56; `SLICE_BARRIER_COMPACT_SEQ`, :133-148. -/
def sliceCompactSeq (x : List α) (start n step : Int) : C (List α) := do
  if n < 0 then .error .abort
  else do
    let (out, _) ← forN n.toNat (fun i (s : List (Option α) × Int) => do
      let v ← rdI x s.2
      let out ← wr s.1 i (some v)
      .ok (out, s.2 + step)) (alloc α n.toNat, start)
    initd out

/-- `SLICE` / `SLICE_BARRIER`, src/slice.c:58-73, :150-157, and `vec_slice_base`, :246-260.
ALTREP vectors (slice.c:59-66) are the subject of C53. -/
def sliceBase (na : α) (x : List α) : Subscript → C (List α)
  | .rep j n => sliceCompactRep na x j n
  | .seq start n step => sliceCompactSeq x start n step
  | .locs l => sliceSubscript na x l

/-- `ASSIGN_INDEX`, src/slice-assign.c:188-209 and `ASSIGN_BARRIER_INDEX`, :262-282, on the
(possibly cloned) output buffer `x`. -/
def assignIndex (x : List α) (index : List Int) (value : List α) : C (List α) :=
  if index.length ≠ value.length then .error .internal
  else forN index.length (fun i out => do
    let j ← rd index i
    if j ≠ naInt then do
      let v ← rd value i
      wrI out (j - 1) v
    else .ok out) x

/-- `ASSIGN_COMPACT`, src/slice-assign.c:211-231 and `ASSIGN_BARRIER_COMPACT`, :284-303. -/
def assignCompact (x : List α) (start n step : Int) (value : List α) : C (List α) :=
  if n ≠ value.length then .error .internal
  else do
    let (out, _) ← forN n.toNat (fun i (s : List α × Int) => do
      let v ← rd value i
      let out ← wrI s.1 s.2 v
      .ok (out, s.2 + step)) (x, start)
    .ok out

/-- `ASSIGN` / `ASSIGN_BARRIER`, src/slice-assign.c:233-238, :305-310.  A compact repetition is
not recognised there and its two integers would be read as locations. -/
def assignBase (x : List α) (index : Subscript) (value : List α) : C (List α) :=
  match index with
  | .seq start n step => assignCompact x start n step value
  | .locs l => assignIndex x l value
  | .rep i n => assignIndex x [i, n] value

/-- `df_assign`, src/slice-assign.c:341-380, for atomic columns. -/
def dfAssign (x : List (List α)) (index : Subscript) (value : List (List α)) :
    C (List (List α)) :=
  if value.length ≠ x.length then .error .internal
  else forN x.length (fun i out => do
    let outElt ← rd out i
    let valueElt ← rd value i
    let assigned ← assignBase outElt index valueElt
    wr out i assigned) x

/-! ## Sharing -/

/-- An R vector together with its reference count (`NO_REFERENCES()` is `refs = 0`). -/
structure HeapVec (α : Type) where
  data : List α
  refs : Nat
  deriving DecidableEq, Repr

/-- `vec_clone_referenced`, src/owned.h:15-21: a fresh copy is allocated at the end of the heap
unless the object is owned or has no references (`r_clone_referenced()`).  Returns the address. -/
def cloneReferenced (heap : List (HeapVec α)) (x : Nat) (owned : Bool) : C (List (HeapVec α) × Nat) := do
  let o ← rd heap x
  if !owned && decide (0 < o.refs) then .ok (heap ++ [⟨o.data, 0⟩], heap.length)
  else .ok (heap, x)

/-- The part of `vec_assign_opts` that writes, src/slice-assign.c:34-36, for a bare vector (its
own proxy): `vec_owned()` is owned.h:9-11. -/
def assignHeap (heap : List (HeapVec α)) (x : Nat) (index : Subscript) (value : List α) :
    C (List (HeapVec α) × Nat) := do
  let o ← rd heap x
  let owned := decide (o.refs = 0)
  let (heap, out) ← cloneReferenced heap x owned
  let o' ← rd heap out
  let data ← assignBase o'.data index value
  let heap ← wr heap out ⟨data, o'.refs⟩
  .ok (heap, out)

end Vctrs
