import Verif.Model.OrderGroups
import Verif.Model.Scalar

/-!
# Ordering of integers and doubles (src/order.c, src/order-sortedness.c)

The code for integers and doubles is the same up to the key type and the number of bytes, and is
modelled once, with the number of passes `M` as a parameter (4 or 8).  Keys (`uint32_t`,
`uint64_t`) and group sizes are natural numbers.

A pointer into the middle of an array together with a size is modelled by the window itself: the
callee receives exactly the elements `p[0] .. p[size - 1]`, the caller puts the result back.  An
access outside the window is `ub`, even where the surrounding array would allow it.

The scratch arrays `p_x_aux`, `p_o_aux` and `p_bytes` have room for `cap` elements, the size of
the vector being ordered.  Each function that uses them starts with uninitialised contents: it is
`ub` to read a slot not written by the same call.  Nothing is read from them after a recursive
call, which overwrites them.  `p_counts`, whose contents have to be zero between calls, is passed
along.
-/

namespace Vctrs

/-- `ORDER_INSERTION_BOUNDARY`, src/order.c:169. -/
def orderInsertionBoundary : Nat := 128

/-- `INT_ORDER_COUNTING_RANGE_BOUNDARY`, src/order.c:160. -/
def countingRangeBoundary : Nat := 100000

/-- A pointer `p + off` to `n` elements: the elements it gives access to (the pointer
arithmetic of src/order.c:1669-1701). -/
def window {α : Type} (l : List α) (off n : Nat) : C (List α) :=
  if off + n ≤ l.length then .ok ((l.drop off).take n) else .error .ub

/-- What the callee wrote through the pointer `p + off` (the pointer arithmetic of
src/order.c:1669-1701). -/
def putBack {α : Type} (l : List α) (off : Nat) (w : List α) : List α :=
  l.take off ++ w ++ l.drop (off + w.length)

/-- `memcpy(dst, src, n * sizeof(*src))` of a scratch array over all of the destination, as in
src/order.c:1387, :1662 and :1663. -/
def copyBack {α : Type} (src : List (Option α)) (n : Nat) : C (List α) :=
  if n ≤ src.length then initd (src.take n) else .error .ub

/-- `memset(p, 0, n * sizeof(*p))`, as in src/order.c:1403. -/
def memset0 (l : List Nat) (n : Nat) : C (List Nat) :=
  if n ≤ l.length then .ok (List.replicate n 0 ++ l.drop n) else .error .ub

/-! ## Sortedness -/

/-- `enum vctrs_sortedness`, src/order-sortedness.h:19-23. -/
inductive Sortedness
  | unsorted | reversed | sorted
  deriving DecidableEq, Repr

/-- State of the second loop of `*_sortedness`: the previous element, the current group size,
the groups, and whether `VCTRS_SORTEDNESS_unsorted` was returned
(src/order-sortedness.c:245-293). -/
structure SortednessState (α : Type) where
  previous : α
  groupSize : Nat
  gi : GroupInfos
  unsorted : Bool

/-- Body of the first loop of `int_sortedness`, src/order-sortedness.c:218-233 (`dbl_`: :63-83,
`chr_`: :355-373): state is `previous` and `count`. -/
def strictStep {α : Type} (cmp : α → α → Int) (x : List α) (i : Nat) (s : α × Nat) :
    C (Ctl (α × Nat)) := do
  let current ← rd x i
  if cmp current s.1 ≥ 0 then .ok (.brk s) else .ok (.next (current, s.2 + 1))

/-- Body of the second loop of `int_sortedness`, src/order-sortedness.c:259-287 (`dbl_`:
:106-140, `chr_`: :399-431). -/
def sortedStep {α : Type} (cmp : α → α → Int) (x : List α) (originalN : Nat) (i : Nat)
    (s : SortednessState α) : C (Ctl (SortednessState α)) := do
  let current ← rd x i
  let c := cmp current s.previous
  if c < 0 then .ok (.brk { s with gi := s.gi.resetGroups originalN, unsorted := true })
  else if c = 0 then .ok (.next { s with previous := current, groupSize := s.groupSize + 1 })
  else do
    let gi ← groupsSizeMaybePush s.groupSize s.gi
    .ok (.next { s with previous := current, groupSize := 1, gi := gi })

/-- `int_sortedness`, src/order-sortedness.c:196-294, `dbl_sortedness`, :36-147, and
`chr_sortedness`, :332-438, which differ in the comparison only. -/
def sortedness {α : Type} (cmp : α → α → Int) (x : List α) (gi : GroupInfos) :
    C (Sortedness × GroupInfos) :=
  let size := x.length
  if size = 0 then .ok (.sorted, gi)
  else if size = 1 then do
    let gi ← groupsSizeMaybePush 1 gi
    .ok (.sorted, gi)
  else do
    let first ← rd x 0
    let (_, count) ← forBrkFrom (strictStep cmp x) 1 (size - 1) (first, 0)
    if count = size - 1 then do
      let gi ← forN size (fun _ gi => groupsSizeMaybePush 1 gi) gi
      .ok (.reversed, gi)
    else if count ≠ 0 then .ok (.unsorted, gi)
    else do
      let s ← forBrkFrom (sortedStep cmp x gi.current.nGroups) 1 (size - 1)
        ⟨first, 1, gi, false⟩
      if s.unsorted then .ok (.unsorted, s.gi)
      else do
        let gi ← groupsSizeMaybePush s.groupSize s.gi
        .ok (.sorted, gi)

/-- `int_cmp`, src/order-sortedness.c:298-314, with `direction` and `na_order` as set in
:211-212. -/
def intCmp (decreasing naLast : Bool) (x y : Int) : Int :=
  let direction : Int := if decreasing then -1 else 1
  let naOrder : Int := if naLast then 1 else -1
  if x = naInt then (if y = naInt then 0 else naOrder)
  else if y = naInt then -naOrder
  else ((if x > y then 1 else 0) - (if x < y then 1 else 0)) * direction

/-- `dbl_cmp`, src/order-sortedness.c:155-183, with `direction`, `na_order` and `na_nan_order`
as set in :51-53. -/
def dblCmp (decreasing naLast nanDistinct : Bool) (x y : Dbl) : Int :=
  let direction : Int := if decreasing then -1 else 1
  let naOrder : Int := if naLast then 1 else -1
  let naNanOrder : Int := if nanDistinct then naOrder else 0
  match dblClassify x, dblClassify y with
  | .number, .number =>
    ((if dblLtOp y x then 1 else 0) - (if dblLtOp x y then 1 else 0)) * direction
  | .number, .missing => -naOrder
  | .number, .nan => -naOrder
  | .missing, .number => naOrder
  | .missing, .missing => 0
  | .missing, .nan => naNanOrder
  | .nan, .number => naOrder
  | .nan, .missing => -naNanOrder
  | .nan, .nan => 0

/-- `init_order`, src/order.h:76-89, and `int_incr`, src/order-sortedness.c:495-499, on the
uninitialised order. -/
def intIncr (size : Nat) : C (List Int) := do
  let o ← forN size (fun i (o : List (Option Int)) => wr o i (some ((i : Int) + 1)))
    (alloc Int size)
  initd o

/-- `ord_reverse`, src/order-sortedness.c:503-516. -/
def ordReverse (size : Nat) : C (List Int) := do
  let half := size / 2
  let o ← forN half (fun i (o : List (Option Int)) => do
      let swap := size - 1 - i
      let o ← wr o i (some ((swap : Int) + 1))
      wr o swap (some ((i : Int) + 1))) (alloc Int size)
  let o ← if size % 2 ≠ 0 then wr o half (some ((half : Int) + 1)) else .ok o
  initd o

/-- `ord_reverse_chunk`, src/order-sortedness.c:539-551. -/
def ordReverseChunk (o : List Int) : C (List Int) :=
  let size := o.length
  let half := size / 2
  forN half (fun i (o : List Int) => do
      let swap := size - 1 - i
      let temp ← rd o i
      let b ← rd o swap
      let o ← wr o i b
      wr o swap temp) o

/-- `ord_resolve_sortedness`, src/order-sortedness.c:481-491. -/
def ordResolve (s : Sortedness) (size : Nat) : C (List Int) :=
  match s with
  | .sorted => intIncr size
  | .reversed => ordReverse size
  | .unsorted => .error .internal

/-- `ord_resolve_sortedness_chunk`, src/order-sortedness.c:521-533. -/
def ordResolveChunk (s : Sortedness) (o : List Int) : C (List Int) :=
  match s with
  | .sorted => .ok o
  | .reversed => ordReverseChunk o
  | .unsorted => .error .internal

/-! ## Keys -/

/-- The conversion of an `int` to `uint32_t`, as in src/order.c:1202 and :1333. -/
def toU32 (x : Int) : Nat := (BitVec.ofInt 32 x).toNat

/-- `int_map_to_uint32`, src/order.c:1201-1203. -/
def intMapToUint32 (x : Int) : Nat := (BitVec.ofNat 32 (toU32 x) ^^^ 0x80000000#32).toNat

/-- The loop body of `int_adjust`, src/order.c:1182-1193. -/
def intAdjustElt (decreasing naLast : Bool) (elt : Int) : C Nat :=
  if elt = naInt then .ok (if naLast then 0xFFFFFFFF else 0)
  else do
    let e ← chkInt (elt * (if decreasing then -1 else 1))
    let e ← chkInt (e + (if naLast then -1 else 0))
    .ok (intMapToUint32 e)

/-- `int_adjust`, src/order.c:1171-1194, and `dbl_adjust`, :2132-2149.  The C code overwrites
element `i` of the array, reading it as an `int` and writing it as a `uint32_t` (`double` and
`uint64_t`); here the keys go to an array of their own. -/
def adjustLoop {α : Type} (f : α → C Nat) (x : List α) : C (List Nat) := do
  let out ← forN x.length (fun i (out : List (Option Nat)) => do
    let elt ← rd x i
    let k ← f elt
    wr out i (some k)) (alloc Nat x.length)
  initd out

/-- `elt * direction` for a double that is not a NaN, src/order.c:2173 and :2195: `-1` flips
the sign bit. -/
def dblMulDir (decreasing : Bool) (x : Dbl) : Dbl :=
  if decreasing then x ^^^ 0x8000000000000000#64 else x

/-- `dbl_flip_uint64`, src/order.c:2247-2250. -/
def dblFlipUint64 (x : BitVec 64) : BitVec 64 :=
  x ^^^ (if x &&& 0x8000000000000000#64 ≠ 0#64 then 0xffffffffffffffff#64
    else 0x8000000000000000#64)

/-- `dbl_map_to_uint64`, src/order.c:2225-2237. -/
def dblMapToUint64 (x : Dbl) : Nat :=
  (dblFlipUint64 (if dblEqOp x 0#64 then 0#64 else x)).toNat

/-- The loop bodies of `dbl_adjust_nan_identical`, src/order.c:2166-2176, and
`dbl_adjust_nan_distinct`, :2189-2208, as chosen in :2144-2148. -/
def dblAdjustElt (decreasing naLast nanDistinct : Bool) (elt : Dbl) : Nat :=
  let naU64 : Nat := if naLast then 0xFFFFFFFFFFFFFFFF else 0
  let nanU64 : Nat := if naLast then 0xFFFFFFFFFFFFFFFE else 1
  if nanDistinct then
    match dblClassify elt with
    | .number => dblMapToUint64 (dblMulDir decreasing elt)
    | .missing => naU64
    | .nan => nanU64
  else if isNan elt then naU64
  else dblMapToUint64 (dblMulDir decreasing elt)

/-! ## Insertion sort -/

/-- The `while` loop of `int_order_insertion`, src/order.c:1438-1453 (`dbl_`: :2289-2304,
`chr_`: :3195-3211).  `p` is `j + 1`; `ge` compares the element being inserted with an element
of the array.  Returns `j + 1` and the two arrays. -/
def insertWhile {α β : Type} (ge : α → C Bool) : Nat → List α → List β →
    C (Nat × List α × List β)
  | 0, x, o => .ok (0, x, o)
  | p + 1, x, o => do
    let xc ← rd x p
    let stop ← ge xc
    if stop then .ok (p + 1, x, o)
    else
      let oc ← rd o p
      let x ← wr x (p + 1) xc
      let o ← wr o (p + 1) oc
      insertWhile ge p x o

/-- The first loop of `int_order_insertion`, src/order.c:1432-1459 (`dbl_`: :2283-2310,
`chr_`: :3189-3216). -/
def insertionLoop {α β : Type} (ge : α → β → α → C Bool) (x : List α) (o : List β) :
    C (List α × List β) :=
  forFrom (fun i (s : List α × List β) => do
    let xe ← rd s.1 i
    let oe ← rd s.2 i
    let (p, x, o) ← insertWhile (ge xe oe) i s.1 s.2
    let x ← wr x p xe
    let o ← wr o p oe
    .ok (x, o)) 1 (x.length - 1) (x, o)

/-- The second loop of `int_order_insertion`, src/order.c:1464-1483 (`dbl_`: :2315-2334): push
the sizes of the runs of the sorted keys. -/
def pushRuns (x : List Nat) (gi : GroupInfos) : C GroupInfos := do
  let first ← rd x 0
  let s ← forFrom (fun i (s : Nat × Nat × GroupInfos) => do
    let current ← rd x i
    if current = s.1 then .ok (s.1, s.2.1 + 1, s.2.2)
    else
      let gi ← groupsSizeMaybePush s.2.1 s.2.2
      .ok (current, 1, gi)) 1 (x.length - 1) (first, 1, gi)
  groupsSizeMaybePush s.2.1 s.2.2

/-- `int_order_insertion`, src/order.c:1422-1484, and `dbl_order_insertion`, :2273-2335. -/
def orderInsertion (x : List Nat) (o : List Int) (gi : GroupInfos) :
    C (List Nat × List Int × GroupInfos) :=
  if x.length = 0 then .ok (x, o, gi)
  else do
    let (x, o) ← insertionLoop (fun xe _ xc => .ok (decide (xe ≥ xc))) x o
    let gi ← pushRuns x gi
    .ok (x, o, gi)

/-! ## Radix sort -/

/-- `int_extract_uint32_byte`, src/order.c:1769-1771, and `dbl_extract_uint64_byte`,
:2631-2633. -/
def extractByte (x shift : Nat) : Nat := (x >>> shift) &&& 255

/-- The shift used in a pass: `PASS_TO_RADIX(pass, M) * 8`, src/order.c:175, :1583 and
:1729-1731 (where `SHIFT_ADJUSTMENT` is subtracted in each pass). -/
def passShift (M pass : Nat) : Nat := (M - 1 - pass) * 8

/-- `while (pass < M && p_skips[pass]) ++pass`, src/order.c:1576-1579 and :1757-1759 (doubles:
:2429-2432 and :2619-2621). -/
def skipWhile (M : Nat) (skips : List Bool) : (fuel pass : Nat) → C Nat
  | 0, _ => .error .diverge
  | fuel + 1, pass =>
    if pass < M then do
      if ← rd skips pass then skipWhile M skips fuel (pass + 1) else .ok pass
    else .ok pass

/-- The inner loop of `int_compute_skips`, src/order.c:1738-1748 (doubles: :2600-2610): the
state is `p_skips` and `n_skips`. -/
def skipsElt (M : Nat) (bytes : List Nat) (elt : Nat) (skips : List Bool) :
    C (List Bool × Int) :=
  forN M (fun pass (s : List Bool × Int) => do
    if ← rd s.1 pass then
      let b ← rd bytes pass
      let skips ← wr s.1 pass (decide (b = extractByte elt (passShift M pass)))
      .ok (skips, s.2)
    else .ok (s.1, s.2 - 1)) (skips, (M : Int))

/-- `int_compute_skips`, src/order.c:1712-1762, and `dbl_compute_skips`, :2574-2624.  Returns
`p_skips` and the first pass. -/
def computeSkips (M : Nat) (x : List Nat) : C (List Bool × Nat) := do
  let elt0 ← rd x 0
  let bytes ← forN M (fun pass (b : List (Option Nat)) =>
    wr b pass (some (extractByte elt0 (passShift M pass)))) (alloc Nat M)
  let bytes ← initd bytes
  let skips ← forBrkFrom (fun i (skips : List Bool) => do
    let elt ← rd x i
    let (skips, nSkips) ← skipsElt M bytes elt skips
    if nSkips = 0 then .ok (.brk skips) else .ok (.next skips)) 1 (x.length - 1)
    (List.replicate M true)
  let pass ← skipWhile M skips (M + 1) 0
  .ok (skips, pass)

/-- Accumulate counts, skipping zeros, over the buckets `off .. off + 255`:
src/order.c:1637-1650 (doubles: :2490-2503; strings, `off = 0`: :3359-3370).  The state is
`p_counts` and `cumulative`. -/
def accumulateCounts (off : Nat) (counts : List Nat) : C (List Nat × Nat) :=
  forN 256 (fun i (s : List Nat × Nat) => do
    let count ← rd s.1 (off + i)
    if count = 0 then .ok s
    else
      let c ← wr s.1 (off + i) s.2
      .ok (c, s.2 + count)) (counts, 0)

/-- Place the elements of two arrays into auxiliary arrays of size `cap`, in the order given by
the counts: src/order.c:1653-1658 (doubles: :2506-2511; strings: :3373-3378), then copy back. -/
def placeByCounts {α β : Type} (cap off : Nat) (bytes : List (Option Nat)) (x : List α)
    (o : List β) (counts : List Nat) : C (List α × List β × List Nat) := do
  let s ← forN x.length (fun i (s : List (Option α) × List (Option β) × List Nat) => do
    let byte ← rdU bytes i
    let loc ← rd s.2.2 (off + byte)
    let c ← wr s.2.2 (off + byte) (loc + 1)
    let oe ← rd o i
    let oAux ← wr s.2.1 loc (some oe)
    let xe ← rd x i
    let xAux ← wr s.1 loc (some xe)
    .ok (xAux, oAux, c)) (alloc α cap, alloc β cap, counts)
  let o ← copyBack s.2.1 x.length
  let x ← copyBack s.1 x.length
  .ok (x, o, s.2.2)

/-- State of the radix sort: keys, order, counts and groups. -/
structure RadixState where
  x : List Nat
  o : List Int
  counts : List Nat
  gi : GroupInfos

/-- State of the loop over the radix groups of one pass, src/order.c:1664-1702: the distance
the pointers `p_x` and `p_o` have moved and `last_cumulative_count`. -/
structure RadixLoop extends RadixState where
  off : Nat
  last : Nat

/-- Histogram of a pass, src/order.c:1588-1597 (doubles: :2441-2450).  The state is `byte`,
`p_bytes` and `p_counts`. -/
def radixHistogram (cap off shift : Nat) (x : List Nat) (counts : List Nat) :
    C (Nat × List (Option Nat) × List Nat) :=
  forN x.length (fun i (s : Nat × List (Option Nat) × List Nat) => do
    let xe ← rd x i
    let byte := extractByte xe shift
    let bytes ← wr s.2.1 i (some byte)
    let n ← rd s.2.2 (off + byte)
    let c ← wr s.2.2 (off + byte) (n + 1)
    .ok (byte, bytes, c)) (0, alloc Nat cap, counts)

/-- Body of the loop over the radix groups, src/order.c:1667-1702 (doubles: :2520-2554).
`rec` orders the next byte of a group. -/
def radixGroup (M nextPass size off : Nat) (rec : RadixState → C RadixState) (i : Nat)
    (s : RadixLoop) : C (Ctl RadixLoop) :=
  if ¬ s.last < size then .ok (.brk s)
  else do
    let cumulative ← rd s.counts (off + i)
    if cumulative = 0 then .ok (.next s)
    else
      let counts ← wr s.counts (off + i) 0
      let groupSize := cumulative - s.last
      if groupSize = 1 then
        let gi ← groupsSizeMaybePush 1 s.gi
        .ok (.next ⟨⟨s.x, s.o, counts, gi⟩, s.off + 1, cumulative⟩)
      else if nextPass = M then
        let gi ← groupsSizeMaybePush groupSize s.gi
        .ok (.next ⟨⟨s.x, s.o, counts, gi⟩, s.off + groupSize, cumulative⟩)
      else
        let xw ← window s.x s.off groupSize
        let ow ← window s.o s.off groupSize
        let r ← rec ⟨xw, ow, counts, s.gi⟩
        .ok (.next ⟨⟨putBack s.x s.off r.x, putBack s.o s.off r.o, r.counts, r.gi⟩,
          s.off + groupSize, cumulative⟩)

/-- `int_order_radix_recurse`, src/order.c:1553-1703, and `dbl_order_radix_recurse`,
:2406-2555.  `off` is where `p_counts` points to; `fuel` bounds the depth of the recursion. -/
def radixRecurse (M cap : Nat) (skips : List Bool) : (fuel pass off : Nat) → RadixState →
    C RadixState
  | 0, _, _, _ => .error .diverge
  | fuel + 1, pass, off, s => do
    let size := s.x.length
    if size ≤ orderInsertionBoundary then
      let (x, o, gi) ← orderInsertion s.x s.o s.gi
      .ok ⟨x, o, s.counts, gi⟩
    else
      let nextPass ← skipWhile M skips (M + 1) (pass + 1)
      let offNext := off + 256 * (nextPass - pass)
      let (byte, bytes, counts) ← radixHistogram cap off (passShift M pass) s.x s.counts
      let n ← rd counts (off + byte)
      if n = size then
        let counts ← wr counts (off + byte) 0
        if nextPass = M then
          let gi ← groupsSizeMaybePush size s.gi
          .ok ⟨s.x, s.o, counts, gi⟩
        else radixRecurse M cap skips fuel nextPass offNext ⟨s.x, s.o, counts, s.gi⟩
      else
        let (counts, _) ← accumulateCounts off counts
        let (x, o, counts) ← placeByCounts cap off bytes s.x s.o counts
        let r ← forBrk 256 (radixGroup M nextPass size off
          (radixRecurse M cap skips fuel nextPass offNext)) ⟨⟨x, o, counts, s.gi⟩, 0, 0⟩
        .ok r.toRadixState

/-- `int_order_radix`, src/order.c:1511-1541, and `dbl_order_radix`, :2362-2392, with the
`memset` of the counts before it (:1022, :1126, :2005, :2084).  `countsLen` is the number of
counts allocated (:413-416). -/
def orderRadix (M cap countsLen : Nat) (x : List Nat) (o : List Int) (gi : GroupInfos) :
    C (List Nat × List Int × GroupInfos) := do
  let counts := List.replicate countsLen 0
  let (skips, pass) ← computeSkips M x
  if pass = M then
    let gi ← groupsSizeMaybePush x.length gi
    .ok (x, o, gi)
  else
    let r ← radixRecurse M cap skips (M + 1) pass 0 ⟨x, o, counts, gi⟩
    .ok (r.x, r.o, r.gi)

/-! ## Counting sort for integers -/

/-- `int_compute_range`, src/order.c:1222-1286.  Returns `x_min` and `range`. -/
def intComputeRange (x : List Int) : C (Int × Nat) := do
  let size := x.length
  let (i, xMin) ← forBrk size (fun _ (s : Nat × Int) => do
    let elt ← rd x s.1
    if elt = naInt then .ok (.next (s.1 + 1, s.2)) else .ok (.brk (s.1 + 1, elt))) (0, naInt)
  if xMin = naInt then .ok (xMin, 0xFFFFFFFF)
  else
    let (xMin, xMax) ← forFrom (fun j (s : Int × Int) => do
      let elt ← rd x j
      if elt = naInt then .ok s
      else if elt > s.2 then .ok (s.1, elt)
      else if elt < s.1 then .ok (elt, s.2)
      else .ok s) i (size - i) (xMin, xMin)
    .ok (xMin, toU32 (xMax - xMin + 1))

/-- `elt - x_min` as a `uint32_t`, src/order.c:1333, :1382 and :1391. -/
def countingBucket (xMin : Int) (naBucket : Nat) (elt : Int) : C Nat :=
  if elt = naInt then .ok naBucket
  else do
    let d ← chkInt (elt - xMin)
    .ok (toU32 d)

/-- The histogram pass of `int_order_counting`, src/order.c:1327-1339.  The state is `p_counts`
and `na_count`. -/
def countingHistogram (x : List Int) (xMin : Int) (naBucket : Nat) (counts : List Nat) :
    C (List Nat × Nat) := do
  let (counts, naCount) ← forN x.length (fun i (s : List Nat × Nat) => do
    let elt ← rd x i
    if elt = naInt then .ok (s.1, s.2 + 1)
    else
      let bucket ← countingBucket xMin naBucket elt
      let n ← rd s.1 bucket
      let c ← wr s.1 bucket (n + 1)
      .ok (c, s.2)) (counts, 0)
  let counts ← wr counts naBucket naCount
  .ok (counts, naCount)

/-- State of the accumulation loop of `int_order_counting`, src/order.c:1344-1377. -/
structure CountingState where
  counts : List Nat
  cumulative : Nat
  gi : GroupInfos

/-- A count becomes the start of its group, which is pushed: src/order.c:1350-1354,
:1361-1371 and :1375-1378. -/
def countingStart (bucket : Int) (count : Nat) (s : CountingState) : C CountingState := do
  let counts ← wrI s.counts bucket s.cumulative
  let gi ← groupsSizeMaybePush count s.gi
  .ok ⟨counts, s.cumulative + count, gi⟩

/-- The accumulation of counts in `int_order_counting`, src/order.c:1341-1378. -/
def countingAccumulate (range : Nat) (decreasing naLast : Bool) (naCount : Nat)
    (counts : List Nat) (gi : GroupInfos) : C CountingState := do
  let direction : Int := if decreasing then -1 else 1
  let j : Int := if decreasing then (range : Int) - 1 else 0
  let s : CountingState := ⟨counts, 0, gi⟩
  let s ← (if !naLast && naCount ≠ 0 then countingStart range naCount s else .ok s :
    C CountingState)
  let (s, _) ← forN range (fun _ (t : CountingState × Int) => do
    let count ← rdI t.1.counts t.2
    if count = 0 then .ok (t.1, t.2 + direction)
    else
      let s ← countingStart t.2 count t.1
      .ok (s, t.2 + direction)) (s, j)
  if naLast && naCount ≠ 0 then countingStart range naCount s else .ok s

/-- The placement loops of `int_order_counting`, src/order.c:1379-1395: `val i` is what goes
to the place of element `i`. -/
def countingPlace (x : List Int) (xMin : Int) (naBucket cap : Nat) (val : Nat → C Int)
    (counts : List Nat) : C (List (Option Int) × List Nat) :=
  forN x.length (fun i (s : List (Option Int) × List Nat) => do
    let elt ← rd x i
    let bucket ← countingBucket xMin naBucket elt
    let loc ← rd s.2 bucket
    let counts ← wr s.2 bucket (loc + 1)
    let v ← val i
    let out ← wr s.1 loc (some v)
    .ok (out, counts)) (alloc Int cap, counts)

/-- `int_order_counting`, src/order.c:1300-1404.  `counts` is the static array `p_counts`,
zero before and after.  `o` is the order so far, or `none` if it is not initialised, when the
result is written to it directly (`cap` is then the size of the order). -/
def intOrderCounting (cap : Nat) (x : List Int) (xMin : Int) (range : Nat)
    (decreasing naLast : Bool) (o : Option (List Int)) (counts : List Nat) (gi : GroupInfos) :
    C (List Int × List Nat × GroupInfos) := do
  let naBucket := range
  if range > countingRangeBoundary then .error .internal
  else
    let (counts, naCount) ← countingHistogram x xMin naBucket counts
    let s ← countingAccumulate range decreasing naLast naCount counts gi
    let val : Nat → C Int := match o with
      | some o => fun i => rd o i
      | none => fun i => .ok ((i : Int) + 1)
    let (out, counts) ← countingPlace x xMin naBucket cap val s.counts
    let out ← copyBack out x.length
    let counts ← memset0 counts (range + 1)
    .ok (out, counts, s.gi)

/-! ## Entry points for integers and doubles -/

/-- What the ordering functions share: the static counts of `int_order_counting`
(src/order.c:1314) and the groups. -/
structure OrdState where
  static : List Nat
  gi : GroupInfos

/-- `int_order_chunk_impl`, src/order.c:970-1036.  `cap` is the size of the scratch arrays,
`countsLen` the number of counts allocated. -/
def intOrderChunkImpl (decreasing naLast : Bool) (cap countsLen : Nat) (x : List Int)
    (o : List Int) (st : OrdState) : C (List Int × OrdState) :=
  if x.length ≤ orderInsertionBoundary then do
    let k ← adjustLoop (intAdjustElt decreasing naLast) x
    let (_, o, gi) ← orderInsertion k o st.gi
    .ok (o, { st with gi := gi })
  else do
    let (xMin, range) ← intComputeRange x
    if range < countingRangeBoundary then do
      let (o, static, gi) ← intOrderCounting cap x xMin range decreasing naLast (some o)
        st.static st.gi
      .ok (o, ⟨static, gi⟩)
    else do
      let k ← adjustLoop (intAdjustElt decreasing naLast) x
      let (_, o, gi) ← orderRadix 4 cap countsLen k o st.gi
      .ok (o, { st with gi := gi })

/-- `int_order_chunk` (and `lgl_order_chunk`), src/order.c:832-869 and :1779-1802. -/
def intOrderChunk (decreasing naLast : Bool) (cap countsLen : Nat) (x : List Int)
    (o : List Int) (st : OrdState) : C (List Int × OrdState) := do
  let (s, gi) ← sortedness (intCmp decreasing naLast) x st.gi
  if s ≠ .unsorted then
    let o ← ordResolveChunk s o
    .ok (o, { st with gi := gi })
  else intOrderChunkImpl decreasing naLast cap countsLen x o { st with gi := gi }

/-- `int_order_impl`, src/order.c:1048-1144.  The order is not initialised before. -/
def intOrderImpl (decreasing naLast : Bool) (countsLen : Nat) (x : List Int) (st : OrdState) :
    C (List Int × OrdState) :=
  if x.length ≤ orderInsertionBoundary then do
    let o ← intIncr x.length
    let k ← adjustLoop (intAdjustElt decreasing naLast) x
    let (_, o, gi) ← orderInsertion k o st.gi
    .ok (o, { st with gi := gi })
  else do
    let (xMin, range) ← intComputeRange x
    if range < countingRangeBoundary then do
      let (o, static, gi) ← intOrderCounting x.length x xMin range decreasing naLast none
        st.static st.gi
      .ok (o, ⟨static, gi⟩)
    else do
      let o ← intIncr x.length
      let k ← adjustLoop (intAdjustElt decreasing naLast) x
      let (_, o, gi) ← orderRadix 4 x.length countsLen k o st.gi
      .ok (o, { st with gi := gi })

/-- `int_order` (and `lgl_order`), src/order.c:885-928 and :1804-1830. -/
def intOrder (decreasing naLast : Bool) (countsLen : Nat) (x : List Int) (st : OrdState) :
    C (List Int × OrdState) := do
  let (s, gi) ← sortedness (intCmp decreasing naLast) x st.gi
  if s ≠ .unsorted then
    let o ← ordResolve s x.length
    .ok (o, { st with gi := gi })
  else intOrderImpl decreasing naLast countsLen x { st with gi := gi }

/-- Insertion or radix sort of doubles, src/order.c:1990-2017 and :2069-2097. -/
def dblOrderKeys (cap countsLen : Nat) (k : List Nat) (o : List Int) (gi : GroupInfos) :
    C (List Nat × List Int × GroupInfos) :=
  if k.length ≤ orderInsertionBoundary then orderInsertion k o gi
  else orderRadix 8 cap countsLen k o gi

/-- `dbl_order_chunk_impl`, src/order.c:1967-2018, called by `dbl_order_chunk`, :1862-1890. -/
def dblOrderChunk (decreasing naLast nanDistinct : Bool) (cap countsLen : Nat) (x : List Dbl)
    (o : List Int) (st : OrdState) : C (List Int × OrdState) := do
  let (s, gi) ← sortedness (dblCmp decreasing naLast nanDistinct) x st.gi
  if s ≠ .unsorted then
    let o ← ordResolveChunk s o
    .ok (o, { st with gi := gi })
  else
    let k ← adjustLoop (fun e => .ok (dblAdjustElt decreasing naLast nanDistinct e)) x
    let (_, o, gi) ← dblOrderKeys cap countsLen k o gi
    .ok (o, { st with gi := gi })

/-- `dbl_order_impl`, src/order.c:2032-2098, called by `dbl_order`, :1908-1939. -/
def dblOrder (decreasing naLast nanDistinct : Bool) (countsLen : Nat) (x : List Dbl)
    (st : OrdState) : C (List Int × OrdState) := do
  let (s, gi) ← sortedness (dblCmp decreasing naLast nanDistinct) x st.gi
  if s ≠ .unsorted then
    let o ← ordResolve s x.length
    .ok (o, { st with gi := gi })
  else
    let o ← intIncr x.length
    let k ← adjustLoop (fun e => .ok (dblAdjustElt decreasing naLast nanDistinct e)) x
    let (_, o, gi) ← dblOrderKeys x.length countsLen k o gi
    .ok (o, { st with gi := gi })

end Vctrs
