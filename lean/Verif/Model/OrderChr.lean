import Verif.Model.Order

/-!
# Ordering of strings (src/order.c, src/order-truelength.c)

A CHARSXP is identified with its bytes (or with `NA_STRING`), as R's string cache makes equal
strings share one CHARSXP; strings have been normalised to one encoding before.  The TRUELENGTHs
of all CHARSXPs are one map, which the functions receive and return.
-/

namespace Vctrs

/-- The TRUELENGTH of every CHARSXP, as read at src/order.c:3137. -/
abbrev TL := Name → Int

/-- `SET_TRUELENGTH`, as at src/order.c:3163. -/
def TL.set (t : TL) (s : Name) (v : Int) : TL := fun u => if u = s then v else t u

/-- `CHAR()`, as at src/order.c:3318; `CHAR(NA_STRING)` is `"NA"`. -/
def charOf : Name → List Char
  | none => ['N', 'A']
  | some s => s

/-! ## src/order-truelength.c -/

/-- `TRUELENGTH_SIZE_ALLOC_DEFAULT`, src/order-truelength.h:23. -/
def truelengthAllocDefault : Nat := 10000

/-- One of the growing arrays of `struct truelength_info`, src/order-truelength.h:61-95: its
slots and the number of them in use. -/
structure TlBuf (α : Type) where
  data : List (Option α)
  used : Nat

/-- `truelength_realloc_size`, src/order-truelength.c:189-209. -/
def truelengthReallocSize (nX nMax : Nat) : Nat :=
  if nX = 0 then (if truelengthAllocDefault < nMax then truelengthAllocDefault else nMax)
  else if nX * 2 > nMax then nMax else nX * 2

/-- `truelength_save_string`, `_unique` and `_size`, src/order-truelength.h:119-149, with
`truelength_realloc_*`, src/order-truelength.c:106-184. -/
def TlBuf.push {α : Type} (nMax : Nat) (v : α) (b : TlBuf α) : C (TlBuf α) := do
  let data := if b.used = b.data.length then
    intResize b.data (truelengthReallocSize b.data.length nMax) else b.data
  let data ← wr data b.used (some v)
  .ok ⟨data, b.used + 1⟩

/-- `struct truelength_info`, src/order-truelength.h:61-95.  `strings` and `truelengths` are one
array of pairs; `sizes_aux` is as long as `sizes`. -/
structure TlInfo where
  strings : TlBuf (Name × Int)
  uniques : TlBuf Name
  sizes : TlBuf Nat
  maxStringSize : Nat
  nMax : Nat

/-- `new_truelength_info`, src/order-truelength.c:30-56. -/
def TlInfo.new (nMax : Nat) : TlInfo := ⟨⟨[], 0⟩, ⟨[], 0⟩, ⟨[], 0⟩, 0, nMax⟩

/-- What the functions on strings share: the TRUELENGTHs and the `truelength_info`
(src/order.c:2784-2785). -/
structure TlState where
  tl : TL
  info : TlInfo

/-- `truelength_reset`, src/order-truelength.c:76-98. -/
def truelengthReset (s : TlState) : C TlState := do
  let tl ← forN s.info.uniques.used (fun i (tl : TL) => do
    let u ← rdU s.info.uniques.data i
    .ok (tl.set u 0)) s.tl
  let tl ← forN s.info.strings.used (fun i (tl : TL) => do
    let u ← rdU s.info.strings.data i
    .ok (tl.set u.1 u.2)) tl
  .ok ⟨tl, { s.info with
    strings := { s.info.strings with used := 0 }
    uniques := { s.info.uniques with used := 0 }
    sizes := { s.info.sizes with used := 0 }
    maxStringSize := 0 }⟩

/-! ## Sorting the unique strings -/

/-- `chr_cmp`, src/order-sortedness.c:445-465, with `direction` and `na_order` as set in
:345-346. -/
def chrCmp (decreasing naLast : Bool) (x y : Name) : Int :=
  let direction : Int := if decreasing then -1 else 1
  let naOrder : Int := if naLast then 1 else -1
  if x = y then 0
  else if x = none then naOrder
  else if y = none then -naOrder
  else direction * strcmp (charOf x) (charOf y)

/-- The pointer `c + n` into a string, src/order.c:3464-3465, up to its terminator. -/
def charFrom (s : List Char) (n : Nat) : C (List Char) :=
  if n ≤ s.length then .ok (s.drop n) else .error .ub

/-- `chr_str_ge`, src/order.c:3440-3469. -/
def chrStrGe (pass : Nat) (x : Name) (xSize : Nat) (y : Name) : C Bool :=
  if pass = 0 then .ok (decide (strcmp (charOf x) (charOf y) ≥ 0))
  else
    let lastPass := pass - 1
    if xSize < lastPass + 1 then .ok true
    else do
      let cx ← charFrom (charOf x) lastPass
      let cy ← charFrom (charOf y) lastPass
      .ok (decide (strcmp cx cy ≥ 0))

/-- `chr_order_insertion`, src/order.c:3180-3217. -/
def chrOrderInsertion (pass : Nat) (x : List Name) (sizes : List Nat) :
    C (List Name × List Nat) :=
  if x.length = 0 then .ok (x, sizes) else insertionLoop (chrStrGe pass) x sizes

/-- The byte of a string in a pass, src/order.c:3313-3321; the terminator may be read, nothing
after it. -/
def chrByte (pass : Nat) (x : Name) (size : Nat) : C Nat :=
  if pass < size then
    if pass = (charOf x).length then .ok 0
    else do
      let c ← rd (charOf x) pass
      .ok (c.toNat % 256)
  else .ok 0

/-- Histogram of a pass, src/order.c:3308-3325: the state is `byte`, `p_bytes` and
`p_counts`. -/
def chrHistogram (cap pass : Nat) (x : List Name) (sizes : List Nat) :
    C (Nat × List (Option Nat) × List Nat) :=
  forN x.length (fun i (s : Nat × List (Option Nat) × List Nat) => do
    let size ← rd sizes i
    let xe ← rd x i
    let byte ← chrByte pass xe size
    let bytes ← wr s.2.1 i (some byte)
    let n ← rd s.2.2 byte
    let c ← wr s.2.2 byte (n + 1)
    .ok (byte, bytes, c)) (0, alloc Nat cap, List.replicate 256 0)

/-- State of the loop over the groups of one pass, src/order.c:3383-3424: the two arrays, the
distance the pointers `p_x` and `p_sizes` have moved and `last_cumulative_count`. -/
structure ChrLoop where
  x : List Name
  sizes : List Nat
  off : Nat
  last : Nat

/-- Body of the loop over the groups, src/order.c:3386-3424.  `rec` sorts a group by the next
byte. -/
def chrGroup (nextPass maxSize size : Nat) (counts : List Nat)
    (rec : List Name → List Nat → C (List Name × List Nat)) (i : Nat) (s : ChrLoop) :
    C (Ctl ChrLoop) :=
  if ¬ s.last < size then .ok (.brk s)
  else do
    let cumulative ← rd counts i
    if cumulative = 0 then .ok (.next s)
    else
      let groupSize := cumulative - s.last
      if groupSize = 1 then .ok (.next ⟨s.x, s.sizes, s.off + 1, cumulative⟩)
      else if nextPass = maxSize then
        .ok (.next ⟨s.x, s.sizes, s.off + groupSize, cumulative⟩)
      else
        let xw ← window s.x s.off groupSize
        let sw ← window s.sizes s.off groupSize
        let r ← rec xw sw
        .ok (.next ⟨putBack s.x s.off r.1, putBack s.sizes s.off r.2, s.off + groupSize,
          cumulative⟩)

/-- `chr_order_radix_recurse`, src/order.c:3289-3425.  `cap` is the room in the auxiliary
arrays; `fuel` bounds the depth of the recursion. -/
def chrRadixRecurse (cap maxSize : Nat) : (fuel pass : Nat) → List Name → List Nat →
    C (List Name × List Nat)
  | 0, _, _, _ => .error .diverge
  | fuel + 1, pass, x, sizes => do
    let size := x.length
    if size ≤ orderInsertionBoundary then chrOrderInsertion pass x sizes
    else
      let nextPass := pass + 1
      let (byte, bytes, counts) ← chrHistogram cap pass x sizes
      let n ← rd counts byte
      if n = size then
        if nextPass ≠ maxSize then chrRadixRecurse cap maxSize fuel nextPass x sizes
        else .ok (x, sizes)
      else
        let (counts, _) ← accumulateCounts 0 counts
        let (x, sizes, counts) ← placeByCounts cap 0 bytes x sizes counts
        let r ← forBrk 256 (chrGroup nextPass maxSize size counts
          (chrRadixRecurse cap maxSize fuel nextPass)) ⟨x, sizes, 0, 0⟩
        .ok (r.x, r.sizes)

/-- `chr_order_radix`, src/order.c:3239-3262.  The recursion goes one byte further in each
call and stops at `maxSize`. -/
def chrOrderRadix (cap maxSize : Nat) (x : List Name) (sizes : List Nat) :
    C (List Name × List Nat) :=
  chrRadixRecurse cap maxSize (maxSize + 1) 0 x sizes

/-! ## Marking the strings -/

/-- Body of the loop of `chr_mark_uniques`, src/order.c:3129-3163. -/
def chrMarkStep (elt : Name) (s : TlState) : C TlState :=
  if elt = none then .ok s
  else
    let truelength := s.tl elt
    if truelength < 0 then .ok s
    else do
      let nMax := s.info.nMax
      let strings ← (if truelength > 0 then s.info.strings.push nMax (elt, truelength)
        else .ok s.info.strings : C (TlBuf (Name × Int)))
      let eltSize := (charOf elt).length
      let uniques ← s.info.uniques.push nMax elt
      let sizes ← s.info.sizes.push nMax eltSize
      .ok ⟨s.tl.set elt (-1), ⟨strings, uniques, sizes,
        if s.info.maxStringSize < eltSize then eltSize else s.info.maxStringSize, nMax⟩⟩

/-- `chr_mark_uniques`, src/order.c:3124-3165. -/
def chrMarkUniques (x : List Name) (s : TlState) : C TlState :=
  forN x.length (fun i s => do chrMarkStep (← rd x i) s) s

/-- `chr_mark_sorted_uniques`, src/order.c:3090-3122.  `cap` is the room in `p_x_aux` and
`p_bytes`; the auxiliary sizes have as much room as the sizes, the model uses the smaller of the
two for all. -/
def chrMarkSortedUniques (cap : Nat) (x : List Name) (s : TlState) : C TlState := do
  let s ← chrMarkUniques x s
  let n := s.info.uniques.used
  let u ← copyBack s.info.uniques.data n
  let z ← copyBack s.info.sizes.data n
  let (u, z) ← chrOrderRadix (min cap s.info.sizes.data.length) s.info.maxStringSize u z
  let uData := putBack s.info.uniques.data 0 (u.map some)
  let zData := putBack s.info.sizes.data 0 (z.map some)
  let tl ← forN n (fun i (tl : TL) => do
    let elt ← rdU uData i
    .ok (tl.set elt (-(i : Int) - 1))) s.tl
  .ok ⟨tl, { s.info with
    uniques := { s.info.uniques with data := uData }
    sizes := { s.info.sizes with data := zData } }⟩

/-- Conversion of an `r_ssize` to `int` as gcc does it, src/order.c:3062. -/
def toI32 (x : Int) : Int := (BitVec.ofInt 32 x).toInt

/-- `chr_extract_ordering`, src/order.c:3051-3064. -/
def chrExtractOrdering (x : List Name) (tl : TL) : C (List Int) := do
  let out ← forN x.length (fun i (out : List (Option Int)) => do
    let elt ← rd x i
    wr out i (some (if elt = none then naInt else toI32 (-(tl elt))))) (alloc Int x.length)
  initd out

/-! ## Entry points -/

/-- `chr_order_chunk`, src/order.c:2809-2859. -/
def chrOrderChunk (decreasing naLast : Bool) (cap countsLen : Nat) (x : List Name)
    (o : List Int) (tl : TL) (st : OrdState) : C (List Int × OrdState) := do
  let (s, gi) ← sortedness (chrCmp decreasing naLast) x st.gi
  if s ≠ .unsorted then
    let o ← ordResolveChunk s o
    .ok (o, { st with gi := gi })
  else
    let k ← chrExtractOrdering x tl
    intOrderChunkImpl decreasing naLast cap countsLen k o { st with gi := gi }

/-- `chr_order_internal`, src/order.c:2971-3041. -/
def chrOrderInternal (decreasing naLast : Bool) (countsLen : Nat) (x : List Name)
    (ts : TlState) (st : OrdState) : C (List Int × TlState × OrdState) := do
  let (s, gi) ← sortedness (chrCmp decreasing naLast) x st.gi
  if s ≠ .unsorted then
    let o ← ordResolve s x.length
    .ok (o, ts, { st with gi := gi })
  else
    let ts ← chrMarkSortedUniques x.length x ts
    let k ← chrExtractOrdering x ts.tl
    let (o, st) ← intOrderImpl decreasing naLast countsLen k { st with gi := gi }
    .ok (o, ts, st)

/-- `chr_order`, src/order.c:2879-2968, when `chr_order_internal` returns; the clean-up on a
non-local exit is not modelled. -/
def chrOrder (decreasing naLast : Bool) (countsLen : Nat) (x : List Name)
    (ts : TlState) (st : OrdState) : C (List Int × TlState × OrdState) := do
  let (o, ts, st) ← chrOrderInternal decreasing naLast countsLen x ts st
  let ts ← truelengthReset ts
  .ok (o, ts, st)

/-! ## Order of appearance -/

/-- Body of the first loop of `chr_appearance_counting`, src/order.c:3669-3692. -/
def chrCountStep (elt : Name) (s : TlState) : C TlState :=
  let truelength := s.tl elt
  if truelength < 0 then .ok { s with tl := s.tl.set elt (truelength - 1) }
  else do
    let nMax := s.info.nMax
    let strings ← (if truelength > 0 then s.info.strings.push nMax (elt, truelength)
      else .ok s.info.strings : C (TlBuf (Name × Int)))
    let uniques ← s.info.uniques.push nMax elt
    .ok ⟨s.tl.set elt (-1), { s.info with strings := strings, uniques := uniques }⟩

/-- `chr_appearance_counting`, src/order.c:3661-3734.  `o` is `none` when the order is not
initialised; `cap` is the room where the locations are placed. -/
def chrAppearanceCounting (cap : Nat) (x : List Name) (o : Option (List Int)) (ts : TlState)
    (gi : GroupInfos) : C (List Int × TlState × GroupInfos) := do
  let ts ← forN x.length (fun i s => do chrCountStep (← rd x i) s) ts
  let (tl, gi, _) ← forN ts.info.uniques.used (fun i (s : TL × GroupInfos × Int) => do
    let elt ← rdU ts.info.uniques.data i
    let groupSize := -(s.1 elt)
    let gi ← groupsSizeMaybePush groupSize.toNat s.2.1
    .ok (s.1.set elt s.2.2, gi, s.2.2 + groupSize)) (ts.tl, gi, 0)
  let val : Nat → C Int := match o with
    | some o => fun i => rd o i
    | none => fun i => .ok ((i : Int) + 1)
  let (tl, out) ← forN x.length (fun i (s : TL × List (Option Int)) => do
    let elt ← rd x i
    let loc := s.1 elt
    let v ← val i
    let out ← wrI s.2 loc (some v)
    .ok (s.1.set elt (loc + 1), out)) (tl, alloc Int cap)
  let out ← copyBack out x.length
  let ts ← truelengthReset ⟨tl, ts.info⟩
  .ok (out, ts, gi)

/-- `chr_appearance_chunk`, src/order.c:3483-3509. -/
def chrAppearanceChunk (cap : Nat) (x : List Name) (o : List Int) (ts : TlState)
    (gi : GroupInfos) : C (List Int × TlState × GroupInfos) :=
  chrAppearanceCounting cap x (some o) ts gi

/-- `chr_appearance`, src/order.c:3541-3645: `truelength_reset` is called once more as
clean-up. -/
def chrAppearance (x : List Name) (ts : TlState) (gi : GroupInfos) :
    C (List Int × TlState × GroupInfos) := do
  let (o, ts, gi) ← chrAppearanceCounting x.length x none ts gi
  let ts ← truelengthReset ts
  .ok (o, ts, gi)

end Vctrs
