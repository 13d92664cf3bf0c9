import Verif.Model.OrderChr
import Verif.Model.Proxy

/-!
# Ordering of complex vectors and data frames, and the entry points (src/order.c)
-/

namespace Vctrs

/-! ## Complex -/

/-- `cpl_normalise_missing`, src/type-complex.h:16-45. -/
def cplNormaliseMissing (x : Dbl × Dbl) : Dbl × Dbl :=
  match dblClassify x.1, dblClassify x.2 with
  | .number, .number => x
  | .number, .missing => (naReal, naReal)
  | .number, .nan => (rNaN, rNaN)
  | .missing, .number => (naReal, naReal)
  | .missing, .missing => x
  | .missing, .nan => x
  | .nan, .number => (rNaN, rNaN)
  | .nan, .missing => x
  | .nan, .nan => x

/-- The elements at the (1-based) locations of `o`, put through `f`: `DF_ORDER_EXTRACT_CHUNK`,
src/order.c:3882-3892, and the loops of src/order.c:2707-2710 and :3900-3916. -/
def extractChunk {α β : Type} (f : α → β) (x : List α) (o : List Int) : C (List β) := do
  let out ← forN o.length (fun j (out : List (Option β)) => do
    let loc ← rd o j
    let e ← rdI x (loc - 1)
    wr out j (some (f e))) (alloc β o.length)
  initd out

/-- The first loop of `cpl_order`, src/order.c:2674-2676. -/
def cplReal (x : List (Dbl × Dbl)) : C (List Dbl) := do
  let out ← forN x.length (fun i (out : List (Option Dbl)) => do
    let e ← rd x i
    wr out i (some (cplNormaliseMissing e).1)) (alloc Dbl x.length)
  initd out

/-- State of a loop over the groups of ties, src/order.c:2713-2765 and :4047-4106: the distance
the pointers have moved, the order and what else the ordering functions change. -/
structure GroupLoop where
  off : Nat
  o : List Int
  ts : TlState
  st : OrdState

/-- Body of the loop of `cpl_order` over the groups, src/order.c:2738-2765. -/
def cplGroup (decreasing naLast nanDistinct : Bool) (cap countsLen : Nat)
    (sizes : List (Option Nat)) (im : List Dbl) (group : Nat) (s : GroupLoop) : C GroupLoop := do
  let groupSize ← rdU sizes group
  if groupSize = 1 then
    let gi ← groupsSizeMaybePush 1 s.st.gi
    .ok { s with off := s.off + 1, st := { s.st with gi := gi } }
  else
    let xw ← window im s.off groupSize
    let ow ← window s.o s.off groupSize
    let (ow, st) ← dblOrderChunk decreasing naLast nanDistinct cap countsLen xw ow s.st
    .ok { s with off := s.off + groupSize, o := putBack s.o s.off ow, st := st }

/-- `cpl_order`, src/order.c:2648-2766. -/
def cplOrder (decreasing naLast nanDistinct : Bool) (countsLen : Nat) (x : List (Dbl × Dbl))
    (ts : TlState) (st : OrdState) : C (List Int × TlState × OrdState) := do
  let reset := st.gi.ignore
  let re ← cplReal x
  let (o, st) ← dblOrder decreasing naLast nanDistinct countsLen re
    { st with gi := { st.gi with ignore := false } }
  let gi := if reset then { st.gi with ignore := true } else st.gi
  let pre := gi.current
  if pre.nGroups = x.length then .ok (o, ts, { st with gi := gi })
  else
    let gi := groupsSwap gi
    let im ← extractChunk (fun e => (cplNormaliseMissing e).2) x o
    let r ← forN pre.nGroups
      (cplGroup decreasing naLast nanDistinct x.length countsLen pre.data im)
      ⟨0, o, ts, { st with gi := gi }⟩
    .ok (r.o, r.ts, r.st)

/-! ## Switching on the type -/

/-- `vec_order_base_switch`, src/order.c:674-802.  Lists get an ordering proxy from R code,
which is not modelled: they are refused like the other types. -/
def orderBaseSwitch (decreasing naLast nanDistinct chrOrdered : Bool) (countsLen : Nat) :
    Val → TlState → OrdState → C (List Int × TlState × OrdState)
  | .vec (.atom .int) (x : List Int), ts, st => do
    let (o, st) ← intOrder decreasing naLast countsLen x st
    .ok (o, ts, st)
  | .vec (.atom .lgl) (x : List Int), ts, st => do
    let (o, st) ← intOrder decreasing naLast countsLen x st
    .ok (o, ts, st)
  | .vec (.atom .dbl) (x : List Dbl), ts, st => do
    let (o, st) ← dblOrder decreasing naLast nanDistinct countsLen x st
    .ok (o, ts, st)
  | .vec (.atom .cpl) (x : List (Dbl × Dbl)), ts, st =>
    cplOrder decreasing naLast nanDistinct countsLen x ts st
  | .vec (.atom .chr) (x : List Name), ts, st =>
    if chrOrdered then chrOrder decreasing naLast countsLen x ts st
    else do
      let (o, ts, gi) ← chrAppearance x ts st.gi
      .ok (o, ts, { st with gi := gi })
  | .df _ _, _, _ => .error .internal
  | _, _, _ => .error .abort

/-- The extraction of a chunk, src/order.c:4058-4066, and `vec_order_chunk_switch`,
:4131-4253.  `re` selects the real part of a complex column (`rerun_complex`). -/
def orderChunkSwitch (decreasing naLast nanDistinct chrOrdered re : Bool) (cap countsLen : Nat) :
    Val → List Int → TlState → OrdState → C (List Int × TlState × OrdState)
  | .vec (.atom .int) (x : List Int), o, ts, st => do
    let k ← extractChunk id x o
    let (o, st) ← intOrderChunk decreasing naLast cap countsLen k o st
    .ok (o, ts, st)
  | .vec (.atom .lgl) (x : List Int), o, ts, st => do
    let k ← extractChunk id x o
    let (o, st) ← intOrderChunk decreasing naLast cap countsLen k o st
    .ok (o, ts, st)
  | .vec (.atom .dbl) (x : List Dbl), o, ts, st => do
    let k ← extractChunk id x o
    let (o, st) ← dblOrderChunk decreasing naLast nanDistinct cap countsLen k o st
    .ok (o, ts, st)
  | .vec (.atom .cpl) (x : List (Dbl × Dbl)), o, ts, st => do
    let k ← extractChunk (fun e => if re then (cplNormaliseMissing e).1
      else (cplNormaliseMissing e).2) x o
    let (o, st) ← dblOrderChunk decreasing naLast nanDistinct cap countsLen k o st
    .ok (o, ts, st)
  | .vec (.atom .chr) (x : List Name), o, ts, st => do
    let k ← extractChunk id x o
    if chrOrdered then
      let (o, st) ← chrOrderChunk decreasing naLast cap countsLen k o ts.tl st
      .ok (o, ts, st)
    else
      let (o, ts, gi) ← chrAppearanceChunk cap k o ts st.gi
      .ok (o, ts, { st with gi := gi })
  | _, _, _, _ => .error .abort

/-! ## Data frames -/

/-- `type == VCTRS_TYPE_complex`, src/order.c:4012. -/
def Val.isCpl : Val → Bool
  | .vec (.atom .cpl) _ => true
  | _ => false

/-- The strings of a column, `type == VCTRS_TYPE_character`, src/order.c:4018-4019. -/
def Val.chr? : Val → Option (List Name)
  | .vec (.atom .chr) (x : List Name) => some x
  | _ => none

/-- State of the loop over the columns, src/order.c:3985-4115. -/
structure DfLoop where
  o : List Int
  ts : TlState
  st : OrdState
  rerun : Bool
  decreasing : Bool
  naLast : Bool

/-- Body of the loop over the groups, src/order.c:4047-4106.  The state has the column index as
`DF_ORDER_EXTRACT_CHUNK_CPL` decrements it (:3907), once for each group. -/
def dfGroup (decreasing naLast nanDistinct chrOrdered re : Bool) (cap countsLen : Nat)
    (sizes : List (Option Nat)) (col : Val) (group : Nat) (s : GroupLoop × Int) :
    C (GroupLoop × Int) := do
  let groupSize ← rdU sizes group
  if groupSize = 1 then
    let gi ← groupsSizeMaybePush 1 s.1.st.gi
    .ok ({ s.1 with off := s.1.off + 1, st := { s.1.st with gi := gi } }, s.2)
  else
    let ow ← window s.1.o s.1.off groupSize
    let (ow, ts, st) ← orderChunkSwitch decreasing naLast nanDistinct chrOrdered re cap countsLen
      col ow s.1.ts s.1.st
    .ok (⟨s.1.off + groupSize, putBack s.1.o s.1.off ow, ts, st⟩,
      if col.isCpl && re then s.2 - 1 else s.2)

/-- Body of the loop over the columns, src/order.c:3986-4114, after the test for ties.  Returns
the state and the column index. -/
def dfColumn (nanDistinct chrOrdered : Bool) (size countsLen : Nat) (cols : List Val)
    (decreasing naLast : List Bool) (i : Int) (s : DfLoop) : C (DfLoop × Int) := do
  let pre := s.st.gi.current
  let dec ← (if decreasing.length = 1 then .ok s.decreasing else rdI decreasing i : C Bool)
  let nal ← (if naLast.length = 1 then .ok s.naLast else rdI naLast i : C Bool)
  let col ← rdI cols i
  let rerun := if col.isCpl then !s.rerun else s.rerun
  let ts ← (match col.chr? with
    | some x => if chrOrdered then chrMarkSortedUniques size x s.ts else .ok s.ts
    | none => .ok s.ts : C TlState)
  let gi := if i = (cols.length : Int) - 1 ∧ s.st.gi.force = false ∧ rerun = false then
    { s.st.gi with ignore := true } else s.st.gi
  let gi := groupsSwap gi
  let (r, i) ← forN pre.nGroups
    (dfGroup dec nal nanDistinct chrOrdered rerun size countsLen pre.data col)
    (⟨0, s.o, ts, { s.st with gi := gi }⟩, i)
  let ts ← (match col.chr? with
    | some _ => if chrOrdered then truelengthReset r.ts else .ok r.ts
    | none => .ok r.ts : C TlState)
  .ok (⟨r.o, ts, r.st, rerun, dec, nal⟩, i)

/-- The loop over the columns, src/order.c:3986-4115.  `fuel` bounds the number of rounds. -/
def dfLoop (nanDistinct chrOrdered : Bool) (size countsLen : Nat) (cols : List Val)
    (decreasing naLast : List Bool) : (fuel : Nat) → Int → DfLoop → C DfLoop
  | 0, _, _ => .error .diverge
  | fuel + 1, i, s =>
    if i < (cols.length : Int) then
      if s.st.gi.current.nGroups = size then .ok s
      else do
        let (s, i) ← dfColumn nanDistinct chrOrdered size countsLen cols decreasing naLast i s
        dfLoop nanDistinct chrOrdered size countsLen cols decreasing naLast fuel (i + 1) s
    else .ok s

/-- `df_order_internal`, src/order.c:3920-4116. -/
def dfOrderInternal (fuel : Nat) (nanDistinct chrOrdered : Bool) (size countsLen : Nat)
    (cols : List Val) (decreasing naLast : List Bool) (ts : TlState) (st : OrdState) :
    C (List Int × TlState × OrdState) :=
  if decreasing.length ≠ 1 ∧ decreasing.length ≠ cols.length then .error .internal
  else if naLast.length ≠ 1 ∧ naLast.length ≠ cols.length then .error .internal
  else if cols.length = 0 then do
    let o ← intIncr size
    let gi ← (if size ≠ 0 then groupsSizeMaybePush size st.gi else .ok st.gi : C GroupInfos)
    .ok (o, ts, { st with gi := gi })
  else do
    let col ← rd cols 0
    let dec ← rd decreasing 0
    let nal ← rd naLast 0
    let (o, ts, st) ← orderBaseSwitch dec nal nanDistinct chrOrdered countsLen col ts st
    let s ← dfLoop nanDistinct chrOrdered size countsLen cols decreasing naLast fuel 1
      ⟨o, ts, st, false, dec, nal⟩
    .ok (s.o, s.ts, s.st)

/-- `df_order`, src/order.c:3780-3870, when `df_order_internal` returns: the clean-up follows. -/
def dfOrder (fuel : Nat) (nanDistinct chrOrdered : Bool) (size countsLen : Nat)
    (cols : List Val) (decreasing naLast : List Bool) (ts : TlState) (st : OrdState) :
    C (List Int × TlState × OrdState) := do
  let (o, ts, st) ← dfOrderInternal fuel nanDistinct chrOrdered size countsLen cols decreasing
    naLast ts st
  let ts ← truelengthReset ts
  .ok (o, ts, st)

/-- `vec_order_switch`, src/order.c:520-592. -/
def orderSwitch (fuel : Nat) (nanDistinct chrOrdered : Bool) (size countsLen : Nat)
    (x : Val) (decreasing naLast : List Bool) (ts : TlState) (st : OrdState) :
    C (List Int × TlState × OrdState) :=
  match x with
  | .df _ cols => dfOrder fuel nanDistinct chrOrdered size countsLen cols decreasing naLast ts st
  | .vec t xs =>
    if decreasing.length ≠ 1 then .error .internal
    else if naLast.length ≠ 1 then .error .internal
    else do
      let dec ← rd decreasing 0
      let nal ← rd naLast 0
      orderBaseSwitch dec nal nanDistinct chrOrdered countsLen (.vec t xs) ts st

/-! ## Arguments -/

/-- `parse_na_value_one`, src/order.c:4629-4643. -/
def parseNaValueOne : Name → C Bool
  | none => .error .abort
  | some s =>
    if strcmp s "largest".toList = 0 then .ok true
    else if strcmp s "smallest".toList = 0 then .ok false
    else .error .abort

/-- `parse_direction_one`, src/order.c:4669-4683. -/
def parseDirectionOne : Name → C Bool
  | none => .error .abort
  | some s =>
    if strcmp s "asc".toList = 0 then .ok false
    else if strcmp s "desc".toList = 0 then .ok true
    else .error .abort

/-- The loops of `parse_na_value` and `parse_direction`, src/order.c:4608-4626 and
:4648-4666. -/
def parseArg (f : Name → C Bool) (x : List Name) : C (List Bool) := do
  let out ← forN x.length (fun i (out : List (Option Bool)) => do
    let e ← rd x i
    wr out i (some (← f e))) (alloc Bool x.length)
  initd out

mutual

/-- `vec_decreasing_expansion`, src/order.c:4524-4551, of a bare vector or a data frame. -/
def decreasingExpansion : Val → Nat
  | .vec _ _ => 1
  | .df _ cols => decreasingExpansions cols

/-- `df_decreasing_expansion`, src/order.c:4555-4569. -/
def decreasingExpansions : List Val → Nat
  | [] => 0
  | x :: xs => decreasingExpansion x + decreasingExpansions xs

end

/-- `expand_arg`, src/order.c:4494-4519. -/
def expandArg (arg : List Bool) (expansions : List Nat) (size : Nat) : C (List Bool) :=
  if arg.length = 1 then .ok arg
  else do
    let (out, _) ← forN arg.length (fun i (s : List (Option Bool) × Nat) => do
      let a ← rd arg i
      let e ← rd expansions i
      forN e (fun _ (s : List (Option Bool) × Nat) => do
        .ok (← wr s.1 s.2 (some a), s.2 + 1)) s) (alloc Bool size, 0)
    initd out

/-- `df_expand_args`, src/order.c:4428-4491. -/
def dfExpandArgs (cols : List Val) (decreasing naLargest : List Bool) :
    C (List Bool × List Bool) :=
  if decreasing.length = 1 ∧ naLargest.length = 1 then .ok (decreasing, naLargest)
  else if decreasing.length ≠ 1 ∧ decreasing.length ≠ cols.length then .error .abort
  else if naLargest.length ≠ 1 ∧ naLargest.length ≠ cols.length then .error .abort
  else
    let expansions := cols.map decreasingExpansion
    if expansions.all (· == 1) then .ok (decreasing, naLargest)
    else do
      let d ← expandArg decreasing expansions expansions.sum
      let n ← expandArg naLargest expansions expansions.sum
      .ok (d, n)

/-- `vec_order_expand_args`, src/order.c:4384-4423. -/
def orderExpandArgs (x : Val) (decreasing naLargest : List Bool) : C (List Bool × List Bool) :=
  match x with
  | .df _ cols => dfExpandArgs cols decreasing naLargest
  | .vec _ _ =>
    if decreasing.length ≠ 1 then .error .abort
    else if naLargest.length ≠ 1 then .error .abort
    else .ok (decreasing, naLargest)

/-- `vec_check_size_common` and `vec_check_recycle_common` on the two arguments,
src/order.c:382-383: a single value is repeated. -/
def orderRecycleArgs (d n : List Bool) : C (List Bool × List Bool) :=
  if d.length = n.length then .ok (d, n)
  else match d, n with
    | [a], n => .ok (List.replicate n.length a, n)
    | d, [b] => .ok (d, List.replicate d.length b)
    | _, _ => .error .abort

/-- `vec_order_compute_na_last`, src/order.c:4581-4602. -/
def computeNaLast (naLargest decreasing : List Bool) : C (List Bool) :=
  if naLargest.length ≠ decreasing.length then .error .internal
  else do
    let out ← forN naLargest.length (fun i (out : List (Option Bool)) => do
      let d ← rd decreasing i
      let n ← rd naLargest i
      wr out i (some (if d then !n else n))) (alloc Bool naLargest.length)
    initd out

/-- `vec_compute_n_bytes_lazy_counts` of a column, src/order.c:4312-4327, which refuses the
types that cannot be ordered, as `vec_compute_n_bytes_lazy_raw` (:4258-4277) does.  There is no
data frame among the columns of a proxy. -/
def nBytesCounts : Val → C Nat
  | .vec (.atom .int) _ => .ok 4
  | .vec (.atom .lgl) _ => .ok 4
  | .vec (.atom .chr) _ => .ok 4
  | .vec (.atom .dbl) _ => .ok 8
  | .vec (.atom .cpl) _ => .ok 8
  | _ => .error .abort

/-- `vec_compute_n_bytes_lazy_counts` and `df_compute_n_bytes_lazy_counts`,
src/order.c:4312-4350. -/
def nBytesCountsAll : Val → C Nat
  | .df _ cols => forN cols.length (fun i m => do
      let col ← rd cols i
      let c ← nBytesCounts col
      .ok (if c > m then c else m)) 0
  | .vec t x => nBytesCounts (.vec t x)

/-- The result of `vec_order_info_impl`, src/order.c:470-480: the order, and the group sizes
and the largest group size if they were asked for. -/
structure OrderInfo where
  o : List Int
  groups : Option (List Nat × Nat)
  deriving DecidableEq

/-- `vec_order_info_impl`, src/order.c:362-484, without collation function
(`chr_proxy_collate = NULL`) and for strings in one encoding.  The TRUELENGTHs of all strings
and the static counts of `int_order_counting` are part of the state. -/
def vecOrderInfo (fuel : Nat) (x : Val) (direction naValue : List Name)
    (nanDistinct chrOrdered groupSizes : Bool) (tl : TL) (static : List Nat) :
    C (OrderInfo × TL × List Nat) := do
  let decreasing ← parseArg parseDirectionOne direction
  let naLargest ← parseArg parseNaValueOne naValue
  let (decreasing, naLargest) ← orderExpandArgs x decreasing naLargest
  let (decreasing, naLargest) ← orderRecycleArgs decreasing naLargest
  let naLast ← computeNaLast naLargest decreasing
  let proxy ← proxyVal x
  let size := proxy.size
  let nBytes ← nBytesCountsAll proxy
  let ignore := if groupSizes then false else !proxy.isDf
  let (o, ts, st) ← orderSwitch fuel nanDistinct chrOrdered size (256 * nBytes) proxy decreasing
    naLast ⟨tl, TlInfo.new size⟩ ⟨static, GroupInfos.new size groupSizes ignore⟩
  if groupSizes then
    let g := st.gi.current
    let sizes ← initd (intResize g.data g.nGroups)
    .ok (⟨o, some (sizes, g.maxGroupSize)⟩, ts.tl, st.static)
  else .ok (⟨o, none⟩, ts.tl, st.static)

/-- `vec_order`, src/order.c:201-210. -/
def vecOrder (fuel : Nat) (x : Val) (direction naValue : List Name) (nanDistinct : Bool)
    (tl : TL) (static : List Nat) : C (List Int × TL × List Nat) := do
  let (info, tl, static) ← vecOrderInfo fuel x direction naValue nanDistinct true false tl static
  .ok (info.o, tl, static)

/-- One round of the loop of `vec_locate_sorted_groups`, src/order.c:267-283: the state is the
locations, the key locations and `start`. -/
def sortedGroup (o : List Int) (sizes : List Nat) (i : Nat)
    (s : List (Option (List Int)) × List (Option Int) × Nat) :
    C (List (Option (List Int)) × List (Option Int) × Nat) := do
  let k ← rd o s.2.2
  let keyLoc ← wr s.2.1 i (some k)
  let size ← rd sizes i
  let (elt, start) ← forN size (fun j (t : List (Option Int) × Nat) => do
    let l ← rd o t.2
    .ok (← wr t.1 j (some l), t.2 + 1)) (alloc Int size, s.2.2)
  let elt ← initd elt
  let loc ← wr s.1 i (some elt)
  .ok (loc, keyLoc, start)

/-- `vec_locate_sorted_groups`, src/order.c:237-304: the locations of the keys (`key` is
`vec_slice(x, key_loc)`, see Slice.lean) and `loc`. -/
def vecLocateSortedGroups (fuel : Nat) (x : Val) (direction naValue : List Name)
    (nanDistinct : Bool) (tl : TL) (static : List Nat) :
    C ((List Int × List (List Int)) × TL × List Nat) := do
  let (info, tl, static) ← vecOrderInfo fuel x direction naValue nanDistinct true true tl static
  match info.groups with
  | none => .error .internal
  | some (sizes, _) =>
    let (loc, keyLoc, _) ← forN sizes.length (sortedGroup info.o sizes)
      (alloc (List Int) sizes.length, alloc Int sizes.length, 0)
    let keyLoc ← initd keyLoc
    let loc ← initd loc
    .ok ((keyLoc, loc), tl, static)

end Vctrs
