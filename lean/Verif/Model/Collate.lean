import Verif.Model.Rank
import Verif.Model.SetNames

/-!
# Collation: src/order-collate.c

`chr_proxy_collate` is an R function; here a function on character vectors that may fail, and that gives
`none` when its result is not a character vector.  The result may have dimensions.
-/

namespace Vctrs

/-- The argument `chr_proxy_collate` (src/order-collate.c:20-24, after `r_as_function`). -/
abbrev Collation := List Name → C (Option ChrObj)

/-- `chr_apply`, src/order-collate.c:41-75, which compares sizes.  The ordering later reads as many elements as the size
(src/order.c:393-420); here they are read at once. -/
def chrApply (f : Collation) (x : List Name) : C (List Name) := do
  match ← f x with
  | none => .error .abort
  | some out => do
    let outSize ← out.size
    if x.length ≠ outSize then .error .abort else (List.range outSize).mapM (rd out.elts)

/-- `df_apply`, src/order-collate.c:79-112: the first loop looks for a character column, the second one
goes on from there with a copy of the columns. -/
def dfApply (f : Collation) (cols : List Val) : C (List Val) := do
  let i ← forBrk cols.length (fun i (_ : Nat) => do
    let col ← rd cols i
    if col.chr?.isSome then .ok (.brk i) else .ok (.next (i + 1))) 0
  if i = cols.length then .ok cols
  else forFrom (fun i (out : List Val) => do
    let col ← rd cols i
    match col.chr? with
    | none => .ok out
    | some x => do
      let y ← chrApply f x
      wr out i (.vec (.atom .chr) y)) i (cols.length - i) cols

/-- `proxy_apply_chr_proxy_collate`, src/order-collate.c:19-37. -/
def proxyApplyCollate (f : Option Collation) (proxy : Val) : C Val :=
  match f with
  | none => .ok proxy
  | some f =>
    match proxy with
    | .df n cols => do .ok (.df n (← dfApply f cols))
    | .vec t xs =>
      match (Val.vec t xs).chr? with
      | none => .ok (.vec t xs)
      | some x => do .ok (.vec (.atom .chr) (← chrApply f x))

/-- `vec_order_info_impl`, src/order.c:362-484, with the collation function (:391); otherwise as
`vecOrderInfo`. -/
def orderInfoCollate (f : Option Collation) (fuel : Nat) (x : Val) (direction naValue : List Name)
    (nanDistinct chrOrdered groupSizes : Bool) (tl : TL) (static : List Nat) :
    C (OrderInfo × TL × List Nat) := do
  let decreasing ← parseArg parseDirectionOne direction
  let naLargest ← parseArg parseNaValueOne naValue
  let (decreasing, naLargest) ← orderExpandArgs x decreasing naLargest
  let (decreasing, naLargest) ← orderRecycleArgs decreasing naLargest
  let naLast ← computeNaLast naLargest decreasing
  let proxy ← proxyVal x
  let proxy ← proxyApplyCollate f proxy
  let size := proxy.size
  let nBytes ← nBytesCountsAll proxy
  let ignore := if groupSizes then false else !proxy.isDf
  let (o, ts, st) ← orderSwitch fuel nanDistinct chrOrdered size (256 * nBytes) proxy decreasing
    naLast ⟨tl, TlInfo.new size⟩ ⟨static, GroupInfos.new size groupSizes ignore⟩
  if groupSizes then
    let g := st.gi.current
    let sizes ← initd (intResize g.data g.nGroups)
    .ok (⟨o, some (sizes, g.maxGroupSize)⟩, ts.tl, st.static)
  else .ok (⟨o, none⟩, ts.tl, st.static)

/-- `vec_order`, src/order.c:201-210. -/
def vecOrderCollate (f : Option Collation) (fuel : Nat) (x : Val) (direction naValue : List Name)
    (nanDistinct : Bool) (tl : TL) (static : List Nat) : C (List Int × TL × List Nat) := do
  let (info, tl, static) ← orderInfoCollate f fuel x direction naValue nanDistinct true false tl static
  .ok (info.o, tl, static)

/-- `vec_locate_sorted_groups`, src/order.c:237-304: the locations of the keys in `x` itself, and `loc`. -/
def sortedGroupsCollate (f : Option Collation) (fuel : Nat) (x : Val) (direction naValue : List Name)
    (nanDistinct : Bool) (tl : TL) (static : List Nat) :
    C ((List Int × List (List Int)) × TL × List Nat) := do
  let (info, tl, static) ← orderInfoCollate f fuel x direction naValue nanDistinct true true tl static
  match info.groups with
  | none => .error .internal
  | some (sizes, _) =>
    let (loc, keyLoc, _) ← forN sizes.length (sortedGroup info.o sizes)
      (alloc (List Int) sizes.length, alloc Int sizes.length, 0)
    let keyLoc ← initd keyLoc
    let loc ← initd loc
    .ok ((keyLoc, loc), tl, static)

/-- The ranks of all values, src/rank.c:81-99, with the collation function. -/
def rankAllCollate (f : Option Collation) (fuel : Nat) (x : Val) (ties : Ties) (direction naValue : List Name)
    (nanDistinct : Bool) (tl : TL) (static : List Nat) : C (List Int × TL × List Nat) := do
  let (info, tl, static) ← orderInfoCollate f fuel x direction naValue nanDistinct true true tl static
  match info.groups with
  | none => .error .internal
  | some (sizes, _) =>
    let rank ← rankSwitch ties info.o sizes (alloc Int x.size)
    .ok (← initd rank, tl, static)

end Vctrs
