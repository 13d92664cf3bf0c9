import Verif.Model.MatchJoint

/-!
# Locating matches: src/match.c, from the sorted ranks to the compact matches

Locations into the sorted needles and the sorted haystack are `r_ssize`: the upper end of an empty
range may be `-1`.  Messages and protection are left out.
-/

namespace Vctrs

/-! ## Options -/

/-- `enum vctrs_ops`, src/match.c:31-37. -/
inductive MOp where
  | eq | gt | gte | lt | lte
  deriving DecidableEq, Repr

/-- `enum vctrs_filter`, src/match.c:25-29. -/
inductive MFilter where
  | all | min | max
  deriving DecidableEq, Repr

/-- `struct vctrs_incomplete`, src/match.c:39-49. -/
inductive MIncomplete where
  | compare | exact | value (v : Int) | drop | error
  deriving DecidableEq, Repr

/-- `struct vctrs_no_match` and `struct vctrs_remaining`, src/match.c:51-69. -/
inductive MUnmatched where
  | drop | error | value (v : Int)
  deriving DecidableEq, Repr

/-- `enum vctrs_multiple`, src/match.c:5-14. -/
inductive MMultiple where
  | all | any | first | last | warning | error
  deriving DecidableEq, Repr

/-- `enum vctrs_relationship`, src/match.c:16-23. -/
inductive MRelationship where
  | none | oneToOne | oneToMany | manyToOne | manyToMany | warnManyToMany
  deriving DecidableEq, Repr

/-- The test `action == value || action == drop || action == error`, src/match.c:541-543 and
:877-879. -/
def MIncomplete.signals : MIncomplete → Bool
  | .compare => false
  | .exact => false
  | .value _ => true
  | .drop => true
  | .error => true

/-! ## Binary searches -/

/-- `midpoint`, src/match.c:2649-2652; it is called with `lhs <= rhs`. -/
def midpoint (lhs rhs : Int) : Int := lhs + (rhs - lhs) / 2

/-- `v[v_o[loc] - 1]`, as in src/match.c:1117-1118. -/
def orderedAt {α : Type} (v : List α) (o : List Int) (loc : Int) : C α := do
  let k ← rdI o loc
  rdI v (k - 1)

/-- The loop shared by the binary searches of src/match.c:1089-1099, :1115-1125 and :1141-1151:
`left` tells whether to go on below the midpoint. -/
def bisect (left : Int → C Bool) : Nat → Int → Int → C (Int × Int)
  | 0, lower, upper => if lower ≤ upper then .error .diverge else .ok (lower, upper)
  | fuel + 1, lower, upper =>
    if lower ≤ upper then do
      let mid := midpoint lower upper
      if ← left mid then bisect left fuel lower (mid - 1)
      else bisect left fuel (mid + 1) upper
    else .ok (lower, upper)

/-- Rounds that suffice for a binary search: every round makes the range shorter. -/
def bisectFuel (lower upper : Int) : Nat := (upper - lower + 1).toNat

/-- `int_locate_upper_incomplete`, src/match.c:1085-1102. -/
def locateUpperIncomplete (complete : List Bool) (o : List Int) (lower upper : Int) : C Int := do
  let r ← bisect (fun mid => orderedAt complete o mid) (bisectFuel lower upper) lower upper
  .ok r.2

/-- `int_locate_lower_duplicate`, src/match.c:1110-1128. -/
def locateLowerDuplicate (val : Int) (v o : List Int) (lower upper : Int) : C Int := do
  let r ← bisect (fun mid => do
    let h ← orderedAt v o mid
    .ok (val == h)) (bisectFuel lower upper) lower upper
  .ok r.1

/-- `int_locate_upper_duplicate`, src/match.c:1136-1154. -/
def locateUpperDuplicate (val : Int) (v o : List Int) (lower upper : Int) : C Int := do
  let r ← bisect (fun mid => do
    let h ← orderedAt v o mid
    .ok (!(val == h))) (bisectFuel lower upper) lower upper
  .ok r.2

/-- The loop of `int_locate_match`, src/match.c:1167-1197. -/
def locateMatchLoop (val : Int) (v o : List Int) : Nat → Int → Int → C (Int × Int)
  | 0, lower, upper => if lower ≤ upper then .error .diverge else .ok (lower, upper)
  | fuel + 1, lower, upper =>
    if lower ≤ upper then do
      let mid := midpoint lower upper
      let h ← orderedAt v o mid
      let cmp := intCompareScalar val h
      if cmp = 1 then locateMatchLoop val v o fuel (mid + 1) upper
      else if cmp = -1 then locateMatchLoop val v o fuel lower (mid - 1)
      else do
        let l ← locateLowerDuplicate h v o lower mid
        let u ← locateUpperDuplicate h v o mid upper
        .ok (l, u)
    else .ok (lower, upper)

/-- `int_locate_match`, src/match.c:1162-1203. -/
def locateMatch (val : Int) (v o : List Int) (lower upper : Int) : C (Int × Int) :=
  locateMatchLoop val v o (bisectFuel lower upper) lower upper

/-! ## The recursion over the columns -/

/-- The arguments of `df_locate_matches_recurse` that do not change, src/match.c:493-503: the ranks
and the completeness of the columns, the orders, the options. -/
structure MEnv where
  needles : List (List Int)
  haystack : List (List Int)
  needlesComplete : List (List Bool)
  haystackComplete : List (List Bool)
  oNeedles : List Int
  oHaystack : List Int
  incomplete : MIncomplete
  multiple : MMultiple
  anyFilters : Bool
  filters : List MFilter
  ops : List MOp

/-- The arrays it writes, src/match.c:504-507: `loc_first_match_o_haystack`, `size_match` and
`loc_needles` grow together (the last two are `NULL` with `multiple = "any"`, here empty);
`loc_filter_match_o_haystack` is not initialised. -/
structure MState where
  first : List Int
  size : List Int
  locs : List Int
  filterLoc : List (Option Int)

/-- The comparison in `p_matches_df_compare_na_equal`, src/match.c:2564-2613: the first broken tie
wins. -/
def filterCompare (haystack : List (List Int)) (filters : List MFilter) (i j : Int) : C Int :=
  forBrk haystack.length (fun col (out : Int) => do
    match ← rd filters col with
    | .all => .ok (.next out)
    | .max => do
      let v ← rd haystack col
      let cmp := intCompareScalar (← rdI v i) (← rdI v j)
      if cmp ≠ 0 then .ok (.brk cmp) else .ok (.next out)
    | .min => do
      let v ← rd haystack col
      let cmp := intCompareScalar (← rdI v i) (← rdI v j)
      if cmp ≠ 0 then .ok (.brk (-cmp)) else .ok (.next out)) 0

/-- `p_matches_df_equal_na_equal`, src/match.c:2616-2645. -/
def filterEqual (haystack : List (List Int)) (filters : List MFilter) (i j : Int) : C Bool :=
  forBrk haystack.length (fun col (out : Bool) => do
    match ← rd filters col with
    | .all => .ok (.next out)
    | _ => do
      let v ← rd haystack col
      if (← rdI v i) ≠ (← rdI v j) then .ok (.brk false) else .ok (.next out)) true

/-- The adjustment for a condition other than `==`, src/match.c:632-669: `complete` is that of the
needle. -/
def adjustBounds (op : MOp) (complete exact : Bool) (lower upper boundLower boundUpper : Int) :
    Int × Int :=
  match (if !complete && exact then MOp.eq else op) with
  | .lt => (upper + 1, if complete then boundUpper else upper)
  | .lte => (lower, if complete then boundUpper else upper)
  | .gt => (if complete then boundLower else lower, lower - 1)
  | .gte => (if complete then boundLower else lower, upper)
  | .eq => (lower, upper)

/-- Missing values of the haystack are skipped, src/match.c:671-695. -/
def skipIncomplete (op : MOp) (complete : Bool) (hComplete : List Bool) (o : List Int)
    (lower upper : Int) : C Int :=
  if complete && (op == .gt || op == .gte) && decide (lower ≤ upper) then do
    if ← orderedAt hComplete o lower then .ok lower
    else do
      let l ← locateUpperIncomplete hComplete o lower upper
      .ok (l + 1)
  else .ok lower

/-- The filter of the column, src/match.c:700-754. -/
def filterBounds (filter : MFilter) (op : MOp) (complete : Bool) (v o : List Int)
    (lower upper : Int) : C (Int × Int) :=
  if !complete || op == .eq then .ok (lower, upper)
  else match filter with
    | .all => .ok (lower, upper)
    | .max => do
      let a ← orderedAt v o lower
      let b ← orderedAt v o upper
      if a ≠ b then do
        let l ← locateLowerDuplicate b v o lower upper
        .ok (l, upper)
      else .ok (lower, upper)
    | .min => do
      let a ← orderedAt v o lower
      let b ← orderedAt v o upper
      if a ≠ b then do
        let u ← locateUpperDuplicate a v o lower upper
        .ok (lower, u)
      else .ok (lower, upper)

/-- Recording a match with `multiple = "any"`, src/match.c:793-821. -/
def recordAny (e : MEnv) (lower : Int) (loc first : Int) (s : MState) : C MState :=
  if first = naInt then do
    let f ← wrI s.first loc lower
    .ok { s with first := f }
  else if e.anyFilters then do
    let i ← rdI e.oHaystack first
    let j ← rdI e.oHaystack lower
    let cmp ← filterCompare e.haystack e.filters (j - 1) (i - 1)
    if cmp = 1 then do
      let f ← wrI s.first loc lower
      .ok { s with first := f }
    else .ok s
  else .ok s

/-- The three `r_dyn_push_back()`, src/match.c:868-870.  The first copies four bytes of the
`r_ssize`: those of the value, on little-endian machines. -/
def pushMatch (lower size loc : Int) (s : MState) : MState :=
  { s with first := s.first ++ [lower], size := s.size ++ [size], locs := s.locs ++ [loc] }

/-- Recording a match otherwise, src/match.c:822-872. -/
def recordAll (e : MEnv) (lower upper : Int) (loc first : Int) (s : MState) : C MState :=
  let size := upper - lower + 1
  if first = naInt then do
    let f ← wrI s.first loc lower
    let z ← wrI s.size loc size
    if e.anyFilters then do
      let w ← wrI s.filterLoc loc (some lower)
      .ok { s with first := f, size := z, filterLoc := w }
    else .ok { s with first := f, size := z }
  else if e.anyFilters then do
    if loc < 0 then .error .ub
    else do
      let k ← rdU s.filterLoc loc.toNat
      let i ← rdI e.oHaystack k
      let j ← rdI e.oHaystack lower
      let cmp ← filterCompare e.haystack e.filters (j - 1) (i - 1)
      if cmp = -1 then .ok s
      else if cmp = 1 then do
        let w ← wrI s.filterLoc loc (some lower)
        .ok (pushMatch lower size loc { s with filterLoc := w })
      else .ok (pushMatch lower size loc s)
  else .ok (pushMatch lower size loc s)

/-- One round of the loop that records a match, src/match.c:787-874: for the `i`-th of the sorted
needles. -/
def recordOne (e : MEnv) (lower upper : Int) (i : Nat) (s : MState) : C MState := do
  let k ← rd e.oNeedles i
  let loc := k - 1
  let first ← rdI s.first loc
  match e.multiple with
  | .any => recordAny e lower loc first s
  | _ => recordAll e lower upper loc first s

/-- `SIGNAL_INCOMPLETE`, src/match.c:77. -/
def signalIncomplete : Int := -1

/-- One round of the loop for an incomplete needle, src/match.c:547-552. -/
def signalOne (e : MEnv) (i : Nat) (s : MState) : C MState := do
  let k ← rd e.oNeedles i
  let f ← wrI s.first (k - 1) signalIncomplete
  .ok { s with first := f }

/-- One round of the loop over needles without a match that may be incomplete in a later column,
src/match.c:885-897. -/
def signalFuture (e : MEnv) (col : Nat) (i : Nat) (s : MState) : C MState := do
  let k ← rd e.oNeedles i
  forBrkFrom (fun j (s : MState) => do
    let complete ← rdI (← rd e.needlesComplete j) (k - 1)
    if complete then .ok (.next s)
    else do
      let f ← wrI s.first (k - 1) signalIncomplete
      .ok (.brk { s with first := f })) (col + 1) (e.needles.length - (col + 1)) s

/-- A loop `for (i = lower; i <= upper; ++i)` over sorted needles, as in src/match.c:547. -/
def forNeedles (lower upper : Int) (f : Nat → MState → C MState) (s : MState) : C MState :=
  if lower < 0 then .error .ub else forFrom f lower.toNat (upper + 1 - lower).toNat s

/-- One of the two recursive calls, as in src/match.c:566-588: `b` are its haystack bounds, if it is
done. -/
def recurseSide (f : Int → Int → Int → Int → MState → C MState) (lower upper : Int)
    (b : Option (Int × Int)) (s : MState) : C MState :=
  match b with
  | some (x, y) => f lower upper x y s
  | none => .ok s

/-- The two recursive calls on the needles before and after the current one, src/match.c:554-612 and
:906-1007. -/
def recurseSides (f : Int → Int → Int → Int → MState → C MState) (needleLower needleUpper : Int)
    (dupLower dupUpper : Int) (lhs rhs : Option (Int × Int)) (s : MState) : C MState := do
  let s ← recurseSide f needleLower (dupLower - 1) lhs s
  recurseSide f (dupUpper + 1) needleUpper rhs s

/-- The matches of a needle in a column, src/match.c:617-695. -/
def matchBounds (op : MOp) (complete exact : Bool) (val : Int) (w : List Int) (wc : List Bool)
    (o : List Int) (hLower hUpper : Int) : C (Int × Int) := do
  let b ← locateMatch val w o hLower hUpper
  let c := adjustBounds op complete exact b.1 b.2 hLower hUpper
  let l ← skipIncomplete op complete wc o c.1 c.2
  .ok (l, c.2)

/-- The haystack bounds of the two sides after a column was matched, src/match.c:906-958: with `==`
what the current needle matches is left out, and a side with nothing left is not done. -/
def sideBounds (op : MOp) (doLhs doRhs : Bool) (l u hLower hUpper : Int) :
    Option (Int × Int) × Option (Int × Int) :=
  match op with
  | .eq => (if doLhs && decide (l > hLower) then some (hLower, l - 1) else none,
      if doRhs && decide (u < hUpper) then some (u + 1, hUpper) else none)
  | _ => (if doLhs then some (hLower, hUpper) else none,
      if doRhs then some (hLower, hUpper) else none)

/-- `df_locate_matches_recurse`, src/match.c:487-1008; `fuel` bounds the depth of the recursion. -/
def matchRecurse (e : MEnv) : Nat → Nat → Int → Int → Int → Int → MState → C MState
  | 0, _, _, _, _, _, _ => .error .diverge
  | fuel + 1, col, nLower, nUpper, hLower, hUpper, s => do
    let op ← rd e.ops col
    let filter ← rd e.filters col
    let v ← rd e.needles col
    let vc ← rd e.needlesComplete col
    let w ← rd e.haystack col
    let wc ← rd e.haystackComplete col
    let mid := midpoint nLower nUpper
    let val ← orderedAt v e.oNeedles mid
    let complete ← orderedAt vc e.oNeedles mid
    let dLower ← locateLowerDuplicate val v e.oNeedles nLower mid
    let dUpper ← locateUpperDuplicate val v e.oNeedles mid nUpper
    let more := decide (col < e.needles.length - 1)
    let doLhs := decide (dLower > nLower)
    let doRhs := decide (dUpper < nUpper)
    if !complete && e.incomplete.signals then do
      let s ← forNeedles dLower dUpper (signalOne e) s
      recurseSides (matchRecurse e fuel col) nLower nUpper dLower dUpper
        (if doLhs then some (hLower, hUpper) else none)
        (if doRhs then some (hLower, hUpper) else none) s
    else do
      let b ← matchBounds op complete (decide (e.incomplete = .exact)) val w wc e.oHaystack hLower
        hUpper
      let (b, s) ← (if b.1 ≤ b.2 then do
          let b ← filterBounds filter op complete w e.oHaystack b.1 b.2
          if more then do
            let s ← matchRecurse e fuel (col + 1) dLower dUpper b.1 b.2 s
            .ok (b, s)
          else do
            let s ← forNeedles dLower dUpper (recordOne e b.1 b.2) s
            .ok (b, s)
        else if more && e.incomplete.signals then do
          let s ← forNeedles dLower dUpper (signalFuture e col) s
          .ok (b, s)
        else .ok (b, s) : C ((Int × Int) × MState))
      let sides := sideBounds op doLhs doRhs b.1 b.2 hLower hUpper
      recurseSides (matchRecurse e fuel col) nLower nUpper dLower dUpper sides.1 sides.2 s

/-- A depth that suffices: every call has a later column, or fewer needles. -/
def matchFuel (e : MEnv) (sizeNeedles : Nat) : Nat := e.needles.length * (sizeNeedles + 1)

/-- One round of `df_locate_matches_with_containers`, src/match.c:1037-1076: the state has the lower
bound. -/
def matchContainer (e : MEnv) (ids : List Int) (sizeNeedles sizeHaystack : Nat) (i : Nat)
    (s : Int × MState) : C (Int × MState) := do
  let (l, u) ← locateMatch (i : Int) ids e.oHaystack s.1 ((sizeHaystack : Int) - 1)
  let t ← matchRecurse e (matchFuel e sizeNeedles) 0 0 ((sizeNeedles : Int) - 1) l u s.2
  .ok (u + 1, t)

/-- The arrays before the recursion, src/match.c:309-377, with as many elements as needles. -/
def MState.new (multiple : MMultiple) (sizeNeedles : Nat) : MState :=
  match multiple with
  | .any => ⟨List.replicate sizeNeedles naInt, [], [], alloc Int sizeNeedles⟩
  | _ => ⟨List.replicate sizeNeedles naInt, List.replicate sizeNeedles 1,
      (List.range sizeNeedles).map (fun (i : Nat) => (i : Int)), alloc Int sizeNeedles⟩

/-- The recursion in `df_locate_matches`, src/match.c:395-455. -/
def matchAll (e : MEnv) (ids : List Int) (nContainers : Nat) (sizeNeedles sizeHaystack : Nat) :
    C MState :=
  let s := MState.new e.multiple sizeNeedles
  if sizeNeedles > 0 then
    if nContainers = 1 then
      matchRecurse e (matchFuel e sizeNeedles) 0 0 ((sizeNeedles : Int) - 1) 0
        ((sizeHaystack : Int) - 1) s
    else do
      let r ← forN nContainers (matchContainer e ids sizeNeedles sizeHaystack) (0, s)
      .ok r.2
  else .ok s

/-! ## Nesting containers -/

/-- `p_nesting_container_df_compare_fully_ge_na_equal`, src/match.c:2530-2559: the columns after the
first, from the last. -/
def fullyGe (cols : List (List Int)) (i j : Int) : C Bool :=
  forBrk (cols.length - 1) (fun k (out : Bool) => do
    let v ← rd cols (cols.length - 1 - k)
    let cmp := intCompareScalar (← rdI v i) (← rdI v j)
    if cmp < 0 then .ok (.brk false) else .ok (.next out)) true

/-- The state of the loop of `compute_nesting_container_ids`, src/match.c:2436-2477. -/
structure NestState where
  ids : List Int
  n : Nat
  prevRows : List Int
  locOuter : Nat
  nextOuter : Nat
  start : Nat

/-- The search for a container, src/match.c:2491-2502: the number of containers if there is none. -/
def findNest (cols : List (List Int)) (row : Int) (prevRows : List Int) : C Nat := do
  let r ← forBrk prevRows.length (fun k (_ : Nat) => do
    let prev ← rd prevRows k
    if ← fullyGe cols row prev then .ok (.brk k) else .ok (.next (k + 1))) 0
  .ok r

/-- The first statement of the loop: another group of the outer columns, src/match.c:2479-2484. -/
def nestReset (outer : Option (List Nat)) (s : NestState) : C NestState :=
  match outer with
  | some outerSizes =>
    if s.nextOuter = s.start then do
      let z ← rd outerSizes s.locOuter
      .ok { s with prevRows := [], nextOuter := s.nextOuter + z, locOuter := s.locOuter + 1 }
    else .ok s
  | none => .ok s

/-- One round of the loop of `compute_nesting_container_ids`, src/match.c:2479-2524. -/
def nestRound (cols : List (List Int)) (o : List Int) (sizes : List Nat)
    (outer : Option (List Nat)) (i : Nat) (s : NestState) : C NestState := do
  let s ← nestReset outer s
  let size ← rd sizes i
  let k ← rd o s.start
  let row := k - 1
  let id ← findNest cols row s.prevRows
  let s ← (if id = s.prevRows.length then
      let m := s.prevRows.length + 1
      .ok { s with prevRows := s.prevRows ++ [row], n := if m > s.n then m else s.n }
    else do
      let p ← wr s.prevRows id row
      .ok { s with prevRows := p } : C NestState)
  let ids ← forFrom (fun j ids => do
    let k ← rd o j
    wrI ids (k - 1) (id : Int)) s.start size s.ids
  .ok { s with ids := ids, start := s.start + size }

/-- `compute_nesting_container_ids`, src/match.c:2419-2528: the ids and their number. -/
def nestIds (cols : List (List Int)) (o : List Int) (sizes : List Nat)
    (outer : Option (List Nat)) (size : Nat) : C (List Int × Nat) :=
  let ids := List.replicate size (0 : Int)
  if size = 0 then .ok (ids, 1)
  else if cols.length = 1 then .ok (ids, 1)
  else do
    let s ← forN sizes.length (nestRound cols o sizes outer) ⟨ids, 1, [], 0, 0, 0⟩
    .ok (s.ids, s.n)

/-- The list of `compute_nesting_container_info`, src/match.c:2230-2235. -/
structure NestInfo where
  o : List Int
  ids : List Int
  n : Nat
  nonEqui : Bool

/-- A data frame of integer columns, such as the joint ranks (src/match.c:1208-1236). -/
def intDf (size : Nat) (cols : List (List Int)) : Val :=
  .df size (cols.map (fun v => .vec (.atom .int) v))

/-- The proxy that orders like the haystack, src/match.c:2374-2386: the state has the location in
the order. -/
def haystackProxy (o : List Int) (sizes : List Nat) (size : Nat) : C (List Int) := do
  let r ← forN sizes.length (fun i (s : List (Option Int) × Nat) => do
    let z ← rd sizes i
    forFrom (fun _ (s : List (Option Int) × Nat) => do
      let k ← rd o s.2
      let p ← wrI s.1 (k - 1) (some (i : Int))
      .ok (p, s.2 + 1)) 0 z s) (alloc Int size, 0)
  initd r.1

/-- The order of the haystack with the containers, src/match.c:2372-2405. -/
def nestOrder (fuel : Nat) (o : List Int) (sizes : List Nat) (ids : List Int) (size : Nat)
    (tl : TL) (static : List Nat) : C (List Int × TL × List Nat) := do
  let proxy ← haystackProxy o sizes size
  vecOrder fuel (intDf size [ids, proxy]) chrsAsc chrsSmallest true tl static

/-- The sizes of the groups of the columns before the first condition other than `==`,
src/match.c:2291-2337; `NULL` if there are none. -/
def outerSizes (fuel : Nat) (haystack : List (List Int)) (size firstNonEqui : Nat) (tl : TL)
    (static : List Nat) : C (Option (List Nat) × TL × List Nat) :=
  if firstNonEqui ≠ 0 then do
    let (info, tl, static) ← vecOrderInfo fuel (intDf size (haystack.take firstNonEqui)) chrsAsc
      chrsSmallest true true true tl static
    match info.groups with
    | some (sizes, _) => .ok (some sizes, tl, static)
    | none => .error .internal
  else .ok (none, tl, static)

/-- `compute_nesting_container_info`, src/match.c:2223-2414. -/
def nestInfo (fuel : Nat) (haystack : List (List Int)) (size : Nat) (ops : List MOp) (tl : TL)
    (static : List Nat) : C (NestInfo × TL × List Nat) :=
  match ops.findIdx? (fun op => op != .eq) with
  | none => do
    let (o, tl, static) ← vecOrder fuel (intDf size haystack) chrsAsc chrsSmallest true tl static
    .ok (⟨o, [], 1, false⟩, tl, static)
  | some firstNonEqui => do
    let (info, tl, static) ← vecOrderInfo fuel (intDf size haystack) chrsAsc chrsSmallest true true
      true tl static
    match info.groups with
    | none => .error .internal
    | some (sizes, _) => do
      let (outer, tl, static) ← outerSizes fuel haystack size firstNonEqui tl static
      let (ids, n) ← nestIds (haystack.drop firstNonEqui) info.o sizes outer size
      if n = 1 then .ok (⟨info.o, [], 1, true⟩, tl, static)
      else do
        let (o, tl, static) ← nestOrder fuel info.o sizes ids size tl static
        .ok (⟨o, ids, n, true⟩, tl, static)

end Vctrs
