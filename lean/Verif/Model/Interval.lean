import Verif.Model.OrderDf
import Verif.Model.ValSlice
import Verif.Model.Chop

/-!
# Intervals: src/interval.c

`start` and `end` are of one type (`vec_ptype2_params` and `vec_cast_params` return them as they
are) and strings are in one encoding.  An `r_dyn_array` is a list: it grows as needed.
-/

namespace Vctrs

/-- `p_compare_na_equal`, src/compare.h:109-166: element `i` of a column with element `j` of
another.  The type is that of the first; a column of another type would be reinterpreted
(undefined). -/
def pCompare : Val → Int → Val → Int → C Int
  | .vec (.atom t) xs, i, y, j => match y with
    | .vec (.atom u) ys =>
      if h : t = u then do
        let a ← rdI xs i
        let b ← rdI ys j
        compareNaEqual u (h ▸ a) b
      else .error .ub
    | _ => .error .ub
  | .vec .list _, _, _, _ => .error .internal
  | .df _ _, _, _, _ => .error .abort

/-- `p_df_compare_na_equal`, src/poly-op.c:62-88. -/
def pDfCompare (xs : List Val) (i : Int) (ys : List Val) (j : Int) : C Int :=
  if xs.length ≠ ys.length then .error .internal
  else forBrk xs.length (fun c (out : Int) => do
    let cmp ← pCompare (← rd xs c) i (← rd ys c) j
    if cmp ≠ 0 then .ok (.brk cmp) else .ok (.next out)) 0

/-- The function selected by `poly_p_compare_na_equal`, src/poly-op.c:46-59, for the type of the
first argument. -/
def polyCompare (x : Val) (i : Int) (y : Val) (j : Int) : C Int :=
  match x, y with
  | .df _ xs, .df _ ys => pDfCompare xs i ys j
  | .df _ _, .vec _ _ => .error .ub
  | .vec t xs, y => pCompare (.vec t xs) i y j

/-- The function selected by `poly_p_is_missing`, src/poly-op.c:91-104. -/
def polyIsMissing (x : Val) (i : Int) : C Bool :=
  if i < 0 then .error .ub
  else match x with
    | .df _ cols => pDfIsMissing cols i.toNat
    | .vec t xs => pIsMissing (.vec t xs) i.toNat

/-- `interval_order`, src/interval.c:878-909. -/
def intervalOrder (fuel : Nat) (start stop : Val) (direction naValue : List Name) (size : Nat)
    (tl : TL) (static : List Nat) : C (List Int × TL × List Nat) :=
  vecOrder fuel (.df size [start, stop]) direction naValue false tl static

/-! ## Groups -/

/-- What `vec_interval_group_info` pushes to, src/interval.c:148-158, and the locations of the
current group, src/interval.c:179-183. -/
structure GroupState where
  starts : List Int
  stops : List Int
  locs : List (List Int)
  orderStart : Int
  orderEnd : Int
  groupStart : Int
  groupEnd : Int

/-- The copy of a part of the order, src/interval.c:207-214, :233-240 and :254-261. -/
def copyOrder (o : List Int) (first last : Int) : C (List Int) :=
  let size := last - first + 1
  if size < 0 then .error .abort
  else do
    let v ← forN size.toNat (fun k (v : List (Option Int)) => do
      let l ← rdI o (first + k)
      wr v k (some l)) (alloc Int size.toNat)
    initd v

/-- A group is pushed, src/interval.c:203-215, :229-241 and :250-262. -/
def pushGroup (locations : Bool) (o : List Int) (start stop first last : Int) (s : GroupState) :
    C GroupState := do
  let s := { s with starts := s.starts ++ [start + 1], stops := s.stops ++ [stop + 1] }
  if locations then
    let loc ← copyOrder o first last
    .ok { s with locs := s.locs ++ [loc] }
  else .ok s

/-- The loop over missing intervals, src/interval.c:169-177: where it stops, and
`loc_order_missing_end`. -/
def skipMissing (o : List Int) (start : Val) (size : Nat) : C (Nat × Int) :=
  forBrk size (fun i (s : Nat × Int) => do
    let loc ← rd o i
    if !(← polyIsMissing start (loc - 1)) then .ok (.brk s) else .ok (.next (i + 1, (i : Int))))
    (0, -1)

/-- One round of the loop over intervals, src/interval.c:197-225. -/
def groupRound (abutting locations : Bool) (o : List Int) (start stop : Val) (i : Nat)
    (s : GroupState) : C GroupState := do
  let loc := (← rd o i) - 1
  let s ← (if (← polyCompare stop s.groupEnd start loc) ≤ (if abutting then -1 else 0) then do
      let s ← pushGroup locations o s.groupStart s.groupEnd s.orderStart s.orderEnd s
      .ok { s with orderStart := s.orderEnd + 1, groupStart := loc, groupEnd := loc }
    else do
      if (← polyCompare stop s.groupEnd stop loc) = -1 then .ok { s with groupEnd := loc }
      else .ok s : C GroupState)
  .ok { s with orderEnd := (i : Int) }

/-- What `vec_interval_group_info` returns, src/interval.c:265-298. -/
structure IntervalGroups where
  starts : List Int
  stops : List Int
  locs : List (List Int)

/-- `vec_interval_group_info` from the order on, src/interval.c:160-298. -/
def groupOrdered (abutting group locations : Bool) (o : List Int) (start stop : Val) (size : Nat) :
    C IntervalGroups := do
  let (i, missingEnd) ← skipMissing o start size
  let s : GroupState := ⟨[], [], [], 0, -1, 0, -1⟩
  let (s, i) ← (if i < size then do
      let loc := (← rd o i) - 1
      .ok ({ s with orderStart := i, orderEnd := i, groupStart := loc, groupEnd := loc }, i + 1)
    else .ok (s, i) : C (GroupState × Nat))
  let s ← forFrom (groupRound abutting locations o start stop) i (size - i) s
  let s ← (if s.orderEnd ≥ s.orderStart then
      pushGroup locations o s.groupStart s.groupEnd s.orderStart s.orderEnd s
    else .ok s : C GroupState)
  let s ← (if group && decide (missingEnd ≥ 0) then do
      let a ← rdI o 0
      let b ← rdI o missingEnd
      pushGroup locations o (a - 1) (b - 1) 0 missingEnd s
    else .ok s : C GroupState)
  .ok ⟨s.starts, s.stops, s.locs⟩

/-- `"asc"`, globals.c's `chrs_asc`, as used in src/interval.c:137. -/
def chrsAsc : List Name := [some "asc".toList]

/-- `"smallest"`, globals.c's `chrs_smallest`, as used in src/interval.c:138. -/
def chrsSmallest : List Name := [some "smallest".toList]

/-- `vec_interval_group_info`, src/interval.c:67-299. -/
def intervalGroupInfo (fuel : Nat) (start stop : Val) (abutting group locations : Bool) (tl : TL)
    (static : List Nat) : C (IntervalGroups × TL × List Nat) := do
  let startProxy ← proxyVal start
  let stopProxy ← proxyVal stop
  let size := startProxy.size
  if size ≠ stopProxy.size then .error .abort
  else
    let (o, tl, static) ← intervalOrder fuel startProxy stopProxy chrsAsc chrsSmallest size tl static
    let g ← groupOrdered abutting group locations o startProxy stopProxy size
    .ok (g, tl, static)

/-- `parse_missing`, src/interval.c:913-925: are missing intervals to be grouped.  A NA is not
a string. -/
def parseMissing (missing : Name) : C Bool :=
  match missing with
  | none => .error .abort
  | some s =>
    if strcmp s "group".toList = 0 then .ok true
    else if strcmp s "drop".toList = 0 then .ok false
    else .error .abort

/-- `ffi_interval_groups`, src/interval.c:12-31. -/
def intervalGroups (fuel : Nat) (start stop : Val) (abutting : Bool) (missing : Name) (tl : TL)
    (static : List Nat) : C ((Val × Val) × TL × List Nat) := do
  let group ← parseMissing missing
  let (g, tl, static) ← intervalGroupInfo fuel start stop abutting group false tl static
  let s ← valSlice (.locs g.starts) start
  let e ← valSlice (.locs g.stops) stop
  .ok ((s, e), tl, static)

/-- `ffi_interval_locate_groups`, src/interval.c:33-52. -/
def intervalLocateGroups (fuel : Nat) (start stop : Val) (abutting : Bool) (missing : Name) (tl : TL)
    (static : List Nat) : C ((Val × Val × List (List Int)) × TL × List Nat) := do
  let group ← parseMissing missing
  let (g, tl, static) ← intervalGroupInfo fuel start stop abutting group true tl static
  let s ← valSlice (.locs g.starts) start
  let e ← valSlice (.locs g.stops) stop
  .ok ((s, e, g.locs), tl, static)

/-! ## Complement -/

/-- `lower` or `upper`, src/interval.c:373-399 and :402-428: of size 1 and complete. -/
def boundProxy (x : Val) : C Val := do
  if x.size ≠ 1 then .error .abort
  else
    let proxy ← proxyVal x
    let complete ← vecDetectComplete proxy
    if !(← rd complete 0) then .error .abort else .ok proxy

/-- The loop that moves past `lower`, src/interval.c:497-509: `i`, `loc_lower_is_after_start_of`
and `loc_lower_is_before_end_of`. -/
def lowerLoop (lower start stop : Val) (starts stops : List Int) : C (Nat × Int × Int) :=
  forBrk starts.length (fun i (s : Nat × Int × Int) => do
    let locStart := (← rd starts i) - 1
    let locEnd := (← rd stops i) - 1
    if (← polyCompare lower 0 stop locEnd) = 1 then .ok (.next (i + 1, s.2.1 + 1, s.2.2 + 1))
    else if (← polyCompare lower 0 start locStart) ≥ 0 then .ok (.next (i + 1, s.2.1 + 1, s.2.2))
    else .ok (.brk s)) (0, -1, 0)

/-- The loop that moves back before `upper`, src/interval.c:518-530, from `size`: `size`,
`loc_upper_is_after_start_of` and `loc_upper_is_before_end_of`. -/
def upperLoop (upper start stop : Val) (starts stops : List Int) : Nat → Int → Int →
    C (Nat × Int × Int)
  | 0, after, before => .ok (0, after, before)
  | size + 1, after, before => do
    let locStart := (← rd starts size) - 1
    let locEnd := (← rd stops size) - 1
    if (← polyCompare upper 0 start locStart) = -1 then
      upperLoop upper start stop starts stops size (after - 1) (before - 1)
    else if (← polyCompare upper 0 stop locEnd) ≤ 0 then
      upperLoop upper start stop starts stops size after (before - 1)
    else .ok (size + 1, after, before)

/-- An `int` vector that is filled from the front and the number of elements written:
`v_loc_start` with `i_start` or `v_loc_end` with `i_end`, src/interval.c:481-487. -/
abbrev FillInt := List (Option Int) × Nat

/-- `v_loc_start[i_start] = loc_gap_start + 1; ++i_start;`, as in src/interval.c:551-552. -/
def FillInt.push (v : FillInt) (x : Int) : C FillInt := do
  let b ← wr v.1 v.2 (some x)
  .ok (b, v.2 + 1)

/-- The gap after `lower` where there are intervals between the bounds, src/interval.c:535-556:
`append_lower`, starts and ends. -/
def lowerGap (starts stops : List Int) (after before : Int) (vs ve : FillInt) :
    C (Bool × FillInt × FillInt) := do
  let (append, vs) ← (if before = after then do
      let gapStart := (← rdI stops before) - 1
      .ok (false, ← vs.push (gapStart + 1))
    else .ok (true, vs) : C (Bool × FillInt))
  let gapEnd := (← rdI starts (after + 1)) - 1
  let ve ← ve.push (gapEnd + 1)
  .ok (append, vs, ve)

/-- The gaps between intervals, src/interval.c:558-580. -/
def middleGaps (starts stops : List Int) (i size : Nat) (vs ve : FillInt) : C (FillInt × FillInt) := do
  let (previous, i) ← (if i < size then do .ok ((← rd stops i) - 1, i + 1) else .ok (-1, i) :
    C (Int × Nat))
  let (_, vs, ve) ← forFrom (fun i (s : Int × FillInt × FillInt) => do
    let eltStart := (← rd starts i) - 1
    let eltEnd := (← rd stops i) - 1
    let vs ← s.2.1.push (s.1 + 1)
    let ve ← s.2.2.push (eltStart + 1)
    .ok (eltEnd, vs, ve)) i (size - i) (previous, vs, ve)
  .ok (vs, ve)

/-- The gap before `upper` where there are intervals between the bounds, src/interval.c:582-603:
`append_upper`, starts and ends. -/
def upperGap (starts stops : List Int) (after before : Int) (vs ve : FillInt) :
    C (Bool × FillInt × FillInt) := do
  let gapStart := (← rdI stops (before - 1)) - 1
  let vs ← vs.push (gapStart + 1)
  if before = after then
    let gapEnd := (← rdI starts before) - 1
    let ve ← ve.push (gapEnd + 1)
    .ok (false, vs, ve)
  else .ok (true, vs, ve)

/-- No intervals between the bounds, src/interval.c:605-651: `append_lower`, `append_upper`, starts
and ends. -/
def boundsGap (starts stops : List Int) (lowerAfter lowerBefore upperAfter upperBefore : Int)
    (vs ve : FillInt) : C (Bool × Bool × FillInt × FillInt) := do
  let lowerIn := decide (lowerBefore = lowerAfter)
  let gapStart ← (if lowerIn then do .ok ((← rdI stops lowerBefore) - 1) else .ok (-1) : C Int)
  let upperIn := decide (upperBefore = upperAfter)
  let gapEnd ← (if upperIn then do .ok ((← rdI starts upperBefore) - 1) else .ok (-1) : C Int)
  let same := lowerIn && upperIn && decide (lowerBefore = upperBefore)
  let vs ← if lowerIn && !same then vs.push (gapStart + 1) else .ok vs
  let ve ← if upperIn && !same then ve.push (gapEnd + 1) else .ok ve
  .ok (!lowerIn, !upperIn, vs, ve)

mutual

/-- `vec_c` of two values of one type, src/c.c:18-160 with `vecC` (Chop.lean) for each column
(`df_assign`, src/slice-assign.c:341-378). -/
def valAppend : Val → Val → C Val
  | .vec t xs, y => match y with
    | .vec u ys =>
      if h : t = u then do
        match ← vecC (naElt u) [some (h ▸ xs), some ys] with
        | some z => .ok (.vec u z)
        | none => .error .internal
      else .error .abort
    | .df _ _ => .error .abort
  | .df n xs, y => match y with
    | .df m ys => do .ok (.df (n + m) (← valAppendCols xs ys))
    | .vec _ _ => .error .abort

/-- The columns of two data frames. -/
def valAppendCols : List Val → List Val → C (List Val)
  | [], ys => match ys with
    | [] => .ok []
    | _ :: _ => .error .abort
  | x :: xs, ys => match ys with
    | [] => .error .abort
    | y :: ys => do
      let z ← valAppend x y
      let zs ← valAppendCols xs ys
      .ok (z :: zs)

end

/-- `vec_interval_complement` from the minimal intervals, src/interval.c:465-656: are the bounds to
be appended, and the locations of the starts and ends of the gaps. -/
def complementLocs (start stop : Val) (lower upper : Option Val) (starts stops : List Int) :
    C (Bool × Bool × List Int × List Int) := do
  let size := starts.length
  let maxStart := (size : Int) - 1 + (if upper.isSome then 1 else 0)
  let maxEnd := (size : Int) - 1 + (if lower.isSome then 1 else 0)
  let vs : FillInt := (alloc Int maxStart.toNat, 0)
  let ve : FillInt := (alloc Int maxEnd.toNat, 0)
  let (i, lowerAfter, lowerBefore) ← match lower with
    | some l => lowerLoop l start stop starts stops
    | none => .ok (0, -1, 0)
  let (size, upperAfter, upperBefore) ← match upper with
    | some u => upperLoop u start stop starts stops size ((size : Int) - 1) (size : Int)
    | none => .ok (size, (size : Int) - 1, (size : Int))
  let between := decide (i < size)
  let (appendLower, vs, ve) ← if lower.isSome && between then
      lowerGap starts stops lowerAfter lowerBefore vs ve
    else .ok (false, vs, ve)
  let (vs, ve) ← middleGaps starts stops i size vs ve
  let (appendUpper, vs, ve) ← if upper.isSome && between then
      upperGap starts stops upperAfter upperBefore vs ve
    else .ok (false, vs, ve)
  let (appendLower, appendUpper, vs, ve) ← if lower.isSome && upper.isSome && !between then
      boundsGap starts stops lowerAfter lowerBefore upperAfter upperBefore vs ve
    else .ok (appendLower, appendUpper, vs, ve)
  let locStart ← initd (intResize vs.1 vs.2)
  let locEnd ← initd (intResize ve.1 ve.2)
  .ok (appendLower, appendUpper, locStart, locEnd)

/-- A bound that may be `NULL`, src/interval.c:366-428. -/
def optBound (x : Option Val) : C (Option Val) :=
  match x with
  | none => .ok none
  | some x => do .ok (some (← boundProxy x))

/-- `use_lower && use_upper && fn_compare(p_lower, 0, p_upper, 0) >= 0`, src/interval.c:430. -/
def boundsEmpty (lower upper : Option Val) : C Bool :=
  match lower, upper with
  | some l, some u => do .ok (decide ((← polyCompare l 0 u 0) ≥ 0))
  | _, _ => .ok false

/-- `lower` is pushed to the front, src/interval.c:670-683. -/
def pushLower (append : Bool) (lower : Option Val) (out : Val) : C Val :=
  if append then match lower with
    | some l => valAppend l out
    | none => .error .internal
  else .ok out

/-- `upper` is pushed to the end, src/interval.c:685-698. -/
def pushUpper (append : Bool) (upper : Option Val) (out : Val) : C Val :=
  if append then match upper with
    | some u => valAppend out u
    | none => .error .internal
  else .ok out

/-- `vec_interval_complement`, src/interval.c:310-714. -/
def intervalComplement (fuel : Nat) (start stop : Val) (lower upper : Option Val) (tl : TL)
    (static : List Nat) : C ((Val × Val) × TL × List Nat) := do
  let startProxy ← proxyVal start
  let stopProxy ← proxyVal stop
  let lowerProxy ← optBound lower
  let upperProxy ← optBound upper
  if ← boundsEmpty lowerProxy upperProxy then
    .ok ((← valSlice (.locs []) start, ← valSlice (.locs []) stop), tl, static)
  else
    let (g, tl, static) ← intervalGroupInfo fuel start stop true false false tl static
    let (appendLower, appendUpper, locStart, locEnd) ←
      complementLocs startProxy stopProxy lowerProxy upperProxy g.starts g.stops
    let outStart ← valSlice (.locs locStart) stop
    let outEnd ← valSlice (.locs locEnd) start
    let outStart ← pushLower appendLower lower outStart
    let outEnd ← pushUpper appendUpper upper outEnd
    .ok ((outStart, outEnd), tl, static)

/-! ## Containers -/

/-- The loop over missing intervals, src/interval.c:821-829: where it stops, and `any_missing`. -/
def skipMissingAny (o : List Int) (start : Val) (size : Nat) : C (Nat × Bool) :=
  forBrk size (fun i (s : Nat × Bool) => do
    let loc ← rd o i
    if !(← polyIsMissing start (loc - 1)) then .ok (.brk s) else .ok (.next (i + 1, true)))
    (0, false)

/-- One round of the loop over intervals, src/interval.c:841-853: the state is `loc_container` and
the locations. -/
def containerRound (o : List Int) (start stop : Val) (i : Nat) (s : Int × List Int) :
    C (Int × List Int) := do
  let loc := (← rd o i) - 1
  let inside ← (if (← polyCompare start s.1 start loc) ≠ 1 then do
      .ok (decide ((← polyCompare stop s.1 stop loc) ≠ -1))
    else .ok false : C Bool)
  if inside then .ok s else .ok (loc, s.2 ++ [loc + 1])

/-- `direction`, src/interval.c:788-790. -/
def containerDirection : List Name := [some "asc".toList, some "desc".toList]

/-- `na_value`, src/interval.c:792-794. -/
def containerNaValue : List Name := [some "smallest".toList, some "largest".toList]

/-- `vec_interval_locate_containers` from the order, src/interval.c:814-863. -/
def containersOrdered (o : List Int) (start stop : Val) (size : Nat) : C (List Int) := do
  let (i, anyMissing) ← skipMissingAny o start size
  let (s, i) ← (if i < size then do
      let loc := (← rd o i) - 1
      .ok ((loc, [loc + 1]), i + 1)
    else .ok ((-1, []), i) : C ((Int × List Int) × Nat))
  let s ← forFrom (containerRound o start stop) i (size - i) s
  if anyMissing then do .ok (s.2 ++ [← rd o 0]) else .ok s.2

/-- `vec_interval_locate_containers`, src/interval.c:722-867. -/
def intervalLocateContainers (fuel : Nat) (start stop : Val) (tl : TL) (static : List Nat) :
    C (List Int × TL × List Nat) := do
  let startProxy ← proxyVal start
  let stopProxy ← proxyVal stop
  let size := startProxy.size
  if size ≠ stopProxy.size then .error .abort
  else
    let (o, tl, static) ← intervalOrder fuel startProxy stopProxy containerDirection containerNaValue
      size tl static
    let out ← containersOrdered o startProxy stopProxy size
    .ok (out, tl, static)

end Vctrs
