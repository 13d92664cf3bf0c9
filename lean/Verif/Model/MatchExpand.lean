import Verif.Model.Match

/-!
# Locating matches: src/match.c, the result and the entry point

The type and the cast of needles and haystack to it are in Model/DfType.lean and
Model/Cast.lean; here they have one type.  A warning is a flag of the result.  Messages are left
out.
-/

namespace Vctrs

/-! ## Expansion of the compact matches -/

/-- What the loop of `expand_compact_indices` reads, src/match.c:1590-1611. -/
structure XEnv where
  oHaystack : List Int
  first : List Int
  size : List Int
  locs : List Int
  /-- `skip_size_match` and `skip_loc_needles`, src/match.c:328 and :345. -/
  skip : Bool
  incomplete : MIncomplete
  noMatch : MUnmatched
  multiple : MMultiple
  relationship : MRelationship
  hasFilter : Bool
  filters : List MFilter
  filterLoc : List (Option Int)
  haystack : List (List Int)
  /-- `v_o_loc_needles`, src/match.c:1659-1670. -/
  oLocs : List Int
  retain : Bool

/-- What it writes, src/match.c:1645-1729. -/
structure XState where
  needles : List (Option Int)
  haystack : List (Option Int)
  locOut : Nat
  checkNeedles : Bool
  checkHaystack : Bool
  anyNeedles : Bool
  anyHaystack : Bool
  previous : Int
  overall : Int
  track : Bool
  detected : List Bool
  warned : Bool

/-- `v_out_needles[loc_out] = ...; v_out_haystack[loc_out] = ...; ++loc_out`, e.g.
src/match.c:1747-1749. -/
def expandOut (needle haystack : Int) (s : XState) : C XState := do
  let n ← wr s.needles s.locOut (some needle)
  let h ← wr s.haystack s.locOut (some haystack)
  .ok { s with needles := n, haystack := h, locOut := s.locOut + 1 }

/-- A needle marked as incomplete, src/match.c:1738-1770. -/
def expandIncomplete (e : XEnv) (size loc : Int) (s : XState) : C XState :=
  if size ≠ 1 then .error .internal
  else match e.incomplete with
    | .value v => expandOut (loc + 1) v s
    | .drop => .ok s
    | .error => .error .abort
    | .compare => .error .internal
    | .exact => .error .internal

/-- A needle without a match, src/match.c:1772-1796. -/
def expandNoMatch (e : XEnv) (size loc : Int) (s : XState) : C XState :=
  if size ≠ 1 then .error .internal
  else match e.noMatch with
    | .value v => expandOut (loc + 1) v s
    | .drop => .ok s
    | .error => .error .abort

/-- Whether a match is the one of the filter, src/match.c:1798-1827. -/
def expandFiltered (e : XEnv) (first loc : Int) : C Bool :=
  if e.hasFilter then do
    if loc < 0 then .error .ub
    else do
      let k ← rdU e.filterLoc loc.toNat
      if k = first then .ok true
      else do
        let i ← rdI e.oHaystack k
        let j ← rdI e.oHaystack first
        filterEqual e.haystack e.filters (j - 1) (i - 1)
  else .ok true

/-- The check for several matches of a needle, src/match.c:1829-1923. -/
def expandCheckNeedles (e : XEnv) (size loc : Int) (s : XState) : C XState :=
  if s.checkNeedles then
    if size > 1 ∨ loc = s.previous then
      match e.multiple with
      | .error => .error .abort
      | .any => .error .internal
      | .first => .error .internal
      | .last => .error .internal
      | m =>
        let s := { s with anyNeedles := true, warned := s.warned || m == MMultiple.warning }
        match e.relationship with
        | .oneToOne => .error .abort
        | .manyToOne => .error .abort
        | .warnManyToMany =>
          .ok { s with warned := s.warned || s.anyHaystack, checkNeedles := false }
        | _ => .ok { s with checkNeedles := false }
    else .ok { s with previous := loc }
  else .ok s

/-- A row of the haystack that was matched before, src/match.c:1992-2020 for `multiple = "first"` and
`"last"`, and :2048-2089 otherwise (`warns`). -/
def expandSeen (e : XEnv) (warns : Bool) (s : XState) : C XState :=
  match e.relationship with
  | .oneToOne => .error .abort
  | .oneToMany => .error .abort
  | .warnManyToMany =>
    if warns then
      .ok { s with
        warned := s.warned || s.anyNeedles
        checkHaystack := false
        track := e.retain }
    else .error .internal
  | _ => .error .internal

/-- The check for several matches of a row of the haystack, src/match.c:1987-2025 for
`multiple = "first"` and `"last"`, and :2043-2094 otherwise (`warns`). -/
def expandTrack (e : XEnv) (warns : Bool) (row : Int) (s : XState) : C XState :=
  if s.track then do
    let s ← (if s.checkHaystack then do
        let seen ← rdI s.detected row
        let s := { s with anyHaystack := seen }
        if seen then expandSeen e warns s else .ok s
      else .ok s : C XState)
    let d ← wrI s.detected row true
    .ok { s with detected := d }
  else .ok s

/-- One round of the loops that look for the first or the last match, src/match.c:1943-1968. -/
def expandOverall (e : XEnv) (first : Bool) (start : Int) (j : Nat) (overall : Int) : C Int := do
  let k ← rdI e.oHaystack (start + j)
  let row := k - 1
  if first then .ok (if overall > row then row else overall)
  else .ok (if overall < row then row else overall)

/-- `multiple = "first"` and `"last"`, src/match.c:1928-2032. -/
def expandFirstLast (e : XEnv) (isFirst : Bool) (nUsed i : Nat) (first size loc : Int)
    (s : XState) : C XState :=
  if e.skip then .error .internal
  else do
    let overall ← (if s.overall = naInt then do
        let k ← rdI e.oHaystack first
        .ok (k - 1)
      else .ok s.overall : C Int)
    let overall ← forN size.toNat (expandOverall e isFirst first) overall
    let s := { s with overall := overall }
    let atEnd ← (if i = nUsed - 1 then .ok true
      else do
        let k ← rd e.oLocs (i + 1)
        let next ← rdI e.locs (k - 1)
        .ok (decide (loc ≠ next)) : C Bool)
    if atEnd then do
      let s ← (do
        let n ← wr s.needles s.locOut (some (loc + 1))
        let h ← wr s.haystack s.locOut (some (overall + 1))
        .ok { s with needles := n, haystack := h } : C XState)
      let s ← expandTrack e false overall s
      .ok { s with locOut := s.locOut + 1, overall := naInt }
    else .ok s

/-- One round of the loop over the matches of a needle, src/match.c:2037-2098. -/
def expandMatch (e : XEnv) (start loc : Int) (j : Nat) (s : XState) : C XState := do
  let k ← rdI e.oHaystack (start + j)
  let row := k - 1
  let s ← (do
    let n ← wr s.needles s.locOut (some (loc + 1))
    let h ← wr s.haystack s.locOut (some (row + 1))
    .ok { s with needles := n, haystack := h } : C XState)
  let s ← expandTrack e true row s
  .ok { s with locOut := s.locOut + 1 }

/-- One round of the loop of `expand_compact_indices`, src/match.c:1731-2103. -/
def expandRound (e : XEnv) (nUsed : Nat) (i : Nat) (s : XState) : C XState := do
  let loc ← (if e.skip then .ok (i : Int)
    else do
      let k ← rd e.oLocs i
      .ok (k - 1) : C Int)
  let first ← rdI e.first loc
  let size ← (if e.skip then .ok 1 else rdI e.size loc : C Int)
  let needle ← (if e.skip then .ok loc else rdI e.locs loc : C Int)
  if first = signalIncomplete then expandIncomplete e size needle s
  else if first = naInt then expandNoMatch e size needle s
  else do
    if ← expandFiltered e first needle then do
      let s ← expandCheckNeedles e size needle s
      match e.multiple with
      | .first => expandFirstLast e true nUsed i first size needle s
      | .last => expandFirstLast e false nUsed i first size needle s
      | _ => forN size.toNat (expandMatch e first needle) s
    else .ok s

/-- `size_out`, src/match.c:1620-1644: the sum of the sizes, a double, is exact. -/
def expandSize (multiple : MMultiple) (sizes : List Int) (sizeNeedles : Nat) : C Nat :=
  match multiple with
  | .any => .ok sizeNeedles
  | .first => .ok sizeNeedles
  | .last => .ok sizeNeedles
  | _ => if sizes.sum > (intMax : Int) then .error .abort else .ok sizes.sum.toNat

/-- `check_multiple_needles`, src/match.c:1681-1685. -/
def checksNeedles : MMultiple → Bool
  | .all => true
  | .error => true
  | .warning => true
  | _ => false

/-- `check_multiple_haystack`, src/match.c:1690-1712. -/
def checksHaystack (multiple : MMultiple) : MRelationship → Bool
  | .none => false
  | .manyToOne => false
  | .manyToMany => false
  | .oneToOne => true
  | .oneToMany => true
  | .warnManyToMany => checksNeedles multiple

/-- `retain_remaining_haystack`, src/match.c:1714-1716. -/
def MUnmatched.retains : MUnmatched → Bool
  | .drop => false
  | _ => true

/-- The matches of a needle in order of appearance, src/match.c:2122-2150. -/
def expandReorder (fuel : Nat) (needles haystack : List Int) (tl : TL) (static : List Nat) :
    C (List Int × TL × List Nat) := do
  let (o, tl, static) ← vecOrder fuel (intDf needles.length [needles, haystack]) chrsAsc
    chrsSmallest true tl static
  let out ← forN haystack.length (fun i (out : List Int) => do
    let k ← rd o i
    wr out i (← rdI haystack (k - 1))) o
  .ok (out, tl, static)

/-- The rows of the haystack that were not matched, src/match.c:2152-2203. -/
def expandRemaining (remaining : MUnmatched) (detected : List Bool) (needles haystack : List Int) :
    C (List Int × List Int) :=
  match remaining with
  | .drop => .ok (needles, haystack)
  | .error => do
    forN detected.length (fun i (_ : Unit) => do
      if ← rd detected i then .ok () else .error .abort) ()
    .ok (needles, haystack)
  | .value v => do
    let n ← forN detected.length (fun i n => do
      if ← rd detected i then .ok n else .ok (n + 1)) 0
    if n > 0 then do
      let ns ← forFrom (fun i ns => wr ns i (some v)) needles.length n
        (needles.map some ++ alloc Int n)
      let hs ← forN detected.length (fun i (s : List (Option Int) × Nat) => do
        if ← rd detected i then .ok s
        else do
          let h ← wr s.1 s.2 (some ((i : Int) + 1))
          .ok (h, s.2 + 1)) (haystack.map some ++ alloc Int n, haystack.length)
      .ok (← initd ns, ← initd hs.1)
    else .ok (needles, haystack)

/-- The data frame of `new_matches_result`, src/match.c:1569-1587, and whether there was a
warning. -/
structure Matches where
  needles : List Int
  haystack : List Int
  warned : Bool
  deriving DecidableEq

/-- `expand_compact_indices`, src/match.c:1590-2209. -/
def expandCompact (fuel : Nat) (e : MEnv) (m : MState) (noMatch remaining : MUnmatched)
    (relationship : MRelationship) (sizeNeedles sizeHaystack : Nat) (nonEqui : Bool) (tl : TL)
    (static : List Nat) : C (Matches × TL × List Nat) := do
  let skip := e.multiple == .any
  let sizeOut ← expandSize e.multiple m.size sizeNeedles
  let (oLocs, tl, static) ← (if skip then .ok ([], tl, static)
    else vecOrder fuel (.vec (.atom .int) m.locs) chrsAsc chrsSmallest true tl static :
      C (List Int × TL × List Nat))
  let check := checksHaystack e.multiple relationship
  let x : XEnv := ⟨e.oHaystack, m.first, m.size, m.locs, skip, e.incomplete, noMatch, e.multiple,
    relationship, e.anyFilters && !skip, e.filters, m.filterLoc, e.haystack, oLocs,
    remaining.retains⟩
  let track := check || remaining.retains
  let s ← forN m.first.length (expandRound x m.first.length) ⟨alloc Int sizeOut, alloc Int sizeOut,
    0, checksNeedles e.multiple, check, false, false, naInt, naInt, track,
    if track then List.replicate sizeHaystack false else [], false⟩
  let needles ← initd (if s.locOut < sizeOut then s.needles.take s.locOut else s.needles)
  let haystack ← initd (if s.locOut < sizeOut then s.haystack.take s.locOut else s.haystack)
  let (haystack, tl, static) ← (if s.anyNeedles && nonEqui then
      expandReorder fuel needles haystack tl static
    else .ok (haystack, tl, static) : C (List Int × TL × List Nat))
  let (needles, haystack) ← expandRemaining remaining s.detected needles haystack
  .ok (⟨needles, haystack, s.warned⟩, tl, static)

/-! ## Entry point -/

/-- `df_locate_matches`, src/match.c:261-483; the columns are ranks. -/
def dfLocateMatches (fuel : Nat) (needles haystack : List (List Int))
    (needlesComplete haystackComplete : List (List Bool)) (sizeNeedles sizeHaystack : Nat)
    (incomplete : MIncomplete) (noMatch remaining : MUnmatched) (multiple : MMultiple)
    (relationship : MRelationship) (anyFilters : Bool) (filters : List MFilter) (ops : List MOp)
    (tl : TL) (static : List Nat) : C (Matches × TL × List Nat) := do
  let (oNeedles, tl, static) ← vecOrder fuel (intDf sizeNeedles needles) chrsAsc chrsSmallest true
    tl static
  let (info, tl, static) ← nestInfo fuel haystack sizeHaystack ops tl static
  let e : MEnv := ⟨needles, haystack, needlesComplete, haystackComplete, oNeedles, info.o,
    incomplete, multiple, anyFilters, filters, ops⟩
  let m ← matchAll e info.ids info.n sizeNeedles sizeHaystack
  expandCompact fuel e m noMatch remaining relationship sizeNeedles sizeHaystack info.nonEqui tl
    static

/-- `df_joint_xtfrm_by_col`, src/match.c:1207-1236. -/
def jointXtfrmCols (fuel : Nat) (nanDistinct : Bool) : List Val → List Val → TL → List Nat →
    C ((List (List Int) × List (List Int)) × TL × List Nat)
  | [], _, tl, static => .ok (([], []), tl, static)
  | _ :: _, [], _, _ => .error .ub
  | x :: xs, y :: ys, tl, static => do
    let ((p, q), tl, static) ← vecJointXtfrm fuel x y nanDistinct tl static
    let ((ps, qs), tl, static) ← jointXtfrmCols fuel nanDistinct xs ys tl static
    .ok ((p :: ps, q :: qs), tl, static)

/-- `df_detect_complete_by_col`, src/match.c:1240-1258. -/
def detectCompleteCols : List Val → C (List (List Bool))
  | [] => .ok []
  | x :: xs => do
    let c ← rDetectComplete x
    let cs ← detectCompleteCols xs
    .ok (c :: cs)

/-- `parse_condition_one`, src/match.c:1261-1270. -/
def parseConditionOne (s : Name) : C MOp :=
  if s = some "==".toList then .ok .eq
  else if s = some ">".toList then .ok .gt
  else if s = some ">=".toList then .ok .gte
  else if s = some "<".toList then .ok .lt
  else if s = some "<=".toList then .ok .lte
  else .error .abort

/-- `parse_filter_one`, src/match.c:1421-1428. -/
def parseFilterOne (s : Name) : C MFilter :=
  if s = some "none".toList then .ok .all
  else if s = some "min".toList then .ok .min
  else if s = some "max".toList then .ok .max
  else .error .abort

/-- `parse_condition` and `parse_filter`, src/match.c:1272-1306 and :1430-1463, on a character
vector. -/
def parseByColumn {α : Type} (one : Name → C α) (arg : List Name) (nCols : Nat) : C (List α) :=
  match arg with
  | [s] => do
    let a ← one s
    .ok (List.replicate nCols a)
  | _ => if arg.length = nCols then arg.mapM one else .error .abort

/-- The columns to match: anything but a data frame is wrapped in one, src/match.c:180-193.  After
the cast to the common type both are data frames or neither is. -/
def matchColumns : Val → Val → C (List Val × List Val)
  | .df _ xs, .df _ ys => .ok (xs, ys)
  | .vec t xs, .vec u ys => .ok ([.vec t xs], [.vec u ys])
  | _, _ => .error .ub

/-- `vec_locate_matches`, src/match.c:131-257, on vectors of one type; the options are parsed. -/
def vecLocateMatches (fuel : Nat) (needles haystack : Val) (condition filter : List Name)
    (incomplete : MIncomplete) (noMatch remaining : MUnmatched) (multiple : MMultiple)
    (relationship : MRelationship) (nanDistinct : Bool) (tl : TL) (static : List Nat) :
    C (Matches × TL × List Nat) := do
  let sizeNeedles := needles.size
  let sizeHaystack := haystack.size
  let (xs, ys) ← matchColumns needles haystack
  let ops ← parseByColumn parseConditionOne condition xs.length
  let filters ← parseByColumn parseFilterOne filter xs.length
  let anyFilters := filters.any (fun f => f != .all)
  if xs.length = 0 then .error .abort
  else do
    let xc ← detectCompleteCols xs
    let yc ← detectCompleteCols ys
    let ((p, q), tl, static) ← jointXtfrmCols fuel nanDistinct xs ys tl static
    dfLocateMatches fuel p q xc yc sizeNeedles sizeHaystack incomplete noMatch remaining multiple
      relationship anyFilters filters ops tl static

end Vctrs
