import Verif.Model.Dictionary

/-!
# Grouping: src/group.c

Proxies, encoding normalisation, attributes and data frame construction are not modelled:
the functions take the list of the proxy's elements.  Buffers come from `Rf_allocVector`
without initialisation, so reading them before writing is `ub`.
-/

namespace Vctrs

variable {α : Type}

/-- The loop shared by `vctrs_group_id` (src/group.c:19-32, `g0 = 1`) and `vec_group_loc`
(src/group.c:153-167, `g0 = 0`).  State: dictionary, output buffer, next group. -/
def groupLoop (ops : PolyOps α) (d : Dict α) (n g0 : Nat) : C (Dict α × List (Option Nat) × Nat) :=
  forN n (fun i (d, out, g) => do
    let hash ← dictHashScalar ops d i
    let key ← rd d.key hash
    match key with
    | none => do
      let d' ← dictPut d hash i
      let out' ← wr out i (some g)
      .ok (d', out', g + 1)
    | some k => do
      let v ← rdU out k
      let out' ← wr out i (some v)
      .ok (d, out', g)) (d, alloc Nat n, g0)

/-- `vctrs_group_id` (src/group.c:5-39): the ids and the attribute `n`. -/
def groupId (ops : PolyOps α) (x : List α) : C (List Nat × Nat) := do
  let d ← newDict ops false x
  let (d, out, _) ← groupLoop ops d x.length 1
  let out ← initd out
  .ok (out, d.used)

/-- State of the loop of `vctrs_group_rle`. -/
structure RleSt (α : Type) where
  d : Dict α
  g : List (Option Nat)
  l : List (Option Nat)
  map : List (Option Nat)
  /-- offset of the moving pointer `p_l` from the start of `l` -/
  pl : Nat
  loc : Nat

/-- Loop body of `vctrs_group_rle` (src/group.c:85-104). -/
def rleBody (ops : PolyOps α) (i : Nat) (s : RleSt α) : C (RleSt α) := do
  let a ← rd s.d.vec (i - 1)
  let b ← rd s.d.vec i
  if ops.eq a b then do
    let v ← rdU s.l s.pl
    let l ← wr s.l s.pl (some (v + 1))
    .ok { s with l := l }
  else do
    let l ← wr s.l (s.pl + 1) (some 1)
    let hash ← dictHashScalar ops s.d i
    let key ← rd s.d.key hash
    match key with
    | none => do
      let d ← dictPut s.d hash i
      let map ← wr s.map hash (some s.loc)
      let g ← wr s.g s.loc (some d.used)
      .ok { d := d, g := g, l := l, map := map, pl := s.pl + 1, loc := s.loc + 1 }
    | some _ => do
      let m ← rdU s.map hash
      let v ← rdU s.g m
      let g ← wr s.g s.loc (some v)
      .ok { s with g := g, l := l, pl := s.pl + 1, loc := s.loc + 1 }

/-- `vctrs_group_rle` (src/group.c:46-114): the fields `group`, `length` and the attribute
`n`.  `Rf_lengthgets` truncates both buffers to `loc`. -/
def groupRle (ops : PolyOps α) (x : List α) : C (List Nat × List Nat × Nat) := do
  let n := x.length
  let d ← newDict ops false x
  if n = 0 then .ok ([], [], 0)
  else do
    let hash ← dictHashScalar ops d 0
    let d ← dictPut d hash 0
    let map ← wr (alloc Nat d.key.length) hash (some 0)
    let g ← wr (alloc Nat n) 0 (some 1)
    let l ← wr (alloc Nat n) 0 (some 1)
    let s ← forFrom (rleBody ops) 1 (n - 1) { d := d, g := g, l := l, map := map, pl := 0, loc := 1 }
    let g ← initd (s.g.take s.loc)
    let l ← initd (s.l.take s.loc)
    .ok (g, l, s.d.used)

/-- Key locations and counts (src/group.c:172-190). -/
def groupCounts (groups : List (Option Nat)) (n nGroups : Nat) :
    C (List (Option Nat) × Nat × List Nat) :=
  forN n (fun i (keyLoc, cur, counts) => do
    let group ← rdU groups i
    let (keyLoc, cur) ← (if group = cur then do
        let k ← wr keyLoc cur (some (i + 1))
        .ok (k, cur + 1)
      else .ok (keyLoc, cur) : C (List (Option Nat) × Nat))
    let c ← rd counts group
    let counts ← wr counts group (c + 1)
    .ok (keyLoc, cur, counts)) (alloc Nat nGroups, 0, List.replicate nGroups 0)

/-- Filling of the location vectors (src/group.c:199-216).  `elts` are the `p_elt_loc`
buffers, `locations` their fill counters. -/
def groupFill (groups : List (Option Nat)) (n : Nat) (elts : List (List (Option Nat)))
    (nGroups : Nat) : C (List (List (Option Nat)) × List Nat) :=
  forN n (fun i (elts, locations) => do
    let group ← rdU groups i
    let location ← rd locations group
    let buf ← rd elts group
    let buf ← wr buf location (some (i + 1))
    let elts ← wr elts group buf
    let locations ← wr locations group (location + 1)
    .ok (elts, locations)) (elts, List.replicate nGroups 0)

/-- `vec_group_loc` (src/group.c:139-235): the columns `key` and `loc`.  Slicing the keys out
of `x` is done on the proxy's elements. -/
def groupLoc (ops : PolyOps α) (x : List α) : C (List α × List (List Nat)) := do
  let n := x.length
  let d ← newDict ops false x
  let (d, groups, _) ← groupLoop ops d n 0
  let nGroups := d.used
  let (keyLoc, _, counts) ← groupCounts groups n nGroups
  let (elts, _) ← groupFill groups n (counts.map (alloc Nat)) nGroups
  let keyLoc ← initd keyLoc
  let key ← sliceLoc x keyLoc
  let locs ← elts.mapM initd
  .ok (key, locs)

end Vctrs
