import Verif.Model.Dictionary

/-!
# Set operations, `src/set.c`

Casting to the common type, proxies and encoding normalisation (set.c:28-70 and the same
blocks of the other functions) are assumed done: `x` and `y` are lists of elements of one
type.  `vec_c()` of the two sliced parts is list append.
-/

namespace Vctrs

variable {α : Type _}

/-- `r_int_resize()` / `r_raw_resize()`: keeps the common prefix, new elements are
uninitialised (src/rlang/vec.c:22-45, `RESIZE`). -/
def resize {β : Type _} (l : List (Option β)) (n : Nat) : List (Option β) :=
  l.take n ++ List.replicate (n - l.length) none

/-- Loading loop that also marks first occurrences, src/set.c:206-215 (difference),
:332-341 (union, `x`), :367-376 (union, `y`), :514-537 (symmetric difference). -/
def loadMark (ops : PolyOps α) (d : Dict α) (n : Nat) (marked : List (Option Bool)) :
    C (Dict α × List (Option Bool)) :=
  forN n (fun i (s : Dict α × List (Option Bool)) => do
    let (d, marked) := s
    let hash ← dictHashScalar ops d i
    let key ← rd d.key hash
    let d ← (match key with
      | none => dictPut d hash i
      | some _ => .ok d : C (Dict α))
    let marked ← wr marked i (some key.isNone)
    .ok (d, marked)) (d, marked)

/-- Counting loop, src/set.c:104-107 and :230-233. -/
def countMarked (marked : List (Option Bool)) (n : Nat) : C Nat :=
  forN n (fun i k => do
    let b ← rdU marked i
    .ok (k + (if b then 1 else 0))) 0

/-- Collecting loop, src/set.c:109-118, :235-244, :343-352, :393-402, :561-570, :575-584.
`loc` is the (possibly recycled) buffer. -/
def collectMarked (marked : List (Option Bool)) (n : Nat) (loc : List (Option Nat)) :
    C (List (Option Nat)) := do
  let (loc, _) ← forN n (fun i (s : List (Option Nat) × Nat) => do
    let (loc, j) := s
    let b ← rdU marked i
    if b then do
      let loc ← wr loc j (some (i + 1))
      .ok (loc, j + 1)
    else .ok (loc, j)) (loc, 0)
  .ok loc

/-- `vec_set_intersect`, src/set.c:20-124. -/
def setIntersect (ops : PolyOps α) (x y : List α) : C (List α) := do
  let xd ← newDict ops false x
  let xd ← loadDict ops xd x.length
  let yd ← newDict ops true y
  let marked ← forN y.length (fun i (marked : List (Option Bool)) => do
    let hash ← dictHashWith ops xd yd i
    match ← rd xd.key hash with
    | none => .ok marked
    | some loc => wr marked loc (some true)) (List.replicate x.length (some false))
  let n ← countMarked marked x.length
  let loc ← collectMarked marked x.length (alloc Nat n)
  let loc ← initd loc
  sliceLoc x loc

/-- `vec_set_difference`, src/set.c:143-250. -/
def setDifference (ops : PolyOps α) (x y : List α) : C (List α) := do
  let xd ← newDict ops false x
  let (xd, marked) ← loadMark ops xd x.length (alloc Bool x.length)
  let yd ← newDict ops true y
  let marked ← forN y.length (fun i (marked : List (Option Bool)) => do
    let hash ← dictHashWith ops xd yd i
    match ← rd xd.key hash with
    | none => .ok marked
    | some loc => wr marked loc (some false)) marked
  let n ← countMarked marked x.length
  let loc ← collectMarked marked x.length (alloc Nat n)
  let loc ← initd loc
  sliceLoc x loc

/-- `vec_set_union`, src/set.c:269-426.  A count decremented below zero would be passed to
`r_int_resize()`; it is reported as `ub`. -/
def setUnion (ops : PolyOps α) (x y : List α) : C (List α) := do
  let xd ← newDict ops false x
  let (xd, marked) ← loadMark ops xd x.length (alloc Bool x.length)
  let loc ← collectMarked marked x.length (alloc Nat xd.used)
  let xloc ← initd loc
  let xs ← sliceLoc x xloc
  let marked := resize marked y.length
  let yd ← newDict ops false y
  let (yd, marked) ← loadMark ops yd y.length marked
  let (marked, n) ← forN y.length (fun i (s : List (Option Bool) × Nat) => do
    let (marked, n) := s
    let b ← rdU marked i
    if !b then .ok (marked, n)
    else do
      let hash ← dictHashWith ops xd yd i
      let key ← rd xd.key hash
      let marked ← wr marked i (some (!key.isSome))
      if key.isSome ∧ n = 0 then .error .ub
      else .ok (marked, n - (if key.isSome then 1 else 0))) (marked, yd.used)
  let loc ← collectMarked marked y.length (resize loc n)
  let yloc ← initd loc
  let ys ← sliceLoc y yloc
  .ok (xs ++ ys)

/-- `vec_set_symmetric_difference`, src/set.c:445-608. -/
def setSymmetricDifference (ops : PolyOps α) (x y : List α) : C (List α) := do
  let xd ← newDict ops false x
  let yd ← newDict ops false y
  let (xd, xmarked) ← loadMark ops xd x.length (alloc Bool x.length)
  let (yd, ymarked) ← loadMark ops yd y.length (alloc Bool y.length)
  let (xmarked, ymarked, nx, ny) ← forN y.length
    (fun i (s : List (Option Bool) × List (Option Bool) × Nat × Nat) => do
      let (xmarked, ymarked, nx, ny) := s
      let b ← rdU ymarked i
      if !b then .ok (xmarked, ymarked, nx, ny)
      else do
        let hash ← dictHashWith ops xd yd i
        match ← rd xd.key hash with
        | none => .ok (xmarked, ymarked, nx, ny)
        | some loc => do
          let xmarked ← wr xmarked loc (some false)
          let ymarked ← wr ymarked i (some false)
          if nx = 0 ∨ ny = 0 then .error .ub
          else .ok (xmarked, ymarked, nx - 1, ny - 1)) (xmarked, ymarked, xd.used, yd.used)
  let loc ← collectMarked xmarked x.length (alloc Nat nx)
  let xloc ← initd loc
  let xs ← sliceLoc x xloc
  let loc ← collectMarked ymarked y.length (resize loc ny)
  let yloc ← initd loc
  let ys ← sliceLoc y yloc
  .ok (xs ++ ys)

end Vctrs
