import Verif.Model.Dict

/-!
# User-level functions of `src/dictionary.c`

R integers with NA are `Option Nat`.  `growable` vectors (`new_growable`,
`growable_push_int`, src/growable.h) are modelled as lists with append; their capacity
doubling is not modelled.
-/

namespace Vctrs

variable {α : Type _}

/-- `vctrs_unique_loc`, src/dictionary.c:213-240. -/
def uniqueLoc (ops : PolyOps α) (x : List α) : C (List Nat) := do
  let d ← newDict ops false x
  let (_, g) ← forN x.length (fun i (s : Dict α × List Nat) => do
    let (d, g) := s
    let hash ← dictHashScalar ops d i
    match ← rd d.key hash with
    | none => do
      let d ← dictPut d hash i
      .ok (d, g ++ [i + 1])
    | some _ => .ok (d, g)) (d, [])
  .ok g

/-- `vec_slice_unsafe(x, loc)` for one-based, non-missing locations (src/slice.c:5-19,
`SLICE_SUBSCRIPT`).  A location of 0 or past the end is out of bounds. -/
def sliceLoc (x : List α) : List Nat → C (List α)
  | [] => .ok []
  | l :: ls => do
    let a ← if l = 0 then .error .ub else rd x (l - 1)
    let r ← sliceLoc x ls
    .ok (a :: r)

/-- `vec_unique`, src/dictionary.c:243-248. -/
def vecUnique (ops : PolyOps α) (x : List α) : C (List α) := do
  let index ← uniqueLoc ops x
  sliceLoc x index

/-- `duplicated_any`, src/dictionary.c:256-282. -/
def duplicatedAny (ops : PolyOps α) (x : List α) : C Bool := do
  let d ← newDict ops false x
  let (_, out) ← forBrk x.length (fun i (s : Dict α × Bool) => do
    let (d, out) := s
    let hash ← dictHashScalar ops d i
    match ← rd d.key hash with
    | none => do
      let d ← dictPut d hash i
      .ok (.next (d, out))
    | some _ => .ok (.brk (d, true))) (d, false)
  .ok out

/-- The loading loop shared by `vctrs_n_distinct` (src/dictionary.c:295-301),
`vec_match_params` (:401-407), `vctrs_in` (:508-514) and `vec_set_intersect`
(src/set.c:79-85). -/
def loadDict (ops : PolyOps α) (d : Dict α) (n : Nat) : C (Dict α) :=
  forN n (fun i d => do
    let hash ← dictHashScalar ops d i
    match ← rd d.key hash with
    | none => dictPut d hash i
    | some _ => .ok d) d

/-- `vctrs_n_distinct`, src/dictionary.c:284-305. -/
def nDistinct (ops : PolyOps α) (x : List α) : C Nat := do
  let d ← newDict ops false x
  let d ← loadDict ops d x.length
  .ok d.used

/-- `vctrs_id`, src/dictionary.c:307-332. -/
def duplicateId (ops : PolyOps α) (x : List α) : C (List Nat) := do
  let d ← newDict ops false x
  let (_, out) ← forN x.length (fun i (s : Dict α × List (Option Nat)) => do
    let (d, out) := s
    let hash ← dictHashScalar ops d i
    let key ← rd d.key hash
    let d ← (match key with
      | none => dictPut d hash i
      | some _ => .ok d : C (Dict α))
    match ← rd d.key hash with
    | none => .error .ub
    | some key => do
      let out ← wr out i (some (key + 1))
      .ok (d, out)) (d, alloc Nat x.length)
  initd out

/-- `dict_is_incomplete`, src/dictionary.c:157-160; `HASH_MISSING` is 1 (hash.h:4). -/
def dictIsIncomplete (incomplete : α → Bool) (d : Dict α) (i : Nat) : C Bool := do
  let h ← rd d.hash i
  if h = 1 then do
    let a ← rd d.vec i
    .ok (incomplete a)
  else .ok false

/-- `vec_match_params` after casting, src/dictionary.c:394-424, with `vec_match_loop`
(:426-440) for `naEqual` and `vec_match_loop_propagate` (:441-460) otherwise.  `ops.hash` is
the hash filled with the same `na_equal` for both dictionaries. -/
def vecMatch (ops : PolyOps α) (incomplete : α → Bool) (naEqual : Bool)
    (needles haystack : List α) : C (List (Option Nat)) := do
  let d ← newDict ops false haystack
  let d ← loadDict ops d haystack.length
  let dn ← newDict ops true needles
  let out ← forN needles.length (fun i (out : List (Option (Option Nat))) => do
    let skip ← (if naEqual then .ok false else dictIsIncomplete incomplete dn i : C Bool)
    if skip then wr out i (some none)
    else do
      let hash ← dictHashWith ops d dn i
      match ← rd d.key hash with
      | none => wr out i (some none)
      | some key => wr out i (some (some (key + 1)))) (alloc (Option Nat) needles.length)
  initd out

/-- `vctrs_in` after casting, src/dictionary.c:501-536.  Logical NA is `none`. -/
def vecIn (ops : PolyOps α) (incomplete : α → Bool) (naEqual : Bool)
    (needles haystack : List α) : C (List (Option Bool)) := do
  let d ← newDict ops false haystack
  let d ← loadDict ops d haystack.length
  let dn ← newDict ops true needles
  let out ← forN needles.length (fun i (out : List (Option (Option Bool))) => do
    let skip ← (if !naEqual then dictIsIncomplete incomplete dn i else .ok false : C Bool)
    if skip then wr out i (some none)
    else do
      let hash ← dictHashWith ops d dn i
      let key ← rd d.key hash
      wr out i (some (some key.isSome))) (alloc (Option Bool) needles.length)
  initd out

/-- `vctrs_count`, src/dictionary.c:538-593.  The count buffer is compacted in place, as in
the code (`p_out_count` aliases `p_count`, :567-578). -/
def vecCount (ops : PolyOps α) (x : List α) : C (List Nat × List Nat) := do
  let d ← newDict ops false x
  let (d, count) ← forN x.length (fun i (s : Dict α × List (Option Nat)) => do
    let (d, count) := s
    let hash ← dictHashScalar ops d i
    let key ← rd d.key hash
    let (d, count) ← (match key with
      | none => do
        let d ← dictPut d hash i
        let count ← wr count hash (some 0)
        .ok (d, count)
      | some _ => .ok (d, count) : C (Dict α × List (Option Nat)))
    let c ← rdU count hash
    let count ← wr count hash (some (c + 1))
    .ok (d, count)) (d, alloc Nat d.key.length)
  let (loc, count, _) ← forN d.key.length
    (fun hash (s : List (Option Nat) × List (Option Nat) × Nat) => do
      let (loc, count, i) := s
      match ← rd d.key hash with
      | none => .ok (loc, count, i)
      | some key => do
        let loc ← wr loc i (some (key + 1))
        let c ← rdU count hash
        let count ← wr count i (some c)
        .ok (loc, count, i + 1)) (alloc Nat d.used, count, 0)
  let loc ← initd loc
  let count ← initd (count.take d.used)
  .ok (loc, count)

/-- `vctrs_duplicated`, src/dictionary.c:595-641: a forward pass, clearing of the keys and a
reverse pass over the remembered slots. -/
def duplicatedDetect (ops : PolyOps α) (x : List α) : C (List Bool) := do
  let d ← newDict ops false x
  let (d, out, hashes) ← forN x.length
    (fun i (s : Dict α × List Bool × List (Option Nat)) => do
      let (d, out, hashes) := s
      let hash ← dictHashScalar ops d i
      let hashes ← wr hashes i (some hash)
      match ← rd d.key hash with
      | none => do
        let d ← dictPut d hash i
        .ok (d, out, hashes)
      | some _ => do
        let out ← wr out i true
        .ok (d, out, hashes)) (d, List.replicate x.length false, alloc Nat x.length)
  let key ← forN d.key.length (fun i key => wr key i none) d.key
  let d := { d with key := key }
  let (_, out) ← forDown (fun i (s : Dict α × List Bool) => do
    let (d, out) := s
    let hash ← rdU hashes i
    match ← rd d.key hash with
    | none => do
      let d ← dictPut d hash i
      .ok (d, out)
    | some _ => do
      let out ← wr out i true
      .ok (d, out)) x.length (d, out)
  .ok out

end Vctrs
