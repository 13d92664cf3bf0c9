import Verif.Model.Subscript
import Verif.Model.Size
import Verif.Model.Expand

/-!
# Chopping, unchopping, concatenation: src/slice-chop.c, src/c-unchop.c, src/c.c,
src/slice-interleave.c, src/slice.c, src/slice-assign.c

Vectors are lists of elements of one type: finding the common type, casting to it, proxies and
restoration are not part of this model, nor are names, name specifications and the fallbacks for
foreign classes.  `NULL` elements of a list are `none`.
-/

namespace Vctrs

variable {α : Type}

/-- `vec_slice`, src/slice.c:409-425, on a bare vector with names `names`. -/
def vecSlice (na : α) (x : List α) (names : Option (List RStr)) (i : RSubscript) : C (List α) := do
  let loc ← vecAsLocation i x.length names {}
  sliceBase na x (.locs loc)

/-- `vec_assign_opts`, src/slice-assign.c:6-42: locations, recycling of the value to their number,
assignment.  Copying is the subject of `assignHeap`. -/
def vecAssign (na : α) (x : List α) (names : Option (List RStr)) (i : RSubscript) (value : List α) :
    C (List α) := do
  let loc ← vecAsLocation i x.length names {}
  match ← vecCheckRecycle na (.vec value) loc.length with
  | .vec v => assignBase x (.locs loc) v
  | _ => .error .internal

/-- `vec_init`, src/slice.c:427-440: a size beyond `INT_MAX` is converted to `R_len_t`, which is
implementation defined and modelled as `ub`. -/
def vecInit (na : α) (ptype : List α) (n : Nat) : C (List α) := do
  if n > intMax then .error .ub
  else do
    let i ← compactRep naInt n
    sliceBase na ptype i

/-! ## vec_chop -/

/-- The options of `list_as_locations`, src/slice-chop.c:489-499. -/
def chopOpts : LocOpts := { negative := .error, oob := .error, zero := .error, missing := .propagate }

/-- `vec_as_subscript_opts`, src/subscript.c:5-95 under those options: `NULL` and unspecified logical
vectors become integers, other logical and character vectors are errors. -/
def chopSubscript (i : RSubscript) : C RSubscript :=
  match i with
  | .null => .ok (.int [])
  | .int l => .ok (.int l)
  | .lgl l => if l.all (fun v => v.isNone) then .ok (.int (List.replicate l.length naInt)) else .error .abort
  | .chr _ => .error .abort

/-- `list_as_locations`, src/slice-chop.c:478-509. -/
def listAsLocations (indices : List RSubscript) (n : Nat) : C (List (List Int)) := do
  let out ← forN indices.length (fun i (out : List (Option (List Int))) => do
    let index ← rd indices i
    let index ← chopSubscript index
    let loc ← vecAsLocation index n none chopOpts
    wr out i (some loc)) (alloc (List Int) indices.length)
  initd out

/-- `vec_as_chop_sizes`, src/slice-chop.c:512-546, after the cast to integer. -/
def vecAsChopSizes (sizes : List Int) (size : Nat) : C (List Int) := do
  let total ← forN sizes.length (fun i (total : Int) => do
    let elt ← rd sizes i
    if elt = naInt then .error .abort
    else if elt < 0 then .error .abort
    else if elt > (size : Int) then .error .abort
    else .ok (total + elt)) 0
  if total ≠ (size : Int) then .error .abort else .ok sizes

/-- `indices` and `sizes` of `struct vctrs_chop_indices`, src/slice-chop.c:5-60. -/
inductive ChopBy where
  | indices (l : List (List Int))
  | sizes (l : List Int)
  | each
  deriving DecidableEq, Repr

/-- `indices_next`, src/slice-chop.c:116-132.  The state is `(loc, p_index[0], p_index[1])`, initially
`(0, 0, 0)` (:66-108). -/
def indicesNext (by_ : ChopBy) (s : Nat × Int × Int) : C (Subscript × (Nat × Int × Int)) :=
  match by_ with
  | .indices l => do
    let index ← rd l s.1
    .ok (.locs index, (s.1 + 1, s.2.1, s.2.2))
  | .sizes l => do
    let start := s.2.1 + s.2.2
    let size ← rd l s.1
    .ok (.seq start size 1, (s.1 + 1, start, size))
  | .each => .ok (.locs [(s.1 : Int) + 1], (s.1 + 1, (s.1 : Int) + 1, s.2.2))

/-- `indices_out_size`, src/slice-chop.c:135-143. -/
def indicesOutSize (by_ : ChopBy) (n : Nat) : Nat :=
  match by_ with
  | .indices l => l.length
  | .sizes l => l.length
  | .each => n

/-- `chop`, src/slice-chop.c:251-289. -/
def chop (na : α) (x : List α) (by_ : ChopBy) : C (List (List α)) := do
  let outSize := indicesOutSize by_ x.length
  let (out, _) ← forN outSize (fun i (s : List (Option (List α)) × (Nat × Int × Int)) => do
    let (index, st) ← indicesNext by_ s.2
    let elt ← sliceBase na x index
    let out ← wr s.1 i (some elt)
    .ok (out, st)) (alloc (List α) outSize, (0, 0, 0))
  initd out

/-- `chop_df`, src/slice-chop.c:292-354, for atomic columns: element `j` is the list of columns with
its number of rows. -/
def chopDf (na : α) (size : Nat) (cols : List (List α)) (by_ : ChopBy) : C (List (Int × List (List α))) := do
  let outSize := indicesOutSize by_ size
  let (out, _) ← forN outSize
    (fun i (s : List (Option (Int × List (Option (List α)))) × (Nat × Int × Int)) => do
      let (index, st) ← indicesNext by_ s.2
      let out ← wr s.1 i (some (subscriptSize index, alloc (List α) cols.length))
      .ok (out, st)) (alloc (Int × List (Option (List α))) outSize, (0, 0, 0))
  let out ← forN cols.length (fun i out => do
    let col ← rd cols i
    let chopped ← chop na col by_
    forN outSize (fun j out => do
      let elt ← rdU out j
      let v ← rd chopped j
      let elt2 ← wr elt.2 i (some v)
      wr out j (some (elt.1, elt2))) out) out
  let out ← initd out
  out.mapM (fun e => do
    let c ← initd e.2
    .ok (e.1, c))

/-- `vec_chop`, src/slice-chop.c:171-193, on a bare vector. -/
def vecChop (na : α) (x : List α) (indices : Option (List RSubscript)) (sizes : Option (List Int)) :
    C (List (List α)) := do
  match indices, sizes with
  | some _, some _ => .error .abort
  | some indices, none => do
    let locs ← listAsLocations indices x.length
    chop na x (.indices locs)
  | none, some sizes => do
    let sizes ← vecAsChopSizes sizes x.length
    chop na x (.sizes sizes)
  | none, none => chop na x .each

/-! ## vec_c and list_unchop -/

/-- `(x == r_null) ? 0 : vec_size(x)`, src/c.c:61. -/
def sizeOrZero (x : Option (List α)) : Nat :=
  match x with
  | none => 0
  | some x => x.length

/-- `vec_c_opts`, src/c.c:18-160; `none` is `NULL` (no common type). -/
def vecC (na : α) (xs : List (Option (List α))) : C (Option (List α)) := do
  if xs.all (fun x => x.isNone) then .ok none
  else do
    let (sizes, outSize) ← forN xs.length (fun i (s : List (Option Nat) × Nat) => do
      let x ← rd xs i
      let size := sizeOrZero x
      let sizes ← wr s.1 i (some size)
      .ok (sizes, s.2 + size)) (alloc Nat xs.length, 0)
    let out ← vecInit na [] outSize
    let (out, _) ← forN xs.length (fun i (s : List α × Nat) => do
      let x ← rd xs i
      let size ← rdU sizes i
      if size = 0 then .ok s
      else match x with
        | none => .error .internal
        | some x => do
          let out ← assignBase s.1 (.seq (s.2 : Int) (size : Int) 1) x
          .ok (out, s.2 + size)) (out, 0)
    .ok (some out)

/-- `r_length()` of an index. -/
def indexLength (i : RSubscript) : Nat :=
  match i with
  | .null => 0
  | .lgl l => l.length
  | .int l => l.length
  | .chr l => l.length

/-- One turn of the loop of `list_unchop`, src/c-unchop.c:124-165. -/
def unchopTurn (na : α) (locs : List (List Int)) (i : Nat) (proxy : List α) (x : Option (List α)) :
    C (List α) :=
  match x with
  | none => .ok proxy
  | some x => do
    let loc ← rd locs i
    match ← vecCheckRecycle na (.vec x) loc.length with
    | .vec x => assignBase proxy (.locs loc) x
    | _ => .error .internal

/-- `list_unchop` with indices, src/c-unchop.c:13-184; `none` is `NULL` (no common type). -/
def listUnchop (na : α) (xs : List (Option (List α))) (indices : List RSubscript) : C (Option (List α)) := do
  if xs.length ≠ indices.length then .error .abort
  else if xs.all (fun x => x.isNone) then .ok none
  else do
    let outSize ← forN xs.length (fun i (n : Nat) => do
      let index ← rd indices i
      .ok (n + indexLength index)) 0
    let locs ← listAsLocations indices outSize
    let proxy ← vecInit na [] outSize
    let proxy ← forN xs.length (fun i (proxy : List α) => do
      let x ← rd xs i
      unchopTurn na locs i proxy x) proxy
    .ok (some proxy)

/-- `list_unchop()` without indices, src/c-unchop.c:22-24. -/
def listUnchopNull (na : α) (xs : List (Option (List α))) : C (Option (List α)) := vecC na xs

/-- An input of `vec_size_common()`, R/slice-interleave.R:53. -/
def optArg (x : Option (List α)) : Arg α :=
  match x with
  | none => .null
  | some x => .vec x

/-- `vec_interleave`, R/slice-interleave.R:39-63: `NULL`s are dropped, the indices are built for the
common size (`.absent` is 0). -/
def vecInterleave (na : α) (args : List (Option (List α))) : C (Option (List α)) := do
  let missing := args.map (fun x => x.isNone)
  let args ← (if missing.any id then do
      let loc ← lglAsLocation (args.map (fun x => some (!x.isNone))) args.length {}
      sliceBase none args (.locs loc)
    else .ok args : C (List (Option (List α))))
  let n := args.length
  let size ← ffiSizeCommon (args.map (fun x => .plain (optArg x))) (some 0)
  let indices ← interleaveIndices n size.toNat
  listUnchop na args (indices.map (fun l => .int (l.map (fun i : Nat => (i : Int)))))

end Vctrs
