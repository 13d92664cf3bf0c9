import Verif.Model.Chop

/-!
# `vec_c()` and `list_unchop()` for foreign classes

src/c-unchop.c:218-303 (`list_unchop_fallback`), src/size.c:256-281 (`vec_recycle_fallback`),
src/c.c:306-338 (`vec_c_fallback_invoke`) and R/c.R:83-128 (`base_c_invoke`, `c_locs`), to which
src/c.c hands over.
-/

namespace Vctrs

variable {α : Type}

/-- An input of the fallback: a vector of the foreign class, a bare logical vector of `n` missing values,
or a `vctrs_unspecified` vector of size `n` (src/unspecified.c:9-18).  Attributes other than the class are not
modelled. -/
inductive FChunk (α : Type) where
  | vec (l : List α)
  | lgl (n : Nat)
  | unspec (n : Nat)
  deriving DecidableEq, Repr

/-- `vec_size()` of an input (`lengths()` in R/c.R:121). -/
def FChunk.size : FChunk α → Nat
  | .vec l => l.length
  | .lgl n => n
  | .unspec n => n

/-- `vec_is_unspecified`, src/unspecified.c:38-74, on these inputs: a bare logical of size 0 is not
unspecified (:62-65). -/
def FChunk.isUnspec : FChunk α → Bool
  | .vec _ => false
  | .lgl n => n != 0
  | .unspec _ => true

/-- What an input that is not unspecified brings to `c()` (R/c.R:78-81). -/
def FChunk.elts : FChunk α → C (List α)
  | .vec l => .ok l
  | .lgl 0 => .ok []
  | _ => .error .internal

/-- R's `seq(from, to)`, called at R/c.R:123; it counts down when `to` is the smaller one. -/
def rSeq (a b : Int) : List Int :=
  if a ≤ b then (List.range (b - a + 1).toNat).map (fun i : Nat => a + (i : Int))
  else (List.range (a - b + 1).toNat).map (fun i : Nat => a - (i : Int))

/-- `last`, R/utils.R:206-208; `x[[0]]` is an error. -/
def rLast {β : Type} (x : List β) : C β :=
  match x.getLast? with
  | some a => .ok a
  | none => .error .abort

/-- `c_locs`, R/c.R:120-128, on the sizes of the inputs. -/
def cLocs (lens : List Nat) : C (List (List Int)) := do
  let locs ← lens.foldlM (fun (output : List (List Int)) (input : Nat) => do
    let l ← rLast output
    let n ← rLast l
    .ok (output ++ [rSeq (n + 1) (n + input)])) [[0]]
  .ok (locs.drop 1)

/-- The two replacements in R/c.R:103-104: `locs` are the locations of all inputs, `spec` those of the
inputs that are not unspecified. -/
def mergeLocs : List (FChunk α) → List (List Int) → List (List Int) → C (List (List Int))
  | [], _, _ => .ok []
  | x :: xs, l :: ls, spec =>
    if x.isUnspec then do
      let out ← mergeLocs xs ls spec
      .ok (List.replicate l.length naInt :: out)
    else
      match spec with
      | s :: spec => do
        let out ← mergeLocs xs ls spec
        .ok (s :: out)
      | [] => .error .internal
  | _ :: _, [], _ => .error .internal

/-- One location of `x[i]` in R (R/c.R:108, R/slice.R:116-129): zeros select nothing, missing locations
and those past the end select a missing value. -/
def rBracketAt (na : α) (x : List α) (e : Int) : List α :=
  if e = 0 then []
  else if e = naInt then [na]
  else match x[(e - 1).toNat]? with
    | some a => [a]
    | none => [na]

/-- `x[i]`, R/c.R:108, and `vec_slice_fallback`, src/slice.c:211-223, on a vector without dimensions.
Negative locations are not used by the callers. -/
def rBracket (na : α) (x : List α) (locs : List Int) : C (List α) :=
  if locs.any (fun e => decide (e < 0) && decide (e ≠ naInt)) then .error .internal
  else .ok (locs.flatMap (rBracketAt na x))

/-- `base_c_invoke`, R/c.R:83-109; `bc` is the `c()` method of the class (`base_c`, :78-81). -/
def baseCInvoke (na : α) (bc : List (List α) → C (List α)) (xs : List (Option (FChunk α))) : C (List α) := do
  let xs := xs.filterMap id
  if !xs.any (fun x => x.isUnspec) then do
    let args ← xs.mapM FChunk.elts
    bc args
  else do
    let spec := xs.filter (fun x => !x.isUnspec)
    let args ← spec.mapM FChunk.elts
    let out ← bc args
    let locs ← cLocs (xs.map FChunk.size)
    let specLocs ← cLocs (spec.map FChunk.size)
    let locs ← mergeLocs xs locs specLocs
    rBracket na out locs.flatten

/-- `vec_c_fallback_invoke` and `vec_c_fallback_validate_args`, src/c.c:306-338: a name specification is
not supported. -/
def vecCFallbackInvoke (na : α) (bc : List (List α) → C (List α)) (nameSpec : Bool)
    (xs : List (Option (FChunk α))) : C (List α) :=
  if nameSpec then .error .abort else baseCInvoke na bc xs

/-- `vec_recycle_fallback`, src/size.c:256-281. -/
def recycleFallback (na : α) (x : Option (FChunk α)) (size : Nat) : C (Option (FChunk α)) :=
  match x with
  | none => .ok none
  | some x =>
    if x.size = size then .ok (some x)
    else if x.size = 1 then
      match x with
      | .vec l => do
        let l ← rBracket na l (List.replicate size 1)
        .ok (some (.vec l))
      | .lgl _ => .ok (some (.lgl size))
      | .unspec _ => .ok (some (.unspec size))
    else .error .abort

/-- `list_unchop_fallback`, src/c-unchop.c:218-303, after the check of the number of indices (:32-34).
`vec_c(indices, ptype = int())` is concatenation (C56). -/
def unchopFallback (na : α) (bc : List (List α) → C (List α)) (nameSpec : Bool) (xs : List (Option (FChunk α)))
    (indices : List RSubscript) : C (List α) := do
  if xs.length ≠ indices.length then .error .abort
  else do
    let (xs, outSize) ← forN xs.length (fun i (s : List (Option (FChunk α)) × Nat) => do
      let x ← rd s.1 i
      let index ← rd indices i
      let x ← recycleFallback na x (indexLength index)
      let xs ← wr s.1 i x
      .ok (xs, s.2 + indexLength index)) (xs, 0)
    let locs ← listAsLocations indices outSize
    let out ← vecCFallbackInvoke na bc nameSpec xs
    let pIndices := locs.flatten
    let locations ← forN outSize (fun i (p : List Int) => do
      let index ← rd pIndices i
      if index = naInt then .ok p
      else wrI p (index - 1) ((i : Int) + 1)) (List.replicate outSize naInt)
    rBracket na out locations

end Vctrs
