import Verif.Base

/-!
# Normalising encodings

src/translate.c, on a heap of objects that may be shared.
-/

namespace Vctrs

/-- What an object holds: strings, or (addresses of) elements, or neither. -/
inductive TKind (S : Type) where
  | chr (l : List S)
  | list (l : List Nat)
  | other

/-- An object: its type and data, the tags and values (addresses) of its attributes, and `MAYBE_REFERENCED`. -/
structure TObj (S : Type) where
  kind : TKind S
  attrs : List (String × Nat)
  refd : Bool

/-- The objects of a session by address. -/
abbrev THeap (S : Type) := List (TObj S)

/-- The strings of a session: `isNorm` is `string_is_normalized`, src/translate.h:31-33, and `norm` is
`string_normalize`, src/translate.h:27-29, an error for strings marked as bytes. -/
structure TEnc (S : Type) where
  isNorm : S → Bool
  norm : S → C S

variable {S : Type}

/-- `r_clone`: a shallow copy, which nothing refers to. -/
def tClone (h : THeap S) (x : Nat) : C (THeap S × Nat) := do
  let o ← rd h x
  .ok (h ++ [{ o with refd := false }], h.length)

/-- `r_clone_referenced`. -/
def tCloneReferenced (h : THeap S) (x : Nat) : C (THeap S × Nat) := do
  let o ← rd h x
  if o.refd then tClone h x else .ok (h, x)

/-- `x` is referred to from now on: the count that `SET_VECTOR_ELT` and `SETCAR` raise.  Counts do not go down in
this model: an object that is let go is not looked at again. -/
def tMark (h : THeap S) (x : Nat) : C (THeap S) := do
  let o ← rd h x
  wr h x { o with refd := true }

/-- `chr_find_normalize_start`, src/translate.c:100-115. -/
def chrFindStart (E : TEnc S) (l : List S) : C Nat :=
  forBrk l.length (fun i (_ : Nat) => do
    let elt ← rd l i
    if E.isNorm elt then .ok (.next (i + 1)) else .ok (.brk i)) 0

/-- `SET_STRING_ELT`. -/
def tPokeChr (h : THeap S) (x i : Nat) (s : S) : C (THeap S) := do
  let o ← rd h x
  match o.kind with
  | .chr l => do
    let l ← wr l i s
    wr h x { o with kind := .chr l }
  | _ => .error .ub

/-- One step of the loop of `chr_normalize_encoding`, src/translate.c:85-93. -/
def chrNormStep (E : TEnc S) (x i : Nat) (h : THeap S) : C (THeap S) := do
  let o ← rd h x
  match o.kind with
  | .chr l => do
    let elt ← rd l i
    if E.isNorm elt then .ok h
    else do
      let s ← E.norm elt
      tPokeChr h x i s
  | _ => .error .ub

/-- `chr_normalize_encoding`, src/translate.c:71-98. -/
def chrNormalize (E : TEnc S) (h : THeap S) (x : Nat) (l : List S) : C (THeap S × Nat) := do
  let size := l.length
  let start ← chrFindStart E l
  if size = start then .ok (h, x)
  else do
    let (h, x) ← tCloneReferenced h x
    let h ← forFrom (fun i h => chrNormStep E x i h) start (size - start) h
    .ok (h, x)

/-- `SET_VECTOR_ELT`. -/
def tPokeList (h : THeap S) (x i v : Nat) : C (THeap S) := do
  let o ← rd h x
  match o.kind with
  | .list l => do
    let l ← wr l i v
    let h ← wr h x { o with kind := .list l }
    tMark h v
  | _ => .error .ub

/-- One step of the loop of `list_normalize_encoding`, src/translate.c:127-145; `rec` is
`obj_normalize_encoding`. -/
def listNormStep (rec : THeap S → Nat → C (THeap S × Nat)) (i : Nat) (s : THeap S × Nat) : C (THeap S × Nat) := do
  let (h, x) := s
  let o ← rd h x
  match o.kind with
  | .list l => do
    let eltOld ← rd l i
    let (h, eltNew) ← rec h eltOld
    if eltOld = eltNew then .ok (h, x)
    else do
      let (h, x) ← tCloneReferenced h x
      let h ← tPokeList h x i eltNew
      .ok (h, x)
  | _ => .error .ub

/-- `list_normalize_encoding`, src/translate.c:119-149. -/
def listNormalize (rec : THeap S → Nat → C (THeap S × Nat)) (h : THeap S) (x : Nat) (l : List Nat) :
    C (THeap S × Nat) :=
  forN l.length (listNormStep rec) (h, x)

/-- One step of the loop of `attrib_normalize_encoding`, src/translate.c:178-204.  The pairlist is copied before the
first change (`owned`), so it is a list of its own here. -/
def attribNormStep (rec : THeap S → Nat → C (THeap S × Nat)) (loc : Nat)
    (s : THeap S × List (String × Nat) × Bool) : C (THeap S × List (String × Nat) × Bool) := do
  let (h, attrs, owned) := s
  let (tag, eltOld) ← rd attrs loc
  let (h, eltNew) ← rec h eltOld
  if eltOld = eltNew then .ok (h, attrs, owned)
  else do
    let attrs ← wr attrs loc (tag, eltNew)
    let h ← tMark h eltNew
    .ok (h, attrs, true)

/-- `attrib_normalize_encoding`, src/translate.c:170-208: the attributes, and whether they are new. -/
def attribNormalize (rec : THeap S → Nat → C (THeap S × Nat)) (h : THeap S) (attrs : List (String × Nat)) :
    C (THeap S × List (String × Nat) × Bool) :=
  forN attrs.length (attribNormStep rec) (h, attrs, false)

/-- `r_poke_attrib`. -/
def tPokeAttrib (h : THeap S) (x : Nat) (attrs : List (String × Nat)) : C (THeap S) := do
  let o ← rd h x
  wr h x { o with attrs := attrs }

/-- `obj_attrib_normalize_encoding`, src/translate.c:155-168. -/
def objAttribNormalize (rec : THeap S → Nat → C (THeap S × Nat)) (h : THeap S) (x : Nat)
    (attrs : List (String × Nat)) : C (THeap S × Nat) := do
  let (h, attrs, changed) ← attribNormalize rec h attrs
  if !changed then .ok (h, x)
  else do
    let (h, x) ← tCloneReferenced h x
    let h ← tPokeAttrib h x attrs
    .ok (h, x)

/-- The switch of `obj_normalize_encoding`, src/translate.c:50-54. -/
def dataNormalize (E : TEnc S) (rec : THeap S → Nat → C (THeap S × Nat)) (h : THeap S) (x : Nat) :
    C (THeap S × Nat) := do
  let o ← rd h x
  match o.kind with
  | .chr l => chrNormalize E h x l
  | .list l => listNormalize rec h x l
  | .other => .ok (h, x)

/-- `obj_normalize_encoding`, src/translate.c:48-65.  `fuel` bounds the depth of the recursion. -/
def objNormalize (E : TEnc S) : Nat → THeap S → Nat → C (THeap S × Nat)
  | 0, _, _ => .error .diverge
  | fuel + 1, h, x => do
    let (h, x) ← dataNormalize E (objNormalize E fuel) h x
    let o ← rd h x
    if o.attrs = [] then .ok (h, x)
    else objAttribNormalize (objNormalize E fuel) h x o.attrs

end Vctrs
