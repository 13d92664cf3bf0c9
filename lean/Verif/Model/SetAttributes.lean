import Verif.Model.Restore

/-!
# Setting all attributes: src/utils.c

`vec_set_attributes()`, with which `new_vctr()` (R/type-vctr.R:98) and `vec_data()` (R/proxy.R:211-213) make
their results.  R/zzz.R:97-111 uses the function of C before R 3.6.0.
-/

namespace Vctrs

/-- `Rf_setAttrib` for the attributes that depend on one another: `dimnames` is an error without `dim`, and
setting `dim` removes `dimnames`.  That `names` of a vector with one dimension are its `dimnames`, and checks of
lengths, are left out.  The object bit follows the class. -/
def setAttribR (σ : OHeap) (x : Nat) (tag : AttrTag) (v : Option AttrVal) : C OHeap :=
  if tag = .dim then do
    let σ ← attribPoke σ x .dimNames none
    attribPoke σ x .dim v
  else if tag = .dimNames ∧ v ≠ none then do
    let o ← rd σ.objs x
    match ← pairlistGet σ.nodes.length σ.nodes o.attrib .dim with
    | none => .error .abort
    | some _ => attribPoke σ x .dimNames v
  else attribPoke σ x tag v

/-- The check that every attribute has a name, src/utils.c:287-294. -/
def checkAttribNames (names : List Name) (n : Nat) : C Unit :=
  forN n (fun i _ => do
    let s ← rd names i
    if s = none ∨ s = some [] then .error .abort else .ok ()) ()

/-- The position of `dim`, src/utils.c:297-303; `none` is -1. -/
def findDimPos (names : List Name) (n : Nat) : C (Option Nat) :=
  forBrk n (fun i (_ : Option Nat) => do
    let s ← rd names i
    if s = some "dim".toList then .ok (.brk (some i)) else .ok (.next none)) none

/-- A turn of the loop that sets the attributes, src/utils.c:309-314; `sym` is `Rf_installChar`. -/
def setAttribTurn (sym : List Char → AttrTag) (names : List Name) (vals : List (Option AttrVal)) (x : Nat)
    (pos : Option Nat) (i : Nat) (σ : OHeap) : C OHeap :=
  if pos = some i then .ok σ
  else do
    match ← rd names i with
    | none => .error .ub
    | some s => do
      let v ← rd vals i
      setAttribR σ x (sym s) v

/-- `vctrs_set_attributes`, src/utils.c:264-318.  `vals` and `names` are the elements and the names of the list
`attrib`; an element `none` is `NULL`.  `r_clone_referenced` is taken to copy shared objects, as in `cloneObj`. -/
def setAttributes (sym : List Char → AttrTag) (σ : OHeap) (x : Nat) (names : Option (List Name))
    (vals : List (Option AttrVal)) : C (OHeap × Nat) := do
  let c ← cloneObj σ x false
  let x := c.2
  let σ ← pokeAttribs c.1 x none
  if vals.length = 0 then .ok (σ, x)
  else match names with
    | none => .error .abort
    | some names => do
      checkAttribNames names vals.length
      let pos ← findDimPos names vals.length
      let σ ← (match pos with
        | none => .ok σ
        | some d => do
          let v ← rd vals d
          setAttribR σ x .dim v : C OHeap)
      let σ ← forN vals.length (setAttribTurn sym names vals x pos) σ
      .ok (σ, x)

end Vctrs
