import Verif.Model.Rbind
import Verif.Model.Chop

/-!
# Assigning and unchopping with names: src/slice-assign.c, src/c-unchop.c

Values are those of Table.lean.
-/

namespace Vctrs

/-! ## vec_assign -/

/-- `vec_assign_opts`, src/slice-assign.c:6-43; `keep` is `assign_names`.  `value` has been cast to the type
of `x`, src/slice-assign.c:31.  The columns of data frames are restored after all of them have been
assigned, not one after the other. -/
def nvalAssignAt (h : Name → BitVec 32) (keep : Bool) (x : NVal) (i : RSubscript) (value : NVal) : C NVal :=
  match x with
  | .null => .ok .null
  | x =>
    if value.isNull then .error .abort
    else do
      let loc ← vecAsLocation i x.size (nameStrings x.vnames) {}
      let value ← nvalRecycle h value loc.length
      let out ← nvalAssign keep (.locs loc) x value
      nvalRestore h out

/-! ## list_unchop -/

/-- State of the loop of `list_unchop`. -/
structure UState where
  out : NVal
  outNames : Option (List Name)

/-- A turn of the loop of `list_unchop`, src/c-unchop.c:126-166; inputs have been cast to the type of the
output, and the names are those before the cast. -/
def unchopNamesTurn (h : Name → BitVec 32) (spec : NameSpec) (xs : List NVal) (locs : List (List Int)) (nOut : Nat)
    (names : Option (List Name)) (i : Nat) (s : UState) : C UState := do
  let x ← rd xs i
  if x.isNull then .ok s
  else do
    let loc ← rd locs i
    let x ← nvalRecycle h x loc.length
    let outNames ← (if !spec.isZap then do
        let outer ← outerOf names i
        let nms ← applyNameSpec spec outer x.vnames loc.length
        cNames s.outNames nOut (.locs loc) nms
      else .ok s.outNames : C (Option (List Name)))
    let out ← nvalAssignBody (!spec.isZap) (.locs loc) s.out x
    .ok ⟨out, outNames⟩

/-- `list_unchop` after the common type `ptype` is known, src/c-unchop.c:75-186.  Names of the inputs are
not used for data frames. -/
def unchopNamesFrom (h : Name → BitVec 32) (xs : List NVal) (indices : List RSubscript) (names : Option (List Name))
    (ptype : NVal) (spec : NameSpec) (repair : NameRepair) : C NVal := do
  let nOut ← forN indices.length (fun i (n : Nat) => do
    let index ← rd indices i
    .ok (n + indexLength index)) 0
  let locs ← listAsLocations indices nOut
  let out ← nvalInit h ptype nOut
  let s ← forN xs.length (unchopNamesTurn h spec xs locs nOut (if ptype.isDf then none else names)) ⟨out, none⟩
  cFinish h spec repair s.out s.outNames

/-- `list_unchop` with indices, src/c-unchop.c:13-187. -/
def listUnchopNames (h : Name → BitVec 32) (xs : List NVal) (indices : List RSubscript) (names : Option (List Name))
    (ptype : NVal) (spec : NameSpec) (repair : NameRepair) : C NVal :=
  if xs.length ≠ indices.length then .error .abort
  else if ptype.isNull then .ok .null
  else unchopNamesFrom h xs indices names ptype spec repair

end Vctrs
