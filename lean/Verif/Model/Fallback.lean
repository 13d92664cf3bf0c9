import Verif.Model.DfType

/-!
# The `c()` fallback for foreign classes: src/c.c, src/c-unchop.c, src/bind.c, src/utils.c

Columns are bare vectors, vectors of a foreign class with a `c()` method, and data frames again.  A
common type may also contain sentinels (`vctrs:::common_class_fallback`, R/type2.R:245-251) in place
of foreign classes.  The methods `c()` are a parameter.  Names of elements, row names and attributes
are left out.
-/

namespace Vctrs

/-- A column: `vec none` is a bare vector, `vec (some k)` a vector of the foreign class `k`, `fb k` a
sentinel for that class, `df` a data frame.  `none` elements are missing values. -/
inductive FbCol where
  | vec (cls : Option Nat) (xs : List (Option Int))
  | fb (cls : Nat) (xs : List (Option Int))
  | df (names : List Name) (cols : List FbCol) (rows : Nat)

/-- `vec_size()`, src/size.c:30-66. -/
def FbCol.size : FbCol → Nat
  | .vec _ l => l.length
  | .fb _ l => l.length
  | .df _ _ n => n

mutual
/-- `df_needs_fallback`, src/c.c:428-445, on a data frame; see `needsCols`. -/
def FbCol.needs : FbCol → Bool
  | .vec _ _ => false
  | .fb _ _ => true
  | .df _ cols _ => needsCols cols
/-- The loop of `df_needs_fallback`, src/c.c:432-442: whether a column is a sentinel or a data frame
that needs the fallback. -/
def needsCols : List FbCol → Bool
  | [] => false
  | c :: l => c.needs || needsCols l
end

/-- `list_pluck`, src/utils.c:803-820, on inputs that are `NULL` (`none`) or columns.  `VECTOR_ELT()`
raises an error on a vector that is not a list, and reads past the end of a list that is too short. -/
def listPluck (xs : List (Option FbCol)) (i : Nat) : C (List (Option FbCol)) :=
  xs.mapM fun x =>
    match x with
    | none => .ok none
    | some (.df _ cols _) => do .ok (some (← rd cols i))
    | some _ => .error .abort

mutual
/-- The body of the loop of `df_c_fallback`, src/c.c:392-422, for one column `col` of the output and the
column `pcol` of the type.  `c k` is the method for class `k` (`vec_c_fallback`, src/c.c:272-305, for a
class that has one).  That the type is updated too (:419) is left out. -/
def fallbackCol (c : Nat → List (Option FbCol) → C FbCol) (xs : List (Option FbCol)) (n : Nat) (i : Nat) :
    FbCol → FbCol → C FbCol
  | .df _ pcols _, col =>
    match col with
    | .df cn ccols cr =>
      if needsCols pcols then do
        let xsCol ← listPluck xs i
        if pcols.length ≠ ccols.length then .error .internal else do
        let out ← fallbackCols c xsCol n 0 pcols ccols
        .ok (.df cn out cr)
      else .ok (.df cn ccols cr)
    | col => .ok col
  | .fb k _, col =>
    match col with
    | .df _ _ _ => .error .ub
    | _ => do
      let xsCol ← listPluck xs i
      let out ← c k xsCol
      if out.size ≠ n then .error .internal else .ok out
  | .vec _ _, col => .ok col
/-- The loop of `df_c_fallback`, src/c.c:392-423, over the columns from the `i`-th on. -/
def fallbackCols (c : Nat → List (Option FbCol) → C FbCol) (xs : List (Option FbCol)) (n : Nat) :
    Nat → List FbCol → List FbCol → C (List FbCol)
  | _, [], _ => .ok []
  | _, _ :: _, [] => .error .ub
  | i, p :: ps, col :: cols => do
    let out ← fallbackCol c xs n i p col
    let rest ← fallbackCols c xs n (i + 1) ps cols
    .ok (out :: rest)
end

/-- `df_c_fallback`, src/c.c:364-426, for the columns of the output and of the type. -/
def dfCFallback (c : Nat → List (Option FbCol) → C FbCol) (xs : List (Option FbCol)) (n : Nat)
    (ptype out : List FbCol) : C (List FbCol) :=
  if ptype.length ≠ out.length then .error .internal else fallbackCols c xs n 0 ptype out

/-! ## Data frames without data frame columns -/

/-- What the code does to columns with the fallback on.  A sentinel is the common type of two vectors of
the same foreign class (R/type2.R:128-133), and the type of one combined with unspecified
(src/ptype2.c:158-179).  Vectors of the class are cast to it as they are (R/cast.R:186-188).  There
are no data frame columns here. -/
def fbOps : ColOps FbCol where
  ptype2 x y :=
    match x, y with
    | .vec none _, .vec none _ => .ok (.vec none [])
    | .vec (some k) _, .vec (some j) _ => if k = j then .ok (.fb k []) else .error .abort
    | .fb k _, .vec (some j) _ => if k = j then .ok (.fb k []) else .error .abort
    | .vec (some k) _, .fb j _ => if k = j then .ok (.fb k []) else .error .abort
    | .fb k _, .fb j _ => if k = j then .ok (.fb k []) else .error .abort
    | _, _ => .error .abort
  ptype x :=
    match x with
    | .vec none _ => .ok (.vec none [])
    | .vec (some k) _ => .ok (.fb k [])
    | .fb k _ => .ok (.fb k [])
    | .df _ _ _ => .error .abort
  cast x ty :=
    match x, ty with
    | .vec none l, .vec none _ => .ok (.vec none l)
    | .vec (some k) l, .vec (some j) _ => if k = j then .ok (.vec (some k) l) else .error .abort
    | .vec (some k) l, .fb j _ => if k = j then .ok (.vec (some k) l) else .error .abort
    | _, _ => .error .abort
  init ty n :=
    match ty with
    | .vec k _ => .ok (.vec k (List.replicate n none))
    | .fb k _ => .ok (.fb k (List.replicate n none))
    | .df _ _ _ => .error .abort

/-- `vec_ptype()` of a column, src/ptype.c:21-43: no sentinel. -/
def FbCol.ptype0 : FbCol → FbCol
  | .vec k _ => .vec k []
  | .fb k _ => .fb k []
  | .df names cols _ => .df names cols 0

/-- One step of `vec_ptype_common_opts`, src/ptype-common.c:87-113, on data frames and `NULL`, with
`vec_ptype2_opts_impl`, src/ptype2.c:39-46: `NULL` on the left gives the type of the other input, and
on the right the common type of the left input with itself. -/
def fbTypeStep (hash : Name → BitVec 32) (cur x : Option (Df FbCol)) : C (Option (Df FbCol)) :=
  match cur, x with
  | none, none => .ok none
  | none, some x => .ok (some ⟨x.names, x.cols.map FbCol.ptype0, 0⟩)
  | some p, none => do .ok (some (← dfPtype2 hash fbOps p p))
  | some p, some x => do .ok (some (← dfPtype2 hash fbOps p x))

/-- `vec_ptype_common_opts`, src/ptype-common.c:43-68, without `ptype`. -/
def fbType (hash : Name → BitVec 32) (xs : List (Option (Df FbCol))) : C (Option (Df FbCol)) :=
  xs.foldlM (fbTypeStep hash) none

/-- A data frame as a column. -/
def Df.asCol (d : Df FbCol) : FbCol := .df d.names d.cols d.size

/-- The number of rows of an input; `NULL` has none. -/
def fbRows (x : Option (Df FbCol)) : Nat :=
  match x with
  | none => 0
  | some d => d.size

/-- The cast of one input, skipped if it has no rows (src/c.c:137-139). -/
def fbCast (hash : Name → BitVec 32) (p : Df FbCol) (x : Option (Df FbCol)) : C (Option (Df FbCol)) :=
  match x with
  | none => .ok none
  | some d => if d.size = 0 then .ok none else do .ok (some (← dfCast hash fbOps d p))

/-- Elements of the `j`-th column of a cast input. -/
def fbElts (j : Nat) (x : Option (Df FbCol)) : C (List (Option Int)) :=
  match x with
  | none => .ok []
  | some d => do
    match ← rd d.cols j with
    | .vec _ l => .ok l
    | .fb _ l => .ok l
    | .df _ _ _ => .error .abort

/-- The `j`-th column of the output before the fallback, src/c.c:112-148 or src/bind.c:197-236: the
elements of the inputs one after the other.  Nothing is assigned to a sentinel
(src/slice-assign.c:150-152). -/
def fbOutCol (casted : List (Option (Df FbCol))) (n : Nat) (p : FbCol) (j : Nat) : C FbCol :=
  match p with
  | .vec k _ => do
    let parts ← casted.mapM (fbElts j)
    .ok (.vec k parts.flatten)
  | .fb k _ => .ok (.fb k (List.replicate n none))
  | .df _ _ _ => .error .abort

/-- All columns of the output before the fallback; see `fbOutCol`. -/
def fbOutCols (casted : List (Option (Df FbCol))) (n : Nat) (ps : List FbCol) : C (List FbCol) :=
  ps.zipIdx.mapM fun (p, j) => fbOutCol casted n p j

/-- `vec_c_opts`, src/c.c:18-167, on data frames and `NULL`: the columns are found by name for the cast, but
the fallback gets the inputs as they are (src/c.c:151). -/
def vecCDf (hash : Name → BitVec 32) (c : Nat → List (Option FbCol) → C FbCol)
    (xs : List (Option (Df FbCol))) : C (Option (Df FbCol)) := do
  match ← fbType hash xs with
  | none => .ok none
  | some p => do
    let n := (xs.map fbRows).sum
    let casted ← xs.mapM (fbCast hash p)
    let out0 ← fbOutCols casted n p.cols
    let out ← dfCFallback c (xs.map (·.map Df.asCol)) n p.cols out0
    .ok (some ⟨p.names, out, n⟩)

/-- The cast of one input of `vec_rbind()`, src/bind.c:117-121. -/
def fbCastAll (hash : Name → BitVec 32) (p : Df FbCol) (x : Option (Df FbCol)) : C (Option (Df FbCol)) :=
  match x with
  | none => .ok none
  | some d => do .ok (some (← dfCast hash fbOps d p))

/-- `vec_rbind`, src/bind.c:56-252, on data frames and `NULL`: the fallback gets the cast inputs
(src/bind.c:117-122 and :243). -/
def vecRbindFb (hash : Name → BitVec 32) (c : Nat → List (Option FbCol) → C FbCol)
    (xs : List (Option (Df FbCol))) : C (Option (Df FbCol)) := do
  match ← fbType hash xs with
  | none => .ok none
  | some p => do
    let casted ← xs.mapM (fbCastAll hash p)
    let n := (casted.map fbRows).sum
    let out0 ← fbOutCols casted n p.cols
    let out ← dfCFallback c (casted.map (·.map Df.asCol)) n p.cols out0
    .ok (some ⟨p.names, out, n⟩)

/-- Writes the elements of one input to their locations (0-based), src/c-unchop.c:118-163. -/
def fbScatter (out : List (Option Int)) (vals : List (Option Int)) (loc : List Nat) : C (List (Option Int)) :=
  (loc.zip vals).foldlM (fun o (e : Nat × Option Int) => wr o e.1 e.2) out

/-- The `j`-th column of the output of `list_unchop()` before the fallback. -/
def unchopOutCol (casted : List (Option (Df FbCol))) (locs : List (List Nat)) (n : Nat) (p : FbCol) (j : Nat) :
    C FbCol :=
  match p with
  | .vec k _ => do
    let parts ← casted.mapM (fbElts j)
    let out ← (parts.zip locs).foldlM (fun o (e : List (Option Int) × List Nat) => fbScatter o e.1 e.2)
      (List.replicate n none)
    .ok (.vec k out)
  | .fb k _ => .ok (.fb k (List.replicate n none))
  | .df _ _ _ => .error .abort

/-- `list_unchop`, src/c-unchop.c:5-183, on data frames and `NULL` with locations.  Inputs are taken to be
as long as their locations (no recycling).  The fallback gets neither the cast inputs nor the
locations (src/c-unchop.c:166-168). -/
def unchopDf (hash : Name → BitVec 32) (c : Nat → List (Option FbCol) → C FbCol)
    (xs : List (Option (Df FbCol))) (locs : List (List Nat)) : C (Option (Df FbCol)) := do
  match ← fbType hash xs with
  | none => .ok none
  | some p => do
    let n := (locs.map List.length).sum
    let casted ← xs.mapM (fbCastAll hash p)
    let out0 ← p.cols.zipIdx.mapM fun (pc, j) => unchopOutCol casted locs n pc j
    let out ← dfCFallback c (xs.map (·.map Df.asCol)) n p.cols out0
    .ok (some ⟨p.names, out, n⟩)

end Vctrs
