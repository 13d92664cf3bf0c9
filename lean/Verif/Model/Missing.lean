import Verif.Model.Equal

/-!
# Missingness and completeness of vectors and data frames (src/missing.c, src/complete.c)
-/

namespace Vctrs

/-- Selection of the scalar test, src/missing.c:57-84. -/
def missingScalar : (t : VTy) → t.El → Bool
  | .atom t, x => isMissing t x
  | .list, (x : Obj) => objIsMissing x

/-- The `DETECT_MISSING` loop, src/missing.c:41-55. -/
def detectMissing {α : Type} (missing : α → Bool) (x : List α) : C (List Bool) := do
  let out ← forN x.length (fun i (out : List (Option Bool)) => do
      wr out i (some (missing (← rd x i)))) (alloc _ x.length)
  initd out

/-- The `COL_DETECT_MISSING` loop, src/missing.c:203-214: `v_loc` is compacted in place. -/
def colDetectMissingLoop {α : Type} (missing : α → Bool) (x : List α) (loc : List Nat)
    (locSize : Nat) : C (List Nat × Nat) :=
  forN locSize (fun i (s : List Nat × Nat) => do
    let l ← rd s.1 i
    let loc ← wr s.1 s.2 l
    let e ← rd x l
    .ok (loc, s.2 + (if missing e then 1 else 0))) (loc, 0)

/-- `col_detect_missing`, src/missing.c:135-154. -/
def colDetectMissing (x : Val) (loc : List Nat) (locSize : Nat) : C (List Nat × Nat) :=
  match x with
  | .vec t xs => colDetectMissingLoop (missingScalar t) xs loc locSize
  | .df _ _ => .error .internal

/-- `df_detect_missing`, src/missing.c:90-131. -/
def dfDetectMissing (size : Nat) (cols : List Val) : C (List Bool) := do
  let loc ← forN size (fun i (loc : List (Option Nat)) => wr loc i (some i)) (alloc _ size)
  let loc ← initd loc
  let (loc, locSize) ← forBrk cols.length (fun i (s : List Nat × Nat) => do
      let col ← rd cols i
      let s ← colDetectMissing col s.1 s.2
      if s.2 = 0 then .ok (.brk s) else .ok (.next s)) (loc, size)
  forN locSize (fun i (out : List Bool) => do
      let l ← rd loc i
      wr out l true) (List.replicate size false)

/-- `vec_detect_missing`, src/missing.c:11-37, on the equality proxy. -/
def vecDetectMissing : Val → C (List Bool)
  | .vec t xs => detectMissing (missingScalar t) xs
  | .df n cols => dfDetectMissing n cols

/-- The `FIRST_MISSING` loop, src/missing.c:301-313. -/
def firstMissing {α : Type} (missing : α → Bool) (x : List α) : C Nat :=
  forBrk x.length (fun i (out : Nat) => do
    if missing (← rd x i) then .ok (.brk i) else .ok (.next out)) x.length

/-- `p_is_missing` on one column at row `i`, src/missing.h:85-105. -/
def pIsMissing (x : Val) (i : Nat) : C Bool :=
  match x with
  | .vec t xs => do .ok (missingScalar t (← rd xs i))
  | .df _ _ => .error .abort

/-- `p_df_is_missing`, src/poly-op.c:107-122. -/
def pDfIsMissing (cols : List Val) (i : Nat) : C Bool :=
  forBrk cols.length (fun c (out : Bool) => do
    if !(← pIsMissing (← rd cols c) i) then .ok (.brk false) else .ok (.next out)) true

/-- `df_first_missing`, src/missing.c:348-388: the scan starts at the first missing value
of the first column. -/
def dfFirstMissing (size : Nat) (cols : List Val) : C Nat := do
  let start ← if 0 < cols.length then do
      match ← rd cols 0 with
      | .vec t xs => firstMissing (missingScalar t) xs
      | .df _ _ => .error .internal
    else .ok 0
  if 0 < cols.length && start = size then .ok size
  else
    forBrkFrom (fun i (out : Nat) => do
      if ← pDfIsMissing cols i then .ok (.brk i) else .ok (.next out)) start (size - start) size

/-- `vec_first_missing`, src/missing.c:271-297. -/
def vecFirstMissing : Val → C Nat
  | .vec t xs => firstMissing (missingScalar t) xs
  | .df n cols => dfFirstMissing n cols

/-- The `VEC_DETECT_COMPLETE` loop, src/complete.c:128-138. -/
def detectCompleteLoop {α : Type} (missing : α → Bool) (x : List α) (size : Nat)
    (out : List Bool) : C (List Bool) :=
  forN size (fun i (out : List Bool) => do
    let e ← rd x i
    if missing e then wr out i false else .ok out) out

/-- `col_detect_complete_switch`, src/complete.c:185-200. -/
def colDetectComplete (x : Val) (size : Nat) (out : List Bool) : C (List Bool) :=
  match x with
  | .vec t xs => detectCompleteLoop (missingScalar t) xs size out
  | .df _ _ => .error .internal

/-- `vec_detect_complete`, src/complete.c:51-96, and `df_detect_complete`, 175-183, on the
equality proxy. -/
def vecDetectComplete (x : Val) : C (List Bool) :=
  let out := List.replicate x.size true
  match x with
  | .vec t xs => detectCompleteLoop (missingScalar t) xs xs.length out
  | .df n cols => forN cols.length (fun i (out : List Bool) => do
      let col ← rd cols i
      colDetectComplete col n out) out

end Vctrs
