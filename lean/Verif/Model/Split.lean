import Verif.Model.Group
import Verif.Model.ChopTable

/-!
# Splitting, dropping empty elements and checking sizes: src/split.c, src/empty.c, src/assert.c
-/

namespace Vctrs

variable {α β : Type}

/-- `vec_split`, src/split.c:4-22.  `by_` is the proxy of `by` with its equality (Group.lean). -/
def vecSplit (ops : PolyOps α) (h : Name → BitVec 32) (x : NVal) (by_ : List α) : C (List α × List NVal) := do
  if x.size ≠ by_.length then .error .abort
  else do
    let (key, indices) ← groupLoc ops by_
    let val ← nvalChop h (.indices (indices.map (fun l => l.map (fun (k : Nat) => (k : Int))))) x
    .ok (key, val)

/-- The loop that finds the first element to drop, src/empty.c:21-25; `vsize` is `vec_size`, an error for scalars. -/
def firstEmpty (vsize : β → C Nat) (xs : List β) : C Nat :=
  forBrk xs.length (fun i (_ : Nat) => do
    let elt ← rd xs i
    let n ← vsize elt
    if n = 0 then .ok (.brk i) else .ok (.next (i + 1))) 0

/-- The mask of elements to keep, src/empty.c:32-45, given the first element to drop. -/
def keepMask (vsize : β → C Nat) (xs : List β) (i : Nat) : C (List Bool) := do
  let size := xs.length
  let vKeep := alloc Bool size
  let vKeep ← forN i (fun j vKeep => wr vKeep j (some true)) vKeep
  let vKeep ← wr vKeep i (some false)
  let vKeep ← forFrom (fun i vKeep => do
    let elt ← rd xs i
    let n ← vsize elt
    wr vKeep i (some (decide (n ≠ 0)))) (i + 1) (size - (i + 1)) vKeep
  initd vKeep

/-- `list_drop_empty`, src/empty.c:9-52, on a list `xs` with `names`; `nil` is the missing element `NULL`.  `none` is
`x` itself. -/
def listDropEmpty (vsize : β → C Nat) (nil : β) (xs : List β) (names : Option (List Name)) :
    C (Option (List β × Option (List Name))) := do
  let i ← firstEmpty vsize xs
  if i = xs.length then .ok none
  else do
    let keep ← keepMask vsize xs i
    let loc ← vecAsLocation (.lgl (keep.map some)) xs.length (nameStrings names) {}
    let out ← sliceBase nil xs (.locs loc)
    let nms ← sliceNames names (.locs loc)
    .ok (some (out, nms))

/-- `vec_check_size`, src/assert.c:34-43. -/
def vecCheckSize (vsize : β → C Nat) (x : β) (size : Int) : C Unit := do
  let xSize ← vsize x
  if (xSize : Int) ≠ size then .error .abort else .ok ()

/-- `list_check_all_size`, src/assert.c:115-138. -/
def listCheckAllSize (vsize : β → C Nat) (xs : List β) (size : Int) : C Unit :=
  forN xs.length (fun i _ => do
    let x ← rd xs i
    vecCheckSize vsize x size) ()

/-- `ffi_list_check_all_vectors`, src/assert.c:76-95; `isVector` is `obj_is_vector`. -/
def listCheckAllVectors (isVector : β → Bool) (xs : List β) : C Unit :=
  forN xs.length (fun i _ => do
    let x ← rd xs i
    if isVector x then .ok () else .error .abort) ()

end Vctrs
