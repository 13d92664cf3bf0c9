import Verif.Model.Factor

/-!
# Common type and cast of data frames: src/type-data-frame.c

A data frame is a list of named columns and a size.  Columns are of any type `β`; what is done to a
single column is a parameter, so that a column may be a data frame again.  Row names and other
attributes are not modelled; argument tags only serve error messages.
-/

namespace Vctrs

/-- What the code calls on columns: `vec_ptype2_opts()` (src/ptype2.c:95-98), `vec_ptype2_from_unspecified()`
(src/ptype2.c:158-179), `vec_cast_opts()` (src/cast.c:20-74) and `vec_init()` (src/slice.c:427-441). -/
structure ColOps (β : Type) where
  ptype2 : β → β → C β
  ptype : β → C β
  cast : β → β → C β
  init : β → Nat → C β

/-- A data frame: the names, the columns and the number of rows. -/
structure Df (β : Type) where
  names : List Name
  cols : List β
  size : Nat
  deriving DecidableEq, Repr

variable {β : Type}

/-- Loop of `df_ptype2_loop()`, src/type-data-frame.c:632-643. -/
def dfPtype2LoopStep (ops : ColOps β) (x y : Df β) (i : Nat) (out : List (Option β)) : C (List (Option β)) := do
  let a ← rd x.cols i
  let b ← rd y.cols i
  let type ← ops.ptype2 a b
  wr out i (some type)

/-- `df_ptype2_loop()`, src/type-data-frame.c:613-649. -/
def dfPtype2Loop (ops : ColOps β) (x y : Df β) : C (Df β) := do
  let len := x.names.length
  let out ← forN len (dfPtype2LoopStep ops x y) (alloc β len)
  let cols ← initd out
  .ok ⟨x.names, cols, 0⟩

/-- Loop counting the columns that are only in `y`, src/type-data-frame.c:531-535. -/
def restLenStep (yDups : List Int) (i : Nat) (n : Nat) : C Nat := do
  let dup ← rd yDups i
  .ok (if dup = naInt then n + 1 else n)

/-- Loop over the columns of `x`, src/type-data-frame.c:551-581. -/
def dfMatchXStep (ops : ColOps β) (x y : Df β) (xDups : List Int) (i : Nat)
    (s : List (Option β) × List (Option Name)) : C (List (Option β) × List (Option Name)) := do
  let dup ← rd xDups i
  let col ← rd x.cols i
  let type ← (if dup = naInt then ops.ptype col
    else do
      let ycol ← rdI y.cols (dup - 1)
      ops.ptype2 col ycol : C β)
  let out ← wr s.1 i (some type)
  let nm ← rd x.names i
  let nms ← wr s.2 i (some nm)
  .ok (out, nms)

/-- Loop over the columns only in `y`, src/type-data-frame.c:584-605.  Its condition is `i < out_len`. -/
def dfMatchYStep (ops : ColOps β) (y : Df β) (yDups : List Int) (outLen : Nat) (j : Nat)
    (s : Nat × List (Option β) × List (Option Name)) : C (Ctl (Nat × List (Option β) × List (Option Name))) := do
  if s.1 < outLen then do
    let dup ← rd yDups j
    if dup = naInt then do
      let col ← rd y.cols j
      let type ← ops.ptype col
      let out ← wr s.2.1 s.1 (some type)
      let nm ← rd y.names j
      let nms ← wr s.2.2 s.1 (some nm)
      .ok (.next (s.1 + 1, out, nms))
    else .ok (.next s)
  else .ok (.brk s)

/-- `df_ptype2_match()`, src/type-data-frame.c:514-611.  One turn more than `y` has columns is enough
for the second loop, since it would then read past the end of `y_dups_pos`. -/
def dfPtype2Match (hash : Name → BitVec 32) (ops : ColOps β) (x y : Df β) : C (Df β) := do
  let xDups ← chrMatch hash x.names y.names
  let yDups ← chrMatch hash y.names x.names
  let xLen := x.names.length
  let yLen := y.names.length
  let restLen ← forN yLen (restLenStep yDups) 0
  let outLen := xLen + restLen
  let s ← forN xLen (dfMatchXStep ops x y xDups) (alloc β outLen, alloc Name outLen)
  let t ← forBrk (yLen + 1) (dfMatchYStep ops y yDups outLen) (xLen, s)
  let cols ← initd t.2.1
  let names ← initd t.2.2
  .ok ⟨names, cols, 0⟩

/-- `df_ptype2()`, src/type-data-frame.c:498-512. -/
def dfPtype2 (hash : Name → BitVec 32) (ops : ColOps β) (x y : Df β) : C (Df β) :=
  if x.names = y.names then dfPtype2Loop ops x y else dfPtype2Match hash ops x y

/-- Loop of `df_cast_loop()`, src/type-data-frame.c:801-813. -/
def dfCastLoopStep (ops : ColOps β) (x ty : Df β) (i : Nat) (out : List (Option β)) : C (List (Option β)) := do
  let a ← rd x.cols i
  let b ← rd ty.cols i
  let col ← ops.cast a b
  wr out i (some col)

/-- `df_cast_loop()`, src/type-data-frame.c:782-822. -/
def dfCastLoop (ops : ColOps β) (x ty : Df β) : C (Df β) := do
  let len := x.names.length
  let out ← forN len (dfCastLoopStep ops x ty) (alloc β len)
  let cols ← initd out
  .ok ⟨x.names, cols, x.size⟩

/-- Loop of `df_cast_match()`, src/type-data-frame.c:722-756, counting the common columns. -/
def dfCastMatchStep (ops : ColOps β) (x ty : Df β) (dups : List Int) (i : Nat)
    (s : Nat × List (Option β)) : C (Nat × List (Option β)) := do
  let pos ← rd dups i
  if pos = naInt then do
    let tyCol ← rd ty.cols i
    let col ← ops.init tyCol x.size
    let out ← wr s.2 i (some col)
    .ok (s.1, out)
  else do
    let a ← rdI x.cols (pos - 1)
    let b ← rd ty.cols i
    let col ← ops.cast a b
    let out ← wr s.2 i (some col)
    .ok (s.1 + 1, out)

/-- `df_lossy_cast()`, R/type-data-frame.R:361-382: an error if a name of `x` is not in `to`, and the
result otherwise. -/
def dfLossyCast (out x ty : Df β) : C (Df β) :=
  if x.names.any (fun s => !ty.names.contains s) then .error .abort else .ok out

/-- `df_cast_match()`, src/type-data-frame.c:696-780.  `extra_len` is signed. -/
def dfCastMatch (hash : Name → BitVec 32) (ops : ColOps β) (x ty : Df β) : C (Df β) := do
  let dups ← chrMatch hash ty.names x.names
  let len := dups.length
  let s ← forN len (dfCastMatchStep ops x ty dups) (0, alloc β len)
  let cols ← initd s.2
  let out : Df β := ⟨ty.names, cols, x.size⟩
  let extraLen := (x.cols.length : Int) - (s.1 : Int)
  if extraLen ≠ 0 then dfLossyCast out x ty else .ok out

/-- `df_cast_opts()`, src/type-data-frame.c:676-694; data frames always have names here. -/
def dfCast (hash : Name → BitVec 32) (ops : ColOps β) (x ty : Df β) : C (Df β) :=
  if x.names = ty.names then dfCastLoop ops x ty else dfCastMatch hash ops x ty

end Vctrs
