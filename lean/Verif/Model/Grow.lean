import Verif.Model.Dictionary
import Verif.Model.Expand

/-!
# Growable vectors

`struct growable` (src/vctrs.h, src/growable.c), used by `vctrs_unique_loc()`, and the
dynamic arrays of the vendored rlang library (src/rlang/dyn-array.{c,h}), used by
src/interval.c and src/match.c.  The other models use lists with append in their place;
here the capacity, the reallocation and the memory that is not yet written are kept.

`r_ssize_mult()` is that of Model/Expand.  Elements are of one type; the sizes of elements in bytes are not modelled.
-/

namespace Vctrs

variable {α : Type}

/-! ## `struct growable` -/

/-- `struct growable`, src/vctrs.h:211-218: the vector with the memory written so far, the
number of elements and the capacity (both `int`). -/
structure Growable (α : Type) where
  x : List (Option α)
  n : Nat
  capacity : Nat
  deriving DecidableEq, Repr

/-- `new_growable()`, src/growable.c:3-13. -/
def newGrowable (α : Type) (capacity : Nat) : Growable α := ⟨alloc α capacity, 0, capacity⟩

/-- `Rf_lengthgets()` of R as used in src/growable.c:16 and src/vctrs.h:226: the first
elements are copied and further ones are missing. -/
def lengthGets (na : α) (x : List (Option α)) (n : Nat) : List (Option α) :=
  x.take n ++ List.replicate (n - x.length) (some na)

/-- `growable_push_int()`, src/vctrs.h:223-234.  `capacity *= 2` and `++n` are on `int`s. -/
def growablePush (na : α) (g : Growable α) (i : α) : C (Growable α) := do
  let g ← (if g.n = g.capacity then do
      let capacity ← chkNat (g.capacity * 2)
      .ok { g with capacity := capacity, x := lengthGets na g.x capacity }
    else .ok g : C (Growable α))
  let x ← wr g.x g.n (some i)
  let n ← chkNat (g.n + 1)
  .ok { g with x := x, n := n }

/-- `growable_values()`, src/growable.c:15-17. -/
def growableValues (na : α) (g : Growable α) : C (List α) := initd (lengthGets na g.x g.n)

/-- Pushing the elements of a list one after the other: the loops of the callers, such as
src/dictionary.c:227-234, with the pushed values left open. -/
def growablePushes (na : α) : Growable α → List α → C (Growable α)
  | g, [] => .ok g
  | g, a :: as => do
    let g ← growablePush na g a
    growablePushes na g as

/-- `vctrs_unique_loc()`, src/dictionary.c:213-240, with its growable vector of initial
capacity 256.  Locations are `Option Nat` with `none` for a missing integer. -/
def uniqueLocG {β : Type} (ops : PolyOps β) (x : List β) : C (List (Option Nat)) := do
  let d ← newDict ops false x
  let (_, g) ← forN x.length (fun i (s : Dict β × Growable (Option Nat)) => do
    let (d, g) := s
    let hash ← dictHashScalar ops d i
    match ← rd d.key hash with
    | none => do
      let d ← dictPut d hash i
      let g ← growablePush none g (some (i + 1))
      .ok (d, g)
    | some _ => .ok (d, g)) (d, newGrowable (Option Nat) 256)
  growableValues none g

/-! ## Dynamic arrays -/

/-- `struct r_dyn_array`, src/rlang/dyn-array.h:7-21: the number of elements, the capacity
and the data.  The shelter and the cached pointers, which are renewed with the data
(src/rlang/dyn-array.c:93-108), are not kept. -/
structure DynArr (α : Type) where
  count : Nat
  capacity : Nat
  data : List (Option α)
  deriving DecidableEq, Repr

/-- `r_new_dyn_vector()`, src/rlang/dyn-array.c:10-49.  Memory is not initialised; that a
list starts with `NULL`s is not used by any caller. -/
def dynNew (α : Type) (capacity : Nat) : DynArr α := ⟨0, capacity, alloc α capacity⟩

/-- `RESIZE()`, src/rlang/vec.c:22-68, reached by `r_vec_resize0()`, src/rlang/vec.h:409-420:
the same vector, the same vector with a smaller length, or a new one with the old elements
and memory that is not initialised. -/
def vecResize (x : List (Option α)) (size : Nat) : List (Option α) :=
  if x.length = size then x
  else if size < x.length then x.take size
  else x ++ alloc α (size - x.length)

/-- `r_dyn_resize()`, src/rlang/dyn-array.c:83-110. -/
def dynResize (a : DynArr α) (capacity : Nat) : DynArr α :=
  ⟨min a.count capacity, capacity, vecResize a.data capacity⟩

/-- `r__dyn_increment()`, src/rlang/dyn-array.h:153-163: the location of the new element. -/
def dynIncrement (a : DynArr α) : C (Nat × DynArr α) := do
  let loc := a.count
  let a := { a with count := a.count + 1 }
  if a.count > a.capacity then do
    let capacity ← ssizeMult a.capacity 2
    .ok (loc, dynResize a capacity)
  else .ok (loc, a)

/-- `r_dyn_int_poke()`, `r_dyn_list_poke()`, src/rlang/dyn-array.h:118-144. -/
def dynPoke (a : DynArr α) (i : Nat) (v : α) : C (DynArr α) := do
  let data ← wr a.data i (some v)
  .ok { a with data := data }

/-- `r_dyn_int_get()`, src/rlang/dyn-array.h:88-90. -/
def dynGet (a : DynArr α) (i : Nat) : C α := rdU a.data i

/-- `r_dyn_int_push_back()`, `r_dyn_list_push_back()`, src/rlang/dyn-array.h:165-190. -/
def dynPush (a : DynArr α) (v : α) : C (DynArr α) := do
  let r ← dynIncrement a
  dynPoke r.2 r.1 v

/-- `r_dyn_push_back()`, src/rlang/dyn-array.c:69-81, for a vector without barrier: writes
at `r_dyn_last()`, that is at `count - 1`. -/
def dynPushBack (a : DynArr α) (v : α) : C (DynArr α) := do
  let r ← dynIncrement a
  let data ← wrI r.2.data ((r.2.count : Int) - 1) (some v)
  .ok { r.2 with data := data }

/-- `r_dyn_unwrap()`, src/rlang/dyn-array.c:51-57. -/
def dynUnwrap (a : DynArr α) : C (List α) := initd (vecResize a.data a.count)

/-- Filling the first `n` elements and setting `count`, as at src/match.c:317-326, 339-345
and 351-357. -/
def dynFill (a : DynArr α) (n : Nat) (v : Nat → α) : C (DynArr α) := do
  let data ← forN n (fun i (s : List (Option α)) => wr s i (some (v i))) a.data
  .ok { a with data := data, count := n }

/-- The ways src/interval.c and src/match.c use a dynamic array between its creation and
`r_dyn_unwrap()`. -/
inductive DynOp (α : Type) where
  | push (a : α)
  | pushBack (a : α)
  | poke (i : Nat) (a : α)
  | get (i : Nat)
  deriving DecidableEq, Repr

/-- One such use (src/match.c:551, 789, 796, 868-870, src/interval.c:203); with the elements read so
far. -/
def dynOp (s : DynArr α × List α) : DynOp α → C (DynArr α × List α)
  | .push v => do .ok (← dynPush s.1 v, s.2)
  | .pushBack v => do .ok (← dynPushBack s.1 v, s.2)
  | .poke i v => do .ok (← dynPoke s.1 i v, s.2)
  | .get i => do .ok (s.1, s.2 ++ [← dynGet s.1 i])

/-- A sequence of uses (the loops of src/match.c:700-900 and src/interval.c:175-262). -/
def dynRun : DynArr α × List α → List (DynOp α) → C (DynArr α × List α)
  | s, [] => .ok s
  | s, o :: os => do
    let s ← dynOp s o
    dynRun s os

/-- The initial capacity in src/interval.c:146 and 809. -/
def intervalCapacity (size : Nat) : Nat := max (size / 2) 1

end Vctrs
