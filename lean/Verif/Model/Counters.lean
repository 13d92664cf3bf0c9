import Verif.Model.ArgTag

/-!
# Counters of arguments in reductions: src/arg-counter.c

`reduce()` folds a function over inputs, some of which may be splice boxes, and keeps two tags: that
of the result so far and that of the next input.  Objects of type `struct counters` live in R objects
protected by a shelter; here they are the elements of a heap, the first one that of the outer list.
Pointers are positions in the heap.
-/

namespace Vctrs

/-- One of the two members `curr*` and `next*` of `struct counters`. -/
inductive Which where
  | curr
  | next
  deriving DecidableEq

/-- A pointer to `struct vctrs_arg`: the initial one given by the caller, or the member
`curr_counter` or `next_counter` of the counters `id`. -/
inductive Handle where
  | ext
  | counter (id : Nat) (w : Which)
  deriving DecidableEq

/-- `struct arg_data_counter`, src/arg.h:24-29: which members `i` and `names_i` point to; `names`
always points to the names of the same counters. -/
structure CounterData where
  i : Which
  namesI : Which
  deriving DecidableEq

/-- `struct counters`, src/arg-counter.h:7-41.  `currCounter` and `nextCounter` are the members of
type `struct vctrs_arg`, which differ by the data they point to.  The pointers to the counters of
boxes are `none` before there is a box; they also stand for what the shelter protects. -/
structure Counters where
  currArg : Handle
  nextArg : Handle
  curr : Nat
  next : Nat
  names : Option (List Name)
  namesCurr : Nat
  namesNext : Nat
  nextBox : Option Nat
  prevBox : Option Nat
  currCounter : Which
  nextCounter : Which
  currData : CounterData
  nextData : CounterData

/-- All counters ever allocated. -/
abbrev CHeap := List Counters

/-- Access to the counters `id`: those of boxes are protected by the shelter of the outer ones,
src/arg-counter.c:59-70, which keeps two; the others may have been freed. -/
def getCounters (h : CHeap) (id : Nat) : C Counters := do
  let main ← rd h 0
  if id = 0 then .ok main
  else if main.nextBox = some id ∨ main.prevBox = some id then rd h id
  else .error .ub

/-- `new_counters`, src/arg-counter.c:6-53, at the position `id`. -/
def newCounters (names : Option (List Name)) (currArg : Handle) (id : Nat) : Counters :=
  { currArg := currArg, nextArg := .counter id .next, curr := 0, next := 0, names := names,
    namesCurr := 0, namesNext := 0, nextBox := none, prevBox := none,
    currCounter := .curr, nextCounter := .next, currData := ⟨.curr, .curr⟩, nextData := ⟨.next, .next⟩ }

/-- `init_next_box_counters`, src/arg-counter.c:55-73. -/
def initNextBoxCounters (h : CHeap) (id : Nat) (names : Option (List Name)) : C CHeap := do
  let c ← getCounters h id
  let new := h.length
  let pNext := newCounters names c.currArg new
  let h ← wr h id { c with prevBox := c.nextBox, nextBox := some new }
  .ok (h ++ [{ pNext with next := c.next }])

/-- `counters_inc`, src/arg-counter.c:75-79. -/
def countersInc (h : CHeap) (id : Nat) : C CHeap := do
  let c ← getCounters h id
  wr h id { c with next := c.next + 1, namesNext := c.namesNext + 1 }

/-- `counters_shift`, src/arg-counter.c:87-99. -/
def countersShift (h : CHeap) (id : Nat) : C CHeap := do
  let c ← getCounters h id
  let c := { c with currCounter := c.nextCounter, nextCounter := c.currCounter }
  let c := { c with
    currData := { c.currData with i := c.nextData.i }, nextData := { c.nextData with i := c.currData.i } }
  let c := { c with
    currData := { c.currData with namesI := c.nextData.namesI },
    nextData := { c.nextData with namesI := c.currData.namesI } }
  let c := { c with currArg := .counter id .curr, nextArg := .counter id .next }
  wr h id { c with curr := c.next }

/-- The data of a member of type `struct vctrs_arg`. -/
def Counters.dataOf (c : Counters) (w : Which) : CounterData :=
  match (match w with | .curr => c.currCounter | .next => c.nextCounter) with
  | .curr => c.currData
  | .next => c.nextData

/-- The index behind a pointer `i`. -/
def Counters.index (c : Counters) : Which → Nat
  | .curr => c.curr
  | .next => c.next

/-- The index behind a pointer `names_i`. -/
def Counters.namesIndex (c : Counters) : Which → Nat
  | .curr => c.namesCurr
  | .next => c.namesNext

/-- The chain of nodes behind a handle; see `counter_arg_fill`, src/arg.c:254-260. -/
def handleTag (ext parents : List ArgNode) (h : CHeap) : Handle → C (List ArgNode)
  | .ext => .ok ext
  | .counter id w => do
    let c ← getCounters h id
    let d := c.dataOf w
    .ok (.counter c.names (c.index d.i) (c.namesIndex d.namesI) :: parents)

/-- What `impl` does with the result so far and the next input: keep the tag of the result, call
`counters_shift()`, or fail. -/
inductive Step (α : Type) where
  | keep (v : α)
  | shift (v : α)
  | fail

/-- A result of the reduction, or an error with the tags of the result so far and of the next input
as they are found when the message is built. -/
inductive Red (α : Type) where
  | done (v : α)
  | err (curr next : C (List ArgNode))

/-- An input: an ordinary one or a splice box with its names. -/
inductive RInput (β : Type) where
  | one (x : β)
  | box (names : Option (List Name)) (xs : List β)

variable {α β : Type}

/-- The call of `impl`, src/arg-counter.c:154.  The tags it gets are `counters->curr_arg` and
`counters->next_arg`. -/
def callImpl (impl : α → β → Step α) (ext parents : List ArgNode) (h : CHeap) (id : Nat) (cur : α)
    (x : β) : C (Red α × CHeap) := do
  let c ← getCounters h id
  match impl cur x with
  | .keep v => .ok (.done v, h)
  | .shift v => do
    let h ← countersShift h id
    .ok (.done v, h)
  | .fail => .ok (.err (handleTag ext parents h c.currArg) (handleTag ext parents h c.nextArg), h)

/-- `reduce_impl` with `spliced`, src/arg-counter.c:133-170. -/
def reduceBox (impl : α → β → Step α) (ext parents : List ArgNode) (id : Nat) :
    List β → α → CHeap → C (Red α × CHeap)
  | [], cur, h => .ok (.done cur, h)
  | x :: xs, cur, h => do
    let r ← callImpl impl ext parents h id cur x
    match r.1 with
    | .err a b => .ok (.err a b, r.2)
    | .done v => do
      let h ← countersInc r.2 id
      reduceBox impl ext parents id xs v h

/-- `reduce_splice_box`, src/arg-counter.c:172-197. -/
def reduceSpliceBox (impl : α → β → Step α) (ext parents : List ArgNode) (names : Option (List Name))
    (xs : List β) (cur : α) (h : CHeap) : C (Red α × CHeap) := do
  let h ← initNextBoxCounters h 0 names
  let m ← getCounters h 0
  match m.nextBox with
  | none => .error .ub
  | some id => do
    let r ← reduceBox impl ext parents id xs cur h
    match r.1 with
    | .err a b => .ok (.err a b, r.2)
    | .done v => do
      let b ← getCounters r.2 id
      let m ← getCounters r.2 0
      let h ← wr r.2 0 { m with currArg := b.currArg, next := b.next }
      .ok (.done v, h)

/-- `reduce_impl` without `spliced`, src/arg-counter.c:133-170. -/
def reduceMain (impl : α → β → Step α) (ext parents : List ArgNode) :
    List (RInput β) → α → CHeap → C (Red α × CHeap)
  | [], cur, h => .ok (.done cur, h)
  | input :: rest, cur, h => do
    let r ← (match input with
      | .one x => callImpl impl ext parents h 0 cur x
      | .box names xs => reduceSpliceBox impl ext parents names xs cur h)
    match r.1 with
    | .err a b => .ok (.err a b, r.2)
    | .done v => do
      let h ← countersInc r.2 0
      reduceMain impl ext parents rest v h

/-- `reduce`, src/arg-counter.c:104-131. -/
def reduceArgs (impl : α → β → Step α) (ext parents : List ArgNode) (names : Option (List Name))
    (rest : List (RInput β)) (cur : α) : C (Red α) := do
  let r ← reduceMain impl ext parents rest cur [newCounters names .ext 0]
  .ok r.1

/-- `vctrs_size2_common`, src/size-common.c:79-123, on sizes; `none` is `NULL`. -/
def size2Step : Option Nat → Option Nat → Step (Option Nat)
  | none, y => .shift y
  | some nx, none => .keep (some nx)
  | some nx, some ny =>
    if nx = ny then .keep (some nx)
    else if nx = 1 then .shift (some ny)
    else if ny = 1 then .keep (some nx)
    else .fail

end Vctrs
