import Verif.Model.NameRepair

/-!
# Lazy character vectors: src/altrep-lazy-character.c

The function is a parameter giving the outcome of its first, second, ... call: an error or an
object.  It does not look at the lazy vector itself, and the object it returns is not used by
anything else.  Inspection prints and is not modelled.
-/

namespace Vctrs

/-- The object made by `ffi_altrep_new_lazy_character()`, src/altrep-lazy-character.c:29-33:
`data2` is `NULL` or the vector; `calls` counts the calls of the function. -/
structure LazyChr where
  data2 : Option (List Name)
  calls : Nat
  deriving DecidableEq

/-- `ffi_altrep_new_lazy_character()`, src/altrep-lazy-character.c:29-33. -/
def lazyNew : LazyChr := ⟨none, 0⟩

/-- `ffi_altrep_lazy_character_is_materialized()`, src/altrep-lazy-character.c:25-27. -/
def lazyIsMaterialized (s : LazyChr) : Bool := s.data2.isSome

/-- `altrep_lazy_character_Materialize()`, src/altrep-lazy-character.c:38-58; the new state is
returned with errors too. -/
def lazyMaterialize (fn : Nat → C NamesObj) (s : LazyChr) : C (List Name) × LazyChr :=
  match s.data2 with
  | some out => (.ok out, s)
  | none =>
    let s := { s with calls := s.calls + 1 }
    match fn (s.calls - 1) with
    | .error e => (.error e, s)
    | .ok (.chr out) => (.ok out, { s with data2 := some out })
    | .ok _ => (.error .internal, s)

/-- `altrep_lazy_character_Dataptr()`, src/altrep-lazy-character.c:60-62; the pointer is the vector
it points to. -/
def lazyDataptr (fn : Nat → C NamesObj) (s : LazyChr) : C (List Name) × LazyChr :=
  lazyMaterialize fn s

/-- `altrep_lazy_character_Dataptr_or_null()`, src/altrep-lazy-character.c:64-72. -/
def lazyDataptrOrNull (s : LazyChr) : Option (List Name) := s.data2

/-- `altrep_lazy_character_Length()`, src/altrep-lazy-character.c:77-85. -/
def lazyLength (fn : Nat → C NamesObj) (s : LazyChr) : C Nat × LazyChr :=
  match s.data2 with
  | some out => (.ok out.length, s)
  | none =>
    match lazyMaterialize fn s with
    | (.ok out, s) => (.ok out.length, s)
    | (.error e, s) => (.error e, s)

/-- `altrep_lazy_character_Elt()`, src/altrep-lazy-character.c:101-109; reading out of bounds is
undefined. -/
def lazyElt (fn : Nat → C NamesObj) (i : Nat) (s : LazyChr) : C Name × LazyChr :=
  match s.data2 with
  | some out => (rd out i, s)
  | none =>
    match lazyMaterialize fn s with
    | (.ok out, s) => (rd out i, s)
    | (.error e, s) => (.error e, s)

/-- `altrep_lazy_character_Set_elt()`, src/altrep-lazy-character.c:111-119. -/
def lazySetElt (fn : Nat → C NamesObj) (i : Nat) (v : Name) (s : LazyChr) : C Unit × LazyChr :=
  let set := fun (out : List Name) (s : LazyChr) =>
    match wr out i v with
    | .ok out => ((.ok () : C Unit), { s with data2 := some out })
    | .error e => (.error e, s)
  match s.data2 with
  | some out => set out s
  | none =>
    match lazyMaterialize fn s with
    | (.ok out, s) => set out s
    | (.error e, s) => (.error e, s)

/-- The methods of the class, src/altrep-lazy-character.c:123-137. -/
inductive LazyOp where
  | dataptr | dataptrOrNull | length | isMaterialized
  | elt (i : Nat)
  | setElt (i : Nat) (v : Name)

/-- What the methods return. -/
inductive LazyOut where
  | vec (l : List Name)
  | null
  | int (n : Nat)
  | str (s : Name)
  | flag (b : Bool)
  | done
  deriving DecidableEq

/-- A call of a method, src/altrep-lazy-character.c:123-137. -/
def lazyStep (fn : Nat → C NamesObj) (s : LazyChr) : LazyOp → C LazyOut × LazyChr
  | .dataptr => match lazyDataptr fn s with | (r, s) => (r.map .vec, s)
  | .dataptrOrNull =>
    match lazyDataptrOrNull s with
    | none => (.ok .null, s)
    | some l => (.ok (.vec l), s)
  | .length => match lazyLength fn s with | (r, s) => (r.map .int, s)
  | .isMaterialized => (.ok (.flag (lazyIsMaterialized s)), s)
  | .elt i => match lazyElt fn i s with | (r, s) => (r.map .str, s)
  | .setElt i v => match lazySetElt fn i v s with | (r, s) => (r.map (fun _ => .done), s)

/-- Calls of methods one after the other. -/
def lazyRun (fn : Nat → C NamesObj) (s : LazyChr) : List LazyOp → List (C LazyOut) × LazyChr
  | [] => ([], s)
  | op :: ops =>
    match lazyStep fn s op with
    | (r, s) => match lazyRun fn s ops with | (rs, s) => (r :: rs, s)

end Vctrs
