import Verif.Model.Ptype

/-!
# What the common type of bare vectors is

Independent description of the types of bare vectors and of the order in which they convert
without loss: logical, integer, double, complex.  `NULL` converts to every type and unspecified
vectors to every type but `NULL`.
-/

namespace Vctrs.Spec

/-- The type of an object. -/
inductive Kind
  | null | uns | lgl | int | dbl | cpl | chr | raw | list
  deriving DecidableEq, Repr

/-- The object `x` is of type `k`.  A bare logical vector without dimensions that has elements, all
of them missing, is unspecified. -/
inductive HasKind : RObj → Kind → Prop
  | null : HasKind .null .null
  | uns (n : Nat) : HasKind (.uns n) .uns
  | missing {xs : List Int} : xs ≠ [] → (∀ v ∈ xs, v = naInt) → HasKind (.lgl xs none) .uns
  | lgl {xs : List Int} {d : Option (List Int)} :
      (d ≠ none ∨ xs = [] ∨ ∃ v ∈ xs, v ≠ naInt) → HasKind (.lgl xs d) .lgl
  | int (n : Nat) (d : Option (List Int)) : HasKind (.bare .integer n d) .int
  | dbl (n : Nat) (d : Option (List Int)) : HasKind (.bare .double n d) .dbl
  | cpl (n : Nat) (d : Option (List Int)) : HasKind (.bare .complex n d) .cpl
  | chr (n : Nat) (d : Option (List Int)) : HasKind (.bare .character n d) .chr
  | raw (n : Nat) (d : Option (List Int)) : HasKind (.bare .raw n d) .raw
  | list (n : Nat) (d : Option (List Int)) : HasKind (.bare .list n d) .list

/-- Position of the numeric types. -/
def Kind.num : Kind → Option Nat
  | .lgl => some 0
  | .int => some 1
  | .dbl => some 2
  | .cpl => some 3
  | _ => none

/-- The type `a` converts to the type `b`. -/
def Kind.Le (a b : Kind) : Prop :=
  a = b ∨ a = .null ∨ (a = .uns ∧ b ≠ .null) ∨
    match a.num, b.num with
    | some m, some n => m ≤ n
    | _, _ => False

instance (a b : Kind) : Decidable (a.Le b) := by
  unfold Kind.Le
  cases a <;> cases b <;> unfold Kind.num <;> infer_instance

/-- `c` is the least type to which both `a` and `b` convert. -/
def IsJoin (a b c : Kind) : Prop := a.Le c ∧ b.Le c ∧ ∀ d : Kind, a.Le d → b.Le d → c.Le d

/-- `c` is the least type to which all types in `ks` convert. -/
def IsJoinOf (ks : List Kind) (c : Kind) : Prop :=
  (∀ k ∈ ks, k.Le c) ∧ ∀ d : Kind, (∀ k ∈ ks, k.Le d) → c.Le d

end Vctrs.Spec
