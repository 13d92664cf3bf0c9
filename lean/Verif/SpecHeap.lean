import Verif.Model.Translate
import Mathlib.Data.List.Forall2

/-!
# Spec: objects on a heap

What it means for two objects, possibly on different heaps, to look the same from R, for an object to be shared, and
for a heap to be sound.
-/

namespace Vctrs.Spec

variable {S : Type}

/-- The elements and attributes of an object. -/
def kids (o : TObj S) : List Nat :=
  (match o.kind with
    | .list l => l
    | _ => []) ++ o.attrs.map (fun p => p.2)

/-- Every element and every attribute of an object is an object, and something refers to it. -/
def Sound (h : THeap S) : Prop :=
  ∀ (a : Nat) (o : TObj S), h[a]? = some o → ∀ c ∈ kids o, ∃ o', h[c]? = some o' ∧ o'.refd = true

/-- The object at `a` nests less than `d` levels. -/
def Deep : Nat → THeap S → Nat → Prop
  | 0, _, _ => False
  | d + 1, h, a => ∃ o, h[a]? = some o ∧ ∀ c ∈ kids o, Deep d h c

/-- `b` is `a`, or an element or attribute of it, or of one of those, and so on. -/
inductive Reach (h : THeap S) (a : Nat) : Nat → Prop
  | self : Reach h a a
  | kid {b c : Nat} {o : TObj S} : Reach h a b → h[b]? = some o → c ∈ kids o → Reach h a c

/-- `s` is a string somewhere in the object at `a`. -/
def StrIn (h : THeap S) (a : Nat) (s : S) : Prop :=
  ∃ (b : Nat) (o : TObj S) (l : List S), Reach h a b ∧ h[b]? = some o ∧ o.kind = .chr l ∧ s ∈ l

/-- The same type, with related strings or elements. -/
def KindRel (f : S → S → Prop) (r : Nat → Nat → Prop) : TKind S → TKind S → Prop
  | .chr l, .chr l' => List.Forall₂ f l l'
  | .list l, .list l' => List.Forall₂ r l l'
  | .other, .other => True
  | _, _ => False

/-- The same tags, with related values. -/
def AttrRel (r : Nat → Nat → Prop) (l l' : List (String × Nat)) : Prop :=
  List.Forall₂ (fun p q => p.1 = q.1 ∧ r p.2 q.2) l l'

/-- Down to depth `d`, the object at `a'` in `h'` is the one at `a` in `h` with its strings (those of elements and
attributes included) related by `f`. -/
def Same (f : S → S → Prop) : Nat → THeap S → Nat → THeap S → Nat → Prop
  | 0, _, _, _, _ => True
  | d + 1, h, a, h', a' => ∃ o o', h[a]? = some o ∧ h'[a']? = some o' ∧
      KindRel f (fun c c' => Same f d h c h' c') o.kind o'.kind ∧ AttrRel (fun c c' => Same f d h c h' c') o.attrs o'.attrs

/-- Every object but an unshared one at `x` is as before, untouched. -/
def Untouched (h h' : THeap S) (x : Nat) : Prop :=
  ∀ (b : Nat) (o : TObj S), h[b]? = some o → (b ≠ x ∨ o.refd = true) → h'[b]? = some o

/-- A normalised string stays, another one is translated. -/
def NormRel (E : TEnc S) (s s' : S) : Prop := if E.isNorm s = true then s' = s else E.norm s = .ok s'

end Vctrs.Spec
