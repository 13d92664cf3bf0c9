import Verif.Model.Equal

/-!
# Specifications for element equality, order, hashing and missingness

Stated on elements and rows; nothing here mentions how the C code gets there.
-/

namespace Vctrs.Spec

open Vctrs

/-! ## Elements -/

/-- The bit pattern of a NaN: exponent all ones, significand not zero. -/
def IsNaN (x : Dbl) : Prop := x.toNat / 2 ^ 52 % 2 ^ 11 = 2047 ∧ x.toNat % 2 ^ 52 ≠ 0

instance (x : Dbl) : Decidable (IsNaN x) := by unfold IsNaN; infer_instance

/-- R's NA among the NaN patterns: those with low word 1954. -/
def IsNA (x : Dbl) : Prop := IsNaN x ∧ x.toNat % 2 ^ 32 = 1954

instance (x : Dbl) : Decidable (IsNA x) := by unfold IsNA; infer_instance

/-- Two doubles are the same element: both NA, both NaN, or equal numbers. -/
def SameDbl (x y : Dbl) : Prop :=
  (IsNA x ↔ IsNA y) ∧ (IsNaN x ↔ IsNaN y) ∧ (¬ IsNaN x → dblVal x = dblVal y)

/-- Two elements of an atomic vector are the same, NA being the same as NA. -/
def SameAtom : (t : ATy) → t.El → t.El → Prop
  | .dbl, (x : Dbl), (y : Dbl) => SameDbl x y
  | .cpl, (x : Dbl × Dbl), (y : Dbl × Dbl) => SameDbl x.1 y.1 ∧ SameDbl x.2 y.2
  | _, x, y => x = y

/-- An element of an atomic vector is missing: NA, or NaN for the floating types. -/
def MissingAtom : (t : ATy) → t.El → Prop
  | .lgl, (x : Int) => x = naInt
  | .int, (x : Int) => x = naInt
  | .dbl, (x : Dbl) => IsNaN x
  | .cpl, (x : Dbl × Dbl) => IsNaN x.1 ∨ IsNaN x.2
  | .chr, (x : Name) => x = none
  | .raw, _ => False

/-- The canonical pattern of a double among those that are the same element. -/
def canonDbl (x : Dbl) : Dbl :=
  if IsNA x then naReal
  else if IsNaN x then rNaN
  else if dblVal x = 0 then 0#64 else x

/-- The canonical element among those that are the same. -/
def canonAtom : (t : ATy) → t.El → t.El
  | .dbl, (x : Dbl) => canonDbl x
  | .cpl, (x : Dbl × Dbl) => (canonDbl x.1, canonDbl x.2)
  | _, x => x

/-! ## Objects -/

mutual

/-- Number of attributes found anywhere inside an object. -/
def nAttr : Obj → Nat
  | .nil => 0
  | .ref _ _ => 0
  | .other _ _ => 0
  | .vec _ _ a => nAttrs a
  | .list _ xs a => nAttrList xs + nAttrs a
  | .node _ _ c d a => nAttr c + nAttr d + nAttrs a
  | .clo b e f a => nAttr b + nAttr e + nAttr f + nAttrs a

/-- The same for the elements of a list. -/
def nAttrList : List Obj → Nat
  | [] => 0
  | x :: xs => nAttr x + nAttrList xs

/-- The same for an attribute list. -/
def nAttrs : Attrs → Nat
  | .nil => 0
  | .cons _ v r => 1 + nAttr v + nAttrs r

end

mutual

/-- No part of the object has a type that `equal_object` does not implement. -/
def Supported : Obj → Prop
  | .nil => True
  | .ref _ _ => True
  | .other _ _ => False
  | .vec _ _ a => SupportedAttrs a
  | .list _ xs a => SupportedList xs ∧ SupportedAttrs a
  | .node _ _ c d a => Supported c ∧ Supported d ∧ SupportedAttrs a
  | .clo b e f a => Supported b ∧ Supported e ∧ Supported f ∧ SupportedAttrs a

/-- The same for the elements of a list. -/
def SupportedList : List Obj → Prop
  | [] => True
  | x :: xs => Supported x ∧ SupportedList xs

/-- The same for an attribute list. -/
def SupportedAttrs : Attrs → Prop
  | .nil => True
  | .cons _ v r => Supported v ∧ SupportedAttrs r

end

mutual

/-- An object with the parts that equality does not distinguish made canonical: one NA, one
NaN and one zero among doubles, no tags. -/
def canon : Obj → Obj
  | .nil => .nil
  | .ref t a => .ref t a
  | .other t a => .other t a
  | .vec t xs a => .vec t (xs.map (canonAtom t)) (canonAttrs a)
  | .list e xs a => .list e (canonList xs) (canonAttrs a)
  | .node t _ c d a => .node t 0 (canon c) (canon d) (canonAttrs a)
  | .clo b e f a => .clo (canon b) (canon e) (canon f) (canonAttrs a)

/-- The same for the elements of a list. -/
def canonList : List Obj → List Obj
  | [] => []
  | x :: xs => canon x :: canonList xs

/-- The same for an attribute list. -/
def canonAttrs : Attrs → Attrs
  | .nil => .nil
  | .cons _ v r => .cons 0 (canon v) (canonAttrs r)

end

/-! ## Vectors and data frames -/

/-- The columns of a data frame; a vector is its own single column. -/
def columns : Val → List Val
  | .vec t xs => [.vec t xs]
  | .df _ cols => cols

/-- Both are vectors or both are data frames. -/
def SameKind : Val → Val → Prop
  | .vec _ _, .vec _ _ => True
  | .df _ _, .df _ _ => True
  | _, _ => False

/-- Two values can be compared: of the same kind and size, with the same number of columns,
and matching columns are vectors of one type and of that size. -/
structure Compat (x y : Val) : Prop where
  kind : SameKind x y
  size : x.size = y.size
  ncol : (columns x).length = (columns y).length
  cols : ∀ (c : Nat) (p q : Val), (columns x)[c]? = some p → (columns y)[c]? = some q →
    ∃ t xs ys, p = .vec t xs ∧ q = .vec t ys ∧ xs.length = x.size ∧ ys.length = y.size

/-- A vector, or a data frame whose columns are vectors of its size (the columns of an
equality proxy are flattened). -/
def Flat (x : Val) : Prop := Compat x x

/-- No list among the columns. -/
def NoList (x : Val) : Prop := ∀ xs, Val.vec .list xs ∉ columns x

/-- All list elements are supported. -/
def SupportedVal (x : Val) : Prop := ∀ xs, Val.vec .list xs ∈ columns x → SupportedList xs

/-- Two elements are the same, NA being the same as NA. -/
def SameElt : (t : VTy) → t.El → t.El → Prop
  | .atom t, x, y => SameAtom t x y
  | .list, (x : Obj), (y : Obj) => canon x = canon y

/-- An element is missing. -/
def MissingElt : (t : VTy) → t.El → Prop
  | .atom t, x => MissingAtom t x
  | .list, (x : Obj) => x = .nil

/-- Row `i` of `x` and row `j` of `y` are the same in every column. -/
def SameRow (x : Val) (i : Nat) (y : Val) (j : Nat) : Prop :=
  ∀ (c : Nat) (t : VTy) (xs ys : List t.El) (a b : t.El), (columns x)[c]? = some (.vec t xs) →
    (columns y)[c]? = some (.vec t ys) → xs[i]? = some a → ys[j]? = some b → SameElt t a b

/-- In row `i`, matching list elements of `x` and `y` hold the same number of attributes. -/
def SameAttrCount (x y : Val) (i : Nat) : Prop :=
  ∀ (c : Nat) (xs ys : List Obj) (a b : Obj), (columns x)[c]? = some (.vec .list xs) →
    (columns y)[c]? = some (.vec .list ys) → xs[i]? = some a → ys[i]? = some b → nAttr a = nAttr b

/-- The element of column `p` at row `i` is missing. -/
def MissingCell (p : Val) (i : Nat) : Prop :=
  match p with
  | .vec t xs => ∃ a, xs[i]? = some a ∧ MissingElt t a
  | .df _ _ => False

/-- Some element of a row of atomic values is missing. -/
def SomeMissing : (ts : List ATy) → Row ts → Prop
  | [], _ => False
  | t :: ts, (a, r) => MissingAtom t a ∨ SomeMissing ts r

/-- Two rows of atomic values are the same. -/
def SameCells : (ts : List ATy) → Row ts → Row ts → Prop
  | [], _, _ => True
  | t :: ts, (a, r), (b, s) => SameAtom t a b ∧ SameCells ts r s

/-! ## Order -/

/-- The atomic types that have an order. -/
def Ordered : ATy → Prop
  | .lgl => True
  | .int => True
  | .dbl => True
  | .chr => True
  | .cpl => False
  | .raw => False

/-- Order of byte strings: at the first difference, or the shorter one first. -/
def BytesLt : List Char → List Char → Prop
  | [], t => t ≠ []
  | _ :: _, [] => False
  | c :: s, d :: t => c.toNat < d.toNat ∨ (c = d ∧ BytesLt s t)

/-- Position of a double among NaN, NA and the numbers, in this order. -/
def dblRank (x : Dbl) : Nat := if IsNA x then 1 else if IsNaN x then 0 else 2

/-- The order of doubles: NaN, then NA, then the numbers. -/
def DblLt (x y : Dbl) : Prop :=
  dblRank x < dblRank y ∨ (¬ IsNaN x ∧ ¬ IsNaN y ∧ dblVal x < dblVal y)

/-- The strict order of elements.  Missing integers and strings come first. -/
def AtomLt : (t : ATy) → t.El → t.El → Prop
  | .lgl, (x : Int), (y : Int) => x ≠ y ∧ (x = naInt ∨ (y ≠ naInt ∧ x < y))
  | .int, (x : Int), (y : Int) => x ≠ y ∧ (x = naInt ∨ (y ≠ naInt ∧ x < y))
  | .dbl, (x : Dbl), (y : Dbl) => DblLt x y
  | .cpl, _, _ => False
  | .chr, (x : Name), (y : Name) => match x, y with
    | none, none => False
    | none, some _ => True
    | some _, none => False
    | some s, some t => BytesLt s t
  | .raw, _, _ => False

/-- A stored C `int`. -/
def IsInt (x : Int) : Prop := naInt ≤ x ∧ x ≤ (intMax : Int)

/-- Every integer and logical element fits a C `int`. -/
def IntsFit : (t : ATy) → List t.El → Prop
  | .lgl, (xs : List Int) => ∀ x ∈ xs, IsInt x
  | .int, (xs : List Int) => ∀ x ∈ xs, IsInt x
  | _, _ => True

mutual

/-- Values that can be compared: vectors of one ordered type and of size `n`, or data frames with
as many columns that can be compared pairwise, to any depth. -/
inductive Comparable (n : Nat) : Val → Val → Prop
  | vec (t : ATy) (xs ys : List t.El) (h : Ordered t) (hx : xs.length = n) (hy : ys.length = n)
      (ix : IntsFit t xs) (iy : IntsFit t ys) :
      Comparable n (.vec (.atom t) xs) (.vec (.atom t) ys)
  | df (xs ys : List Val) (h : ComparableAll n xs ys) : Comparable n (.df n xs) (.df n ys)

/-- The same for lists of columns. -/
inductive ComparableAll (n : Nat) : List Val → List Val → Prop
  | nil : ComparableAll n [] []
  | cons (x y : Val) (xs ys : List Val) (h : Comparable n x y) (hs : ComparableAll n xs ys) :
      ComparableAll n (x :: xs) (y :: ys)

end

mutual

/-- The vectors found in a value from left to right. -/
def leaves : Val → List Val
  | .vec t xs => [.vec t xs]
  | .df _ cols => leavesAll cols

/-- The same for a list of columns. -/
def leavesAll : List Val → List Val
  | [] => []
  | x :: xs => leaves x ++ leavesAll xs

end

/-- The elements of two leaves at row `i` are related by `R`. -/
def AtLeaf (R : (t : ATy) → t.El → t.El → Prop) (p q : Val) (i : Nat) : Prop :=
  ∃ (t : ATy) (xs ys : List t.El) (a b : t.El), p = .vec (.atom t) xs ∧ q = .vec (.atom t) ys ∧
    xs[i]? = some a ∧ ys[i]? = some b ∧ R t a b

/-- Row `i` of `x` is before row `i` of `y` in lexicographic order: the first leaf where they are
not the same decides. -/
def RowLt (x y : Val) (i : Nat) : Prop :=
  ∃ (k : Nat) (p q : Val), (leaves x)[k]? = some p ∧ (leaves y)[k]? = some q ∧ AtLeaf AtomLt p q i ∧
    ∀ (j : Nat) (p' q' : Val), j < k → (leaves x)[j]? = some p' → (leaves y)[j]? = some q' →
      AtLeaf SameAtom p' q' i

/-- Row `i` is the same in every leaf of `x` and `y`. -/
def RowSame (x y : Val) (i : Nat) : Prop :=
  ∀ (j : Nat) (p q : Val), (leaves x)[j]? = some p → (leaves y)[j]? = some q →
    AtLeaf SameAtom p q i

/-- Row `i` is undecided because of a missing value: up to some leaf the rows are the same and
complete, and there one of them is missing. -/
def RowUndecided (x y : Val) (i : Nat) : Prop :=
  ∃ (k : Nat) (p q : Val), (leaves x)[k]? = some p ∧ (leaves y)[k]? = some q ∧
    AtLeaf (fun t a b => MissingAtom t a ∨ MissingAtom t b) p q i ∧
    ∀ (j : Nat) (p' q' : Val), j < k → (leaves x)[j]? = some p' → (leaves y)[j]? = some q' →
      AtLeaf (fun t a b => SameAtom t a b ∧ ¬ MissingAtom t a ∧ ¬ MissingAtom t b) p' q' i

/-- Every vector in a value has size `n`, and so has every data frame. -/
inductive Sized (n : Nat) : Val → Prop
  | vec (t : VTy) (xs : List t.El) (h : xs.length = n) : Sized n (.vec t xs)
  | df (cols : List Val) (h : ∀ p ∈ cols, Sized n p) : Sized n (.df n cols)

end Vctrs.Spec
