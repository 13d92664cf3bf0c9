import Verif.SpecOrder

/-!
# Specifications for intervals

An interval is a row of `start` and the same row of `end`.  Rows are tuples of elements, in
lexicographic order; the points an interval covers are the rows from its start up to, but without,
its end.
-/

namespace Vctrs.Spec

open Vctrs

/-! ## Rows -/

/-- `ps` are vectors of the types `ts`. -/
def HasTypes : List ATy → List Val → Prop
  | [], ps => ps = []
  | t :: ts, ps => ∃ (xs : List t.El) (qs : List Val), ps = .vec (.atom t) xs :: qs ∧ HasTypes ts qs

/-- Row `i` of the vectors `ps`. -/
def HasRow : (ts : List ATy) → List Val → Nat → Row ts → Prop
  | [], ps, _, _ => ps = []
  | t :: ts, ps, i, (a, r) => ∃ (xs : List t.El) (qs : List Val), ps = .vec (.atom t) xs :: qs ∧
      xs[i]? = some a ∧ HasRow ts qs i r

/-- Lexicographic order of rows. -/
def RowsLt : (ts : List ATy) → Row ts → Row ts → Prop
  | [], _, _ => False
  | t :: ts, (a, r), (b, s) => AtomLt t a b ∨ (SameAtom t a b ∧ RowsLt ts r s)

/-- Every element of a row is missing. -/
def EachMissing : (ts : List ATy) → Row ts → Prop
  | [], _ => True
  | t :: ts, (a, r) => MissingAtom t a ∧ EachMissing ts r

/-! ## Intervals -/

/-- Row `i` is the interval from `s` to `e`, not a missing one. -/
def IsInterval (ts : List ATy) (start stop : Val) (i : Nat) (s e : Row ts) : Prop :=
  HasRow ts (leaves start) i s ∧ HasRow ts (leaves stop) i e ∧ ¬ EachMissing ts s

/-- Row `i` is a missing interval. -/
def IsMissingInterval (ts : List ATy) (start stop : Val) (i : Nat) : Prop :=
  i < start.size ∧ ∃ s e, HasRow ts (leaves start) i s ∧ HasRow ts (leaves stop) i e ∧
    EachMissing ts s ∧ EachMissing ts e

/-- An interval covers the point `r`. -/
def Covers (ts : List ATy) (start stop : Val) (r : Row ts) : Prop :=
  ∃ i s e, IsInterval ts start stop i s e ∧ ¬ RowsLt ts r s ∧ RowsLt ts r e

/-- The point `r` is inside an interval, not at its start. -/
def Inside (ts : List ATy) (start stop : Val) (r : Row ts) : Prop :=
  ∃ i s e, IsInterval ts start stop i s e ∧ RowsLt ts s r ∧ RowsLt ts r e

/-- `n` bounds of intervals, of the types `ts`. -/
structure IsBounds (ts : List ATy) (n : Nat) (x : Val) : Prop where
  sized : Sized n x
  types : HasTypes ts (leaves x)
  sortable : ∀ p ∈ leaves x, Sortable n p

/-- `n` intervals as documented in R/interval.R:21-35: a start that is missing has an end that is
missing, and no row is missing in part.  The types have an order. -/
structure IsIntervals (ts : List ATy) (n : Nat) (start stop : Val) : Prop where
  starts : IsBounds ts n start
  stops : IsBounds ts n stop
  ordered : ∀ t ∈ ts, Ordered t
  complete : ∀ i s e, HasRow ts (leaves start) i s → HasRow ts (leaves stop) i e →
    (EachMissing ts s ∧ EachMissing ts e) ∨ (¬ SomeMissing ts s ∧ ¬ SomeMissing ts e)

/-- The start of each interval is before its end. -/
def ValidIntervals (ts : List ATy) (start stop : Val) : Prop :=
  ∀ i s e, IsInterval ts start stop i s e → RowsLt ts s e

/-- Each interval ends before the next one starts, or where it starts unless `gaps`. -/
def DisjointSorted (gaps : Bool) (ts : List ATy) (start stop : Val) : Prop :=
  ∀ i j s e s' e', i < j → IsInterval ts start stop i s e → IsInterval ts start stop j s' e' →
    if gaps then RowsLt ts e s' else ¬ RowsLt ts s' e

/-- Interval `i` of `start` and `stop` is contained in interval `j` of `start'` and `stop'`. -/
def ContainedIn (ts : List ATy) (start stop : Val) (i : Nat) (start' stop' : Val) (j : Nat) : Prop :=
  ∃ s e s' e', IsInterval ts start stop i s e ∧ IsInterval ts start' stop' j s' e' ∧
    ¬ RowsLt ts s s' ∧ ¬ RowsLt ts e' e

/-! ## Values of one type -/

mutual

/-- A value without its rows. -/
def emptied : Val → Val
  | .vec t _ => .vec t []
  | .df _ cols => .df 0 (emptiedAll cols)

/-- The same for a list of columns. -/
def emptiedAll : List Val → List Val
  | [] => []
  | x :: xs => emptied x :: emptiedAll xs

end

/-- Two values have the same type: vectors of one type, or data frames with columns of the same
types. -/
def SameType (x y : Val) : Prop := emptied x = emptied y

/-! ## Results -/

/-- What is to hold of the groups `S` to `E`, of which there are `m`. -/
structure MergedGroups (ts : List ATy) (start stop : Val) (abutting group : Bool) (m : Nat)
    (S E : Val) : Prop where
  intervals : IsIntervals ts m S E
  typeS : SameType S start
  typeE : SameType E stop
  covers : ∀ r, Covers ts S E r ↔ Covers ts start stop r
  disjoint : DisjointSorted abutting ts S E
  inside : abutting = false → ∀ r, Inside ts S E r ↔ Inside ts start stop r
  valid : ValidIntervals ts start stop → ValidIntervals ts S E
  missing : ∀ j, IsMissingInterval ts S E j ↔
    group = true ∧ j + 1 = m ∧ ∃ i, IsMissingInterval ts start stop i

/-! ## Complement -/

/-- A bound of the complement: one complete row of the type of the intervals. -/
structure IsLimit (ts : List ATy) (type x : Val) : Prop where
  bounds : IsBounds ts 1 x
  type : SameType x type
  complete : ∀ r, HasRow ts (leaves x) 0 r → ¬ SomeMissing ts r

/-- The point `r` is not before the lower bound.  Without one it is not before the first start. -/
def AfterLower (ts : List ATy) (start stop : Val) (lower : Option Val) (r : Row ts) : Prop :=
  match lower with
  | some l => ∃ x, HasRow ts (leaves l) 0 x ∧ ¬ RowsLt ts r x
  | none => ∃ i s e, IsInterval ts start stop i s e ∧ ¬ RowsLt ts r s

/-- The point `r` is before the upper bound.  Without one it is before the last end. -/
def BeforeUpper (ts : List ATy) (start stop : Val) (upper : Option Val) (r : Row ts) : Prop :=
  match upper with
  | some u => ∃ x, HasRow ts (leaves u) 0 x ∧ RowsLt ts r x
  | none => ∃ i s e, IsInterval ts start stop i s e ∧ RowsLt ts r e

/-- What is to hold of the complement `S` to `E`, of which there are `m` intervals. -/
structure IsComplement (ts : List ATy) (start stop : Val) (lower upper : Option Val) (m : Nat)
    (S E : Val) : Prop where
  intervals : IsIntervals ts m S E
  typeS : SameType S start
  typeE : SameType E stop
  covers : ∀ r, Covers ts S E r ↔ AfterLower ts start stop lower r ∧
    BeforeUpper ts start stop upper r ∧ ¬ Covers ts start stop r
  disjoint : DisjointSorted true ts S E
  valid : ValidIntervals ts S E
  present : ∀ j, ¬ IsMissingInterval ts S E j

end Vctrs.Spec
