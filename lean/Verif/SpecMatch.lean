import Verif.SpecInterval
import Verif.Model.Match

/-!
# Specifications for matching

Rows in the order of `vec_order()`; the pairs `vec_locate_matches()` has to give.
-/

namespace Vctrs.Spec

open Vctrs

/-! ## Joint ranks -/

/-- Order of rows: the first column where they are not tied decides; missing values are the
smallest. -/
def RowSmaller (nanDistinct : Bool) : (ts : List ATy) → Row ts → Row ts → Prop
  | [], _, _ => False
  | t :: ts, (a, r), (b, s) => Smaller false nanDistinct t a b ∨
      (¬ Smaller false nanDistinct t b a ∧ RowSmaller nanDistinct ts r s)

/-- The ranks `p` of the rows of `x` and `q` of the rows of `y` compare as the rows do. -/
def RanksCompare (nanDistinct : Bool) (ts : List ATy) (x y : Val) (p q : List Int) : Prop :=
  ∀ (i j : Nat) (a b : Int) (r s : Row ts), p[i]? = some a → q[j]? = some b →
    HasRow ts (leaves x) i r → HasRow ts (leaves y) j s → (a < b ↔ RowSmaller nanDistinct ts r s)

/-! ## Results of matching -/

/-- What is found for a needle: it is incomplete, it has no match, or it has these rows of the
haystack. -/
inductive Outcome where
  | incomplete | unmatched | rows (R : List Nat)

/-- Which of the matches `S` are reported. -/
def Chosen (multiple : MMultiple) (S R : List Nat) : Prop :=
  match multiple with
  | .first => ∃ k, k ∈ S ∧ R = [k] ∧ ∀ r ∈ S, k ≤ r
  | .last => ∃ k, k ∈ S ∧ R = [k] ∧ ∀ r ∈ S, r ≤ k
  | .any => ∃ k, k ∈ S ∧ R = [k]
  | _ => R = S

/-- The rows of the haystack that are found. -/
def Outcome.found : Outcome → List Nat
  | .rows R => R
  | _ => []

/-- What is reported for it: locations from 1, or the values given for `incomplete` and
`no_match`. -/
def Outcome.values (incomplete : MIncomplete) (noMatch : MUnmatched) : Outcome → List Int
  | .incomplete => match incomplete with
    | .value v => [v]
    | _ => []
  | .unmatched => match noMatch with
    | .value v => [v]
    | _ => []
  | .rows R => R.map (fun (r : Nat) => (r : Int) + 1)

/-- The pairs of needles and what is reported for them, in order of the needles. -/
def needlePairs (incomplete : MIncomplete) (noMatch : MUnmatched) (outs : Nat → Outcome) (n : Nat) :
    List (Int × Int) :=
  (List.range n).flatMap
    (fun i => ((outs i).values incomplete noMatch).map (fun v => ((i : Int) + 1, v)))

/-- All rows of the haystack that are found, once for every needle. -/
def allFound (outs : Nat → Outcome) (n : Nat) : List Nat :=
  (List.range n).flatMap (fun i => (outs i).found)

/-- The pairs for rows of the haystack that are not found. -/
def remainingPairs (remaining : MUnmatched) (outs : Nat → Outcome) (n m : Nat) : List (Int × Int) :=
  match remaining with
  | .value v => ((List.range m).filter (fun r => decide (r ∉ allFound outs n))).map
      (fun (r : Nat) => (v, (r : Int) + 1))
  | _ => []

/-- Some needle has several matches. -/
def SeveralMatches (outs : Nat → Outcome) (n : Nat) : Prop := ∃ i, i < n ∧ 1 < (outs i).found.length

/-- Some row of the haystack is found for several needles. -/
def FoundAgain (outs : Nat → Outcome) (n : Nat) : Prop :=
  ∃ i j r, i < j ∧ j < n ∧ r ∈ (outs i).found ∧ r ∈ (outs j).found

/-- More pairs than fit: a needle without a match counts for one. -/
def TooMany (outs : Nat → Outcome) (n : Nat) : Prop :=
  intMax < ((List.range n).map (fun i => max 1 (outs i).found.length)).sum

/-- The reasons for an error. -/
inductive Rejected (incomplete : MIncomplete) (noMatch remaining : MUnmatched) (multiple : MMultiple)
    (relationship : MRelationship) (outs : Nat → Outcome) (n m : Nat) : Prop
  | incomplete (h : incomplete = .error) (i : Nat) (hi : i < n) (ho : outs i = .incomplete)
  | unmatched (h : noMatch = .error) (i : Nat) (hi : i < n) (ho : outs i = .unmatched)
  | several (h : multiple = .error ∨ relationship = .oneToOne ∨ relationship = .manyToOne)
      (ho : SeveralMatches outs n)
  | again (h : relationship = .oneToOne ∨ relationship = .oneToMany) (ho : FoundAgain outs n)
  | remaining (h : remaining = .error) (r : Nat) (hr : r < m) (ho : r ∉ allFound outs n)
  | tooMany (h : multiple = .all ∨ multiple = .error ∨ multiple = .warning) (ho : TooMany outs n)

/-- The reasons for a warning. -/
inductive Warned (multiple : MMultiple) (relationship : MRelationship) (outs : Nat → Outcome)
    (n : Nat) : Prop
  | several (h : multiple = .warning) (ho : SeveralMatches outs n)
  | manyToMany (h : relationship = .warnManyToMany) (ho : SeveralMatches outs n)
      (ha : FoundAgain outs n)

/-! ## Which rows match -/

/-- The columns to match: those of a data frame, or the vector. -/
def topColumns : Val → List Val
  | .df _ cols => cols
  | .vec t xs => [.vec t xs]

/-- Both are data frames, or both are vectors. -/
def Alike : Val → Val → Prop
  | .df _ _, .df _ _ => True
  | .vec _ _, .vec _ _ => True
  | _, _ => False

/-- Columns with `n` rows: vectors, or packed data frames with columns of the types listed for them. -/
def HasColumns (n : Nat) : List (List ATy) → List Val → Prop
  | [], ps => ps = []
  | ts :: tss, ps => ∃ (p : Val) (qs : List Val), ps = p :: qs ∧ IsBounds ts n p ∧ HasColumns n tss qs

/-- `x` has `n` rows and such columns. -/
structure IsTable (tss : List (List ATy)) (n : Nat) (x : Val) : Prop where
  columns : HasColumns n tss (topColumns x)
  size : x.size = n

/-- What is asked for: a condition and a filter for every column, and the options that decide which
rows match. -/
structure Query where
  needles : Val
  haystack : Val
  conditions : List MOp
  filters : List MFilter
  incomplete : MIncomplete
  multiple : MMultiple
  nanDistinct : Bool

/-- The string for a condition. -/
def conditionName : MOp → Name
  | .eq => some ['=', '=']
  | .gt => some ['>']
  | .gte => some ['>', '=']
  | .lt => some ['<']
  | .lte => some ['<', '=']

/-- The string for a filter. -/
def filterName : MFilter → Name
  | .all => some ['n', 'o', 'n', 'e']
  | .min => some ['m', 'i', 'n']
  | .max => some ['m', 'a', 'x']

/-- The argument `arg` gives the values `vs` for `n` columns: one for all, or one for each. -/
def ArgGives {α : Type} (name : α → Name) (arg : List Name) (n : Nat) (vs : List α) : Prop :=
  (∃ v, arg = [name v] ∧ vs = List.replicate n v) ∨ (arg = vs.map name ∧ vs.length = n)

/-- A condition on two rows of a column, which is a vector or a packed data frame. -/
def Compares (nanDistinct : Bool) (op : MOp) (ts : List ATy) (a b : Row ts) : Prop :=
  match op with
  | .eq => ¬ RowSmaller nanDistinct ts a b ∧ ¬ RowSmaller nanDistinct ts b a
  | .gt => RowSmaller nanDistinct ts b a
  | .gte => ¬ RowSmaller nanDistinct ts a b
  | .lt => RowSmaller nanDistinct ts a b
  | .lte => ¬ RowSmaller nanDistinct ts b a

/-- The value `a` of a needle in a column matches `b`.  Incomplete values match only each other, if
`incomplete = "match"`, or if `incomplete = "compare"` and the condition allows for equality. -/
def CellMatches (nanDistinct : Bool) (incomplete : MIncomplete) (op : MOp) (ts : List ATy)
    (a b : Row ts) : Prop :=
  (¬ SomeMissing ts a ∧ ¬ SomeMissing ts b ∧ Compares nanDistinct op ts a b) ∨
  (SomeMissing ts a ∧ SomeMissing ts b ∧ Compares nanDistinct .eq ts a b ∧
    (incomplete = .exact ∨ (incomplete = .compare ∧ (op = .eq ∨ op = .gte ∨ op = .lte))))

/-- Row `r` of column `c` of `x`. -/
def ColumnRow (x : Val) (c : Nat) (ts : List ATy) (r : Nat) (a : Row ts) : Prop :=
  ∃ col, (topColumns x)[c]? = some col ∧ HasRow ts (leaves col) r a

/-- Row `k` of the haystack meets the conditions in all columns. -/
def RowMatches (Q : Query) (r k : Nat) : Prop :=
  ∀ (c : Nat) (ts : List ATy) (a b : Row ts) (op : MOp), ColumnRow Q.needles c ts r a →
    ColumnRow Q.haystack c ts k b → Q.conditions[c]? = some op →
    CellMatches Q.nanDistinct Q.incomplete op ts a b

/-- By its filter, `a` is to be preferred to `b`. -/
def Preferred (nanDistinct : Bool) (f : MFilter) (ts : List ATy) (a b : Row ts) : Prop :=
  match f with
  | .all => False
  | .min => RowSmaller nanDistinct ts a b
  | .max => RowSmaller nanDistinct ts b a

/-- Row `k` matches, and no other match is to be preferred in any column. -/
def Selected (Q : Query) (r k : Nat) : Prop :=
  RowMatches Q r k ∧ ∀ k', k' < Q.haystack.size → RowMatches Q r k' →
    ∀ (c : Nat) (ts : List ATy) (b b' : Row ts) (f : MFilter), Q.filters[c]? = some f →
      ColumnRow Q.haystack c ts k b → ColumnRow Q.haystack c ts k' b' →
      ¬ Preferred Q.nanDistinct f ts b' b

/-- The needle is incomplete, and this is to be reported, not matched. -/
def Flagged (Q : Query) (r : Nat) : Prop :=
  (Q.incomplete ≠ .compare ∧ Q.incomplete ≠ .exact) ∧
  ∃ (c : Nat) (ts : List ATy) (a : Row ts), ColumnRow Q.needles c ts r a ∧ SomeMissing ts a

/-- The first element of a row is missing. -/
def FirstMissing : (ts : List ATy) → Row ts → Prop
  | [], _ => False
  | t :: _, (a, _) => MissingAtom t a

/-- In column `c` of `x`, incomplete rows begin with a missing element, so that they come first. -/
def MissingFirst (x : Val) (c : Nat) : Prop :=
  ∀ (ts : List ATy) (r : Nat) (a : Row ts), ColumnRow x c ts r a → SomeMissing ts a → FirstMissing ts a

/-- The selected rows, in order. -/
def SelectedRows (Q : Query) (r : Nat) (S : List Nat) : Prop :=
  S.Pairwise (· < ·) ∧ ∀ k, k ∈ S ↔ k < Q.haystack.size ∧ Selected Q r k

/-- What has to be found for needle `r`. -/
def IsOutcome (Q : Query) (r : Nat) : Outcome → Prop
  | .incomplete => Flagged Q r
  | .unmatched => ¬ Flagged Q r ∧ ∀ k, k < Q.haystack.size → ¬ RowMatches Q r k
  | .rows R => ¬ Flagged Q r ∧ ∃ S, S ≠ [] ∧ SelectedRows Q r S ∧ Chosen Q.multiple S R

/-- The number of selected rows, with one for a needle that has none, is an integer. -/
def FewSelected (Q : Query) : Prop :=
  ∃ S : Nat → List Nat, (∀ r, r < Q.needles.size → SelectedRows Q r (S r)) ∧
    ((List.range Q.needles.size).map (fun r => max 1 (S r).length)).sum ≤ intMax

/-- The conditions of all columns but the last are `==`. -/
def EqBeforeLast (Q : Query) : Prop :=
  ∀ (c : Nat) (op : MOp), c + 1 < Q.conditions.length → Q.conditions[c]? = some op → op = .eq

end Vctrs.Spec
