import Mathlib.Order.Defs.LinearOrder

/-!
# What a common shape is

Independent description of the common shape of two arrays: an axis that an array lacks counts as
one of size 1, two sizes agree if they are equal or if one of them is 1, and the first axis (the
rows) of a shape is always 0.
-/

namespace Vctrs.Spec

/-- The array of dimensions `d` has size `n` along the axis `i`, or lacks this axis. -/
def IsAxis (d : List Int) (i : Nat) (n : Int) : Prop :=
  d[i]? = some n ∨ (d.length ≤ i ∧ n = 1)

/-- `c` is the size to which the sizes `a` and `b` are recycled. -/
def CommonAxis (a b c : Int) : Prop := (a = b ∧ c = a) ∨ (a = 1 ∧ c = b) ∨ (b = 1 ∧ c = a)

/-- `r` is the common shape of arrays of dimensions `x` and `y`. -/
structure IsCommonShape (x y r : List Int) : Prop where
  /-- As many axes as the array with more of them. -/
  axes : r.length = max x.length y.length
  /-- No rows. -/
  rows : r[0]? = some 0
  /-- Each further axis is the common size of the two axes. -/
  common : ∀ (i : Nat) (a b c : Int), 1 ≤ i → IsAxis x i a → IsAxis y i b → r[i]? = some c →
    CommonAxis a b c

/-- Some axis after the first has two different sizes, neither of which is 1. -/
def Clash (x y : List Int) : Prop :=
  ∃ (i : Nat) (a b : Int), 1 ≤ i ∧ IsAxis x i a ∧ IsAxis y i b ∧ a ≠ b ∧ a ≠ 1 ∧ b ≠ 1

end Vctrs.Spec
