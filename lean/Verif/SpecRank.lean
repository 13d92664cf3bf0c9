import Verif.SpecOrder
import Verif.Model.Rank

/-!
# Specifications for ranks

Ranks are counts of rows.
-/

namespace Vctrs.Spec

open Vctrs

/-- `k` is the number of those with `P`. -/
def HasCount (P : Nat → Prop) (k : Nat) : Prop :=
  ∃ l : List Nat, l.Nodup ∧ (∀ j, j ∈ l ↔ P j) ∧ l.length = k

/-- `r` is the rank of row `i` among the rows `S` in the order `before`:

* `min`: one more than the number of rows that come before;
* `max`: the number of rows that do not come after;
* `dense`: one more than the number of different rows that come before, where a row is counted if
  it is the first among those tied with it;
* `sequential`: one more than the number of rows that come before or are tied and found earlier. -/
def IsRank (before : Nat → Nat → Prop) (S : Nat → Prop) (i : Nat) (r : Int) : Ties → Prop
  | .min => ∃ k : Nat, r = k + 1 ∧ HasCount (fun j => S j ∧ before j i) k
  | .max => ∃ k : Nat, r = k ∧ HasCount (fun j => S j ∧ ¬ before i j) k
  | .dense => ∃ k : Nat, r = k + 1 ∧ HasCount (fun j => S j ∧ before j i ∧
      ∀ j', S j' → j' < j → before j j' ∨ before j' j) k
  | .sequential => ∃ k : Nat, r = k + 1 ∧ HasCount (fun j => S j ∧
      (before j i ∨ (¬ before i j ∧ j < i))) k

end Vctrs.Spec
