import Verif.Model.Factor

/-! What a factor stands for. -/

namespace Vctrs.Spec
open Vctrs

/-- The code `c` stands for the string `s`: a missing code for the missing string, the code `k + 1`
for the level at position `k`. -/
def HasLabel (levels : List Name) (c : Int) (s : Name) : Prop :=
  (c = naInt ∧ s = none) ∨ ∃ k : Nat, c = (k : Int) + 1 ∧ levels[k]? = some s

/-- The elements of the factor are these strings. -/
def Reads (f : Factor) (strings : List Name) : Prop :=
  f.codes.length = strings.length ∧
  ∀ (i : Nat) (c : Int) (s : Name), f.codes[i]? = some c → strings[i]? = some s → HasLabel f.levels c s

/-- A factor as R makes them: distinct levels, every code missing or that of a level. -/
def WellFormed (f : Factor) : Prop :=
  f.levels.Nodup ∧ f.levels.length ≤ 2147483647 ∧
  ∀ c ∈ f.codes, c = naInt ∨ (1 ≤ c ∧ c ≤ (f.levels.length : Int))

/-- Some element that is not missing has a string outside `levels`. -/
def Drops (f : Factor) (levels : List Name) : Prop :=
  ∃ c s, c ∈ f.codes ∧ c ≠ naInt ∧ HasLabel f.levels c s ∧ s ∉ levels

end Vctrs.Spec
