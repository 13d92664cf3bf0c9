import Verif.Base
import Verif.Model.Names

/-!
# The vector a run-length encoding stands for
-/

namespace Vctrs.Spec

/-- Every string as often as its run length says. -/
def expandRle (rle : List Int) (names : List Name) : List Name :=
  (List.zipWith (fun n s => List.replicate n.toNat s) rle names).flatten

/-- Run lengths that are not negative, one string for each. -/
def IsRle (rle : List Int) (names : List Name) : Prop :=
  rle.length = names.length ∧ ∀ n ∈ rle, 0 ≤ n

/-- What R's subsetting by locations gives: a missing or out of bounds location gives a missing
string. -/
def subsetLoc (x : List Name) (loc : Int) : Name :=
  if loc = naInt then none else (x[(loc - 1).toNat]?).join

end Vctrs.Spec
