import Verif.Model.Cast
import Verif.SpecValue

/-!
# What a lossless cast is

Independent of how the casts are computed: every element of a logical, integer or double vector
stands for a number or is missing, and a cast must keep what the elements stand for.  Numbers are
written as multiples of 2^-1074, the smallest positive double.
-/

namespace Vctrs.Spec

/-- What a logical or integer element stands for. -/
def intCell (v : Int) : Option Int := if v = naInt then none else some (v * 2 ^ 1074)

/-- What a double stands for; all NaN patterns are missing values. -/
def dblCell (d : Dbl) : Option Int := if IsNaN d then none else some (dblVal d)

/-- What the elements of a vector stand for. -/
def cells : NumVec → List (Option Int)
  | .lgl x => x.map intCell
  | .int x => x.map intCell
  | .dbl x => x.map dblCell

/-- The type of a vector. -/
def numTy : NumVec → NumTy
  | .lgl _ => .lgl
  | .int _ => .int
  | .dbl _ => .dbl

/-- The elements are those an R vector of the type may hold. -/
def NumOk : NumVec → Prop
  | .lgl x => ∀ v ∈ x, v = 0 ∨ v = 1 ∨ v = naInt
  | .int x => ∀ v ∈ x, naInt ≤ v ∧ v ≤ intMax
  | .dbl _ => True

/-- `y` is a vector of type `to` whose elements stand for the same as those of `x`. -/
def KeepsCells (x : NumVec) (to : NumTy) (y : NumVec) : Prop :=
  NumOk y ∧ numTy y = to ∧ cells y = cells x

/-- The strings that stand for true and false. -/
def strCell (s : Name) (v : Int) : Prop :=
  (s = none ∧ v = naInt) ∨
    (∃ c ∈ ["T".toList, "TRUE".toList, "true".toList], s = some c ∧ v = 1) ∨
    (∃ c ∈ ["F".toList, "FALSE".toList, "false".toList], s = some c ∧ v = 0)

end Vctrs.Spec
