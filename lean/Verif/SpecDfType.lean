import Verif.Model.DfType

/-! What the common type and the cast of data frames should be. -/

namespace Vctrs.Spec
open Vctrs

variable {β : Type}

/-- The data frame has the column `c` under the name `s`. -/
def ColAt (d : Df β) (s : Name) (c : β) : Prop := ∃ i : Nat, d.names[i]? = some s ∧ d.cols[i]? = some c

/-- A data frame with as many names as columns. -/
def Named (d : Df β) : Prop := d.names.length = d.cols.length ∧ d.names.length ≤ 2147483647

/-- No name occurs twice. -/
def Tidy (d : Df β) : Prop := Named d ∧ d.names.Nodup

/-- The outcome of the common type for the column `s`: that of both columns, or that of the only one. -/
def CommonCol (ops : ColOps β) (x y : Df β) (s : Name) (r : C β) : Prop :=
  (∃ a b, ColAt x s a ∧ ColAt y s b ∧ ops.ptype2 a b = r) ∨
  (∃ a, ColAt x s a ∧ s ∉ y.names ∧ ops.ptype a = r) ∨
  (∃ b, s ∉ x.names ∧ ColAt y s b ∧ ops.ptype b = r)

/-- The outcome of the cast for the column `s` of `ty`: the cast of the column of `x`, or missing values. -/
def CastCol (ops : ColOps β) (x ty : Df β) (s : Name) (r : C β) : Prop :=
  (∃ a b, ColAt x s a ∧ ColAt ty s b ∧ ops.cast a b = r) ∨
  (∃ b, s ∉ x.names ∧ ColAt ty s b ∧ ops.init b x.size = r)

end Vctrs.Spec
