import Verif.Model.NameRepair
import Verif.Spec

/-! # Specification of strategies of name repair -/

namespace Vctrs.Spec

/-- The strategies named by strings; the flag tells whether the string silences the messages. -/
inductive Strategy : String → RepairType → Bool → Prop
  | none : Strategy "none" .none false
  | minimal : Strategy "minimal" .minimal false
  | unique : Strategy "unique" .unique false
  | universal : Strategy "universal" .universal false
  | checkUnique : Strategy "check_unique" .checkUnique false
  | uniqueQuiet : Strategy "unique_quiet" .unique true
  | universalQuiet : Strategy "universal_quiet" .universal true

/-- The options an argument stands for; only the first string of a vector counts. -/
inductive Denotes : RepairArg → Bool → RepairOpts → Prop
  | chr {s : String} {rest : List Name} {t : RepairType} {silent quiet : Bool} :
      Strategy s t silent → Denotes (.chr (some s.toList :: rest)) quiet ⟨t, quiet || silent⟩
  | call {f : RepFn} {quiet : Bool} : Denotes (.call (.ok f)) quiet ⟨.custom f, quiet⟩
  | closure {f : RepFn} {quiet : Bool} : Denotes (.closure f) quiet ⟨.custom f, quiet⟩

/-- The names `...`, `..1`, `..2`, ... with a special meaning in R. -/
def DotDot (s : List Char) : Prop :=
  s = ['.', '.', '.'] ∨ ∃ (c : Char) (d : List Char), c.isDigit = true ∧ c ≠ '0' ∧
    (∀ x ∈ d, x.isDigit = true) ∧ s = '.' :: '.' :: c :: d

/-- Names accepted as unique: distinct, none missing, empty or special. -/
structure UniqueNames (names : List Name) : Prop where
  distinct : ∀ (i j : Nat) n, names[i]? = some n → names[j]? = some n → i = j
  valid : ∀ n ∈ names, ∃ s, n = some s ∧ s ≠ [] ∧ ¬ DotDot s

/-- `out` are the names `names` with missing ones replaced by empty ones. -/
def Minimal (names out : List Name) : Prop :=
  out.length = names.length ∧ (∀ (i : Nat) s, names[i]? = some (some s) → out[i]? = some (some s)) ∧
    ∀ i : Nat, names[i]? = some none → out[i]? = some (some [])

end Vctrs.Spec
