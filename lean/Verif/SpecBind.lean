import Verif.Model.Rbind
import Verif.SpecTable
import Batteries.Data.List.Basic

/-!
# What binding rows and combining vectors should give

Written without the functions of the model; only the representations `NVal` and `NameSpec` are shared.
-/

namespace Vctrs.Spec

/-- A common type: no rows, and no row names even in columns. -/
inductive IsPtype : NVal → Prop
  | vec {t : VTy} {nms : Option (List Name)} : (∀ l, nms = some l → l = []) → IsPtype (.vec t [] nms)
  | df {cn : List Name} {cols : List NVal} :
      cn.length = cols.length → (∀ p ∈ cols, IsPtype p) → IsPtype (.df 0 cn cols none)

/-- A value of `k` rows that has been cast to the common type: the types agree, and the columns of data
frames.  Row names fit the buffer they are repaired in. -/
inductive HasType (k : Nat) : NVal → NVal → Prop
  | vec {t : VTy} {e xs : List t.El} {nms0 nms : Option (List Name)} :
      xs.length = k → (∀ l, nms = some l → l.length = k) → HasType k (.vec t e nms0) (.vec t xs nms)
  | df {m : Nat} {cn : List Name} {pcols cols : List NVal} {rn : Option (List Name)} :
      cols.length = pcols.length →
      (∀ (c : Nat) (p x : NVal), pcols[c]? = some p → cols[c]? = some x → HasType k p x) →
      (∀ l, rn = some l → l.length = k ∧ ∀ s, some s ∈ l → s.length ≤ 2147483619) →
      HasType k (.df m cn pcols none) (.df k cn cols rn)

/-- Names of parts put one after the other: each part has a number of elements and perhaps names.
There are names if a part has some or if there were names from the start; parts without are named
`""`. -/
def StackedNames (start : Option (List Name)) (parts : List (Nat × Option (List Name)))
    (out : Option (List Name)) : Prop :=
  (start = none ∧ (∀ p ∈ parts, p.2 = none) ∧ out = none) ∨
  ((start ≠ none ∨ ∃ p ∈ parts, p.2 ≠ none) ∧ ∃ bs : List (List Name), out = some bs.flatten ∧
    List.Forall₂ (fun p b => p.2 = some b ∨ p.2 = none ∧ b = List.replicate p.1 (some [])) parts bs)

/-- `y` is column `c` of the data frame `x`. -/
def ColumnOf (c : Nat) (x y : NVal) : Prop := ∃ n cn cols rn, x = .df n cn cols rn ∧ cols[c]? = some y

/-- The number of rows and, if they are kept, the row names of a data frame. -/
def RowsOf (keep : Bool) (x : NVal) (p : Nat × Option (List Name)) : Prop :=
  ∃ n cn cols rn, x = .df n cn cols rn ∧ p = (n, if keep then rn else none)

/-- Row names, if any, are made unique. -/
def RowRepair (a b : Option (List Name)) : Prop :=
  (a = none ∧ b = none) ∨ ∃ l r, a = some l ∧ b = some r ∧ UniqueRepair l r

/-- The values `xs` of a common type put one after the other, with their names if `keep`. -/
inductive Stacked (keep : Bool) : NVal → List NVal → NVal → Prop
  | vec {t : VTy} {e : List t.El} {start nms : Option (List Name)}
      {parts : List (List t.El × Option (List Name))} :
      StackedNames start (parts.map (fun p => (p.1.length, if keep then p.2 else none))) nms →
      Stacked keep (.vec t e start) (parts.map (fun p => .vec t p.1 p.2))
        (.vec t (parts.map (fun p => p.1)).flatten nms)
  | df {m n : Nat} {cn : List Name} {pcols xs cols : List NVal} {colsOf : Nat → List NVal}
      {rows : List (Nat × Option (List Name))} {a rn : Option (List Name)} :
      cols.length = pcols.length →
      (∀ c, c < pcols.length → List.Forall₂ (ColumnOf c) xs (colsOf c)) →
      (∀ (c : Nat) (p y : NVal), pcols[c]? = some p → cols[c]? = some y → Stacked keep p (colsOf c) y) →
      List.Forall₂ (RowsOf keep) xs rows → n = (rows.map (fun p => p.1)).sum →
      StackedNames none rows a → RowRepair a rn →
      Stacked keep (.df m cn pcols none) xs (.df n cn cols rn)

/-- The columns of the data frames `xs` put one after the other. -/
def StackedCols (keep : Bool) (pcols xs cols : List NVal) : Prop :=
  cols.length = pcols.length ∧ ∀ (c : Nat) (p y : NVal), pcols[c]? = some p → cols[c]? = some y →
    ∃ ys, List.Forall₂ (ColumnOf c) xs ys ∧ Stacked keep p ys y

/-! ## Outer and inner names -/

/-- A missing or empty name. -/
def NoName (n : Name) : Prop := n = none ∨ n = some []

/-- No names or only missing or empty ones. -/
def NoInner (inner : Option (List Name)) : Prop := ∀ l, inner = some l → ∀ n ∈ l, NoName n

/-- The names or row names of a value. -/
def namesOf : NVal → Option (List Name)
  | .null => none
  | .vec _ _ nms => nms
  | .df _ _ _ rn => rn

/-- The answer `r` of a name specification as names for `n` elements: repeated if it is one. -/
def Fitted (n : Nat) (r : Option (List Name)) (out : Option (List Name)) : Prop :=
  (r = none ∧ out = none) ∨
  ∃ l l', r = some l ∧ out = some l' ∧ ((l.length = n ∧ l' = l) ∨ (∃ a, l = [a] ∧ n ≠ 1 ∧ l' = List.replicate n a))

/-- The names of the `n` elements of an input named `outer` with the names `inner`. -/
inductive Merged (spec : NameSpec) (n : Nat) : Option Name → Option (List Name) → Option (List Name) → Prop
  | zap {outer : Option Name} {inner : Option (List Name)} : spec = .zap → Merged spec n outer inner none
  | unnamed {inner : Option (List Name)} : spec ≠ .zap → Merged spec n none inner inner
  | inner {o : Name} {l : List Name} : spec ≠ .zap → NoName o → Merged spec n (some o) (some l) (some l)
  | blank {o : Name} : spec ≠ .zap → NoName o →
      Merged spec n (some o) none (some (List.replicate n (some [])))
  | zero {o : List Char} {inner : Option (List Name)} : spec ≠ .zap → o ≠ [] → NoInner inner → n = 0 →
      Merged spec n (some (some o)) inner (some [])
  | one {o : List Char} {inner : Option (List Name)} : spec ≠ .zap → o ≠ [] → NoInner inner → n = 1 →
      Merged spec n (some (some o)) inner (some [some o])
  | index {o : List Char} {inner r out : Option (List Name)}
      {f : List Char → InnerNames → C (Option (List Name))} : spec = .fn f → o ≠ [] → NoInner inner → 2 ≤ n →
      f o (.iota n) = .ok r → Fitted n r out → Merged spec n (some (some o)) inner out
  | both {o : List Char} {l : List Name} {r out : Option (List Name)}
      {f : List Char → InnerNames → C (Option (List Name))} : spec = .fn f → o ≠ [] → ¬ NoInner (some l) →
      f o (.names l) = .ok r → Fitted n r out → Merged spec n (some (some o)) (some l) out

/-- Outer and inner names that cannot be merged without a specification. -/
def Unmerged (spec : NameSpec) (n : Nat) (outer : Option Name) (inner : Option (List Name)) : Prop :=
  spec = .null ∧ ∃ o, o ≠ [] ∧ outer = some (some o) ∧ (2 ≤ n ∨ ¬ NoInner inner)

/-- An input with an empty or missing outer name, no names of its own and not one row. -/
def BlankNames (spec : NameSpec) (n : Nat) (outer : Option Name) (inner : Option (List Name)) : Prop :=
  spec ≠ .zap ∧ (∃ o, outer = some o ∧ NoName o) ∧ inner = none ∧ n ≠ 1

/-- Names short enough to be repaired. -/
def ShortNames (parts : List (Nat × Option (List Name))) : Prop :=
  ∀ p ∈ parts, ∀ l, p.2 = some l → ∀ s, some s ∈ l → s.length ≤ 2147483619

/-- The names of the inputs, one for each; `none` if they have no names at all. -/
def OuterNames (names : Option (List Name)) (xs : List NVal) (outer : List (Option Name)) : Prop :=
  (names = none ∧ outer = List.replicate xs.length none) ∨
  ∃ l, names = some l ∧ l.length = xs.length ∧ outer = l.map some

/-- An input has rows. -/
def HasRows (x : NVal) : Prop := ∃ n, rowsOf x = some n ∧ n ≠ 0

/-- `kept` are the members of `ins` that have rows. -/
inductive KeptRows {α : Type} : List (α × NVal) → List (α × NVal) → Prop
  | nil : KeptRows [] []
  | keep {a : α} {x : NVal} {ins kept : List (α × NVal)} :
      HasRows x → KeptRows ins kept → KeptRows ((a, x) :: ins) ((a, x) :: kept)
  | drop {a : α} {x : NVal} {ins kept : List (α × NVal)} :
      ¬ HasRows x → KeptRows ins kept → KeptRows ((a, x) :: ins) kept

/-- The number of rows and the names of an input. -/
def Block (spec : NameSpec) (p : Option Name × NVal) (b : Nat × Option (List Name)) : Prop :=
  rowsOf p.2 = some b.1 ∧ Merged spec b.1 p.1 (namesOf p.2) b.2

/-- The sum of the numbers of rows. -/
def totalRows (xs : List NVal) : Nat := (xs.filterMap rowsOf).sum

/-- `col` replaces column `k`. -/
def Replaced (k : Nat) (col : NVal) (cols cols' : List NVal) : Prop :=
  cols'.length = cols.length ∧ cols'[k]? = some col ∧ ∀ c : Nat, c ≠ k → cols'[c]? = cols[c]?

/-- Each label once for each row of its data frame. -/
inductive Repeated {α : Type} : List (α × NVal) → List α → Prop
  | nil : Repeated [] []
  | cons {a : α} {x : NVal} {ins : List (α × NVal)} {n : Nat} {out : List α} :
      rowsOf x = some n → Repeated ins out → Repeated ((a, x) :: ins) (List.replicate n a ++ out)

/-- The rows of the data frames `ins`, each with its outer name, in a data frame of the type
`cn`, `pcols`. -/
def RowBound (spec : NameSpec) (cn : List Name) (pcols : List NVal) (ins : List (Option Name × NVal))
    (n : Nat) (cols : List NVal) (rn : Option (List Name)) : Prop :=
  ∃ keep blocks a, (keep = true ↔ spec ≠ .zap) ∧ StackedCols keep pcols (ins.map (fun p => p.2)) cols ∧
    List.Forall₂ (Block spec) ins blocks ∧ n = (blocks.map (fun b => b.1)).sum ∧
    StackedNames none blocks a ∧ RowRepair a rn

/-! ## Combining -/

/-- The number of elements and the names of an input, which may be `NULL`. -/
def CBlock (spec : NameSpec) (p : Option Name × NVal) (b : Nat × Option (List Name)) : Prop :=
  (rowsOf p.2 = some b.1 ∨ p.2 = .null ∧ b.1 = 0) ∧ Merged spec b.1 p.1 (namesOf p.2) b.2

/-- The names of `n` combined elements: those of the inputs put one after the other, repaired; if no input
has names, those of a common type with names. -/
def CombinedNames (spec : NameSpec) (repair : NameRepair) (start : Option (List Name)) (n : Nat)
    (blocks : List (Nat × Option (List Name))) (out : Option (List Name)) : Prop :=
  (spec = .zap ∧ out = none) ∨
  (spec ≠ .zap ∧ ∃ a, StackedNames none blocks a ∧
    ((a = none ∧ start = none ∧ out = none) ∨
     (a = none ∧ start ≠ none ∧ out = some (List.replicate n (some []))) ∨
     ∃ l r, a = some l ∧ Repaired repair l r ∧ out = some r))

/-- `y` combines the inputs `ins`, of which `kept` have elements. -/
inductive Combined (spec : NameSpec) (repair : NameRepair) (ins kept : List (Option Name × NVal)) : NVal → NVal → Prop
  | vec {t : VTy} {e : List t.El} {start nms : Option (List Name)}
      {parts : List (List t.El × Option (List Name))} {blocks : List (Nat × Option (List Name))} :
      kept.map (fun p => p.2) = parts.map (fun p => .vec t p.1 p.2) →
      List.Forall₂ (CBlock spec) ins blocks →
      CombinedNames spec repair start ((parts.map (fun p => p.1)).flatten).length blocks nms →
      Combined spec repair ins kept (.vec t e start) (.vec t (parts.map (fun p => p.1)).flatten nms)
  | df {n : Nat} {cn : List Name} {pcols cols : List NVal} {keep : Bool} {nms rn : Option (List Name)}
      {blocks : List (Nat × Option (List Name))} :
      (keep = true ↔ spec ≠ .zap) → StackedCols keep pcols (kept.map (fun p => p.2)) cols →
      List.Forall₂ (CBlock spec) ins blocks → n = (blocks.map (fun b => b.1)).sum →
      CombinedNames spec repair none n blocks nms → RowRepair nms rn →
      Combined spec repair ins kept (.df 0 cn pcols none) (.df n cn cols rn)

end Vctrs.Spec
