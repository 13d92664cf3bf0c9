import Verif.Model.Scatter
import Verif.SpecBind

/-!
# What assigning and unchopping should give

Written without the functions of the model; only the representations `NVal` and `NameSpec` are shared.
-/

namespace Vctrs.Spec

/-- `out` is `xs` after the writes `ws`, one after the other: each writes a value at a location counted from
1.  A missing location is not written. -/
def Writes {α : Type} (ws : List (Int × α)) (xs out : List α) : Prop :=
  out.length = xs.length ∧ ∀ p : Nat, p < xs.length →
    (∃ pre v post, ws = pre ++ ((p : Int) + 1, v) :: post ∧ (∀ w ∈ post, w.1 ≠ (p : Int) + 1) ∧ out[p]? = some v) ∨
    ((∀ w ∈ ws, w.1 ≠ (p : Int) + 1) ∧ out[p]? = xs[p]?)

/-- The writes of a part, which may be without names. -/
def namesWrites (p : List Int × Option (List Name)) : List (Int × Name) :=
  match p.2 with
  | none => []
  | some l => p.1.zip l

/-- The names of `n` elements after those of the parts have been written.  If there were none before, all
were `""`. -/
def WrittenNames (n : Nat) (parts : List (List Int × Option (List Name))) (a b : Option (List Name)) : Prop :=
  ((∀ p ∈ parts, p.2 = none) ∧ b = a) ∨
  ((∃ p ∈ parts, p.2 ≠ none) ∧ ∃ s r, (a = some s ∨ a = none ∧ s = List.replicate n (some [])) ∧ b = some r ∧
    Writes (parts.flatMap namesWrites) s r)

/-- The value after the parts have been written at their locations, in every column of a data frame, with
their names if `keep`. -/
inductive Scattered (keep : Bool) : NVal → List (List Int × NVal) → NVal → Prop
  | vec {t : VTy} {xs ys : List t.El} {a b : Option (List Name)}
      {parts : List (List Int × List t.El × Option (List Name))} :
      Writes (parts.flatMap (fun p => p.1.zip p.2.1)) xs ys →
      WrittenNames xs.length (parts.map (fun p => (p.1, if keep then p.2.2 else none))) a b →
      Scattered keep (.vec t xs a) (parts.map (fun p => (p.1, .vec t p.2.1 p.2.2))) (.vec t ys b)
  | df {n : Nat} {cn : List Name} {cols cols' : List NVal} {a b : Option (List Name)}
      {parts : List (List Int × NVal)} {colsOf : Nat → List (List Int × NVal)}
      {rows : List (List Int × Option (List Name))} :
      cols'.length = cols.length →
      (∀ c, c < cols.length → List.Forall₂ (fun p q => q.1 = p.1 ∧ ColumnOf c p.2 q.2) parts (colsOf c)) →
      (∀ (c : Nat) (x y : NVal), cols[c]? = some x → cols'[c]? = some y → Scattered keep x (colsOf c) y) →
      List.Forall₂ (fun p q => q.1 = p.1 ∧ ∃ m, RowsOf keep p.2 (m, q.2)) parts rows →
      WrittenNames n rows a b →
      Scattered keep (.df n cn cols a) parts (.df n cn cols' b)

/-- Row names are made unique, in columns as well. -/
inductive RowsRepaired : NVal → NVal → Prop
  | vec {t : VTy} {xs : List t.El} {a : Option (List Name)} : RowsRepaired (.vec t xs a) (.vec t xs a)
  | df {n : Nat} {cn : List Name} {cols cols' : List NVal} {a b : Option (List Name)} :
      cols'.length = cols.length →
      (∀ (c : Nat) (x y : NVal), cols[c]? = some x → cols'[c]? = some y → RowsRepaired x y) →
      RowRepair a b → RowsRepaired (.df n cn cols a) (.df n cn cols' b)

/-- `x` with the part of `value` at each of the locations. -/
def AssignedAt (keep : Bool) (loc : List Int) (x value y : NVal) : Prop :=
  ∃ m, Scattered keep x [(loc, value)] m ∧ RowsRepaired m y

/-! ## Unchopping -/

/-- A value without its names or row names; columns keep theirs. -/
def unnamed : NVal → NVal
  | .null => .null
  | .vec t xs _ => .vec t xs none
  | .df n cn cols _ => .df n cn cols none

/-- The input has an empty or missing outer name and no names. -/
def BlankOuter (outer : Option Name) (inner : Option (List Name)) : Prop :=
  (∃ o, outer = some o ∧ NoName o) ∧ inner = none

/-- A recycled input with its outer name and locations. -/
abbrev Piece := Option Name × List Int × NVal

/-- The names of a piece; its locations and the names it writes there: none if they are blank. -/
def PieceNames (spec : NameSpec) (p : Piece) (q : Option (List Name) × List Int × Option (List Name)) : Prop :=
  Merged spec p.2.1.length p.1 (namesOf p.2.2) q.1 ∧ q.2.1 = p.2.1 ∧
  ((BlankOuter p.1 (namesOf p.2.2) ∧ q.2.2 = none) ∨ (¬ BlankOuter p.1 (namesOf p.2.2) ∧ q.2.2 = q.1))

/-- The names of `n` elements: there are some if a piece has names; those written are repaired. -/
def UnchopNames (repair : NameRepair) (n : Nat) (qs : List (Option (List Name) × List Int × Option (List Name)))
    (a : Option (List Name)) : Prop :=
  ((∀ q ∈ qs, q.1 = none) ∧ a = none) ∨
  ((∃ q ∈ qs, q.1 ≠ none) ∧ ∃ s r, Writes (qs.flatMap (fun q => namesWrites q.2)) (List.replicate n (some [])) s ∧
    Repaired repair s r ∧ a = some r)

/-- `y` is `x` with the names `a`; those of rows are made unique. -/
inductive Renamed (a : Option (List Name)) : NVal → NVal → Prop
  | vec {t : VTy} {xs : List t.El} {nms : Option (List Name)} : Renamed a (.vec t xs nms) (.vec t xs a)
  | df {n : Nat} {cn : List Name} {cols : List NVal} {rn b : Option (List Name)} :
      RowRepair a b → Renamed a (.df n cn cols rn) (.df n cn cols b)

/-- `y` holds the pieces at their locations and missing values elsewhere. -/
def Unchopped (spec : NameSpec) (repair : NameRepair) (n : Nat) (ptype : NVal) (pieces : List Piece) (y : NVal) : Prop :=
  ∃ keep base mid fin qs a, (keep = true ↔ spec ≠ .zap) ∧
    SlicedAs (List.replicate n none) ptype base ∧
    Scattered keep base (pieces.map (fun p => (p.2.1, unnamed p.2.2))) mid ∧ RowsRepaired mid fin ∧
    List.Forall₂ (PieceNames spec) pieces qs ∧ UnchopNames repair n qs a ∧
    ((a = none ∧ spec ≠ .zap ∧ y = fin) ∨ ((a ≠ none ∨ spec = .zap) ∧ Renamed a fin y))

/-- The inputs that are not `NULL`, recycled to the number of their locations. -/
inductive Pieces : List (Option Name × List Int × NVal) → List Piece → Prop
  | nil : Pieces [] []
  | null {o : Option Name} {loc : List Int} {ins : List (Option Name × List Int × NVal)} {out : List Piece} :
      Pieces ins out → Pieces ((o, loc, .null) :: ins) out
  | cons {o : Option Name} {loc : List Int} {x y : NVal} {ins : List (Option Name × List Int × NVal)} {out : List Piece} :
      Recycled loc.length x y → Pieces ins out → Pieces ((o, loc, x) :: ins) ((o, loc, y) :: out)

end Vctrs.Spec
