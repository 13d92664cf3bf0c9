import Verif.Model.Table
import Verif.SpecValue
import Verif.Spec

/-!
# What slicing, binding and building data frames should give

Written without the functions of the model; only the representation `NVal` is shared.
-/

namespace Vctrs.Spec

/-- The cell of a missing location: the missing value of the type, 0 for raw vectors and `NULL` for
lists. -/
def IsBlank : (t : VTy) → t.El → Prop
  | .atom .lgl, (v : Int) => v = naInt
  | .atom .int, (v : Int) => v = naInt
  | .atom .dbl, (v : Dbl) => IsNA v
  | .atom .cpl, (v : Dbl × Dbl) => IsNA v.1 ∧ IsNA v.2
  | .atom .chr, (v : Option (List Char)) => v = none
  | .atom .raw, (v : BitVec 8) => v = 0
  | .list, (v : Obj) => v = Obj.nil

/-- `ys` are the elements of `xs` at `locs`, where `none` is a missing location. -/
def Located {α : Type} (blank : α → Prop) (locs : List (Option Nat)) (xs ys : List α) : Prop :=
  ys.length = locs.length ∧
  (∀ k : Nat, locs[k]? = some none → ∃ v, ys[k]? = some v ∧ blank v) ∧
  ∀ k i : Nat, locs[k]? = some (some i) → ∃ v, ys[k]? = some v ∧ xs[i]? = some v

/-- The same for names, which may be absent. -/
def LocatedNames (locs : List (Option Nat)) (xs ys : Option (List Name)) : Prop :=
  (xs = none ∧ ys = none) ∨
  ∃ a b, xs = some a ∧ ys = some b ∧ Located (fun v => v = some []) locs a b

/-- The same for row names: those of missing locations are missing, then all are made unique, twice. -/
def LocatedRows (locs : List (Option Nat)) (xs ys : Option (List Name)) : Prop :=
  (xs = none ∧ ys = none) ∨
  ∃ a b c d, xs = some a ∧ ys = some d ∧ Located (fun v => v = none) locs a b ∧
    UniqueRepair b c ∧ UniqueRepair c d

/-- The rows `locs` of a vector or data frame. -/
inductive SlicedAs (locs : List (Option Nat)) : NVal → NVal → Prop
  | vec {t : VTy} {xs ys : List t.El} {nms nms' : Option (List Name)} :
      Located (IsBlank t) locs xs ys → LocatedNames locs nms nms' →
      SlicedAs locs (.vec t xs nms) (.vec t ys nms')
  | df {n : Nat} {cn : List Name} {cols cols' : List NVal} {rn rn' : Option (List Name)} :
      cols'.length = cols.length →
      (∀ (c : Nat) (x y : NVal), cols[c]? = some x → cols'[c]? = some y → SlicedAs locs x y) →
      LocatedRows locs rn rn' →
      SlicedAs locs (.df n cn cols rn) (.df locs.length cn cols' rn')

/-- A vector of `n` elements or a data frame of `n` rows: names and columns have the right sizes, and
row names fit the buffer they are repaired in. -/
inductive IsTab (n : Nat) : NVal → Prop
  | vec {t : VTy} {xs : List t.El} {nms : Option (List Name)} :
      xs.length = n → (∀ l, nms = some l → l.length = n) → IsTab n (.vec t xs nms)
  | df {cn : List Name} {cols : List NVal} {rn : Option (List Name)} :
      cn.length = cols.length → (∀ p ∈ cols, IsTab n p) →
      (∀ l, rn = some l → l.length = n ∧ ∀ s, some s ∈ l → s.length ≤ 2147483619) →
      IsTab n (.df n cn cols rn)

/-- Locations as integers, where `NA` is a missing location. -/
def locations (loc : List Int) : List (Option Nat) :=
  loc.map (fun e => if e = naInt then none else some (e - 1).toNat)

/-! ## Data frames -/

/-- An input: `NULL` or a vector. -/
def IsInput (x : NVal) : Prop := x = .null ∨ ∃ m, IsTab m x

/-- The number of elements or rows; `NULL` has none. -/
def rowsOf : NVal → Option Nat
  | .null => none
  | .vec _ xs _ => some xs.length
  | .df n _ _ _ => some n

/-- `y` is `x` recycled to `n` rows. -/
def Recycled (n : Nat) (x y : NVal) : Prop :=
  (rowsOf x = some n ∧ y = x) ∨
  (rowsOf x = some 1 ∧ n ≠ 1 ∧ SlicedAs (List.replicate n (some 0)) x y)

/-- The columns of a data frame built from inputs with names: `NULL` gives none, an unnamed data frame
gives its own if `unpack`, any other input is a column. -/
inductive Columns (n : Nat) (unpack : Bool) : List (Name × NVal) → List (Name × NVal) → Prop
  | nil : Columns n unpack [] []
  | null {nm : Name} {ins outs : List (Name × NVal)} :
      Columns n unpack ins outs → Columns n unpack ((nm, .null) :: ins) outs
  | flat {m : Nat} {cn cn' : List Name} {cols cols' : List NVal} {rn rn' : Option (List Name)}
      {ins outs : List (Name × NVal)} :
      unpack = true → Recycled n (.df m cn cols rn) (.df n cn' cols' rn') → Columns n unpack ins outs →
      Columns n unpack ((some [], .df m cn cols rn) :: ins) (cn'.zip cols' ++ outs)
  | one {nm : Name} {x y : NVal} {ins outs : List (Name × NVal)} :
      (unpack = false ∨ nm ≠ some [] ∨ ∀ m cn cols rn, x ≠ .df m cn cols rn) →
      Recycled n x y → Columns n unpack ins outs →
      Columns n unpack ((nm, x) :: ins) ((nm, y) :: outs)

/-- `size` as given, or the common size of the inputs, 0 without any. -/
def RowCount (xs : List NVal) (size : Option Nat) (n : Nat) : Prop :=
  size = some n ∨ (size = none ∧ (CommonSize (xs.filterMap rowsOf) n ∨ xs.filterMap rowsOf = [] ∧ n = 0))

/-- The names of the inputs; without any, all are empty. -/
def InputNames (xs : List NVal) (names : Option (List Name)) (nms : List Name) : Prop :=
  (names = some nms ∧ nms.length = xs.length) ∨
  (names = none ∧ nms = List.replicate xs.length (some []))

/-- `b` are the names `a` after the repair. -/
def Repaired : NameRepair → List Name → List Name → Prop
  | .none, a, b => b = a
  | .minimal, a, b => b.length = a.length ∧
      (∀ (i : Nat) s, a[i]? = some (some s) → b[i]? = some (some s)) ∧
      ∀ i : Nat, a[i]? = some none → b[i]? = some (some [])
  | .unique, a, b => UniqueRepair a b

/-- Few enough and short enough names for the buffers of unique repair. -/
def FitsRepair (repair : NameRepair) (a : List Name) : Prop :=
  match repair with
  | .unique => a.length ≤ 2147483647 ∧ ∀ s, some s ∈ a → s.length ≤ 2147483619
  | _ => True

/-- No data frame with row names. -/
def NoRowNames (xs : List NVal) : Prop := ∀ x ∈ xs, ∀ m cn cols rn, x = .df m cn cols rn → rn = none

/-- The row names of the data frames bound by columns: those of the first that has some, repeated if
it has one row, and made unique. -/
def BoundRowNames (n : Nat) (xs : List NVal) (out : Option (List Name)) : Prop :=
  (NoRowNames xs ∧ out = none) ∨
  ∃ pre m cn cols rn post res, xs = pre ++ .df m cn cols (some rn) :: post ∧ NoRowNames pre ∧ out = some res ∧
    ((m = n ∧ UniqueRepair rn res) ∨
     (m = 1 ∧ n ≠ 1 ∧ ∃ nm a, rn = [nm] ∧ UniqueRepair (List.replicate n nm) a ∧ UniqueRepair a res))

end Vctrs.Spec
