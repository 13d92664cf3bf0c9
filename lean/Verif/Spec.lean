/-!
# Specifications

Small declarative notions used in the property statements.  They do not mention the
models.
-/

namespace Vctrs.Spec

variable {α : Type _}

/-- Keep the first of every class of equal elements. -/
def nub (eq : α → α → Bool) : List α → List α
  | [] => []
  | a :: l => a :: (nub eq l).filter (fun b => !eq a b)

/-- `x[i]` exists and no earlier element equals it. -/
def IsFirst (eq : α → α → Bool) (x : List α) (i : Nat) : Prop :=
  ∃ b, x[i]? = some b ∧ ∀ j a, j < i → x[j]? = some a → eq a b = false

/-- `j` is the first position of `x` holding a value equal to `y`. -/
def IsFirstEq (eq : α → α → Bool) (x : List α) (y : α) (j : Nat) : Prop :=
  ∃ a, x[j]? = some a ∧ eq a y = true ∧ ∀ j' a', j' < j → x[j']? = some a' → eq a' y = false

/-- Elements `i` and `j` of a vector are equal. -/
def sameElt (eq : α → α → Bool) (x : List α) (i j : Nat) : Bool :=
  match x[i]?, x[j]? with
  | some a, some b => eq a b
  | _, _ => false

/-- Rows `i` and `j` of a data frame are equal: they agree in every column. -/
def sameRow (cols : List ((α → α → Bool) × List α)) (i j : Nat) : Bool :=
  cols.all (fun c => sameElt c.1 c.2 i j)

/-- `i` is the first element of a run of a vector of size `n`. -/
def RunStart (same : Nat → Nat → Bool) (n i : Nat) : Prop :=
  i < n ∧ (i = 0 ∨ same (i - 1) i = false)

/-- `i` is the last element of a run of a vector of size `n`. -/
def RunEnd (same : Nat → Nat → Bool) (n i : Nat) : Prop :=
  i < n ∧ (i + 1 = n ∨ same i (i + 1) = false)

/-- tidyverse recycling of a `times` vector to size `n`. -/
def recycled (times : List α) (n : Nat) : Option (List α) :=
  match times with
  | [t] => some (List.replicate n t)
  | _ => if times.length = n then some times else none

/-- Every element repeated as many times as its partner says, in order. -/
def repEach : List Int → List α → List α
  | t :: ts, a :: x => List.replicate t.toNat a ++ repEach ts x
  | _, _ => []

end Vctrs.Spec

namespace Vctrs.Spec

/-- Digit `i` of row `r` in the mixed radix system with radices `sizes`, the first digit being
the most significant one. -/
def digitSlowest (sizes : List Nat) (i r : Nat) : Option Nat :=
  sizes[i]?.map (fun s => r / (sizes.drop (i + 1)).prod % s)

/-- The same, the first digit being the least significant one. -/
def digitFastest (sizes : List Nat) (i r : Nat) : Option Nat :=
  sizes[i]?.map (fun s => r / (sizes.take i).prod % s)

/-- Filling over distance `d` is allowed; `none` means there is no limit. -/
def Allowed (maxFill : Option Nat) (d : Nat) : Prop := ∀ m, maxFill = some m → d ≤ m

/-- `x` is missing at `k`. -/
def MissingAt {α : Type} (missing : α → Bool) (x : List α) (k : Nat) : Prop :=
  ∃ a, x[k]? = some a ∧ missing a = true

/-- `out` is `x` filled downwards. -/
structure FilledDown {α : Type} (missing : α → Bool) (x : List α) (leading : Bool)
    (maxFill : Option Nat) (out : List α) : Prop where
  size : out.length = x.length
  /-- Non-missing elements are kept. -/
  keep : ∀ (i : Nat) a, x[i]? = some a → missing a = false → out[i]? = some a
  /-- A missing element takes the last non-missing value `b` before it ... -/
  fill : ∀ (i j : Nat) b, j < i → i < x.length → x[j]? = some b → missing b = false →
    (∀ k, j < k → k ≤ i → MissingAt missing x k) → Allowed maxFill (i - j) → out[i]? = some b
  /-- ... unless it is too far away. -/
  far : ∀ (i j : Nat) b, j < i → i < x.length → x[j]? = some b → missing b = false →
    (∀ k, j < k → k ≤ i → MissingAt missing x k) → ¬ Allowed maxFill (i - j) → out[i]? = x[i]?
  /-- Leading missing elements take the first non-missing value `b` if asked for ... -/
  lead : leading = true → ∀ (i j : Nat) b, i < j → x[j]? = some b → missing b = false →
    (∀ k, k < j → MissingAt missing x k) → Allowed maxFill (j - i) → out[i]? = some b
  /-- ... unless it is too far away. -/
  leadFar : leading = true → ∀ (i j : Nat) b, i < j → x[j]? = some b → missing b = false →
    (∀ k, k < j → MissingAt missing x k) → ¬ Allowed maxFill (j - i) → out[i]? = x[i]?
  /-- Otherwise leading missing elements stay missing. -/
  stay : ∀ i, i < x.length → (∀ k, k ≤ i → MissingAt missing x k) →
    (leading = false ∨ ∀ k, k < x.length → MissingAt missing x k) → MissingAt missing out i

/-- The tidyverse recycling rule: `n` is one of the sizes and all others are `n` or 1. -/
def CommonSize (sizes : List Nat) (n : Nat) : Prop := n ∈ sizes ∧ ∀ s ∈ sizes, s = n ∨ s = 1

/-- Two different sizes, neither of which is 1. -/
def SizeConflict (sizes : List Nat) : Prop := ∃ s ∈ sizes, ∃ t ∈ sizes, s ≠ t ∧ s ≠ 1 ∧ t ≠ 1

/-- Column-major offset of a multi-index in an array with the given dimensions. -/
def arrayOffset : List Nat → List Nat → Nat
  | d :: ds, j :: js => j + d * arrayOffset ds js
  | _, _ => 0

/-- A multi-index within the dimensions. -/
def ValidIndex : List Nat → List Nat → Prop
  | [], [] => True
  | d :: ds, j :: js => j < d ∧ ValidIndex ds js
  | _, _ => False

/-- Locations selected by a logical mask, counting from `i`; missing elements give `na` or nothing. -/
def maskLocs (keepNa : Bool) (na : Int) : Int → List (Option Bool) → List Int
  | _, [] => []
  | i, some true :: l => i :: maskLocs keepNa na (i + 1) l
  | i, some false :: l => maskLocs keepNa na (i + 1) l
  | i, none :: l => if keepNa then na :: maskLocs keepNa na (i + 1) l else maskLocs keepNa na (i + 1) l

/-- What a logical mask keeps of another list. -/
def maskKeep {ν : Type} (keepNa : Bool) : List (Option Bool) → List ν → List ν
  | some true :: l, a :: x => a :: maskKeep keepNa l x
  | some false :: l, _ :: x => maskKeep keepNa l x
  | none :: l, a :: x => if keepNa then a :: maskKeep keepNa l x else maskKeep keepNa l x
  | _, _ => []

/-- `i` is the first position of `a` in `x`. -/
def FirstAt {β : Type} (x : List β) (a : β) (i : Nat) : Prop :=
  x[i]? = some a ∧ ∀ j, j < i → x[j]? ≠ some a

/-- `1..n` together with the locations of `l` leaves no hole. -/
def NoHole (n : Nat) (l : List Int) : Prop :=
  ∀ e ∈ l, ∀ p : Int, (n : Int) < p → p < e → p ∈ l

/-- `s` is the non-empty name `b` followed by a suffix `...<digits>`. -/
def Suffixed (b s : List Char) : Prop :=
  b ≠ [] ∧ ∃ d : List Char, d ≠ [] ∧ (∀ c ∈ d, c.isDigit = true) ∧ s = b ++ ['.', '.', '.'] ++ d

/-- `t` is `s` without all its `...<digits>` suffixes. -/
inductive StripsTo : List Char → List Char → Prop
  | done {s : List Char} : (∀ b, ¬ Suffixed b s) → StripsTo s s
  | step {s b t : List Char} : Suffixed b s → StripsTo b t → StripsTo s t

/-- Names read as `..1` or `...1`: two or three dots, white space, a sign, digits which are not
all zero, and any text. -/
def DotsNumber (s : List Char) : Prop :=
  ∃ p w g d r : List Char, (p = ['.', '.'] ∨ p = ['.', '.', '.']) ∧
    (∀ c ∈ w, c ∈ [' ', '\t', '\n', '\x0b', '\x0c', '\r']) ∧ (g = [] ∨ g = ['+'] ∨ g = ['-']) ∧
    (∀ c ∈ d, c.isDigit = true) ∧ (∃ c ∈ d, c ≠ '0') ∧ s = p ++ w ++ g ++ d ++ r

/-- Names which are replaced altogether. -/
def BadName (s : List Char) : Prop := s = [] ∨ s = ['.', '.', '.'] ∨ DotsNumber s

/-- The part of a name kept by unique repair. -/
def BaseName (name : Option (List Char)) (b : List Char) : Prop :=
  match name with
  | none => b = []
  | some s => (BadName s ∧ b = []) ∨ (¬ BadName s ∧ StripsTo s b)

/-- The unique names of `names`: the base name where it is not empty and occurs once, the base
name followed by `...<position>` elsewhere. -/
structure UniqueRepair (names out : List (Option (List Char))) : Prop where
  size : out.length = names.length
  keep : ∀ (i : Nat) name b, names[i]? = some name → BaseName name b → b ≠ [] →
    (∀ (j : Nat) name', j ≠ i → names[j]? = some name' → ¬ BaseName name' b) →
    out[i]? = some (some b)
  number : ∀ (i j : Nat) name name' b, names[i]? = some name → BaseName name b →
    names[j]? = some name' → BaseName name' b → (b = [] ∨ j ≠ i) →
    out[i]? = some (some (b ++ ['.', '.', '.'] ++ (toString (i + 1)).toList))

end Vctrs.Spec
