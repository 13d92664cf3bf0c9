import Verif.SpecValue

/-!
# Specifications for ordering

The order of elements with the options of `vec_order()`, stable orders and groups of ties.
-/

namespace Vctrs.Spec

open Vctrs

/-! ## Order of elements -/

/-- An order `lt` extended to missing values, which are the largest or the smallest. -/
def NaSmaller (naLargest : Bool) (missingA missingB lt : Prop) : Prop :=
  (¬ missingA ∧ ¬ missingB ∧ lt) ∨ (naLargest = true ∧ ¬ missingA ∧ missingB) ∨
    (naLargest = false ∧ missingA ∧ ¬ missingB)

/-- Order of doubles.  If NaN is distinct from NA, it is between NA and the numbers. -/
def DblSmaller (naLargest nanDistinct : Bool) (a b : Dbl) : Prop :=
  NaSmaller naLargest (IsNaN a) (IsNaN b) (dblVal a < dblVal b) ∨
    (nanDistinct = true ∧ IsNaN a ∧ IsNaN b ∧ NaSmaller naLargest (IsNA a) (IsNA b) False)

/-- A part of a complex number: if only the other part is missing, so is this one. -/
def cplPart (x other : Dbl) : Dbl :=
  if IsNaN x then x else if IsNaN other then other else x

/-- Order of elements: by value; of complex numbers by real part, then imaginary part; of strings
by their bytes. -/
def Smaller (naLargest nanDistinct : Bool) : (t : ATy) → t.El → t.El → Prop
  | .lgl, (a : Int), (b : Int) => NaSmaller naLargest (a = naInt) (b = naInt) (a < b)
  | .int, (a : Int), (b : Int) => NaSmaller naLargest (a = naInt) (b = naInt) (a < b)
  | .dbl, (a : Dbl), (b : Dbl) => DblSmaller naLargest nanDistinct a b
  | .cpl, (a : Dbl × Dbl), (b : Dbl × Dbl) =>
    DblSmaller naLargest nanDistinct (cplPart a.1 a.2) (cplPart b.1 b.2) ∨
      (¬ DblSmaller naLargest nanDistinct (cplPart b.1 b.2) (cplPart a.1 a.2) ∧
        DblSmaller naLargest nanDistinct (cplPart a.2 a.1) (cplPart b.2 b.1))
  | .chr, (a : Name), (b : Name) => NaSmaller naLargest (a = none) (b = none)
      (∃ s t, a = some s ∧ b = some t ∧ BytesLt s t)
  | .raw, _, _ => False

/-- `a` comes before `b`, in descending order if `desc`. -/
def Before (desc naLargest nanDistinct : Bool) (t : ATy) (a b : t.El) : Prop :=
  if desc then Smaller naLargest nanDistinct t b a else Smaller naLargest nanDistinct t a b

/-! ## Order of rows -/

/-- A vector to order by: is the order descending, are missing values the largest. -/
abbrev SortKey := Bool × Bool × Val

/-- In one vector, the element of row `i` comes before that of row `j`. -/
def KeyBefore (nanDistinct : Bool) (k : SortKey) (i j : Nat) : Prop :=
  ∃ (t : ATy) (xs : List t.El) (a b : t.El), k.2.2 = .vec (.atom t) xs ∧ xs[i]? = some a ∧
    xs[j]? = some b ∧ Before k.1 k.2.1 nanDistinct t a b

/-- Row `i` comes before row `j`: the first vector where they are not tied decides. -/
def RowBefore (nanDistinct : Bool) (ks : List SortKey) (i j : Nat) : Prop :=
  ∃ (m : Nat) (k : SortKey), ks[m]? = some k ∧ KeyBefore nanDistinct k i j ∧
    ∀ (m' : Nat) (k' : SortKey), m' < m → ks[m']? = some k' →
      ¬ KeyBefore nanDistinct k' i j ∧ ¬ KeyBefore nanDistinct k' j i

/-! ## Results -/

/-- `o` has the locations 1 to `n`, each once, in the order `before`; ties stay in order. -/
def StableOrder (before : Nat → Nat → Prop) (n : Nat) (o : List Int) : Prop :=
  ∃ p : List Nat, o = p.map (fun (i : Nat) => (i : Int) + 1) ∧ p.Perm (List.range n) ∧
    p.Pairwise (fun i j => before i j ∨ (¬ before j i ∧ i < j))

/-- `B` has the rows 0 to `n - 1` in groups of ties, each with increasing rows; a group comes
before those that follow. -/
structure TieGroups (before : Nat → Nat → Prop) (n : Nat) (B : List (List Nat)) : Prop where
  perm : B.flatten.Perm (List.range n)
  nonempty : ∀ b ∈ B, b ≠ []
  increasing : ∀ b ∈ B, b.Pairwise (· < ·)
  tied : ∀ b ∈ B, ∀ i ∈ b, ∀ j ∈ b, ¬ before i j
  sorted : B.Pairwise (fun b c => ∀ i ∈ b, ∀ j ∈ c, before i j)

/-- `m` is the largest of `sizes`, 0 if there are none. -/
def IsMax (sizes : List Nat) (m : Nat) : Prop :=
  (∀ s ∈ sizes, s ≤ m) ∧ (m ∈ sizes ∨ (sizes = [] ∧ m = 0))

/-- `sizes` are the sizes of the groups of ties in `o`, and `m` is the largest. -/
def GroupSizes (before : Nat → Nat → Prop) (n : Nat) (o : List Int) (sizes : List Nat) (m : Nat) :
    Prop :=
  ∃ B : List (List Nat), TieGroups before n B ∧ o = B.flatten.map (fun (i : Nat) => (i : Int) + 1) ∧
    sizes = B.map List.length ∧ IsMax sizes m

/-! ## Arguments -/

/-- The meaning of `direction`. -/
def IsDirection (s : Name) (desc : Bool) : Prop :=
  s = some (if desc then "desc".toList else "asc".toList)

/-- The meaning of `na_value`. -/
def IsNaValue (s : Name) (naLargest : Bool) : Prop :=
  s = some (if naLargest then "largest".toList else "smallest".toList)

/-- The values of an argument that is given once or for each of the `m` columns. -/
def ForColumns (R : Name → Bool → Prop) (arg : List Name) (m : Nat) (vals : List Bool) : Prop :=
  vals.length = m ∧ ((∃ a v, arg = [a] ∧ R a v ∧ ∀ w ∈ vals, w = v) ∨ (arg.length = m ∧
    ∀ (i : Nat) (a : Name) (v : Bool), arg[i]? = some a → vals[i]? = some v → R a v))

/-- The vectors to order by: the settings of a data frame column hold for every vector in it. -/
def sortKeys (x : Val) (desc naLargest : List Bool) : List SortKey :=
  ((columns x).zip (desc.zip naLargest)).flatMap
    (fun c => (leaves c.1).map (fun p => (c.2.1, c.2.2, p)))

/-- A string of bytes without NUL. -/
def ByteString (s : List Char) : Prop := ∀ c ∈ s, 0 < c.toNat ∧ c.toNat < 256

/-- A vector of a type that can be ordered, of size `n`, with elements of its C type. -/
def Sortable (n : Nat) : Val → Prop
  | .vec (.atom .lgl) (x : List Int) => x.length = n ∧ ∀ v ∈ x, IsInt v
  | .vec (.atom .int) (x : List Int) => x.length = n ∧ ∀ v ∈ x, IsInt v
  | .vec (.atom .dbl) (x : List Dbl) => x.length = n
  | .vec (.atom .cpl) (x : List (Dbl × Dbl)) => x.length = n
  | .vec (.atom .chr) (x : List Name) => x.length = n ∧ ∀ s, some s ∈ x → ByteString s
  | _ => False

/-- A complex vector. -/
def IsComplex : Val → Prop
  | .vec (.atom .cpl) _ => True
  | _ => False

end Vctrs.Spec
