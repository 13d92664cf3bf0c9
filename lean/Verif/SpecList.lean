import Verif.Spec
import Verif.SpecMatch

/-!
# Specifications for lists to order and to match

Elements of lists are compared for equality only.  Their order is the one in which they are first seen.
-/

namespace Vctrs.Spec

open Vctrs

variable {α : Type}

/-- An element equal to `a` is seen in `z` before any element equal to `b`. -/
def SeenBefore (eq : α → α → Bool) (z : List α) (a b : α) : Prop :=
  ∃ j k : Nat, IsFirstEq eq z a j ∧ IsFirstEq eq z b k ∧ j < k

/-- The order of elements of lists: by where in `z` they are first seen; `NULL` is the largest or the smallest. -/
def ListSmaller (eq : α → α → Bool) (missing : α → Bool) (naLargest : Bool) (z : List α) (a b : α) : Prop :=
  NaSmaller naLargest (missing a = true) (missing b = true) (SeenBefore eq z a b)

/-- `a` comes before `b`, in descending order if `desc`. -/
def ListBefore (eq : α → α → Bool) (missing : α → Bool) (desc naLargest : Bool) (z : List α) (a b : α) : Prop :=
  if desc then ListSmaller eq missing naLargest z b a else ListSmaller eq missing naLargest z a b

/-- What is asked for when matching lists. -/
structure ListQuery (α : Type) where
  needles : List α
  haystack : List α
  condition : MOp
  filter : MFilter
  incomplete : MIncomplete
  multiple : MMultiple

/-- Where elements are first seen: in the needles, then in the haystack. -/
def ListQuery.seen (L : ListQuery α) : List α := L.needles ++ L.haystack

/-- A condition on two elements other than `NULL`. -/
def ListCompares (eq : α → α → Bool) (z : List α) (op : MOp) (a b : α) : Prop :=
  match op with
  | .eq => eq a b = true
  | .gt => SeenBefore eq z b a
  | .gte => SeenBefore eq z b a ∨ eq a b = true
  | .lt => SeenBefore eq z a b
  | .lte => SeenBefore eq z a b ∨ eq a b = true

/-- Needle `r` matches row `k` of the haystack.  `NULL` matches only `NULL`, if `incomplete = "match"`, or if
`incomplete = "compare"` and the condition allows for equality. -/
def ListMatches (eq : α → α → Bool) (missing : α → Bool) (L : ListQuery α) (r k : Nat) : Prop :=
  ∃ a b, L.needles[r]? = some a ∧ L.haystack[k]? = some b ∧
    ((missing a = false ∧ missing b = false ∧ ListCompares eq L.seen L.condition a b) ∨
      (missing a = true ∧ missing b = true ∧ (L.incomplete = .exact ∨
        (L.incomplete = .compare ∧ (L.condition = .eq ∨ L.condition = .gte ∨ L.condition = .lte)))))

/-- By the filter, `a` is to be preferred to `b`. -/
def ListPreferred (eq : α → α → Bool) (missing : α → Bool) (L : ListQuery α) (a b : α) : Prop :=
  match L.filter with
  | .all => False
  | .min => ListSmaller eq missing false L.seen a b
  | .max => ListSmaller eq missing false L.seen b a

/-- Row `k` matches, and no other match is to be preferred. -/
def ListSelected (eq : α → α → Bool) (missing : α → Bool) (L : ListQuery α) (r k : Nat) : Prop :=
  ListMatches eq missing L r k ∧ ∀ (k' : Nat) (b b' : α), ListMatches eq missing L r k' →
    L.haystack[k]? = some b → L.haystack[k']? = some b' → ¬ ListPreferred eq missing L b' b

/-- The needle is `NULL`, and this is to be reported, not matched. -/
def ListFlagged (missing : α → Bool) (L : ListQuery α) (r : Nat) : Prop :=
  (L.incomplete ≠ .compare ∧ L.incomplete ≠ .exact) ∧ ∃ a, L.needles[r]? = some a ∧ missing a = true

/-- What has to be found for needle `r`. -/
def ListOutcome (eq : α → α → Bool) (missing : α → Bool) (L : ListQuery α) (r : Nat) : Outcome → Prop
  | .incomplete => ListFlagged missing L r
  | .unmatched => ¬ ListFlagged missing L r ∧ ∀ k, ¬ ListMatches eq missing L r k
  | .rows R => ¬ ListFlagged missing L r ∧ ∃ S : List Nat, S ≠ [] ∧ S.Pairwise (· < ·) ∧
      (∀ k, k ∈ S ↔ ListSelected eq missing L r k) ∧ Chosen L.multiple S R

end Vctrs.Spec
