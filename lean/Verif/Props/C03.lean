import Verif.Lemmas.DictAny

/-! # C03: hash lookups terminate and the dictionary is never full -/

namespace Vctrs

variable {α : Type}

/-- The table allocated for `n` elements (any size R allows) has a power of two number of
slots, at most `2^31`, and strictly more slots than elements. -/
theorem C03_table_size (n : Nat) (hn : n ≤ 2147483647) :
    ∃ m, m ≤ 31 ∧ dictKeySize n = .ok (2 ^ m) ∧ n < 2 ^ m :=
  dictKeySize_ok n hn

example : dictKeySize 1500000000 = .ok (2 ^ 31) := by decide
example : dictKeySize 9 = .ok 32 := by decide

/-- For every table of at most `2^31` slots with one free slot, every hash value and every
element: the probing loop returns a slot of the table that is free or holds an equal
element.  In particular "Dictionary is full." is unreachable, whatever the equality and the
hash function are. -/
theorem C03_lookup_terminates (ops : PolyOps α) (d : Dict α) (m : Nat) (hm : m ≤ 31)
    (hlen : d.key.length = 2 ^ m) (hfree : none ∈ d.key)
    (hb : ∀ idx, some idx ∈ d.key → idx < d.vec.length) (y : α) (hash : Nat) :
    ∃ p, probeLoop ops d y hash d.key.length 0 = .ok p ∧ p < d.key.length ∧
      (d.key[p]? = some none ∨
        ∃ idx a, d.key[p]? = some (some idx) ∧ d.vec[idx]? = some a ∧ ops.eq a y = true) :=
  probeLoop_any d m hm hlen hfree hb y hash

/-- Non-vacuity: three colliding elements in four slots, the fourth is found. -/
example : (probeLoop ⟨fun a b => a == b, fun _ => 3⟩
    { vec := [10, 20, 30], hash := [], key := [some 1, none, some 2, some 0], used := 3 }
    (40 : Nat) 3 4 0) = .ok 1 := by decide

/-- Loading any vector of a size R allows into its dictionary succeeds: no internal error,
no out-of-bounds access, for arbitrary element equality and hash (even incompatible ones). -/
theorem C03_load_never_full (ops : PolyOps α) (x : List α) (hn : x.length ≤ 2147483647) :
    ∃ d d', newDict ops false x = .ok d ∧ loadDict ops d x.length = .ok d' :=
  loadDict_any x hn

end Vctrs
