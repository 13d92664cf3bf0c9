import Verif.Props.ExOrder

/-! # C33: character ordering is a stable sorting permutation in the C locale -/

namespace Vctrs

open Spec

/-- `vec_order_info_impl()` of strings returns: the locations 1 to n, each once, in the requested
direction by the bytes of the strings with NA where `na_value` says, ties in original order; and
the sizes of the groups of ties with the largest size. -/
theorem C33_order (x : List Name) (hx : ∀ s, some s ∈ x → ByteString s) (hn : x.length ≤ intMax)
    (direction naValue : Name) (desc naLargest : Bool) (hd : IsDirection direction desc)
    (hna : IsNaValue naValue naLargest) (nanDistinct : Bool) (tl : TL) (h0 : ∀ u, 0 ≤ tl u)
    (fuel : Nat) :
    ∃ (o : List Int) (sizes : List Nat) (m : Nat),
      vecOrderInfo fuel (.vec (.atom .chr) x) [direction] [naValue] nanDistinct true true tl
        (List.replicate 100001 0) = .ok (⟨o, some (sizes, m)⟩, tl, List.replicate 100001 0) ∧
      StableOrder (fun i j => ∃ a b, x[i]? = some a ∧ x[j]? = some b ∧
        Before desc naLargest nanDistinct .chr a b) x.length o ∧
      GroupSizes (fun i j => ∃ a b, x[i]? = some a ∧ x[j]? = some b ∧
        Before desc naLargest nanDistinct .chr a b) x.length o sizes m :=
  OrderInfoOk.groups (vecOrderInfo_vec (t := .chr) (xs := x) ⟨rfl, hx⟩ hn hd hna nanDistinct true h0 rfl
    fuel)

/-- `vec_order()` gives the order alone. -/
theorem C33_order_only (x : List Name) (hx : ∀ s, some s ∈ x → ByteString s) (hn : x.length ≤ intMax)
    (direction naValue : Name) (desc naLargest : Bool) (hd : IsDirection direction desc)
    (hna : IsNaValue naValue naLargest) (nanDistinct : Bool) (tl : TL) (h0 : ∀ u, 0 ≤ tl u)
    (fuel : Nat) :
    ∃ o : List Int, vecOrder fuel (.vec (.atom .chr) x) [direction] [naValue] nanDistinct tl
        (List.replicate 100001 0) = .ok (o, tl, List.replicate 100001 0) ∧
      StableOrder (fun i j => ∃ a b, x[i]? = some a ∧ x[j]? = some b ∧
        Before desc naLargest nanDistinct .chr a b) x.length o :=
  OrderInfoOk.alone (vecOrderInfo_vec (t := .chr) (xs := x) ⟨rfl, hx⟩ hn hd hna nanDistinct false h0 rfl
    fuel)

/-- Two strings that are tied are the same. -/
theorem C33_ties (desc naLargest nanDistinct : Bool) (a b : Name) :
    (¬ Before desc naLargest nanDistinct .chr a b ∧ ¬ Before desc naLargest nanDistinct .chr b a) ↔
      a = b := by
  rw [← name_before, ← name_before]
  constructor
  · rintro ⟨h1, h2⟩
    rcases nameBefore_tri (decreasing := desc) (naLast := naLastOf desc naLargest) a b with h | h | h
    · exact absurd h h1
    · exact h
    · exact absurd h h2
  · rintro rfl
    exact ⟨nameBefore_irrefl a, nameBefore_irrefl a⟩

/-- `"b"`, NA, `"ab"`, `"a"`, `"b"`, `""`. -/
def C33_x : List Name := [some ['b'], none, some ['a', 'b'], some ['a'], some ['b'], some []]

example : ∀ s, some s ∈ C33_x → ByteString s := by
  intro s hs
  simp only [C33_x, List.mem_cons, Option.some.injEq, reduceCtorEq, List.not_mem_nil, or_false,
    false_or] at hs
  unfold ByteString
  rcases hs with rfl | rfl | rfl | rfl | rfl <;> decide

example : exRun (vecOrderInfo 0 (.vec (.atom .chr) C33_x) exAsc exLargest true true true exTl
    exStatic) = some ⟨[6, 4, 3, 1, 5, 2], some ([1, 1, 1, 2, 1], 2)⟩ := by decide +kernel

example : exRun (vecOrderInfo 0 (.vec (.atom .chr) C33_x) exDesc exLargest true true true exTl
    exStatic) = some ⟨[2, 1, 5, 3, 4, 6], some ([1, 2, 1, 1, 1], 2)⟩ := by decide +kernel

end Vctrs
