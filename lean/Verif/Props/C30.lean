import Verif.Props.ExOrder

/-! # C30: integer ordering is a stable sorting permutation -/

namespace Vctrs

open Spec

/-- `vec_order_info_impl()` of integers returns: the locations 1 to n, each once, in the requested
direction with NA where `na_value` says, ties in original order; and the sizes of the groups of
ties with the largest size.  It leaves its static counts and the TRUELENGTHs as they were. -/
theorem C30_order (x : List Int) (hx : ∀ v ∈ x, IsInt v) (hn : x.length ≤ intMax)
    (direction naValue : Name) (desc naLargest : Bool) (hd : IsDirection direction desc)
    (hna : IsNaValue naValue naLargest) (nanDistinct : Bool) (tl : TL) (h0 : ∀ u, 0 ≤ tl u)
    (fuel : Nat) :
    ∃ (o : List Int) (sizes : List Nat) (m : Nat),
      vecOrderInfo fuel (.vec (.atom .int) x) [direction] [naValue] nanDistinct true true tl
        (List.replicate 100001 0) = .ok (⟨o, some (sizes, m)⟩, tl, List.replicate 100001 0) ∧
      StableOrder (fun i j => ∃ a b, x[i]? = some a ∧ x[j]? = some b ∧
        Before desc naLargest nanDistinct .int a b) x.length o ∧
      GroupSizes (fun i j => ∃ a b, x[i]? = some a ∧ x[j]? = some b ∧
        Before desc naLargest nanDistinct .int a b) x.length o sizes m :=
  OrderInfoOk.groups (vecOrderInfo_vec (t := .int) (xs := x) ⟨rfl, hx⟩ hn hd hna nanDistinct true h0 rfl
    fuel)

/-- `vec_order()` gives the order alone. -/
theorem C30_order_only (x : List Int) (hx : ∀ v ∈ x, IsInt v) (hn : x.length ≤ intMax)
    (direction naValue : Name) (desc naLargest : Bool) (hd : IsDirection direction desc)
    (hna : IsNaValue naValue naLargest) (nanDistinct : Bool) (tl : TL) (h0 : ∀ u, 0 ≤ tl u)
    (fuel : Nat) :
    ∃ o : List Int, vecOrder fuel (.vec (.atom .int) x) [direction] [naValue] nanDistinct tl
        (List.replicate 100001 0) = .ok (o, tl, List.replicate 100001 0) ∧
      StableOrder (fun i j => ∃ a b, x[i]? = some a ∧ x[j]? = some b ∧
        Before desc naLargest nanDistinct .int a b) x.length o :=
  OrderInfoOk.alone (vecOrderInfo_vec (t := .int) (xs := x) ⟨rfl, hx⟩ hn hd hna nanDistinct false h0 rfl
    fuel)

/-- Two integers that are tied are the same. -/
theorem C30_ties (desc naLargest nanDistinct : Bool) (a b : Int) :
    (¬ Before desc naLargest nanDistinct .int a b ∧ ¬ Before desc naLargest nanDistinct .int b a) ↔
      a = b := by
  unfold Before Smaller NaSmaller
  by_cases ha : a = naInt <;> by_cases hb : b = naInt
  · subst ha; subst hb; simp
  · subst ha
    cases desc <;> cases naLargest <;> simp [hb, Ne.symm hb]
  · subst hb
    cases desc <;> cases naLargest <;> simp [ha]
  · cases desc <;> simp only [ha, hb] <;> simp <;> omega

example : IsDirection (some "asc".toList) false ∧ IsNaValue (some "smallest".toList) false := ⟨rfl, rfl⟩

example : ∀ v ∈ [3, 1, naInt, 3, -7, naInt, 1], IsInt v := by unfold IsInt; decide

example : exRun (vecOrderInfo 0 (.vec (.atom .int) ([3, 1, naInt, 3, -7, naInt, 1] : List Int)) exAsc
    exSmallest true true true exTl exStatic) =
    some ⟨[3, 6, 5, 2, 7, 1, 4], some ([2, 1, 2, 2], 2)⟩ := by decide +kernel

example : exRun (vecOrderInfo 0 (.vec (.atom .int) ([3, 1, naInt, 3, -7, naInt, 1] : List Int)) exDesc
    exLargest true true true exTl exStatic) =
    some ⟨[3, 6, 1, 4, 2, 7, 5], some ([2, 2, 2, 1], 2)⟩ := by decide +kernel

end Vctrs
