import Verif.Props.ExOrder

/-! # C32: double ordering is a stable sorting permutation -/

namespace Vctrs

open Spec

/-- `vec_order_info_impl()` of doubles returns: the locations 1 to n, each once, in the requested
direction with NA and NaN where `na_value` and `nan_distinct` say, ties in original order; and the
sizes of the groups of ties with the largest size. -/
theorem C32_order (x : List Dbl) (hn : x.length ≤ intMax)
    (direction naValue : Name) (desc naLargest : Bool) (hd : IsDirection direction desc)
    (hna : IsNaValue naValue naLargest) (nanDistinct : Bool) (tl : TL) (h0 : ∀ u, 0 ≤ tl u)
    (fuel : Nat) :
    ∃ (o : List Int) (sizes : List Nat) (m : Nat),
      vecOrderInfo fuel (.vec (.atom .dbl) x) [direction] [naValue] nanDistinct true true tl
        (List.replicate 100001 0) = .ok (⟨o, some (sizes, m)⟩, tl, List.replicate 100001 0) ∧
      StableOrder (fun i j => ∃ a b, x[i]? = some a ∧ x[j]? = some b ∧
        Before desc naLargest nanDistinct .dbl a b) x.length o ∧
      GroupSizes (fun i j => ∃ a b, x[i]? = some a ∧ x[j]? = some b ∧
        Before desc naLargest nanDistinct .dbl a b) x.length o sizes m :=
  OrderInfoOk.groups (vecOrderInfo_vec (t := .dbl) (xs := x) rfl hn hd hna nanDistinct true h0 rfl
    fuel)

/-- `vec_order()` gives the order alone. -/
theorem C32_order_only (x : List Dbl) (hn : x.length ≤ intMax)
    (direction naValue : Name) (desc naLargest : Bool) (hd : IsDirection direction desc)
    (hna : IsNaValue naValue naLargest) (nanDistinct : Bool) (tl : TL) (h0 : ∀ u, 0 ≤ tl u)
    (fuel : Nat) :
    ∃ o : List Int, vecOrder fuel (.vec (.atom .dbl) x) [direction] [naValue] nanDistinct tl
        (List.replicate 100001 0) = .ok (o, tl, List.replicate 100001 0) ∧
      StableOrder (fun i j => ∃ a b, x[i]? = some a ∧ x[j]? = some b ∧
        Before desc naLargest nanDistinct .dbl a b) x.length o :=
  OrderInfoOk.alone (vecOrderInfo_vec (t := .dbl) (xs := x) rfl hn hd hna nanDistinct false h0 rfl
    fuel)

/-- Two doubles are tied if they are equal numbers, or both missing and, if NaN is distinct from
NA, of the same kind. -/
theorem C32_ties (desc naLargest nanDistinct : Bool) (a b : Dbl) :
    (¬ Before desc naLargest nanDistinct .dbl a b ∧ ¬ Before desc naLargest nanDistinct .dbl b a) ↔
      ((IsNaN a ↔ IsNaN b) ∧ (¬ IsNaN a → dblVal a = dblVal b) ∧
        (nanDistinct = true → IsNaN a → (IsNA a ↔ IsNA b))) := by
  have hd : (¬ Before desc naLargest nanDistinct .dbl a b ∧
      ¬ Before desc naLargest nanDistinct .dbl b a) ↔
      (¬ DblSmaller naLargest nanDistinct a b ∧ ¬ DblSmaller naLargest nanDistinct b a) := by
    unfold Before Smaller
    cases desc <;> simp <;> exact And.comm
  rw [hd]
  unfold DblSmaller NaSmaller
  have e : (¬ dblVal a < dblVal b ∧ ¬ dblVal b < dblVal a) ↔ dblVal a = dblVal b := by omega
  by_cases ha : IsNaN a <;> by_cases hb : IsNaN b
  · by_cases ha' : IsNA a <;> by_cases hb' : IsNA b <;> cases naLargest <;> cases nanDistinct <;>
      simp [ha, hb, ha', hb']
  · cases naLargest <;> simp [ha, hb]
  · cases naLargest <;> simp [ha, hb]
  · simp [ha, hb, ← e]

/-- 1, NaN, -0, NA, 0, -Inf. -/
def C32_x : List Dbl := [0x3FF0000000000000#64, rNaN, 0x8000000000000000#64, naReal, 0#64,
  0xFFF0000000000000#64]

example : exRun (vecOrderInfo 0 (.vec (.atom .dbl) C32_x) exAsc exSmallest true true true exTl
    exStatic) = some ⟨[4, 2, 6, 3, 5, 1], some ([1, 1, 1, 2, 1], 2)⟩ := by decide +kernel

example : exRun (vecOrderInfo 0 (.vec (.atom .dbl) C32_x) exDesc exSmallest false true true exTl
    exStatic) = some ⟨[1, 3, 5, 6, 2, 4], some ([1, 2, 1, 2], 2)⟩ := by decide +kernel

end Vctrs
