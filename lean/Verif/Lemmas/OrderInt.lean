import Verif.Lemmas.OrderSorted
import Verif.SpecValue

/-!
# Ordering of integers
-/

namespace Vctrs

/-! ## Keys -/

/-- The key of an integer. -/
def intKey (decreasing naLast : Bool) (v : Int) : Nat :=
  if v = naInt then (if naLast then 4294967295 else 0)
  else ((if decreasing then -v else v) + (if naLast then -1 else 0) + 2147483648).toNat

theorem toU32_nonneg {x : Int} (h : 0 ≤ x) (h2 : x < 4294967296) : toU32 x = x.toNat := by
  unfold toU32
  rw [BitVec.toNat_ofInt]
  congr 1
  exact Int.emod_eq_of_lt h (by simpa using h2)

theorem xor_top_of_lt {i y : Nat} (h : y < 2 ^ i) : y ^^^ 2 ^ i = 2 ^ i + y := by
  apply Nat.eq_of_testBit_eq
  intro j
  rw [Nat.testBit_xor, Nat.testBit_two_pow]
  rcases Nat.lt_trichotomy j i with hj | hj | hj
  · rw [Nat.testBit_two_pow_add_gt hj]
    have : decide (i = j) = false := by simp; omega
    rw [this]; simp
  · subst hj
    rw [Nat.testBit_two_pow_add_eq]
    simp
  · have h1 : y.testBit j = false := Nat.testBit_lt_two_pow (Nat.lt_trans h (Nat.pow_lt_pow_right (by omega) hj))
    have h2 : (2 ^ i + y).testBit j = false := by
      apply Nat.testBit_lt_two_pow
      have : 2 ^ (i + 1) ≤ 2 ^ j := Nat.pow_le_pow_right (by omega) hj
      rw [Nat.pow_succ] at this
      omega
    rw [h1, h2]; simp; omega

theorem xor_top_of_ge {i y : Nat} (h : y < 2 ^ i) : (2 ^ i + y) ^^^ 2 ^ i = y := by
  rw [← xor_top_of_lt h, Nat.xor_assoc, Nat.xor_self, Nat.xor_zero]

theorem intMapToUint32_eq {x : Int} (h1 : naInt ≤ x) (h2 : x ≤ (intMax : Int)) :
    intMapToUint32 x = (x + 2147483648).toNat := by
  simp only [naInt, intMax] at h1 h2
  unfold intMapToUint32
  rw [BitVec.toNat_xor, BitVec.toNat_ofNat, show (0x80000000#32).toNat = 2 ^ 31 from rfl]
  by_cases hn : 0 ≤ x
  · have e : toU32 x % 2 ^ 32 = x.toNat := by
      rw [toU32_nonneg hn (by omega)]; omega
    rw [e, xor_top_of_lt (by omega)]
    omega
  · have e : toU32 x % 2 ^ 32 = 2 ^ 31 + (x + 2147483648).toNat := by
      unfold toU32
      rw [BitVec.toNat_ofInt]
      omega
    rw [e, xor_top_of_ge (by omega)]

theorem chkIntNa_ok {x : Int} (h1 : naInt ≤ x) (h2 : x ≤ (intMax : Int)) : chkInt x = .ok x := by
  unfold chkInt
  rw [if_neg (by omega), if_neg (by omega)]

theorem intAdjustElt_ok {decreasing naLast : Bool} {v : Int} (h : Spec.IsInt v) :
    intAdjustElt decreasing naLast v = .ok (intKey decreasing naLast v) := by
  obtain ⟨h1, h2⟩ := h
  unfold intAdjustElt intKey
  split
  · rfl
  · rename_i hna
    have hm : v * (if decreasing then -1 else 1) = if decreasing then -v else v := by
      cases decreasing <;> simp
    have b1 : naInt < (if decreasing then -v else v) ∧ (if decreasing then -v else v) ≤ (intMax : Int) := by
      simp only [naInt, intMax] at h1 h2 hna ⊢
      cases decreasing <;> simp only [if_true, if_false, Bool.false_eq_true] <;> omega
    generalize (if decreasing then -v else v) = e at *
    rw [hm, chkIntNa_ok (by omega) b1.2, ok_bind]
    have b2 : naInt ≤ e + (if naLast then -1 else 0) ∧
        e + (if naLast then -1 else 0) ≤ (intMax : Int) := by
      cases naLast <;> simp only [if_true, if_false, Bool.false_eq_true] <;> omega
    rw [chkIntNa_ok b2.1 b2.2, ok_bind, intMapToUint32_eq b2.1 b2.2]

theorem intKey_lt {decreasing naLast : Bool} {v : Int} (h : Spec.IsInt v) :
    intKey decreasing naLast v < 256 ^ 4 := by
  obtain ⟨h1, h2⟩ := h
  unfold intKey
  split
  · cases naLast <;> simp
  · simp only [naInt, intMax] at *
    cases decreasing <;> cases naLast <;> simp only [if_true, if_false, Bool.false_eq_true] <;> omega

/-- The comparison used to detect sortedness agrees with the keys. -/
theorem intCmp_key {decreasing naLast : Bool} {x : List Int} (h : ∀ v ∈ x, Spec.IsInt v) :
    CmpKey (intCmp decreasing naLast) (intKey decreasing naLast) x := by
  intro a ha b hb
  obtain ⟨a1, a2⟩ := h a ha
  obtain ⟨b1, b2⟩ := h b hb
  unfold intCmp intKey
  dsimp only
  by_cases hna : a = naInt
  · by_cases hnb : b = naInt
    · rw [if_pos hna, if_pos hnb, if_pos hna, if_pos hnb]
      simp
    · rw [if_pos hna, if_neg hnb, if_pos hna, if_neg hnb]
      simp only [naInt, intMax] at a1 a2 b1 b2 hna hnb
      cases decreasing <;> cases naLast <;>
        simp only [if_true, if_false, Bool.false_eq_true] <;> omega
  · by_cases hnb : b = naInt
    · rw [if_neg hna, if_pos hnb, if_neg hna, if_pos hnb]
      simp only [naInt, intMax] at a1 a2 b1 b2 hna hnb
      cases decreasing <;> cases naLast <;>
        simp only [if_true, if_false, Bool.false_eq_true] <;> omega
    · rw [if_neg hna, if_neg hnb, if_neg hna, if_neg hnb]
      simp only [naInt, intMax] at a1 a2 b1 b2 hna hnb
      rcases Int.lt_trichotomy a b with hab | hab | hab
      · rw [if_neg (by omega), if_pos hab]
        cases decreasing <;> cases naLast <;>
          simp only [if_true, if_false, Bool.false_eq_true] <;> omega
      · subst hab
        simp
      · rw [if_pos hab, if_neg (by omega)]
        cases decreasing <;> cases naLast <;>
          simp only [if_true, if_false, Bool.false_eq_true] <;> omega

end Vctrs
