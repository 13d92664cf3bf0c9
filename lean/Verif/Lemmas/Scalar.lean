import Verif.Lemmas.Base
import Verif.Lemmas.Dict
import Verif.Model.Hash

/-! # Facts about the scalar operations -/

namespace Vctrs

/-! ## Doubles -/

theorem dblMagOf_lt_succ (m : Nat) : dblMagOf m < dblMagOf (m + 1) := by
  unfold dblMagOf
  have hm := Nat.div_add_mod m (2 ^ 52)
  have hf : m % 2 ^ 52 < 2 ^ 52 := Nat.mod_lt _ (by decide)
  generalize m / 2 ^ 52 = e at *
  generalize m % 2 ^ 52 = f at *
  by_cases hlast : f + 1 < 2 ^ 52
  · have h1 : (m + 1) / 2 ^ 52 = e := by omega
    have h2 : (m + 1) % 2 ^ 52 = f + 1 := by omega
    simp only [h1, h2]
    by_cases he : e = 0
    · rw [if_pos he, if_pos he]; omega
    · rw [if_neg he, if_neg he]
      exact Nat.mul_lt_mul_of_pos_right (by omega) (Nat.two_pow_pos _)
  · have h1 : (m + 1) / 2 ^ 52 = e + 1 := by omega
    have h2 : (m + 1) % 2 ^ 52 = 0 := by omega
    simp only [h1, h2]
    have h3 : ¬ e + 1 = 0 := by omega
    rw [if_neg h3]
    by_cases he : e = 0
    · rw [if_pos he]
      subst he
      have : (2 : Nat) ^ (0 + 1 - 1) = 1 := rfl
      rw [this]; omega
    · rw [if_neg he]
      obtain ⟨k, rfl⟩ : ∃ k, e = k + 1 := ⟨e - 1, by omega⟩
      have hp := Nat.two_pow_pos k
      have e1 : k + 1 + 1 - 1 = k + 1 := rfl
      have e2 : k + 1 - 1 = k := rfl
      have e3 : 2 ^ (k + 1) = 2 ^ k * 2 := Nat.pow_succ 2 k
      rw [e1, e2, e3]
      have : (2 ^ 52 + f) * 2 ^ k < (2 ^ 52 * 2) * 2 ^ k :=
        Nat.mul_lt_mul_of_pos_right (by omega) hp
      calc _ < _ := this
        _ = _ := by rw [Nat.add_zero, Nat.mul_assoc, Nat.mul_comm 2]

theorem dblMagOf_lt {m n : Nat} (h : m < n) : dblMagOf m < dblMagOf n := by
  obtain ⟨k, rfl⟩ := Nat.exists_eq_add_of_lt h
  clear h
  induction k with
  | zero => exact dblMagOf_lt_succ m
  | succ k ih => exact Nat.lt_trans ih (dblMagOf_lt_succ _)

theorem dblMagOf_lt_iff {m n : Nat} : dblMagOf m < dblMagOf n ↔ m < n := by
  refine ⟨fun h => ?_, dblMagOf_lt⟩
  rcases Nat.lt_trichotomy m n with h1 | h1 | h1
  · exact h1
  · subst h1; omega
  · have := dblMagOf_lt h1; omega

theorem dblMagOf_inj {m n : Nat} : dblMagOf m = dblMagOf n ↔ m = n := by
  refine ⟨fun h => ?_, fun h => by rw [h]⟩
  rcases Nat.lt_trichotomy m n with h1 | h1 | h1
  · have := dblMagOf_lt h1; omega
  · exact h1
  · have := dblMagOf_lt h1; omega

theorem dblMagOf_zero : dblMagOf 0 = 0 := by decide

theorem dblMagOf_pos {m : Nat} (h : 0 < m) : 0 < dblMagOf m := by
  have := dblMagOf_lt h; omega

theorem dblNeg_iff (x : Dbl) : dblNeg x = true ↔ x.toNat = dblMagBits x + 2 ^ 63 := by
  have := x.isLt
  unfold dblNeg dblMagBits
  simp only [decide_eq_true_eq]
  omega

theorem dblNeg_false_iff (x : Dbl) : dblNeg x = false ↔ x.toNat = dblMagBits x := by
  have := x.isLt
  unfold dblNeg dblMagBits
  simp only [decide_eq_false_iff_not]
  omega

theorem dblVal_eq_iff (x y : Dbl) :
    dblVal x = dblVal y ↔ x = y ∨ (dblMagBits x = 0 ∧ dblMagBits y = 0) := by
  unfold dblVal
  have hz : ∀ z : Dbl, dblMagBits z = 0 ↔ dblMagOf (dblMagBits z) = 0 := fun z =>
    ⟨fun h => by rw [h]; exact dblMagOf_zero, fun h => by
      rcases Nat.eq_zero_or_pos (dblMagBits z) with h1 | h1
      · exact h1
      · have := dblMagOf_pos h1; omega⟩
  have hi := @dblMagOf_inj (dblMagBits x) (dblMagBits y)
  rw [BitVec.toNat_inj.symm]
  cases hx : dblNeg x <;> cases hy : dblNeg y
  all_goals simp only [Bool.false_eq_true, if_false, if_true]
  all_goals first
    | rw [dblNeg_iff] at hx
    | rw [dblNeg_false_iff] at hx
  all_goals first
    | rw [dblNeg_iff] at hy
    | rw [dblNeg_false_iff] at hy
  all_goals rw [hz x, hz y]
  all_goals have h63 : (2 : Nat) ^ 63 = 9223372036854775808 := rfl
  all_goals rw [hx, hy]
  all_goals
    have b1 : dblMagBits x < 2 ^ 63 := Nat.mod_lt _ (by decide)
    have b2 : dblMagBits y < 2 ^ 63 := Nat.mod_lt _ (by decide)
    constructor
    · intro h
      by_cases h0 : dblMagOf (dblMagBits x) = 0
      · right; omega
      · left
        have : dblMagOf (dblMagBits x) = dblMagOf (dblMagBits y) ∨ False := by omega
        have := hi.1 (by omega)
        omega
    · rintro (h | h)
      · have : dblMagBits x = dblMagBits y := by omega
        have h2 := hi.2 this
        omega
      · omega

/-- The canonical bit pattern of a double: one NA, one NaN, one zero. -/
def dblRep (x : Dbl) : Dbl :=
  match dblClassify x with
  | .missing => naReal
  | .nan => rNaN
  | .number => if dblEqOp x 0#64 then 0#64 else x

theorem dblClassify_number {x : Dbl} : dblClassify x = .number ↔ isNan x = false := by
  unfold dblClassify
  cases isNan x <;> simp
  split <;> simp

theorem dblMagBits_lt (x : Dbl) : dblMagBits x < 2 ^ 63 := Nat.mod_lt _ (by decide)

theorem dblEqOp_iff {x y : Dbl} (hx : isNan x = false) (hy : isNan y = false) :
    dblEqOp x y = true ↔ dblVal x = dblVal y := by
  unfold dblEqOp; simp [hx, hy]

theorem dblEqOp_zero {x : Dbl} (hx : isNan x = false) :
    dblEqOp x 0#64 = true ↔ dblMagBits x = 0 := by
  rw [dblEqOp_iff hx (by decide), dblVal_eq_iff]
  have h0 : dblMagBits 0#64 = 0 := by decide
  constructor
  · rintro (rfl | h)
    · exact h0
    · exact h.1
  · intro h; exact Or.inr ⟨h, h0⟩

theorem dblRep_number {x : Dbl} (hx : isNan x = false) : isNan (dblRep x) = false := by
  have hc := dblClassify_number.2 hx
  unfold dblRep
  rw [hc]
  simp only
  split
  · decide
  · exact hx

theorem dblEqualNaEqual_iff (x y : Dbl) : dblEqualNaEqual x y = true ↔ dblRep x = dblRep y := by
  have hna : isNan naReal = true := by decide
  have hnn : isNan rNaN = true := by decide
  have hne : naReal ≠ rNaN := by decide
  unfold dblEqualNaEqual
  cases hx : dblClassify x
  · have hxn := dblClassify_number.1 hx
    simp only
    by_cases hy : isNan y = true
    · rw [if_pos hy]
      have h1 := dblRep_number hxn
      have : isNan (dblRep y) = true := by
        unfold dblRep
        cases hy' : dblClassify y
        · rw [dblClassify_number.1 hy'] at hy; cases hy
        · exact hna
        · exact hnn
      constructor
      · intro h; cases h
      · intro h; rw [h, this] at h1; cases h1
    · have hy : isNan y = false := by simpa using hy
      have hyc := dblClassify_number.2 hy
      rw [if_neg (by simp [hy]), dblEqOp_iff hxn hy, dblVal_eq_iff]
      unfold dblRep
      rw [hx, hyc]
      simp only
      have zx := dblEqOp_zero hxn
      have zy := dblEqOp_zero hy
      have m0 : dblMagBits 0#64 = 0 := by decide
      by_cases ex : dblEqOp x 0#64 = true <;> by_cases ey : dblEqOp y 0#64 = true
      · rw [if_pos ex, if_pos ey]
        simp [zx.1 ex, zy.1 ey]
      · rw [if_pos ex, if_neg ey]
        constructor
        · rintro (rfl | h)
          · exact absurd ex ey
          · exact absurd (zy.2 h.2) ey
        · intro h; rw [← h] at ey; exact absurd (by decide) ey
      · rw [if_neg ex, if_pos ey]
        constructor
        · rintro (rfl | h)
          · exact absurd ey ex
          · exact absurd (zx.2 h.1) ex
        · intro h; rw [h] at ex; exact absurd (by decide) ex
      · rw [if_neg ex, if_neg ey]
        constructor
        · rintro (rfl | h)
          · rfl
          · exact absurd (zx.2 h.1) ex
        · intro h; exact Or.inl h
  all_goals
    simp only
    unfold dblRep
    rw [hx]
    cases hy : dblClassify y <;> simp only [beq_iff_eq, reduceCtorEq, false_iff, true_iff]
    case number =>
      have hyn := dblClassify_number.1 hy
      intro h
      have h2 := dblRep_number hyn
      unfold dblRep at h2
      rw [hy] at h2
      simp only at h2
      rw [← h] at h2
      revert h2
      first
        | (rw [hna]; intro h2; cases h2)
        | (rw [hnn]; intro h2; cases h2)
    all_goals first | exact hne | exact hne.symm

/-! ## Canonical elements -/

/-- The canonical representative of an element among those equal to it. -/
def rep : (t : ATy) → t.El → t.El
  | .lgl, (x : Int) => x
  | .int, (x : Int) => x
  | .dbl, (x : Dbl) => dblRep x
  | .cpl, (x : Dbl × Dbl) => (dblRep x.1, dblRep x.2)
  | .chr, (x : Name) => x
  | .raw, (x : BitVec 8) => x

theorem equalNaEqual_iff : (t : ATy) → (x y : t.El) → (equalNaEqual t x y = true ↔ rep t x = rep t y)
  | .lgl, (x : Int), (y : Int) => decide_eq_true_iff (p := x = y)
  | .int, (x : Int), (y : Int) => decide_eq_true_iff (p := x = y)
  | .dbl, (x : Dbl), (y : Dbl) => dblEqualNaEqual_iff x y
  | .cpl, (x : Dbl × Dbl), (y : Dbl × Dbl) => by
      show (dblEqualNaEqual x.1 y.1 && dblEqualNaEqual x.2 y.2) = true ↔
        (dblRep x.1, dblRep x.2) = (dblRep y.1, dblRep y.2)
      rw [Bool.and_eq_true, dblEqualNaEqual_iff, dblEqualNaEqual_iff, Prod.mk.injEq]
  | .chr, (x : Name), (y : Name) => decide_eq_true_iff (p := x = y)
  | .raw, (x : BitVec 8), (y : BitVec 8) => decide_eq_true_iff (p := x = y)

theorem equalNaEqual_refl (t : ATy) (x : t.El) : equalNaEqual t x x = true :=
  (equalNaEqual_iff t x x).2 rfl

theorem equalNaEqual_comm (t : ATy) (x y : t.El) : equalNaEqual t x y = equalNaEqual t y x := by
  rw [Bool.eq_iff_iff, equalNaEqual_iff, equalNaEqual_iff]
  exact eq_comm

theorem equalNaEqual_trans (t : ATy) {x y z : t.El} (h1 : equalNaEqual t x y = true)
    (h2 : equalNaEqual t y z = true) : equalNaEqual t x z = true := by
  rw [equalNaEqual_iff] at *
  exact h1.trans h2

theorem dblHashScalar_rep (x : Dbl) : dblHashScalar x = hashU64 (dblRep x) := by
  unfold dblHashScalar dblRep hashDouble
  cases dblClassify x <;> simp only
  all_goals (rw [if_neg (by decide)])

theorem hashScalar_congr (addr : Name → BitVec 64) : (t : ATy) → {x y : t.El} →
    equalNaEqual t x y = true → hashScalar addr t x = hashScalar addr t y
  | .lgl, x, y, h => by
      have := (equalNaEqual_iff .lgl x y).1 h; simp only [rep] at this; rw [this]
  | .int, x, y, h => by
      have := (equalNaEqual_iff .int x y).1 h; simp only [rep] at this; rw [this]
  | .dbl, (x : Dbl), (y : Dbl), h => by
      have := (equalNaEqual_iff .dbl x y).1 h
      show dblHashScalar x = dblHashScalar y
      rw [dblHashScalar_rep, dblHashScalar_rep]
      exact congrArg hashU64 this
  | .cpl, (x : Dbl × Dbl), (y : Dbl × Dbl), h => by
      have : (dblRep x.1, dblRep x.2) = (dblRep y.1, dblRep y.2) :=
        (equalNaEqual_iff .cpl x y).1 h
      rw [Prod.mk.injEq] at this
      show hashCombine (hashCombine 0 (dblHashScalar x.1)) (dblHashScalar x.2) =
        hashCombine (hashCombine 0 (dblHashScalar y.1)) (dblHashScalar y.2)
      rw [dblHashScalar_rep, dblHashScalar_rep, dblHashScalar_rep, dblHashScalar_rep, this.1,
        this.2]
  | .chr, x, y, h => by
      have := (equalNaEqual_iff .chr x y).1 h; simp only [rep] at this; rw [this]
  | .raw, x, y, h => by
      have := (equalNaEqual_iff .raw x y).1 h; simp only [rep] at this; rw [this]

theorem isNan_dblRep (x : Dbl) : isNan (dblRep x) = isNan x := by
  cases h : isNan x
  · exact dblRep_number h
  · unfold dblRep
    cases hc : dblClassify x
    · rw [dblClassify_number.1 hc] at h; cases h
    · rfl
    · rfl

theorem isMissing_rep : (t : ATy) → (x : t.El) → isMissing t (rep t x) = isMissing t x
  | .lgl, _ => rfl
  | .int, _ => rfl
  | .dbl, x => isNan_dblRep x
  | .cpl, x => by simp only [isMissing, rep, isNan_dblRep]
  | .chr, _ => rfl
  | .raw, _ => rfl

theorem isMissing_congr (t : ATy) {x y : t.El} (h : equalNaEqual t x y = true) :
    isMissing t x = isMissing t y := by
  rw [← isMissing_rep t x, ← isMissing_rep t y, (equalNaEqual_iff t x y).1 h]

/-! ## Equality with missing values propagated -/

theorem dblEqualNaPropagate_eq (a b : Dbl) : dblEqualNaPropagate a b =
    if isNan a || isNan b then none else some (dblEqualNaEqual a b) := by
  unfold dblEqualNaPropagate dblEqualNaEqual
  cases ha : isNan a
  · rw [dblClassify_number.2 ha]
    cases hb : isNan b <;> simp
  · simp

theorem cplPropagate_eq (a b : Dbl × Dbl) :
    (match dblEqualNaPropagate a.1 b.1, dblEqualNaPropagate a.2 b.2 with
      | some r, some i => some (r && i)
      | _, _ => none) =
    if (isNan a.1 || isNan a.2) || (isNan b.1 || isNan b.2) then none
    else some (dblEqualNaEqual a.1 b.1 && dblEqualNaEqual a.2 b.2) := by
  rw [dblEqualNaPropagate_eq, dblEqualNaPropagate_eq]
  cases isNan a.1 <;> cases isNan a.2 <;> cases isNan b.1 <;> cases isNan b.2 <;> rfl

theorem equalNaPropagate_eq : (t : ATy) → (x y : t.El) → equalNaPropagate t x y =
    if isMissing t x || isMissing t y then none else some (equalNaEqual t x y)
  | .lgl, _, _ => rfl
  | .int, _, _ => rfl
  | .dbl, x, y => dblEqualNaPropagate_eq x y
  | .cpl, x, y => cplPropagate_eq x y
  | .chr, _, _ => rfl
  | .raw, _, _ => rfl

/-! ## Rows -/

theorem rowEqual_refl : (ts : List ATy) → (r : Row ts) → rowEqual ts r r = true
  | [], _ => rfl
  | t :: ts, (x, xs) => by
      show (if !equalNaEqual t x x then false else rowEqual ts xs xs) = true
      rw [equalNaEqual_refl]
      exact rowEqual_refl ts xs

theorem rowEqual_cons {t : ATy} {ts : List ATy} {x y : t.El} {xs ys : Row ts} :
    rowEqual (t :: ts) (x, xs) (y, ys) = (equalNaEqual t x y && rowEqual ts xs ys) := by
  show (if !equalNaEqual t x y then false else rowEqual ts xs ys) = _
  cases equalNaEqual t x y <;> simp

theorem rowEqual_comm : (ts : List ATy) → (r s : Row ts) → rowEqual ts r s = rowEqual ts s r
  | [], _, _ => rfl
  | t :: ts, (x, xs), (y, ys) => by
      rw [rowEqual_cons, rowEqual_cons, equalNaEqual_comm, rowEqual_comm ts]

theorem rowEqual_trans : (ts : List ATy) → {r s q : Row ts} → rowEqual ts r s = true →
    rowEqual ts s q = true → rowEqual ts r q = true
  | [], _, _, _, _, _ => rfl
  | t :: ts, (x, xs), (y, ys), (z, zs), h1, h2 => by
      rw [rowEqual_cons, Bool.and_eq_true] at *
      exact ⟨equalNaEqual_trans t h1.1 h2.1, rowEqual_trans ts h1.2 h2.2⟩

theorem rowHash_congr (addr : Name → BitVec 64) : (ts : List ATy) → {r s : Row ts} →
    (h : BitVec 32) → rowEqual ts r s = true → rowHash addr ts r h = rowHash addr ts s h
  | [], _, _, _, _ => rfl
  | t :: ts, (x, xs), (y, ys), h, he => by
      rw [rowEqual_cons, Bool.and_eq_true] at he
      show rowHash addr ts xs (hashCombine h (hashScalar addr t x)) =
        rowHash addr ts ys (hashCombine h (hashScalar addr t y))
      rw [hashScalar_congr addr t he.1]
      exact rowHash_congr addr ts _ he.2

theorem rowHashPropagate_congr (addr : Name → BitVec 64) : (ts : List ATy) → {r s : Row ts} →
    (h : BitVec 32) → rowEqual ts r s = true →
    rowHashPropagate addr ts r h = rowHashPropagate addr ts s h
  | [], _, _, _, _ => rfl
  | t :: ts, (x, xs), (y, ys), h, he => by
      rw [rowEqual_cons, Bool.and_eq_true] at he
      show rowHashPropagate addr ts xs (if t = .raw then _ else _) =
        rowHashPropagate addr ts ys (if t = .raw then _ else _)
      rw [hashScalar_congr addr t he.1, isMissing_congr t he.1]
      exact rowHashPropagate_congr addr ts _ he.2

/-- The dictionary operations on data frame rows satisfy the requirements of the hash
table. -/
theorem rowOps_eqv (addr : Name → BitVec 64) (naEqual : Bool) (ts : List ATy) :
    EqvHash (rowOps addr naEqual ts) where
  refl := rowEqual_refl ts
  symm a b h := by
    have : rowEqual ts a b = true := h
    rw [rowEqual_comm] at this
    exact this
  trans a b c h1 h2 := rowEqual_trans ts h1 h2
  hash_eq a b h := by
    unfold rowOps
    simp only
    cases naEqual
    · exact rowHashPropagate_congr addr ts 0 h
    · exact rowHash_congr addr ts 0 h

theorem atomOps_eqv (addr : Name → BitVec 64) (naEqual : Bool) (t : ATy) :
    EqvHash (atomOps addr naEqual t) where
  refl := equalNaEqual_refl t
  symm a b h := by
    have : equalNaEqual t a b = true := h
    rw [equalNaEqual_comm] at this
    exact this
  trans a b c h1 h2 := equalNaEqual_trans t h1 h2
  hash_eq a b h := by
    unfold atomOps
    simp only
    rw [hashScalar_congr addr t h, isMissing_congr t h]

end Vctrs
