import Verif.Model.Int64
import Verif.Lemmas.Cast

/-!
# Lemmas on proxies of 64-bit integers
-/

namespace Vctrs

open Spec

/-- A 64-bit integer counted from the smallest one. -/
def offset64 (x : BitVec 64) : Nat := (x.toInt + 2 ^ 63).toNat

theorem offset64_spec (x : BitVec 64) : (offset64 x : Int) = x.toInt + 2 ^ 63 ∧
    offset64 x < 2 ^ 64 := by
  unfold offset64
  have h := x.isLt
  have h2 := BitVec.toInt_eq_toNat_cond x
  split at h2 <;> omega

theorem offset64_sub (x : BitVec 64) : (x - BitVec.ofNat 64 (2 ^ 63)).toNat = offset64 x := by
  rw [BitVec.toNat_sub, BitVec.toNat_ofNat]
  have h := x.isLt
  have h2 := BitVec.toInt_eq_toNat_cond x
  unfold offset64
  split at h2 <;> omega

theorem int64Unpack_eq (x : BitVec 64) : int64Unpack x =
    (intToDbl ((offset64 x / 2 ^ 32 : Nat) : Int), intToDbl ((offset64 x % 2 ^ 32 : Nat) : Int)) := by
  unfold int64Unpack
  dsimp only
  have h := (offset64_spec x).2
  have e1 : (((x - BitVec.ofNat 64 (2 ^ 63)) >>> 32).truncate 32 : BitVec 32).toNat
      = offset64 x / 2 ^ 32 := by
    rw [BitVec.truncate_eq_setWidth, BitVec.toNat_setWidth, BitVec.toNat_ushiftRight, offset64_sub,
      Nat.shiftRight_eq_div_pow]
    exact Nat.mod_eq_of_lt (by omega)
  have e2 : ((x - BitVec.ofNat 64 (2 ^ 63)).truncate 32 : BitVec 32).toNat
      = offset64 x % 2 ^ 32 := by
    rw [BitVec.truncate_eq_setWidth, BitVec.toNat_setWidth, offset64_sub]
  rw [e1, e2]

theorem dblToU32_nat {n : Nat} (h : n < 2 ^ 32) :
    dblToU32 (intToDbl (n : Int)) = .ok (BitVec.ofNat 32 n) := by
  have hb : ((n : Int)).natAbs < 2 ^ 53 := by omega
  obtain ⟨h1, h2⟩ := intToDbl_spec hb
  unfold dblToU32
  rw [h1, if_neg (by simp), h2]
  dsimp only
  rw [Int.mul_tdiv_cancel _ (ne_of_gt unit_pos), if_neg (by omega), if_neg (by omega)]
  rfl

theorem int64Pack_unpack (x : BitVec 64) :
    int64Pack (int64Unpack x).1 (int64Unpack x).2 = .ok x := by
  have h := (offset64_spec x).2
  rw [int64Unpack_eq]
  unfold int64Pack
  dsimp only
  rw [dblToU32_nat (by omega), ok_bind, dblToU32_nat (by omega), ok_bind]
  refine congrArg Except.ok ?_
  apply BitVec.eq_of_toNat_eq
  unfold BitVec.zeroExtend
  rw [BitVec.toNat_add, BitVec.toNat_or, BitVec.toNat_shiftLeft, BitVec.toNat_setWidth, BitVec.toNat_setWidth, BitVec.toNat_ofNat,
    BitVec.toNat_ofNat, BitVec.toNat_ofNat]
  have e1 : offset64 x / 2 ^ 32 % 2 ^ 32 % 2 ^ 64 = offset64 x / 2 ^ 32 := by omega
  have e2 : offset64 x % 2 ^ 32 % 2 ^ 32 % 2 ^ 64 = offset64 x % 2 ^ 32 := by omega
  rw [e1, e2]
  have e3 : (offset64 x / 2 ^ 32) <<< 32 % 2 ^ 64 = (offset64 x / 2 ^ 32) <<< 32 := by
    rw [Nat.shiftLeft_eq]
    exact Nat.mod_eq_of_lt (by omega)
  rw [e3, ← Nat.shiftLeft_add_eq_or_of_lt (by omega), Nat.shiftLeft_eq]
  rw [show offset64 x / 2 ^ 32 * 2 ^ 32 + offset64 x % 2 ^ 32 = offset64 x by omega]
  have hx := x.isLt
  have h2 := BitVec.toInt_eq_toNat_cond x
  unfold offset64
  split at h2 <;> omega

/-- The proxy of one integer. -/
def proxy64 (x : BitVec 64) : Dbl × Dbl := if x = naLlong then (naReal, naReal) else int64Unpack x

theorem int64Proxy_eq (x : List Dbl) : int64Proxy x =
    .ok (x.map (fun v => (proxy64 v).1), x.map (fun v => (proxy64 v).2)) := by
  let R1 : Nat → Dbl → Prop := fun j v => (x.map (fun v => (proxy64 v).1))[j]? = some v
  let R2 : Nat → Dbl → Prop := fun j v => (x.map (fun v => (proxy64 v).2))[j]? = some v
  have hfin : ∀ (f : Dbl → Dbl) (out : List (Option Dbl)),
      Filled (fun j v => (x.map f)[j]? = some v) x.length x.length out →
      initd out = .ok (x.map f) := by
    intro f out hf
    obtain ⟨r, hr, h1, h2⟩ := hf.done
    rw [hr]
    congr 1
    refine List.ext_getElem? fun i => ?_
    by_cases hi : i < r.length
    · rw [List.getElem?_eq_getElem hi]
      exact (h2 i _ (List.getElem?_eq_getElem hi)).symm
    · rw [List.getElem?_eq_none (by omega), List.getElem?_eq_none (by rw [List.length_map]; omega)]
  unfold int64Proxy
  obtain ⟨s, hs, h1, h2⟩ : Ret (forN x.length (int64ProxyStep x)
      (alloc Dbl x.length, alloc Dbl x.length))
      (fun s => Filled R1 x.length x.length s.1 ∧ Filled R2 x.length x.length s.2) := by
    refine Ret.forN (fun i (s : List (Option Dbl) × List (Option Dbl)) => Filled R1 x.length i s.1 ∧ Filled R2 x.length i s.2)
      ⟨Filled.start _ _, Filled.start _ _⟩ ?_
    rintro i ⟨l, r⟩ hi ⟨hl, hr⟩
    unfold int64ProxyStep
    dsimp only at hl hr ⊢
    rw [rd_ok hi, ok_bind]
    obtain ⟨w1, f1⟩ := hl.step (r := (proxy64 x[i]).1) hi (by simp [R1, hi])
    obtain ⟨w2, f2⟩ := hr.step (r := (proxy64 x[i]).2) hi (by simp [R2, hi])
    by_cases hn : x[i] = naLlong
    · unfold proxy64 at w1 w2 f1 f2
      rw [if_pos hn] at w1 w2 f1 f2
      rw [if_pos hn, w1, ok_bind, w2, ok_bind]
      exact Ret.ok ⟨f1, f2⟩
    · unfold proxy64 at w1 w2 f1 f2
      rw [if_neg hn] at w1 w2 f1 f2
      rw [if_neg hn, w1, ok_bind, w2, ok_bind]
      exact Ret.ok ⟨f1, f2⟩
  rw [hs, ok_bind, hfin _ _ h1, ok_bind, hfin _ _ h2, ok_bind]

theorem proxy64_spec (v : BitVec 64) :
    (v = naLlong → IsNA (proxy64 v).1 ∧ IsNA (proxy64 v).2) ∧
    (v ≠ naLlong → ¬ IsNaN (proxy64 v).1 ∧ ¬ IsNaN (proxy64 v).2 ∧
      dblVal (proxy64 v).1 = ((offset64 v / 2 ^ 32 : Nat) : Int) * 2 ^ 1074 ∧
      dblVal (proxy64 v).2 = ((offset64 v % 2 ^ 32 : Nat) : Int) * 2 ^ 1074) := by
  constructor
  · intro h
    unfold proxy64
    rw [if_pos h]
    unfold IsNA IsNaN
    decide +kernel
  · intro h
    unfold proxy64
    rw [if_neg h, int64Unpack_eq]
    have hb := (offset64_spec v).2
    have b1 : (((offset64 v / 2 ^ 32 : Nat) : Int)).natAbs < 2 ^ 53 := by omega
    have b2 : (((offset64 v % 2 ^ 32 : Nat) : Int)).natAbs < 2 ^ 53 := by omega
    refine ⟨?_, ?_, (intToDbl_spec b1).2, (intToDbl_spec b2).2⟩
    · rw [← isNan_iff, (intToDbl_spec b1).1]; simp
    · rw [← isNan_iff, (intToDbl_spec b2).1]; simp

theorem offset64_lt {v w : BitVec 64} : offset64 v < offset64 w ↔ v.toInt < w.toInt := by
  have h1 := offset64_spec v
  have h2 := offset64_spec w
  omega

theorem naLlong_offset (v : BitVec 64) : v = naLlong ↔ offset64 v = 0 := by
  have h := (offset64_spec v).1
  have hn : naLlong.toInt = -2 ^ 63 := by decide +kernel
  constructor
  · rintro rfl; omega
  · intro h0
    apply BitVec.eq_of_toInt_eq
    omega

/-- The data frame whose columns are given by two functions of the elements. -/
theorem leaves_int64Df (l r : List Dbl) :
    leaves (int64Df (l, r)) = [.vec (.atom .dbl) l, .vec (.atom .dbl) r] := by
  simp [int64Df, leaves, leavesAll]

theorem atLeaf_dbl {R : (t : ATy) → t.El → t.El → Prop} {l m : List Dbl} {i : Nat} {a b : Dbl}
    (ha : l[i]? = some a) (hb : m[i]? = some b) :
    AtLeaf R (.vec (.atom .dbl) l) (.vec (.atom .dbl) m) i ↔ R .dbl a b := by
  constructor
  · rintro ⟨t, xs, ys, a', b', h1, h2, h3, h4, h5⟩
    cases h1
    cases h2
    have e1 : some a = some a' := ha.symm.trans h3
    have e2 : some b = some b' := hb.symm.trans h4
    cases e1
    cases e2
    exact h5
  · intro h
    exact ⟨.dbl, l, m, a, b, rfl, rfl, ha, hb, h⟩

theorem rowLt_int64Df {l r l' r' : List Dbl} {i : Nat} {a b a' b' : Dbl} (ha : l[i]? = some a)
    (hb : r[i]? = some b) (ha' : l'[i]? = some a') (hb' : r'[i]? = some b') :
    RowLt (int64Df (l, r)) (int64Df (l', r')) i ↔ DblLt a a' ∨ (SameDbl a a' ∧ DblLt b b') := by
  unfold RowLt
  rw [leaves_int64Df, leaves_int64Df]
  constructor
  · rintro ⟨k, p, q, h1, h2, h3, h4⟩
    match k with
    | 0 =>
      cases h1
      cases h2
      exact .inl ((atLeaf_dbl ha ha').mp h3)
    | 1 =>
      cases h1
      cases h2
      exact .inr ⟨(atLeaf_dbl ha ha').mp (h4 0 _ _ (by omega) rfl rfl), (atLeaf_dbl hb hb').mp h3⟩
    | k + 2 => simp at h1
  · rintro (h | ⟨h1, h2⟩)
    · exact ⟨0, _, _, rfl, rfl, (atLeaf_dbl ha ha').mpr h, by intro j _ _ hj; omega⟩
    · refine ⟨1, _, _, rfl, rfl, (atLeaf_dbl hb hb').mpr h2, ?_⟩
      intro j p q hj hp hq
      have : j = 0 := by omega
      subst this
      cases hp
      cases hq
      exact (atLeaf_dbl ha ha').mpr h1

theorem rowSame_int64Df {l r l' r' : List Dbl} {i : Nat} {a b a' b' : Dbl} (ha : l[i]? = some a)
    (hb : r[i]? = some b) (ha' : l'[i]? = some a') (hb' : r'[i]? = some b') :
    RowSame (int64Df (l, r)) (int64Df (l', r')) i ↔ SameDbl a a' ∧ SameDbl b b' := by
  unfold RowSame
  rw [leaves_int64Df, leaves_int64Df]
  constructor
  · intro h
    exact ⟨(atLeaf_dbl ha ha').mp (h 0 _ _ rfl rfl), (atLeaf_dbl hb hb').mp (h 1 _ _ rfl rfl)⟩
  · rintro ⟨h1, h2⟩ j p q hp hq
    match j with
    | 0 => cases hp; cases hq; exact (atLeaf_dbl ha ha').mpr h1
    | 1 => cases hp; cases hq; exact (atLeaf_dbl hb hb').mpr h2
    | j + 2 => simp at hp

/-- The two columns order as the integers. -/
theorem proxy64_lt (v w : BitVec 64) :
    (DblLt (proxy64 v).1 (proxy64 w).1 ∨
      (SameDbl (proxy64 v).1 (proxy64 w).1 ∧ DblLt (proxy64 v).2 (proxy64 w).2)) ↔
      v.toInt < w.toInt := by
  rw [← offset64_lt]
  obtain ⟨v1, v2⟩ := proxy64_spec v
  obtain ⟨w1, w2⟩ := proxy64_spec w
  have zv := naLlong_offset v
  have zw := naLlong_offset w
  have hU := unit_pos
  by_cases hv : v = naLlong
  · obtain ⟨a1, a2⟩ := v1 hv
    by_cases hw : w = naLlong
    · obtain ⟨b1, b2⟩ := w1 hw
      have : ¬ offset64 v < offset64 w := by
        rw [zv.mp hv, zw.mp hw]
        omega
      simp only [this, iff_false]
      rintro (h | ⟨-, h⟩)
      · rcases h with h | h
        · simp [dblRank, a1, b1] at h
        · exact h.1 a1.1
      · rcases h with h | h
        · simp [dblRank, a2, b2] at h
        · exact h.1 a2.1
    · obtain ⟨b1, b2, -, -⟩ := w2 hw
      have : offset64 v < offset64 w := by
        rw [zv.mp hv]
        have := (not_congr zw).mp hw
        omega
      simp only [this, iff_true]
      refine .inl (.inl ?_)
      have b3 : ¬ IsNA (proxy64 w).1 := fun h => b1 h.1
      simp [dblRank, a1, b1, b3]
  · obtain ⟨a1, a2, a3, a4⟩ := v2 hv
    have n1 : ¬ IsNA (proxy64 v).1 := fun h => a1 h.1
    have n2 : ¬ IsNA (proxy64 v).2 := fun h => a2 h.1
    by_cases hw : w = naLlong
    · obtain ⟨b1, b2⟩ := w1 hw
      have : ¬ offset64 v < offset64 w := by
        rw [zw.mp hw]
        omega
      simp only [this, iff_false]
      rintro (h | ⟨h, -⟩)
      · rcases h with h | h
        · simp [dblRank, n1, a1, b1] at h
        · exact h.2.1 b1.1
      · exact n1 (h.1.mpr b1)
    · obtain ⟨b1, b2, b3, b4⟩ := w2 hw
      have m1 : ¬ IsNA (proxy64 w).1 := fun h => b1 h.1
      have m2 : ¬ IsNA (proxy64 w).2 := fun h => b2 h.1
      have d1 : DblLt (proxy64 v).1 (proxy64 w).1 ↔ offset64 v / 2 ^ 32 < offset64 w / 2 ^ 32 := by
        unfold DblLt
        simp only [dblRank, n1, a1, m1, b1, if_false, not_false_iff, true_and, lt_irrefl, false_or, a3, b3]
        rw [Int.mul_lt_mul_right hU]
        omega
      have d2 : DblLt (proxy64 v).2 (proxy64 w).2 ↔ offset64 v % 2 ^ 32 < offset64 w % 2 ^ 32 := by
        unfold DblLt
        simp only [dblRank, n2, a2, m2, b2, if_false, not_false_iff, true_and, lt_irrefl, false_or, a4, b4]
        rw [Int.mul_lt_mul_right hU]
        omega
      have d3 : SameDbl (proxy64 v).1 (proxy64 w).1 ↔ offset64 v / 2 ^ 32 = offset64 w / 2 ^ 32 := by
        unfold SameDbl
        simp only [n1, a1, m1, b1, not_false_iff, true_imp_iff, true_and, iff_self, a3, b3]
        rw [Int.mul_eq_mul_right_iff (ne_of_gt hU)]
        omega
      rw [d1, d2, d3]
      omega

theorem proxy64_same (v w : BitVec 64) :
    (SameDbl (proxy64 v).1 (proxy64 w).1 ∧ SameDbl (proxy64 v).2 (proxy64 w).2) ↔ v = w := by
  constructor
  · rintro ⟨h1, h2⟩
    have n1 : ∀ {a b : Dbl}, SameDbl a b → ¬ DblLt a b := by
      rintro a b ⟨k1, k2, k3⟩ (h | ⟨h3, h4, h5⟩)
      · unfold dblRank at h
        simp only [k1, k2] at h
        omega
      · rw [k3 h3] at h5
        omega
    have s : ∀ {a b : Dbl}, SameDbl a b → SameDbl b a := by
      rintro a b ⟨k1, k2, k3⟩
      exact ⟨k1.symm, k2.symm, fun h => (k3 (fun h' => h (k2.mp h'))).symm⟩
    have l1 : ¬ v.toInt < w.toInt := by
      rw [← proxy64_lt]
      rintro (h | h)
      · exact n1 h1 h
      · exact n1 h2 h.2
    have l2 : ¬ w.toInt < v.toInt := by
      rw [← proxy64_lt]
      rintro (h | h)
      · exact n1 (s h1) h
      · exact n1 (s h2) h.2
    apply BitVec.eq_of_toInt_eq
    omega
  · rintro rfl
    exact ⟨⟨Iff.rfl, Iff.rfl, fun _ => rfl⟩, ⟨Iff.rfl, Iff.rfl, fun _ => rfl⟩⟩

theorem comparable_int64Df {n : Nat} {l r l' r' : List Dbl} (h1 : l.length = n) (h2 : r.length = n)
    (h3 : l'.length = n) (h4 : r'.length = n) : Comparable n (int64Df (l, r)) (int64Df (l', r')) := by
  unfold int64Df
  dsimp only
  rw [h1, h3]
  exact .df _ _ (.cons _ _ _ _ (.vec .dbl l l' trivial h1 h3 trivial trivial)
    (.cons _ _ _ _ (.vec .dbl r r' trivial h2 h4 trivial trivial) .nil))

end Vctrs
