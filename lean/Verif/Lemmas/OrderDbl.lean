import Verif.Lemmas.OrderEntry
import Verif.Lemmas.Equal
import Verif.Lemmas.Compare
import Mathlib.Data.Nat.Bitwise

/-!
# Ordering of doubles
-/

namespace Vctrs

/-! ## The map to unsigned integers -/

theorem toNat_xor_top (x : Dbl) :
    (x ^^^ 0x8000000000000000#64).toNat =
      if x.toNat < 2 ^ 63 then x.toNat + 2 ^ 63 else x.toNat - 2 ^ 63 := by
  have hlt := x.isLt
  rw [BitVec.toNat_xor, show (0x8000000000000000#64).toNat = 2 ^ 63 from rfl]
  split
  · rename_i h
    rw [xor_top_of_lt h]; omega
  · rename_i h
    have := xor_top_of_ge (i := 63) (y := x.toNat - 2 ^ 63) (by omega)
    rwa [show 2 ^ 63 + (x.toNat - 2 ^ 63) = x.toNat by omega] at this

theorem and_top_ne_zero (x : Dbl) :
    x &&& 0x8000000000000000#64 ≠ 0#64 ↔ 2 ^ 63 ≤ x.toNat := by
  have hlt := x.isLt
  rw [Ne, ← BitVec.toNat_inj, BitVec.toNat_and, show (0x8000000000000000#64).toNat = 2 ^ 63 from rfl,
    Nat.and_two_pow, Nat.testBit_eq_decide_div_mod_eq]
  have : (0#64 : BitVec 64).toNat = 0 := rfl
  rw [this]
  by_cases h : 2 ^ 63 ≤ x.toNat
  · have : x.toNat / 2 ^ 63 % 2 = 1 := by omega
    simp [this, h]
    omega
  · have : x.toNat / 2 ^ 63 % 2 = 0 := by omega
    simp [this]
    omega

theorem dblFlip_toNat (x : Dbl) : (dblFlipUint64 x).toNat =
    if 2 ^ 63 ≤ x.toNat then 2 ^ 64 - 1 - x.toNat else x.toNat + 2 ^ 63 := by
  unfold dblFlipUint64
  by_cases h : 2 ^ 63 ≤ x.toNat
  · rw [if_pos ((and_top_ne_zero x).2 h), if_pos h,
      show (0xffffffffffffffff#64) = BitVec.allOnes 64 from rfl, BitVec.xor_allOnes,
      BitVec.toNat_not]
  · rw [if_neg (fun h' => h ((and_top_ne_zero x).1 h')), if_neg h, toNat_xor_top,
      if_pos (by omega)]

/-- The key of a number. -/
def numKey (neg : Bool) (mag : Nat) : Nat :=
  if mag = 0 then 2 ^ 63 else if neg then 2 ^ 63 - 1 - mag else 2 ^ 63 + mag

theorem dblMap_eq {x : Dbl} (hx : isNan x = false) :
    dblMapToUint64 x = numKey (dblNeg x) (dblMagBits x) := by
  unfold dblMapToUint64 numKey
  by_cases h0 : dblMagBits x = 0
  · rw [if_pos ((dblEqOp_zero hx).2 h0), if_pos h0]
    rfl
  · rw [if_neg (fun h => h0 ((dblEqOp_zero hx).1 h)), if_neg h0, dblFlip_toNat]
    have hl := dblMagBits_lt x
    cases hn : dblNeg x with
    | true =>
      have := (dblNeg_iff x).1 hn
      rw [if_pos (by omega), if_pos rfl]
      omega
    | false =>
      have := (dblNeg_false_iff x).1 hn
      rw [if_neg (by omega), if_neg (by simp)]
      omega

/-- Values of doubles, by sign and magnitude. -/
def numVal (neg : Bool) (mag : Nat) : Int :=
  if neg then -(dblMagOf mag : Int) else dblMagOf mag

theorem numKey_lt_iff {n1 n2 : Bool} {m1 m2 : Nat} (h1 : m1 < 2 ^ 63) (h2 : m2 < 2 ^ 63) :
    numKey n1 m1 < numKey n2 m2 ↔ numVal n1 m1 < numVal n2 m2 := by
  have hz : dblMagOf 0 = 0 := dblMagOf_zero
  have e12 := @dblMagOf_lt_iff m1 m2
  have e21 := @dblMagOf_lt_iff m2 m1
  have p1 := @dblMagOf_lt_iff 0 m1
  have p2 := @dblMagOf_lt_iff 0 m2
  rw [hz] at p1 p2
  have q1 : m1 = 0 → dblMagOf m1 = 0 := by rintro rfl; exact hz
  have q2 : m2 = 0 → dblMagOf m2 = 0 := by rintro rfl; exact hz
  unfold numKey numVal
  generalize dblMagOf m1 = d1 at *
  generalize dblMagOf m2 = d2 at *
  cases n1 <;> cases n2 <;>
    simp only [if_true, if_false, Bool.false_eq_true] <;>
    split <;> split <;> omega

theorem numKey_eq_iff {n1 n2 : Bool} {m1 m2 : Nat} (h1 : m1 < 2 ^ 63) (h2 : m2 < 2 ^ 63) :
    numKey n1 m1 = numKey n2 m2 ↔ numVal n1 m1 = numVal n2 m2 := by
  have a := numKey_lt_iff (n1 := n1) (n2 := n2) h1 h2
  have b := numKey_lt_iff (n1 := n2) (n2 := n1) h2 h1
  omega

theorem dblMap_lt_iff {x y : Dbl} (hx : isNan x = false) (hy : isNan y = false) :
    dblMapToUint64 x < dblMapToUint64 y ↔ dblVal x < dblVal y := by
  rw [dblMap_eq hx, dblMap_eq hy, numKey_lt_iff (dblMagBits_lt x) (dblMagBits_lt y)]
  rfl

theorem dblMap_eq_iff {x y : Dbl} (hx : isNan x = false) (hy : isNan y = false) :
    dblMapToUint64 x = dblMapToUint64 y ↔ dblVal x = dblVal y := by
  have a := dblMap_lt_iff hx hy
  have b := dblMap_lt_iff hy hx
  omega

/-- The keys of numbers leave room for the missing values. -/
theorem dblMap_bounds {x : Dbl} (hx : isNan x = false) :
    1 < dblMapToUint64 x ∧ dblMapToUint64 x < 0xFFFFFFFFFFFFFFFE := by
  have : dblMagBits x ≤ 2047 * 2 ^ 52 := by
    unfold isNan at hx
    simpa using hx
  rw [dblMap_eq hx]
  unfold numKey
  cases dblNeg x <;> simp only [if_true, if_false, Bool.false_eq_true] <;> split <;> omega

theorem dblMul_mag (decreasing : Bool) (x : Dbl) :
    dblMagBits (dblMulDir decreasing x) = dblMagBits x := by
  unfold dblMulDir
  cases decreasing with
  | false => rfl
  | true =>
    rw [if_pos rfl]
    unfold dblMagBits
    rw [toNat_xor_top]
    have := x.isLt
    split <;> omega

theorem dblMul_isNan (decreasing : Bool) (x : Dbl) :
    isNan (dblMulDir decreasing x) = isNan x := by
  unfold isNan; rw [dblMul_mag]

theorem dblMul_val (decreasing : Bool) (x : Dbl) :
    dblVal (dblMulDir decreasing x) = if decreasing then -dblVal x else dblVal x := by
  cases decreasing with
  | false => rfl
  | true =>
    have hm := dblMul_mag true x
    have hn : dblNeg (dblMulDir true x) = !dblNeg x := by
      unfold dblMulDir dblNeg
      rw [if_pos rfl, toNat_xor_top]
      have := x.isLt
      by_cases h : x.toNat < 2 ^ 63
      · rw [if_pos h, decide_eq_true (by omega), decide_eq_false (by omega)]
        rfl
      · rw [if_neg h, decide_eq_false (by omega), decide_eq_true (by omega)]
        rfl
    unfold dblVal
    rw [hm, hn, if_pos rfl]
    cases dblNeg x <;> simp

/-! ## Keys -/

theorem dblAdjustElt_number {decreasing naLast nanDistinct : Bool} {x : Dbl}
    (hx : dblClassify x = .number) : dblAdjustElt decreasing naLast nanDistinct x =
      dblMapToUint64 (dblMulDir decreasing x) := by
  unfold dblAdjustElt
  have := dblClassify_number.1 hx
  rw [hx, this]
  cases nanDistinct <;> rfl

theorem isNan_of_class {x : Dbl} (hx : dblClassify x ≠ .number) : isNan x = true := by
  cases h : isNan x
  · exact absurd (dblClassify_number.2 h) hx
  · rfl

theorem dblAdjustElt_missing {decreasing naLast nanDistinct : Bool} {x : Dbl}
    (hx : dblClassify x = .missing) : dblAdjustElt decreasing naLast nanDistinct x =
      if naLast then 0xFFFFFFFFFFFFFFFF else 0 := by
  unfold dblAdjustElt
  have := isNan_of_class (x := x) (by rw [hx]; simp)
  rw [hx, this]
  cases nanDistinct <;> rfl

theorem dblAdjustElt_nan {decreasing naLast nanDistinct : Bool} {x : Dbl}
    (hx : dblClassify x = .nan) : dblAdjustElt decreasing naLast nanDistinct x =
      if nanDistinct then (if naLast then 0xFFFFFFFFFFFFFFFE else 1)
      else (if naLast then 0xFFFFFFFFFFFFFFFF else 0) := by
  unfold dblAdjustElt
  have := isNan_of_class (x := x) (by rw [hx]; simp)
  rw [hx, this]
  cases nanDistinct <;> rfl

theorem dblAdjustElt_lt (decreasing naLast nanDistinct : Bool) (x : Dbl) :
    dblAdjustElt decreasing naLast nanDistinct x < 256 ^ 8 := by
  cases hx : dblClassify x with
  | number =>
    rw [dblAdjustElt_number hx]
    have := (dblMap_bounds (x := dblMulDir decreasing x) (by
      rw [dblMul_isNan]; exact dblClassify_number.1 hx)).2
    omega
  | missing =>
    rw [dblAdjustElt_missing hx]
    cases naLast <;> simp
  | nan =>
    rw [dblAdjustElt_nan hx]
    cases naLast <;> cases nanDistinct <;> simp

/-- The comparison used to detect sortedness agrees with the keys. -/
theorem dblCmp_key (decreasing naLast nanDistinct : Bool) (x : List Dbl) :
    CmpKey (dblCmp decreasing naLast nanDistinct) (dblAdjustElt decreasing naLast nanDistinct) x := by
  intro a _ b _
  have hb : ∀ z : Dbl, dblClassify z = .number →
      1 < dblAdjustElt decreasing naLast nanDistinct z ∧
      dblAdjustElt decreasing naLast nanDistinct z < 0xFFFFFFFFFFFFFFFE := by
    intro z hz
    rw [dblAdjustElt_number hz]
    exact dblMap_bounds (by rw [dblMul_isNan]; exact dblClassify_number.1 hz)
  have hm : ∀ z : Dbl, dblClassify z = .missing → _ :=
    fun z hz => dblAdjustElt_missing (decreasing := decreasing) (naLast := naLast)
      (nanDistinct := nanDistinct) hz
  have hn : ∀ z : Dbl, dblClassify z = .nan → _ :=
    fun z hz => dblAdjustElt_nan (decreasing := decreasing) (naLast := naLast)
      (nanDistinct := nanDistinct) hz
  unfold dblCmp
  dsimp only
  cases ha : dblClassify a <;> cases hb' : dblClassify b <;> dsimp only
  · have na := dblClassify_number.1 ha
    have nb := dblClassify_number.1 hb'
    rw [dblAdjustElt_number ha, dblAdjustElt_number hb']
    have e1 := dblMap_lt_iff (x := dblMulDir decreasing a) (y := dblMulDir decreasing b)
      (by rw [dblMul_isNan]; exact na) (by rw [dblMul_isNan]; exact nb)
    have e2 := dblMap_eq_iff (x := dblMulDir decreasing a) (y := dblMulDir decreasing b)
      (by rw [dblMul_isNan]; exact na) (by rw [dblMul_isNan]; exact nb)
    rw [dblMul_val, dblMul_val] at e1 e2
    rw [e1, e2]
    have l1 : dblLtOp a b = true ↔ dblVal a < dblVal b := by unfold dblLtOp; simp [na, nb]
    have l2 : dblLtOp b a = true ↔ dblVal b < dblVal a := by unfold dblLtOp; simp [na, nb]
    rcases Int.lt_trichotomy (dblVal a) (dblVal b) with h | h | h
    · rw [if_neg (fun h' => by have := l2.1 h'; omega), if_pos (l1.2 h)]
      cases decreasing <;> simp only [if_true, if_false, Bool.false_eq_true] <;> omega
    · rw [if_neg (fun h' => by have := l2.1 h'; omega),
        if_neg (fun h' => by have := l1.1 h'; omega)]
      cases decreasing <;> simp only [if_true, if_false, Bool.false_eq_true] <;> omega
    · rw [if_pos (l2.2 h), if_neg (fun h' => by have := l1.1 h'; omega)]
      cases decreasing <;> simp only [if_true, if_false, Bool.false_eq_true] <;> omega
  · have := hb a ha
    rw [hm b hb']
    cases naLast <;> simp only [if_true, if_false, Bool.false_eq_true] <;> omega
  · have := hb a ha
    rw [hn b hb']
    cases naLast <;> cases nanDistinct <;>
      simp only [if_true, if_false, Bool.false_eq_true] <;> omega
  · have := hb b hb'
    rw [hm a ha]
    cases naLast <;> simp only [if_true, if_false, Bool.false_eq_true] <;> omega
  · rw [hm a ha, hm b hb']; simp
  · rw [hm a ha, hn b hb']
    cases naLast <;> cases nanDistinct <;> simp
  · have := hb b hb'
    rw [hn a ha]
    cases naLast <;> cases nanDistinct <;>
      simp only [if_true, if_false, Bool.false_eq_true] <;> omega
  · rw [hn a ha, hm b hb']
    cases naLast <;> cases nanDistinct <;> simp
  · rw [hn a ha, hn b hb']; simp

/-! ## Entry points -/

theorem dblOrderKeys_ok {key : Int → Nat} {w : List Int} (hM : ∀ a ∈ w, key a < 256 ^ 8)
    {cap countsLen : Nat} (hcap : w.length ≤ cap) (hcl : 8 * 256 ≤ countsLen) {gi : GroupInfos}
    (hroom : Room gi w.length) :
    Ret (dblOrderKeys cap countsLen (w.map key) w gi) (fun r => ∃ gs,
      Ordered (· < ·) key w r.2.1 gs ∧ Pushed gi gs r.2.2) := by
  unfold dblOrderKeys
  split
  · exact (orderInsertion_ok key w gi hroom).mono (fun r ⟨gs, h1, _, h3⟩ => ⟨gs, h1, h3⟩)
  · rename_i hlen
    have hw : 0 < w.length := by
      simp only [List.length_map, orderInsertionBoundary] at hlen
      omega
    exact (orderRadix_ok 8 cap countsLen key w gi hM hcap hcl hw hroom).mono
      (fun r ⟨gs, h1, _, h3⟩ => ⟨gs, h1, h3⟩)

theorem dblOrderChunk_ok {val : Int → Dbl} {w : List Int} (decreasing naLast nanDistinct : Bool)
    {cap countsLen : Nat} (hcap : w.length ≤ cap) (hcl : 8 * 256 ≤ countsLen) {st : OrdState}
    (hroom : Room st.gi w.length) :
    Ret (dblOrderChunk decreasing naLast nanDistinct cap countsLen (w.map val) w st)
      (OrdOk (fun a => dblAdjustElt decreasing naLast nanDistinct (val a)) w st) := by
  have hk : adjustLoop (fun e => .ok (dblAdjustElt decreasing naLast nanDistinct e)) (w.map val) =
      .ok (w.map (fun a => dblAdjustElt decreasing naLast nanDistinct (val a))) := by
    rw [adjustLoop_ok (k := dblAdjustElt decreasing naLast nanDistinct) (fun _ _ => rfl),
      List.map_map]
    rfl
  unfold dblOrderChunk
  refine Ret.bind (sortedness_ok (dblCmp_key decreasing naLast nanDistinct (w.map val)) st.gi
    (by simpa using hroom)) ?_
  rw [List.map_map]
  rintro ⟨s, gi⟩ hspec
  dsimp only
  split
  · rename_i hu
    refine Ret.bind (ordResolveChunk_ok (r := (s, gi)) hspec hu) ?_
    rintro o ⟨gs, h1, h2⟩
    exact Ret.ok ⟨rfl, gs, h1, h2⟩
  · rename_i hu
    have hu' : s = .unsorted := by
      by_contra h; exact hu h
    subst hu'
    obtain ⟨_, hun⟩ := hspec
    refine Ret.bind_eq hk ?_
    refine Ret.bind (dblOrderKeys_ok
      (fun a _ => dblAdjustElt_lt decreasing naLast nanDistinct (val a)) hcap hcl
      (hun.room hroom)) ?_
    rintro ⟨_, o, gi'⟩ ⟨gs, h1, h2⟩
    exact Ret.ok (OrdOk.of_unpushed (st := st) hun ⟨rfl, gs, h1, h2⟩)

theorem dblOrder_ok {val : Int → Dbl} {n : Nat} (decreasing naLast nanDistinct : Bool)
    {countsLen : Nat} (hcl : 8 * 256 ≤ countsLen) {st : OrdState} (hroom : Room st.gi n) :
    Ret (dblOrder decreasing naLast nanDistinct countsLen ((oneTo n).map val) st)
      (OrdOk (fun a => dblAdjustElt decreasing naLast nanDistinct (val a)) (oneTo n) st) := by
  have hln : ((oneTo n).map val).length = n := by simp [oneTo_length]
  have hk : adjustLoop (fun e => .ok (dblAdjustElt decreasing naLast nanDistinct e))
      ((oneTo n).map val) =
      .ok ((oneTo n).map (fun a => dblAdjustElt decreasing naLast nanDistinct (val a))) := by
    rw [adjustLoop_ok (k := dblAdjustElt decreasing naLast nanDistinct) (fun _ _ => rfl),
      List.map_map]
    rfl
  unfold dblOrder
  refine Ret.bind (sortedness_ok (dblCmp_key decreasing naLast nanDistinct ((oneTo n).map val)) st.gi
    (by rw [hln]; exact hroom)) ?_
  rw [List.map_map]
  rintro ⟨s, gi⟩ hspec
  dsimp only
  rw [hln]
  split
  · rename_i hu
    refine Ret.bind (ordResolve_ok (r := (s, gi)) hspec hu) ?_
    rintro o ⟨gs, h1, h2⟩
    exact Ret.ok ⟨rfl, gs, h1, h2⟩
  · rename_i hu
    have hu' : s = .unsorted := by
      by_contra h; exact hu h
    subst hu'
    obtain ⟨_, hun⟩ := hspec
    refine Ret.bind_eq (intIncr_ok n) ?_
    refine Ret.bind_eq hk ?_
    refine Ret.bind (dblOrderKeys_ok
      (fun a _ => dblAdjustElt_lt decreasing naLast nanDistinct (val a))
      (Nat.le_of_eq (oneTo_length n)) hcl
      (by rw [oneTo_length]; exact hun.room hroom)) ?_
    rintro ⟨_, o, gi'⟩ ⟨gs, h1, h2⟩
    exact Ret.ok (OrdOk.of_unpushed (st := st) hun ⟨rfl, gs, h1, h2⟩)

end Vctrs
