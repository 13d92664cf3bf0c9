import Verif.SpecCast
import Verif.Lemmas.Equal
import Verif.Lemmas.Compare

/-!
# Lemmas on casts
-/

namespace Vctrs

open Spec

/-! ### Loops that stop at the first loss -/

theorem mapM_none {α β : Type} {f : α → Option β} : ∀ {x : List α},
    x.mapM f = none ↔ ∃ a ∈ x, f a = none
  | [] => by simp
  | a :: x => by
    rw [List.mapM_cons]
    cases h : f a with
    | none => simp [h]
    | some v =>
      have ih := mapM_none (f := f) (x := x)
      cases h2 : x.mapM f with
      | none =>
        have := ih.mp h2
        simp only [List.mem_cons, exists_eq_or_imp, h]
        simp [this]
      | some r =>
        rw [h2] at ih
        simp only [List.mem_cons, exists_eq_or_imp, h]
        simpa using ih

theorem mapM_some {α β : Type} {f : α → Option β} : ∀ {x : List α} {r : List β},
    x.mapM f = some r ↔
      r.length = x.length ∧ ∀ (i : Nat) a v, x[i]? = some a → r[i]? = some v → f a = some v
  | [], r => by
    constructor
    · intro h; cases h; simp
    · rintro ⟨h, _⟩
      have : r = [] := List.length_eq_zero_iff.mp h
      subst this; rfl
  | a :: x, r => by
    rw [List.mapM_cons]
    cases h : f a with
    | none =>
      constructor
      · intro h'; cases h'
      · rintro ⟨h1, h2⟩
        cases r with
        | nil => simp at h1
        | cons v r =>
          have := h2 0 a v rfl rfl
          rw [h] at this; cases this
    | some w =>
      have ih := fun r => mapM_some (f := f) (x := x) (r := r)
      constructor
      · intro h'
        cases h2 : x.mapM f with
        | none => rw [h2] at h'; cases h'
        | some q =>
          rw [h2] at h'
          cases h'
          obtain ⟨k1, k2⟩ := (ih q).mp h2
          refine ⟨by simp [k1], ?_⟩
          intro i b v hb hv
          cases i with
          | zero => simp at hb hv; subst hb hv; exact h
          | succ i => exact k2 i b v (by simpa using hb) (by simpa using hv)
      · rintro ⟨h1, h2⟩
        cases r with
        | nil => simp at h1
        | cons v r =>
          have e := h2 0 a v rfl rfl
          rw [h] at e
          cases e
          have : x.mapM f = some r := (ih r).mpr ⟨by simpa using h1, fun i b v hb hv =>
            h2 (i + 1) b v (by simpa using hb) (by simpa using hv)⟩
          rw [this]
          rfl

/-- A caster whose loop converts each element by `f` and stops at the first loss. -/
theorem castLoop {α β : Type} (x : List α) (f : α → Option β)
    (step : Nat → Option (List (Option β)) → C (Ctl (Option (List (Option β)))))
    (h : ∀ i a out, x[i]? = some a → i < out.length → step i (some out) =
      match f a with
      | none => .ok (.brk none)
      | some v => .ok (.next (some (out.set i (some v))))) :
    (forBrk x.length step (some (alloc β x.length)) >>= castOut) = .ok (x.mapM f) := by
  let R : Nat → β → Prop := fun j v => ∃ a, x[j]? = some a ∧ f a = some v
  have H : Ret (forBrk x.length step (some (alloc β x.length))) (fun s =>
      (s = none ∧ ∃ a ∈ x, f a = none) ∨ ∃ out, s = some out ∧ Filled R x.length x.length out) := by
    refine Ret.forBrk (fun i s => ∃ out, s = some out ∧ Filled R x.length i out) _
      ⟨_, rfl, Filled.start R _⟩ ?_ ?_
    · rintro i s hi ⟨out, rfl, hf⟩
      have hx : x[i]? = some x[i] := List.getElem?_eq_getElem hi
      have hs := h i x[i] out hx (by rw [hf.len]; exact hi)
      cases hv : f x[i] with
      | none =>
        rw [hv] at hs
        exact Ret.of_eq hs (.inl ⟨rfl, x[i], List.getElem_mem hi, hv⟩)
      | some v =>
        rw [hv] at hs
        exact Ret.of_eq hs ⟨_, rfl, (hf.step hi ⟨_, hx, hv⟩).2⟩
    · intro s hs
      exact .inr hs
  obtain ⟨s, hs, hq⟩ := H
  rw [hs, ok_bind]
  rcases hq with ⟨rfl, ha⟩ | ⟨out, rfl, hf⟩
  · rw [mapM_none.mpr ha]
    rfl
  · obtain ⟨r, hr, h1, h2⟩ := hf.done
    unfold castOut
    dsimp only
    rw [hr, ok_bind]
    have : x.mapM f = some r := by
      refine mapM_some.mpr ⟨h1, ?_⟩
      intro i a v ha hv
      obtain ⟨a', ha', hf'⟩ := h2 i v hv
      rw [ha] at ha'
      cases ha'
      exact hf'
    rw [this]

/-! ### Integers as doubles -/

theorem natToMag_val {m : Nat} (h : m < 2 ^ 53) : dblMagOf (natToMag m) = m * 2 ^ 1074 ∧
    natToMag m ≤ 2046 * 2 ^ 52 := by
  unfold natToMag
  by_cases h0 : m = 0
  · subst h0
    rw [if_pos rfl, dblMagOf_zero]
    omega
  · rw [if_neg h0]
    have l1 : 2 ^ m.log2 ≤ m := Nat.log2_self_le h0
    have l2 : m < 2 ^ (m.log2 + 1) := Nat.lt_log2_self
    have l3 : m.log2 ≤ 52 := by
      by_contra hc
      have : 2 ^ 53 ≤ 2 ^ m.log2 := Nat.pow_le_pow_right (by decide) (by omega)
      omega
    generalize m.log2 = e at *
    have p1 : 2 ^ e * 2 ^ (52 - e) = 2 ^ 52 := by rw [← pow_add]; congr 1; omega
    have q1 : 2 ^ 52 ≤ m * 2 ^ (52 - e) := by
      rw [← p1]; exact Nat.mul_le_mul_right _ l1
    have q2 : m * 2 ^ (52 - e) < 2 * 2 ^ 52 := by
      have : m * 2 ^ (52 - e) < 2 ^ (e + 1) * 2 ^ (52 - e) :=
        Nat.mul_lt_mul_of_pos_right l2 (Nat.pow_pos (by decide))
      rw [pow_succ, mul_assoc, mul_comm 2, ← mul_assoc, p1] at this
      omega
    have r : m * 2 ^ (52 - e) * 2 ^ (e + 1022) = m * 2 ^ 1074 := by
      have h1074 : 52 - e + (e + 1022) = 1074 := by omega
      rw [mul_assoc, ← pow_add, h1074]
    generalize m * 2 ^ (52 - e) = s at *
    constructor
    · unfold dblMagOf
      have d1 : ((e + 1023) * 2 ^ 52 + (s - 2 ^ 52)) / 2 ^ 52 = e + 1023 := by omega
      have d2 : ((e + 1023) * 2 ^ 52 + (s - 2 ^ 52)) % 2 ^ 52 = s - 2 ^ 52 := by omega
      dsimp only
      rw [d1, d2, if_neg (by omega)]
      have d3 : 2 ^ 52 + (s - 2 ^ 52) = s := by omega
      have d4 : e + 1023 - 1 = e + 1022 := by omega
      rw [d3, d4]
      exact r
    · omega

theorem intToDbl_spec {n : Int} (h : n.natAbs < 2 ^ 53) :
    isNan (intToDbl n) = false ∧ dblVal (intToDbl n) = n * 2 ^ 1074 := by
  obtain ⟨h1, h2⟩ := natToMag_val h
  have t : (intToDbl n).toNat = natToMag n.natAbs + if n < 0 then 2 ^ 63 else 0 := by
    unfold intToDbl
    rw [BitVec.toNat_ofNat]
    refine Nat.mod_eq_of_lt ?_
    split <;> omega
  have hm : dblMagBits (intToDbl n) = natToMag n.natAbs := by
    unfold dblMagBits
    rw [t]
    split <;> omega
  refine ⟨?_, ?_⟩
  · unfold isNan
    rw [hm]
    simp only [decide_eq_false_iff_not]
    omega
  · unfold dblVal
    rw [hm, h1]
    by_cases hn : n < 0
    · have : dblNeg (intToDbl n) = true := by
        unfold dblNeg
        rw [t, if_pos hn]
        simp
      rw [if_pos this]
      have e : (n.natAbs : Int) = -n := by omega
      rw [Nat.cast_mul, Nat.cast_pow, e, neg_mul, neg_neg]
      rfl
    · have : dblNeg (intToDbl n) = false := by
        unfold dblNeg
        rw [t, if_neg hn]
        simp only [decide_eq_false_iff_not]
        omega
      rw [if_neg (by rw [this]; simp)]
      have e : (n.natAbs : Int) = n := by omega
      rw [Nat.cast_mul, Nat.cast_pow, e]
      rfl

/-! ### What each element becomes -/

theorem dblCell_nan {d : Dbl} (h : isNan d = true) : dblCell d = none :=
  if_pos ((isNan_iff d).mp h)

theorem dblCell_val {d : Dbl} (h : isNan d = false) : dblCell d = some (dblVal d) :=
  if_neg (fun hc => by rw [(isNan_iff d).mpr hc] at h; cases h)

theorem intCell_na : intCell naInt = none := if_pos rfl

theorem intCell_val {v : Int} (h : v ≠ naInt) : intCell v = some (v * 2 ^ 1074) := if_neg h

theorem unit_pos : (0 : Int) < 2 ^ 1074 := Int.pow_pos (by decide)

theorem intCell_inj {v w : Int} (h : intCell v = intCell w) : v = w := by
  unfold intCell at h
  split at h <;> split at h
  · omega
  · cases h
  · cases h
  · have := Option.some.inj h
    exact Int.eq_of_mul_eq_mul_right (ne_of_gt unit_pos) this

/-- `int` elements that a logical vector can hold. -/
def lglOf (v : Int) : Option Int := if v = 0 ∨ v = 1 ∨ v = naInt then some v else none

theorem intAsLgl_eq (x : List Int) : intAsLgl x = .ok (x.mapM lglOf) := by
  refine castLoop x lglOf _ ?_
  intro i a out ha hi
  unfold intAsLglStep lglOf
  dsimp only
  rw [rd_of_getElem? ha, ok_bind, wr_ok hi, wr_ok hi]
  by_cases h1 : a = naInt
  · rw [if_pos h1, if_pos (.inr (.inr h1)), h1]
    rfl
  · rw [if_neg h1]
    by_cases h2 : a = 0 ∨ a = 1
    · rw [if_neg (by omega), if_pos (by omega)]
      rfl
    · rw [if_pos (by omega), if_neg (by omega)]

theorem intToDbl_isNan {n : Int} (h : n.natAbs < 2 ^ 53) : isNan (intToDbl n) = false :=
  (intToDbl_spec h).1

/-- Comparing a double with the double of an integer. -/
theorem dblEqOp_int {d : Dbl} {n : Int} (hd : isNan d = false) (h : n.natAbs < 2 ^ 53) :
    dblEqOp d (intToDbl n) = true ↔ dblVal d = n * 2 ^ 1074 := by
  rw [dblEqOp_iff hd (intToDbl_isNan h), (intToDbl_spec h).2]

theorem dblEqOp_int' {d : Dbl} {n : Int} (hd : isNan d = false) (h : n.natAbs < 2 ^ 53) :
    dblEqOp (intToDbl n) d = true ↔ n * 2 ^ 1074 = dblVal d := by
  rw [dblEqOp_iff (intToDbl_isNan h) hd, (intToDbl_spec h).2]

/-- The integer an exact double converts to. -/
theorem dblToInt_exact {d : Dbl} {n : Int} (hd : isNan d = false) (h : dblVal d = n * 2 ^ 1074)
    (h1 : naInt ≤ n) (h2 : n ≤ intMax) : dblToInt d = .ok n := by
  unfold dblToInt
  rw [hd, if_neg (by simp), h]
  dsimp only
  rw [Int.mul_tdiv_cancel _ (ne_of_gt unit_pos), if_neg (by omega), if_neg (by omega)]

open Classical in
/-- The logical value a double converts to, if any. -/
noncomputable def lglOfDbl (d : Dbl) : Option Int :=
  if isNan d then some naInt
  else if dblVal d = 0 then some 0
  else if dblVal d = 2 ^ 1074 then some 1
  else none

open Classical in
/-- The integer a double converts to, if any. -/
noncomputable def intOfDbl (d : Dbl) : Option Int :=
  if isNan d then some naInt
  else if h : ∃ n : Int, dblVal d = n * 2 ^ 1074 ∧ naInt < n ∧ n ≤ intMax then some h.choose
  else none

theorem dblAsLgl_eq (x : List Dbl) : dblAsLgl x = .ok (x.mapM lglOfDbl) := by
  refine castLoop x lglOfDbl _ ?_
  intro i a out ha hi
  unfold dblAsLglStep lglOfDbl
  dsimp only
  rw [rd_of_getElem? ha, ok_bind]
  by_cases h1 : isNan a = true
  · rw [if_pos h1, if_pos h1, wr_ok hi]
    rfl
  · rw [if_neg h1, if_neg h1]
    have h1 : isNan a = false := by simpa using h1
    have e0 := dblEqOp_int (n := 0) h1 (by decide)
    have e1 := dblEqOp_int (n := 1) h1 (by decide)
    rw [Int.zero_mul] at e0
    rw [Int.one_mul] at e1
    by_cases h2 : dblVal a = 0
    · have t : dblToInt a = .ok 0 := dblToInt_exact h1 (by rw [h2, Int.zero_mul]) (by decide) (by decide)
      rw [if_pos h2, if_neg (by simp [e0.mpr h2]), t, ok_bind, wr_ok hi]
      rfl
    · rw [if_neg h2]
      have f0 : dblEqOp a (intToDbl 0) = false := by
        simpa using (not_congr e0).mpr h2
      by_cases h3 : dblVal a = 2 ^ 1074
      · have t : dblToInt a = .ok 1 := dblToInt_exact h1 (by rw [h3, Int.one_mul]) (by decide) (by decide)
        rw [if_pos h3, if_neg (by simp [e1.mpr h3]), t, ok_bind, wr_ok hi]
        rfl
      · have f1 : dblEqOp a (intToDbl 1) = false := by
          simpa using (not_congr e1).mpr h3
        rw [if_neg h3, if_pos (by simp [f0, f1])]

theorem intOfDbl_some {d : Dbl} {n : Int} (hd : isNan d = false) (h : dblVal d = n * 2 ^ 1074)
    (h1 : naInt < n) (h2 : n ≤ intMax) : intOfDbl d = some n := by
  unfold intOfDbl
  have hx : ∃ n : Int, dblVal d = n * 2 ^ 1074 ∧ naInt < n ∧ n ≤ intMax := ⟨n, h, h1, h2⟩
  rw [hd, if_neg (by simp), dif_pos hx]
  have hc := hx.choose_spec.1
  rw [Int.eq_of_mul_eq_mul_right (ne_of_gt unit_pos) (hc.symm.trans h)]

/-- Discarding the fraction stays within the range. -/
theorem tdiv_range {v U a b : Int} (hU : 0 < U) (h1 : a * U < v) (h2 : v < b * U) (ha : a ≤ 0)
    (hb : 0 ≤ b) : a ≤ v.tdiv U ∧ v.tdiv U < b + 1 ∧ (0 < b → v.tdiv U < b) := by
  have e := Int.mul_tdiv_add_tmod v U
  have hm : (v.tmod U).natAbs < U.natAbs := by
    rw [Int.natAbs_tmod]
    exact Nat.mod_lt _ (by omega)
  generalize v.tdiv U = q at *
  by_cases hv : 0 ≤ v
  · have hr : 0 ≤ v.tmod U := Int.tmod_nonneg _ hv
    generalize v.tmod U = r at *
    have q1 : -1 < q := by
      by_contra hc
      have : U * q ≤ U * (-1) := Int.mul_le_mul_of_nonneg_left (by omega) hU.le
      omega
    have q2 : q < b := by
      by_contra hc
      have : U * b ≤ U * q := Int.mul_le_mul_of_nonneg_left (by omega) hU.le
      rw [Int.mul_comm U b] at this
      omega
    omega
  · have hr : v.tmod U ≤ 0 := by
      have := Int.tmod_nonneg U (a := -v) (by omega)
      rw [Int.neg_tmod] at this
      omega
    generalize v.tmod U = r at *
    have q1 : q < 1 := by
      by_contra hc
      have : U * 1 ≤ U * q := Int.mul_le_mul_of_nonneg_left (by omega) hU.le
      omega
    have q2 : a ≤ q := by
      by_contra hc
      have : U * (q + 1) ≤ U * a := Int.mul_le_mul_of_nonneg_left (by omega) hU.le
      rw [Int.mul_add, Int.mul_comm U a] at this
      omega
    refine ⟨q2, by omega, by omega⟩

theorem dblAsInt_eq (x : List Dbl) : dblAsInt x = .ok (x.mapM intOfDbl) := by
  refine castLoop x intOfDbl _ ?_
  intro i a out ha hi
  have b1 : naInt.natAbs < 2 ^ 53 := by decide
  have b2 : ((intMax : Int) + 1).natAbs < 2 ^ 53 := by decide
  unfold dblAsIntStep
  dsimp only
  rw [rd_of_getElem? ha, ok_bind]
  by_cases h1 : isNan a = true
  · have l1 : dblLeOp a (intToDbl naInt) = false := by simp [dblLeOp, h1]
    have l2 : dblLeOp (intToDbl ((intMax : Int) + 1)) a = false := by simp [dblLeOp, h1]
    have e : intOfDbl a = some naInt := by unfold intOfDbl; rw [if_pos h1]
    rw [if_neg (by simp [l1, l2]), if_pos h1, wr_ok hi, e]
    rfl
  · have h1 : isNan a = false := by simpa using h1
    have l1 : dblLeOp a (intToDbl naInt) = true ↔ dblVal a ≤ naInt * 2 ^ 1074 := by
      rw [← (intToDbl_spec b1).2]
      simp [dblLeOp, h1, (intToDbl_spec b1).1]
    have l2 : dblLeOp (intToDbl ((intMax : Int) + 1)) a = true ↔
        ((intMax : Int) + 1) * 2 ^ 1074 ≤ dblVal a := by
      rw [← (intToDbl_spec b2).2]
      simp [dblLeOp, h1, (intToDbl_spec b2).1]
    have hU := unit_pos
    by_cases hr : naInt * 2 ^ 1074 < dblVal a ∧ dblVal a < ((intMax : Int) + 1) * 2 ^ 1074
    · have hcond : ¬ (dblLeOp a (intToDbl naInt) = true ∨
          dblLeOp (intToDbl ((intMax : Int) + 1)) a = true) := by
        rw [l1, l2]
        omega
      rw [if_neg hcond, if_neg (by simp [h1])]
      obtain ⟨t1, -, t2⟩ := tdiv_range hU hr.1 hr.2 (by decide) (by decide)
      have t2 := t2 (by decide)
      have td : dblToInt a = .ok ((dblVal a).tdiv (2 ^ 1074)) := by
        unfold dblToInt
        rw [h1, if_neg (by simp)]
        dsimp only
        rw [if_neg (by omega), if_neg (by omega)]
      rw [td, ok_bind]
      have hb : ((dblVal a).tdiv (2 ^ 1074)).natAbs < 2 ^ 53 := by
        have : naInt = -2147483648 := rfl
        have : (intMax : Int) = 2147483647 := rfl
        omega
      have hq := dblEqOp_int' h1 hb
      by_cases he : (dblVal a).tdiv (2 ^ 1074) * 2 ^ 1074 = dblVal a
      · have hlt : naInt < (dblVal a).tdiv (2 ^ 1074) := by
          rcases lt_or_eq_of_le t1 with h | h
          · exact h
          · rw [← h] at he
            omega
        rw [if_neg (by simp [hq.mpr he]), wr_ok hi,
          intOfDbl_some h1 he.symm hlt (by omega)]
        rfl
      · have hf : dblEqOp (intToDbl ((dblVal a).tdiv (2 ^ 1074))) a = false := by
          simpa using (not_congr hq).mpr he
        rw [if_pos (by simp [hf])]
        have : intOfDbl a = none := by
          unfold intOfDbl
          rw [if_neg (by simp [h1]), dif_neg]
          rintro ⟨n, hn, -, -⟩
          rw [hn, Int.mul_tdiv_cancel _ (ne_of_gt hU)] at he
          exact he rfl
        rw [this]
    · have hcond : dblLeOp a (intToDbl naInt) = true ∨
          dblLeOp (intToDbl ((intMax : Int) + 1)) a = true := by
        rw [l1, l2]
        omega
      rw [if_pos hcond]
      have : intOfDbl a = none := by
        unfold intOfDbl
        rw [if_neg (by simp [h1]), dif_neg]
        rintro ⟨n, hn, h3, h4⟩
        apply hr
        rw [hn]
        exact ⟨Int.mul_lt_mul_of_pos_right h3 hU, Int.mul_lt_mul_of_pos_right (by omega) hU⟩
      rw [this]

theorem intAsDbl_eq (x : List Int) : intAsDbl x =
    .ok (some (x.map (fun v => if v = naInt then naReal else intToDbl v))) := by
  unfold intAsDbl
  let R : Nat → Dbl → Prop := fun j v =>
    (x.map (fun v => if v = naInt then naReal else intToDbl v))[j]? = some v
  suffices H : Ret _ (fun r => r = some (x.map (fun v => if v = naInt then naReal else intToDbl v)))
    by obtain ⟨r, hr, rfl⟩ := H; exact hr
  refine Ret.bind (P := Filled R x.length x.length) ?_ ?_
  · refine Ret.forN (Filled R x.length) (Filled.start R _) ?_
    intro i out hi hf
    rw [rd_ok hi, ok_bind]
    obtain ⟨h1, h2⟩ := hf.step (r := if x[i] = naInt then naReal else intToDbl x[i]) hi
      (by simp [R, hi])
    exact Ret.of_eq h1 h2
  · intro out hf
    obtain ⟨r, hr, h1, h2⟩ := hf.done
    unfold castOut
    dsimp only
    rw [hr, ok_bind]
    refine Ret.ok ?_
    congr 1
    refine List.ext_getElem? fun i => ?_
    by_cases hi : i < r.length
    · rw [List.getElem?_eq_getElem hi]
      exact (h2 i _ (List.getElem?_eq_getElem hi)).symm
    · rw [List.getElem?_eq_none (by omega), List.getElem?_eq_none (by rw [List.length_map]; omega)]

/-! ### Casts keep what elements stand for -/

theorem mapM_cells {α β γ : Type} {f : α → Option β} {P : β → Prop} {c : α → γ} {c' : β → γ}
    (h : ∀ a w, f a = some w ↔ P w ∧ c' w = c a) {x : List α} {r : List β} :
    x.mapM f = some r ↔ (∀ w ∈ r, P w) ∧ r.map c' = x.map c := by
  rw [mapM_some]
  constructor
  · rintro ⟨h1, h2⟩
    constructor
    · intro w hw
      obtain ⟨i, hi, rfl⟩ := List.getElem_of_mem hw
      exact ((h _ _).mp (h2 i x[i] r[i] (List.getElem?_eq_getElem (by omega))
        (List.getElem?_eq_getElem hi))).1
    · refine List.ext_getElem (by simp [h1]) ?_
      intro i hi hi'
      rw [List.getElem_map, List.getElem_map]
      rw [List.length_map] at hi hi'
      exact ((h _ _).mp (h2 i x[i] r[i] (List.getElem?_eq_getElem hi')
        (List.getElem?_eq_getElem hi))).2
  · rintro ⟨h1, h2⟩
    have hl : r.length = x.length := by simpa using congrArg List.length h2
    refine ⟨hl, ?_⟩
    intro i a w ha hw
    refine (h a w).mpr ⟨h1 w (List.mem_of_getElem? hw), ?_⟩
    have := congrArg (fun l => l[i]?) h2
    simpa [ha, hw] using this

theorem lglOf_iff (a w : Int) : lglOf a = some w ↔
    (w = 0 ∨ w = 1 ∨ w = naInt) ∧ intCell w = intCell a := by
  unfold lglOf
  constructor
  · intro h
    split at h
    · cases h
      exact ⟨by assumption, rfl⟩
    · cases h
  · rintro ⟨h1, h2⟩
    have := intCell_inj h2
    subst this
    rw [if_pos h1]

theorem intCell_dblCell_none {d : Dbl} {w : Int} (hd : isNan d = true) :
    intCell w = dblCell d ↔ w = naInt := by
  rw [dblCell_nan hd]
  unfold intCell
  split <;> simp [*]

theorem intCell_dblCell_some {d : Dbl} {w : Int} (hd : isNan d = false) :
    intCell w = dblCell d ↔ w ≠ naInt ∧ dblVal d = w * 2 ^ 1074 := by
  rw [dblCell_val hd]
  unfold intCell
  split
  · simp [*]
  · rw [Option.some_inj]
    exact ⟨fun h => ⟨by assumption, h.symm⟩, fun h => h.2.symm⟩

theorem lglOfDbl_iff (d : Dbl) (w : Int) : lglOfDbl d = some w ↔
    (w = 0 ∨ w = 1 ∨ w = naInt) ∧ intCell w = dblCell d := by
  unfold lglOfDbl
  by_cases h : isNan d = true
  · rw [if_pos h, intCell_dblCell_none h, Option.some_inj]
    constructor
    · rintro rfl; exact ⟨.inr (.inr rfl), rfl⟩
    · rintro ⟨-, rfl⟩; rfl
  · have h' : isNan d = false := by simpa using h
    rw [if_neg h, intCell_dblCell_some h']
    have h01 : (0 : Int) ≠ naInt := by decide
    have h11 : (1 : Int) ≠ naInt := by decide
    have hU := unit_pos
    split
    · rename_i h0
      rw [Option.some_inj]
      constructor
      · rintro rfl
        exact ⟨.inl rfl, h01, by rw [h0, Int.zero_mul]⟩
      · rintro ⟨rfl | rfl | rfl, k1, k2⟩
        · rfl
        · rw [h0, Int.one_mul] at k2; omega
        · exact absurd rfl k1
    · rename_i h0
      split
      · rename_i h1
        rw [Option.some_inj]
        constructor
        · rintro rfl
          exact ⟨.inr (.inl rfl), h11, by rw [h1, Int.one_mul]⟩
        · rintro ⟨rfl | rfl | rfl, k1, k2⟩
          · rw [Int.zero_mul] at k2; omega
          · rfl
          · exact absurd rfl k1
      · rename_i h1
        constructor
        · intro k; cases k
        · rintro ⟨rfl | rfl | rfl, k1, k2⟩
          · rw [Int.zero_mul] at k2; exact absurd k2 h0
          · rw [Int.one_mul] at k2; exact absurd k2 h1
          · exact absurd rfl k1

theorem intOfDbl_iff (d : Dbl) (w : Int) : intOfDbl d = some w ↔
    (naInt ≤ w ∧ w ≤ intMax) ∧ intCell w = dblCell d := by
  by_cases h : isNan d = true
  · rw [intCell_dblCell_none h]
    unfold intOfDbl
    rw [if_pos h, Option.some_inj]
    constructor
    · rintro rfl; exact ⟨⟨le_refl _, by decide⟩, rfl⟩
    · rintro ⟨-, rfl⟩; rfl
  · have h' : isNan d = false := by simpa using h
    rw [intCell_dblCell_some h']
    constructor
    · intro k
      unfold intOfDbl at k
      rw [if_neg h] at k
      split at k
      · rename_i hx
        have hs := hx.choose_spec
        generalize hx.choose = n at *
        cases k
        exact ⟨⟨by omega, hs.2.2⟩, by omega, hs.1⟩
      · cases k
    · rintro ⟨⟨k1, k2⟩, k3, k4⟩
      exact intOfDbl_some h' k4 (by omega) k2

theorem naReal_nan : isNan naReal = true := by decide +kernel

/-- The double of an `int` element stands for the same. -/
theorem dblCell_int {v : Int} (h1 : naInt ≤ v) (h2 : v ≤ intMax) :
    dblCell (if v = naInt then naReal else intToDbl v) = intCell v := by
  by_cases h : v = naInt
  · rw [if_pos h, h, intCell_na, dblCell_nan naReal_nan]
  · have hb : v.natAbs < 2 ^ 53 := by
      have : naInt = -2147483648 := rfl
      have : (intMax : Int) = 2147483647 := rfl
      omega
    rw [if_neg h, intCell_val h, dblCell_val (intToDbl_spec hb).1, (intToDbl_spec hb).2]

theorem lgl_range {v : Int} (h : v = 0 ∨ v = 1 ∨ v = naInt) : naInt ≤ v ∧ v ≤ intMax := by
  have : naInt = -2147483648 := rfl
  have : (intMax : Int) = 2147483647 := rfl
  omega

theorem cells_intAsDbl {x : List Int} (h : ∀ v ∈ x, naInt ≤ v ∧ v ≤ intMax) :
    (x.map (fun v => if v = naInt then naReal else intToDbl v)).map dblCell = x.map intCell := by
  rw [List.map_map]
  refine List.map_congr_left fun v hv => ?_
  exact dblCell_int (h v hv).1 (h v hv).2

theorem numCastNative_spec (x : NumVec) (ty : NumTy) (hx : NumOk x) :
    (∃ y, numCastNative x ty = .ok (some y) ∧ KeepsCells x ty y) ∨
      (numCastNative x ty = .ok none ∧ ¬ ∃ y, KeepsCells x ty y) := by
  cases x with
  | lgl x =>
    cases ty with
    | lgl => exact .inl ⟨_, rfl, hx, rfl, rfl⟩
    | int => exact .inl ⟨_, rfl, fun v hv => lgl_range (hx v hv), rfl, rfl⟩
    | dbl =>
      refine .inl ⟨.dbl (x.map (fun v => if v = naInt then naReal else intToDbl v)), ?_, trivial, rfl,
        cells_intAsDbl fun v hv => lgl_range (hx v hv)⟩
      unfold numCastNative
      dsimp only
      rw [intAsDbl_eq]
      rfl
  | int x =>
    cases ty with
    | lgl =>
      unfold numCastNative
      dsimp only
      rw [intAsLgl_eq, ok_bind]
      cases h : x.mapM lglOf with
      | some r =>
        obtain ⟨h1, h2⟩ := (mapM_cells lglOf_iff).mp h
        exact .inl ⟨_, rfl, h1, rfl, h2⟩
      | none =>
        refine .inr ⟨rfl, ?_⟩
        rintro ⟨y, h1, h2, h3⟩
        cases y with
        | lgl y => rw [(mapM_cells lglOf_iff).mpr ⟨h1, h3⟩] at h; cases h
        | int y => cases h2
        | dbl y => cases h2
    | int => exact .inl ⟨_, rfl, hx, rfl, rfl⟩
    | dbl =>
      refine .inl ⟨.dbl (x.map (fun v => if v = naInt then naReal else intToDbl v)), ?_, trivial, rfl,
        cells_intAsDbl hx⟩
      unfold numCastNative
      dsimp only
      rw [intAsDbl_eq]
      rfl
  | dbl x =>
    cases ty with
    | lgl =>
      unfold numCastNative
      dsimp only
      rw [dblAsLgl_eq, ok_bind]
      cases h : x.mapM lglOfDbl with
      | some r =>
        obtain ⟨h1, h2⟩ := (mapM_cells lglOfDbl_iff).mp h
        exact .inl ⟨_, rfl, h1, rfl, h2⟩
      | none =>
        refine .inr ⟨rfl, ?_⟩
        rintro ⟨y, h1, h2, h3⟩
        cases y with
        | lgl y => rw [(mapM_cells lglOfDbl_iff).mpr ⟨h1, h3⟩] at h; cases h
        | int y => cases h2
        | dbl y => cases h2
    | int =>
      unfold numCastNative
      dsimp only
      rw [dblAsInt_eq, ok_bind]
      cases h : x.mapM intOfDbl with
      | some r =>
        obtain ⟨h1, h2⟩ := (mapM_cells intOfDbl_iff).mp h
        exact .inl ⟨_, rfl, h1, rfl, h2⟩
      | none =>
        refine .inr ⟨rfl, ?_⟩
        rintro ⟨y, h1, h2, h3⟩
        cases y with
        | lgl y => cases h2
        | int y => rw [(mapM_cells intOfDbl_iff).mpr ⟨h1, h3⟩] at h; cases h
        | dbl y => cases h2
    | dbl => exact .inl ⟨_, rfl, trivial, rfl, rfl⟩

theorem numInit_cells (ty : NumTy) (n : Nat) : NumOk (numInit ty n) ∧ numTy (numInit ty n) = ty ∧
    cells (numInit ty n) = List.replicate n none := by
  have hr : naInt ≤ naInt ∧ naInt ≤ intMax := lgl_range (.inr (.inr rfl))
  cases ty with
  | lgl =>
    refine ⟨fun v hv => .inr (.inr (List.eq_of_mem_replicate hv)), rfl, ?_⟩
    simp [numInit, cells, intCell_na]
  | int =>
    refine ⟨fun v hv => by rw [List.eq_of_mem_replicate hv]; exact hr, rfl, ?_⟩
    simp [numInit, cells, intCell_na]
  | dbl =>
    refine ⟨trivial, rfl, ?_⟩
    simp [numInit, cells, dblCell_nan naReal_nan]

theorem numCast_spec (x : NumVec) (ty : NumTy) (hx : NumOk x) :
    (∃ y, numCast x ty = .ok y ∧ KeepsCells x ty y) ∨
      (numCast x ty = .error .abort ∧ ¬ ∃ y, KeepsCells x ty y) := by
  unfold numCast
  by_cases hu : numUnspecified x = true
  · rw [if_pos hu]
    refine .inl ⟨_, rfl, ?_⟩
    obtain ⟨h1, h2, h3⟩ := numInit_cells ty (numSize x)
    refine ⟨h1, h2, h3.trans ?_⟩
    cases x with
    | lgl x =>
      simp only [numUnspecified, Bool.and_eq_true, List.all_eq_true, decide_eq_true_eq] at hu
      refine (List.eq_replicate_iff.mpr ⟨by simp [cells, numSize], ?_⟩).symm
      intro b hb
      obtain ⟨v, hv, rfl⟩ := List.mem_map.mp hb
      rw [hu.2 v hv, intCell_na]
    | int x => cases hu
    | dbl x => cases hu
  · rw [if_neg hu]
    rcases numCastNative_spec x ty hx with ⟨y, h1, h2⟩ | ⟨h1, h2⟩
    · exact .inl ⟨y, by rw [h1]; rfl, h2⟩
    · exact .inr ⟨by rw [h1]; rfl, h2⟩

/-! ### Strings as logical values -/

theorem strAsLgl_iff (c : List Char) (v : Int) : strAsLgl c = some v ↔
    (c ∈ ["T".toList, "TRUE".toList, "true".toList] ∧ v = 1) ∨
      (c ∈ ["F".toList, "FALSE".toList, "false".toList] ∧ v = 0) := by
  unfold strAsLgl
  simp only [(strcmp_spec _ _).2.2]
  split <;> simp <;> grind

end Vctrs
