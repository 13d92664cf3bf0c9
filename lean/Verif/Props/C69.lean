import Verif.Lemmas.Cast
import Verif.Lemmas.Base
import Verif.Model.SubscriptNames

/-!
# C69: which objects are subscripts
-/

namespace Vctrs

namespace Spec

/-- The types of subscript that the options let through. -/
def SubAllowed (opts : TypeOpts) : BareSub → Prop
  | .lgl _ => opts.logical = .cast
  | .int _ => opts.numeric = .cast
  | .chr _ => opts.character = .cast

/-- The logical, integer or character vector that an object stands for, as long as the options do not matter. -/
inductive StandsFor : SubObj → BareSub → Prop
  | null : StandsFor .null (.int [])
  | symbol (s : String) : StandsFor (.symbol s) (.chr [some s])
  | lgl (l : List (Option Bool)) : StandsFor (.lgl l) (.lgl l)
  | int (l : List Int) : StandsFor (.int l) (.int l)
  | chr (l : List RStr) : StandsFor (.chr l) (.chr l)
  | dbl (x : List Dbl) (l : List Int) : (∀ v ∈ l, naInt ≤ v ∧ v ≤ intMax) → l.map intCell = x.map dblCell →
      StandsFor (.dbl x) (.int l)
  | objLgl {i : Option (C (List Int))} {c : Option (C (List RStr))} (l : List (Option Bool)) :
      StandsFor (.obj (some (.ok l)) i c) (.lgl l)
  | objInt {c : Option (C (List RStr))} (l : List Int) : StandsFor (.obj none (some (.ok l)) c) (.int l)
  | objChr (l : List RStr) : StandsFor (.obj none none (some (.ok l))) (.chr l)

/-- A non-empty logical vector of missing values only. -/
def AllMissing (l : List (Option Bool)) : Prop := l ≠ [] ∧ ∀ v ∈ l, v = none

/-- The subscript taken for what an object stands for: missing values take the type that is allowed. -/
inductive Retyped (opts : TypeOpts) : BareSub → BareSub → Prop
  | int (l : List (Option Bool)) : opts.logical = .error → AllMissing l → opts.numeric = .cast →
      Retyped opts (.lgl l) (.int (l.map (fun _ => naInt)))
  | chr (l : List (Option Bool)) : opts.logical = .error → AllMissing l → opts.numeric = .error →
      Retyped opts (.lgl l) (.chr (l.map (fun _ => none)))
  | same (b : BareSub) : (∀ l, b = .lgl l → opts.logical = .error → ¬ AllMissing l) → Retyped opts b b

/-- `NULL` and symbols are subscripts only if their types are cast. -/
def Castable (opts : TypeOpts) : SubObj → Prop
  | .null => opts.numeric = .cast
  | .symbol _ => opts.character = .cast
  | _ => True

end Spec

open Spec

theorem dblMag_inf {d : Dbl} (hf : dblFinite d = false) (hn : isNan d = false) :
    dblMagOf (dblMagBits d) = 2 ^ 2098 := by
  have h1 : dblMagBits d / 2 ^ 52 = 2047 := by
    unfold dblFinite at hf
    unfold dblMagBits
    simpa using hf
  have h2 : ¬ 2047 * 2 ^ 52 < dblMagBits d := by
    unfold isNan at hn
    simpa using hn
  have h3 : dblMagBits d = 2047 * 2 ^ 52 := by omega
  rw [h3]
  unfold dblMagOf
  dsimp only
  rw [show 2047 * 2 ^ 52 / 2 ^ 52 = 2047 by decide, if_neg (by decide), show 2047 * 2 ^ 52 % 2 ^ 52 = 0 by decide,
    Nat.add_zero, ← Nat.pow_add]

theorem dblVal_inf {d : Dbl} (hf : dblFinite d = false) (hn : isNan d = false) :
    (dblVal d).natAbs = 2 ^ 2098 := by
  unfold dblVal
  rw [dblMag_inf hf hn]
  split
  · rw [Int.natAbs_neg, Int.natAbs_natCast]
  · rw [Int.natAbs_natCast]

theorem pow_gap {a k m : Nat} (ha : a < 2 ^ 32) (h : a * 2 ^ k = 2 ^ m) : m < 32 + k := by
  have h4 : a * 2 ^ k < 2 ^ 32 * 2 ^ k := Nat.mul_lt_mul_of_pos_right ha (Nat.pow_pos (by decide))
  rw [h, ← Nat.pow_add] at h4
  exact Nat.pow_lt_pow_iff_right (by decide : 1 < 2) |>.1 h4

theorem intOfDbl_inf {d : Dbl} (hf : dblFinite d = false) (hn : isNan d = false) : intOfDbl d = none := by
  unfold intOfDbl
  rw [if_neg (by simp [hn]), dif_neg]
  rintro ⟨n, h1, h2, h3⟩
  have h := dblVal_inf hf hn
  rw [h1, Int.natAbs_mul, Int.natAbs_pow] at h
  have hb : n.natAbs < 2 ^ 32 := by
    have : naInt = -2147483648 := rfl
    have : (intMax : Int) = 2147483647 := rfl
    omega
  rw [show (2 : Int).natAbs = 2 from rfl] at h
  exact absurd (pow_gap hb h) (by decide)

theorem dblCastLoop_eq (x : List Dbl) :
    (forBrk x.length (dblCastStep x) (some (alloc Int x.length)) >>= castOut) = .ok (x.mapM intOfDbl) := by
  refine castLoop x intOfDbl _ ?_
  intro i a out ha hi
  have b1 : naInt.natAbs < 2 ^ 53 := by decide
  have b2 : (intMax : Int).natAbs < 2 ^ 53 := by decide
  unfold dblCastStep
  dsimp only
  rw [rd_of_getElem? ha, ok_bind]
  by_cases h1 : isNan a = true
  · have e : intOfDbl a = some naInt := by unfold intOfDbl; rw [if_pos h1]
    rw [if_pos h1, wr_ok hi, e]
    rfl
  · have h1 : isNan a = false := by simpa using h1
    rw [if_neg (by simp [h1])]
    by_cases hf : dblFinite a = true
    · have l1 : dblLeOp a (intToDbl naInt) = true ↔ dblVal a ≤ naInt * 2 ^ 1074 := by
        rw [← (intToDbl_spec b1).2]
        simp [dblLeOp, h1, (intToDbl_spec b1).1]
      have l2 : dblLtOp (intToDbl intMax) a = true ↔ (intMax : Int) * 2 ^ 1074 < dblVal a := by
        rw [← (intToDbl_spec b2).2]
        simp [dblLtOp, h1, (intToDbl_spec b2).1]
      have hU := unit_pos
      by_cases hr : naInt * 2 ^ 1074 < dblVal a ∧ dblVal a ≤ (intMax : Int) * 2 ^ 1074
      · have hcond : dblOutOfInt a = false := by
          unfold dblOutOfInt
          rw [hf]
          simp only [Bool.not_true, Bool.false_or, Bool.or_eq_false_iff]
          refine ⟨?_, ?_⟩
          · rw [← Bool.not_eq_true, l1]; omega
          · rw [← Bool.not_eq_true, l2]; omega
        rw [hcond, if_neg (by simp)]
        obtain ⟨t1, -, t2⟩ := tdiv_range (b := (intMax : Int) + 1) hU hr.1
          (by rw [Int.add_mul, Int.one_mul]; omega) (by decide) (by decide)
        have t2 := t2 (by decide)
        have td : dblToInt a = .ok ((dblVal a).tdiv (2 ^ 1074)) := by
          unfold dblToInt
          rw [h1, if_neg (by simp)]
          dsimp only
          rw [if_neg (by omega), if_neg (by omega)]
        rw [td, ok_bind]
        have hb : ((dblVal a).tdiv (2 ^ 1074)).natAbs < 2 ^ 53 := by
          have : naInt = -2147483648 := rfl
          have : (intMax : Int) = 2147483647 := rfl
          omega
        have hq := dblEqOp_int h1 hb
        by_cases he : dblVal a = (dblVal a).tdiv (2 ^ 1074) * 2 ^ 1074
        · have hlt : naInt < (dblVal a).tdiv (2 ^ 1074) := by
            rcases lt_or_eq_of_le t1 with h | h
            · exact h
            · rw [← h] at he
              omega
          rw [if_neg (by simp [hq.mpr he]), wr_ok hi, intOfDbl_some h1 he hlt (by omega)]
          rfl
        · have hf : dblEqOp a (intToDbl ((dblVal a).tdiv (2 ^ 1074))) = false := by
            simpa using (not_congr hq).mpr he
          rw [if_pos (by simp [hf])]
          have : intOfDbl a = none := by
            unfold intOfDbl
            rw [if_neg (by simp [h1]), dif_neg]
            rintro ⟨n, hn, -, -⟩
            rw [hn, Int.mul_tdiv_cancel _ (ne_of_gt hU)] at he
            exact he rfl
          rw [this]
      · have hcond : dblOutOfInt a = true := by
          unfold dblOutOfInt
          rw [hf]
          simp only [Bool.not_true, Bool.false_or, Bool.or_eq_true, l1, l2]
          omega
        rw [hcond, if_pos rfl]
        have : intOfDbl a = none := by
          unfold intOfDbl
          rw [if_neg (by simp [h1]), dif_neg]
          rintro ⟨n, hn, h3, h4⟩
          apply hr
          rw [hn]
          exact ⟨Int.mul_lt_mul_of_pos_right h3 hU, Int.mul_le_mul_of_nonneg_right h4 hU.le⟩
        rw [this]
    · have hf : dblFinite a = false := by simpa using hf
      have hcond : dblOutOfInt a = true := by unfold dblOutOfInt; simp [hf]
      rw [hcond, if_pos rfl, intOfDbl_inf hf h1]

/-- Doubles are taken for the integers they are, or are an error. -/
theorem dblCastSubscript_eq (x : List Dbl) :
    dblCastSubscript x = match x.mapM intOfDbl with
      | some l => .ok l
      | none => .error .abort := by
  have h := dblCastLoop_eq x
  unfold dblCastSubscript
  rw [← bind_assoc, h, ok_bind]
  cases hm : x.mapM intOfDbl with
  | some l => rfl
  | none =>
    dsimp only
    have e : numCast (.dbl x) .int = .error .abort := by
      unfold numCast
      rw [if_neg (by simp [numUnspecified])]
      unfold numCastNative
      dsimp only
      rw [dblAsInt_eq, hm]
      rfl
    rw [e]
    rfl

theorem dblCastSubscript_iff {x : List Dbl} {l : List Int} :
    dblCastSubscript x = .ok l ↔ (∀ v ∈ l, naInt ≤ v ∧ v ≤ intMax) ∧ l.map intCell = x.map dblCell := by
  rw [← mapM_cells (f := intOfDbl) (P := fun w => naInt ≤ w ∧ w ≤ intMax) (fun a w => intOfDbl_iff a w),
    dblCastSubscript_eq]
  cases x.mapM intOfDbl with
  | some r => simp
  | none => simp

theorem subscriptCast_iff {x : SubObj} {b : BareSub} (h1 : x ≠ .null) (h2 : ∀ s, x ≠ .symbol s) :
    subscriptCast x = .ok b ↔ StandsFor x b := by
  cases x with
  | null => exact absurd rfl h1
  | symbol s => exact absurd rfl (h2 s)
  | lgl l =>
    constructor
    · intro h; cases h; exact .lgl l
    · rintro ⟨⟩; rfl
  | int l =>
    constructor
    · intro h; cases h; exact .int l
    · rintro ⟨⟩; rfl
  | chr l =>
    constructor
    · intro h; cases h; exact .chr l
    · rintro ⟨⟩; rfl
  | dbl x =>
    constructor
    · intro h
      unfold subscriptCast at h
      dsimp only at h
      cases hd : dblCastSubscript x with
      | error e => rw [hd] at h; cases h
      | ok l =>
        rw [hd] at h
        cases h
        obtain ⟨k1, k2⟩ := dblCastSubscript_iff.1 hd
        exact .dbl x l k1 k2
    · intro h
      cases h with
      | dbl _ l k1 k2 =>
        unfold subscriptCast
        dsimp only
        rw [dblCastSubscript_iff.2 ⟨k1, k2⟩]
        rfl
  | obj a i c =>
    constructor
    · intro h
      unfold subscriptCast objCastSubscript at h
      dsimp only at h
      cases a with
      | some a =>
        dsimp only at h
        cases a with
        | error e => cases h
        | ok l => cases h; exact .objLgl l
      | none =>
        dsimp only at h
        cases i with
        | some a =>
          dsimp only at h
          cases a with
          | error e => cases h
          | ok l => cases h; exact .objInt l
        | none =>
          dsimp only at h
          cases c with
          | some a =>
            dsimp only at h
            cases a with
            | error e => cases h
            | ok l => cases h; exact .objChr l
          | none => cases h
    · intro h
      cases h <;> rfl
  | vector =>
    constructor
    · intro h; cases h
    · rintro ⟨⟩
  | scalar =>
    constructor
    · intro h; cases h
    · rintro ⟨⟩

theorem lglUnspecified_iff {l : List (Option Bool)} : lglUnspecified l = true ↔ AllMissing l := by
  unfold lglUnspecified AllMissing
  simp

theorem subscriptUnspecified_iff {opts : TypeOpts} {b r : BareSub} :
    subscriptUnspecified opts b = r ↔ Retyped opts b r := by
  have key : Retyped opts b (subscriptUnspecified opts b) := by
    cases b with
    | lgl l =>
      unfold subscriptUnspecified
      dsimp only
      by_cases h : opts.logical = .error ∧ AllMissing l
      · rw [if_pos (by simp [h.1, lglUnspecified_iff.2 h.2])]
        by_cases hn : opts.numeric = .cast
        · rw [if_pos hn]
          have := Retyped.int l h.1 h.2 hn
          rwa [List.map_const'] at this
        · rw [if_neg hn]
          have := Retyped.chr l h.1 h.2 (by cases e : opts.numeric with | cast => exact absurd e hn | error => rfl)
          rwa [List.map_const'] at this
      · rw [if_neg]
        · refine .same _ ?_
          rintro l' e h1 h2
          cases e
          exact h ⟨h1, h2⟩
        · simp only [Bool.and_eq_true, decide_eq_true_eq, lglUnspecified_iff]
          exact h
    | int l => exact .same _ (fun _ h => by cases h)
    | chr l => exact .same _ (fun _ h => by cases h)
  constructor
  · rintro rfl; exact key
  · intro h
    generalize subscriptUnspecified opts b = r' at key
    cases h with
    | int l h1 h2 h3 =>
      cases key with
      | int => rfl
      | chr _ _ _ h4 => rw [h3] at h4; cases h4
      | same _ h4 => exact absurd h2 (h4 l rfl h1)
    | chr l h1 h2 h3 =>
      cases key with
      | int _ _ _ h4 => rw [h3] at h4; cases h4
      | chr => rfl
      | same _ h4 => exact absurd h2 (h4 l rfl h1)
    | same _ h4 =>
      cases key with
      | int l h1 h2 _ => exact absurd h2 (h4 l rfl h1)
      | chr l h1 h2 _ => exact absurd h2 (h4 l rfl h1)
      | same => rfl

theorem subscriptAction_iff {opts : TypeOpts} {b : BareSub} : ¬ subscriptAction opts b = .error ↔ SubAllowed opts b := by
  have key : ∀ a : TypeAction, ¬ a = .error ↔ a = .cast := by
    intro a; cases a <;> decide
  cases b <;> exact key _

/-- **C69**: the subscript is what the object stands for, if the options allow its type. -/
theorem C69_subscript {x : SubObj} {nms nms' : Option (List Name)} {opts : TypeOpts} {b : BareSub} :
    vecAsSubscript x nms 1 opts = .ok (b, nms') ↔
      Castable opts x ∧ (∃ b0, StandsFor x b0 ∧ Retyped opts b0 b) ∧ SubAllowed opts b ∧ nms' = nms := by
  unfold vecAsSubscript
  rw [if_neg (by simp)]
  dsimp only
  have main : ∀ y : SubObj, y ≠ .null → (∀ s, y ≠ .symbol s) → subIsVector y = true ∨ y = .scalar →
      ((if !subIsVector y then .error .abort else do
        let x ← subscriptCast y
        if subscriptAction opts (subscriptUnspecified opts x) = .error then .error .abort
        else .ok (subscriptUnspecified opts x, nms) : C (BareSub × Option (List Name))) = .ok (b, nms') ↔
      (∃ b0, StandsFor y b0 ∧ Retyped opts b0 b) ∧ SubAllowed opts b ∧ nms' = nms) := by
    intro y h1 h2 h3
    rcases h3 with h3 | rfl
    · rw [h3, if_neg (by simp)]
      cases hc : subscriptCast y with
      | error e =>
        constructor
        · intro h; cases h
        · rintro ⟨⟨b0, hb, _⟩, _⟩
          rw [(subscriptCast_iff h1 h2).2 hb] at hc
          cases hc
      | ok b0 =>
        rw [ok_bind]
        have hb := (subscriptCast_iff h1 h2).1 hc
        constructor
        · intro h
          split at h
          · cases h
          · rename_i ha
            cases h
            exact ⟨⟨b0, hb, subscriptUnspecified_iff.1 rfl⟩, subscriptAction_iff.1 ha, rfl⟩
        · rintro ⟨⟨b1, hb1, hr⟩, ha, rfl⟩
          rw [(subscriptCast_iff h1 h2).2 hb1] at hc
          cases hc
          rw [subscriptUnspecified_iff.2 hr, if_neg (subscriptAction_iff.2 ha)]
    · constructor
      · intro h; cases h
      · rintro ⟨⟨b0, ⟨⟩, _⟩, _⟩
  cases x with
  | null =>
    by_cases hn : opts.numeric = .cast
    · rw [show subscriptPrepare opts .null = .int [] from if_pos hn, main _ (fun h => by cases h) (fun _ h => by cases h) (Or.inl rfl)]
      constructor
      · rintro ⟨⟨b0, ⟨⟩, hr⟩, h⟩
        exact ⟨hn, ⟨_, .null, hr⟩, h⟩
      · rintro ⟨_, ⟨b0, ⟨⟩, hr⟩, h⟩
        exact ⟨⟨_, .int [], hr⟩, h⟩
    · rw [show subscriptPrepare opts .null = .null from if_neg hn]
      exact ⟨(fun h => by cases h), (fun h => absurd h.1 hn)⟩
  | symbol s =>
    by_cases hn : opts.character = .cast
    · rw [show subscriptPrepare opts (.symbol s) = .chr [some s] from if_pos hn, main _ (fun h => by cases h) (fun _ h => by cases h) (Or.inl rfl)]
      constructor
      · rintro ⟨⟨b0, ⟨⟩, hr⟩, h⟩
        exact ⟨hn, ⟨_, .symbol s, hr⟩, h⟩
      · rintro ⟨_, ⟨b0, ⟨⟩, hr⟩, h⟩
        exact ⟨⟨_, .chr [some s], hr⟩, h⟩
    · rw [show subscriptPrepare opts (.symbol s) = .symbol s from if_neg hn]
      exact ⟨(fun h => by cases h), (fun h => absurd h.1 hn)⟩
  | lgl l => exact (main (.lgl l) (fun h => by cases h) (fun _ h => by cases h) (Or.inl rfl)).trans (iff_of_eq (true_and _)).symm
  | int l => exact (main (.int l) (fun h => by cases h) (fun _ h => by cases h) (Or.inl rfl)).trans (iff_of_eq (true_and _)).symm
  | chr l => exact (main (.chr l) (fun h => by cases h) (fun _ h => by cases h) (Or.inl rfl)).trans (iff_of_eq (true_and _)).symm
  | dbl l => exact (main (.dbl l) (fun h => by cases h) (fun _ h => by cases h) (Or.inl rfl)).trans (iff_of_eq (true_and _)).symm
  | obj l i c =>
    exact (main (.obj l i c) (fun h => by cases h) (fun _ h => by cases h) (Or.inl rfl)).trans (iff_of_eq (true_and _)).symm
  | vector => exact (main .vector (fun h => by cases h) (fun _ h => by cases h) (Or.inl rfl)).trans (iff_of_eq (true_and _)).symm
  | scalar => exact (main .scalar (fun h => by cases h) (fun _ h => by cases h) (Or.inr rfl)).trans (iff_of_eq (true_and _)).symm

/-- **C69** (errors): everything else is an error, as are arrays; errors of the methods of a class are passed on. -/
theorem C69_error {x : SubObj} {nms : Option (List Name)} {d : Nat} {opts : TypeOpts} {e : Err}
    (hx : ∀ l i c, x = .obj l i c → (∀ f, l ≠ some (.error f)) ∧ (∀ f, i ≠ some (.error f)) ∧ ∀ f, c ≠ some (.error f))
    (h : vecAsSubscript x nms d opts = .error e) : e = .abort := by
  unfold vecAsSubscript at h
  split at h
  · cases h; rfl
  · dsimp only at h
    split at h
    · cases h; rfl
    · have hc : ∀ y f, (∀ l i c, y = .obj l i c → (∀ f, l ≠ some (.error f)) ∧ (∀ f, i ≠ some (.error f)) ∧
          ∀ f, c ≠ some (.error f)) → subscriptCast y = .error f → f = .abort := by
        intro y f hy hf
        cases y with
        | dbl x =>
          unfold subscriptCast at hf
          dsimp only at hf
          rw [dblCastSubscript_eq] at hf
          cases hm : x.mapM intOfDbl with
          | some l => rw [hm] at hf; cases hf
          | none => rw [hm] at hf; cases hf; rfl
        | obj l i c =>
          obtain ⟨k1, k2, k3⟩ := hy l i c rfl
          unfold subscriptCast objCastSubscript at hf
          dsimp only at hf
          match l, i, c with
          | some (.error f), _, _ => exact absurd rfl (k1 f)
          | some (.ok _), _, _ => cases hf
          | none, some (.error f), _ => exact absurd rfl (k2 f)
          | none, some (.ok _), _ => cases hf
          | none, none, some (.error f) => exact absurd rfl (k3 f)
          | none, none, some (.ok _) => cases hf
          | none, none, none => cases hf; rfl
        | lgl l => cases hf
        | int l => cases hf
        | chr l => cases hf
        | null => cases hf; rfl
        | symbol s => cases hf; rfl
        | vector => cases hf; rfl
        | scalar => cases hf; rfl
      have hy : ∀ l i c, subscriptPrepare opts x = .obj l i c → (∀ f, l ≠ some (.error f)) ∧
          (∀ f, i ≠ some (.error f)) ∧ ∀ f, c ≠ some (.error f) := by
        intro l i c he
        cases x with
        | obj l' i' c' => exact hx l i c he
        | null => unfold subscriptPrepare at he; dsimp only at he; split at he <;> cases he
        | symbol s => unfold subscriptPrepare at he; dsimp only at he; split at he <;> cases he
        | _ => cases he
      cases hs : subscriptCast (subscriptPrepare opts x) with
      | error f =>
        rw [hs] at h
        cases h
        exact hc _ _ hy hs
      | ok b =>
        rw [hs, ok_bind] at h
        split at h
        · cases h; rfl
        · cases h

/-- The object that a subscript is. -/
def BareSub.toObj : BareSub → SubObj
  | .lgl l => .lgl l
  | .int l => .int l
  | .chr l => .chr l

/-- **C69** (idempotence): the result is a subscript that is taken for itself. -/
theorem C69_idempotent {x : SubObj} {nms nms' : Option (List Name)} {d : Nat} {opts : TypeOpts} {b : BareSub}
    (h : vecAsSubscript x nms d opts = .ok (b, nms')) : vecAsSubscript b.toObj nms' 1 opts = .ok (b, nms') := by
  have hd : d = 1 := by
    by_contra hd
    unfold vecAsSubscript at h
    rw [if_pos hd] at h
    cases h
  subst hd
  obtain ⟨h1, ⟨b0, h2, h3⟩, h4, rfl⟩ := C69_subscript.1 h
  refine C69_subscript.2 ⟨?_, ⟨b, ?_, ?_⟩, h4, rfl⟩
  · cases b <;> trivial
  · cases b
    · exact .lgl _
    · exact .int _
    · exact .chr _
  · refine .same _ ?_
    rintro l rfl he
    have : opts.logical = .cast := h4
    rw [this] at he
    cases he

/-- **C69** (doubles): whole numbers are the locations they are. -/
theorem C69_double {x : List Dbl} {l : List Int} (hl : ∀ v ∈ l, naInt ≤ v ∧ v ≤ intMax)
    (hx : l.map intCell = x.map dblCell) (nms : Option (List Name)) (d n : Nat) (names : Option (List RStr))
    (topts : TypeOpts) (opts : LocOpts) :
    vecAsLocationN (.dbl x) nms d n names topts opts = vecAsLocationN (.int l) nms d n names topts opts := by
  have : vecAsSubscript (.dbl x) nms d topts = vecAsSubscript (.int l) nms d topts := by
    unfold vecAsSubscript
    have : subscriptCast (subscriptPrepare topts (.dbl x)) = subscriptCast (subscriptPrepare topts (.int l)) := by
      show (do .ok (BareSub.int (← dblCastSubscript x)) : C BareSub) = _
      rw [dblCastSubscript_iff.2 ⟨hl, hx⟩]
      rfl
    dsimp only
    rw [this]
    rfl
  unfold vecAsLocationN
  rw [this]

/-- **C69** (doubles): anything else is an error. -/
theorem C69_fractional {x : List Dbl} (hx : ¬ ∃ l : List Int, (∀ v ∈ l, naInt ≤ v ∧ v ≤ intMax) ∧ l.map intCell = x.map dblCell)
    (nms : Option (List Name)) (d n : Nat) (names : Option (List RStr)) (topts : TypeOpts) (opts : LocOpts) :
    vecAsLocationN (.dbl x) nms d n names topts opts = .error .abort := by
  unfold vecAsLocationN
  cases h : vecAsSubscript (.dbl x) nms d topts with
  | error e => rw [C69_error (fun _ _ _ h => by cases h) h]; rfl
  | ok r =>
    exfalso
    have hd : d = 1 := by
      by_contra hd
      unfold vecAsSubscript at h
      rw [if_pos hd] at h
      cases h
    subst hd
    obtain ⟨_, ⟨b0, h2, _⟩, _⟩ := (C69_subscript (b := r.1) (nms' := r.2)).1 h
    cases h2 with
    | dbl _ l k1 k2 => exact hx ⟨l, k1, k2⟩

/-! ## Examples -/

/-- 1.5 and infinity. -/
def subHalf : Dbl := 0x3FF8000000000000
def subInf : Dbl := 0x7FF0000000000000

example : vecAsSubscript (.dbl [0x4008000000000000, rNaN, 0xC000000000000000]) (some [some ['a'], none, some []]) 1 {} =
    .ok (.int [3, naInt, -2], some [some ['a'], none, some []]) :=
  C69_subscript.2 ⟨trivial, ⟨_, .dbl _ [3, naInt, -2] (by decide) (by decide +kernel), .same _ (fun _ h => by cases h)⟩,
    rfl, rfl⟩

example : vecAsSubscript (.lgl [none, none]) none 1 { logical := .error } = .ok (.int [naInt, naInt], none) :=
  C69_subscript.2 ⟨trivial, ⟨_, .lgl _, .int _ rfl ⟨by simp, by simp⟩ rfl⟩, rfl, rfl⟩

example : vecAsSubscript (.lgl [none]) none 1 { logical := .error, numeric := .error } = .ok (.chr [none], none) :=
  C69_subscript.2 ⟨trivial, ⟨_, .lgl _, .chr _ rfl ⟨by simp, by simp⟩ rfl⟩, rfl, rfl⟩

/-- A factor is coercible with character vectors only. -/
example : vecAsSubscript (.obj none none (some (.ok [some "b", none]))) none 1 {} = .ok (.chr [some "b", none], none) :=
  C69_subscript.2 ⟨trivial, ⟨_, .objChr _, .same _ (fun _ h => by cases h)⟩, rfl, rfl⟩

example : vecAsSubscript (.dbl [subHalf]) none 1 {} = .error .abort := by decide +kernel
example : vecAsSubscript (.dbl [subInf]) none 1 {} = .error .abort := by decide +kernel

example {e : Err} (h : vecAsSubscript .vector none 1 {} = .error e) : e = .abort :=
  C69_error (fun _ _ _ h => by cases h) h

example : vecAsSubscript .vector none 1 {} = .error .abort := rfl

example : vecAsSubscript (BareSub.int [2]).toObj none 1 {} = .ok (.int [2], none) :=
  C69_idempotent (x := .dbl [0x4000000000000000]) (nms := none) (d := 1)
    (C69_subscript.2 ⟨trivial, ⟨_, .dbl _ [2] (by decide) (by decide +kernel), .same _ (fun _ h => by cases h)⟩, rfl, rfl⟩)

example : vecAsLocationN (.dbl [0x4000000000000000]) none 1 3 none {} {} = vecAsLocationN (.int [2]) none 1 3 none {} {} :=
  C69_double (by decide) (by decide +kernel) none 1 3 none {} {}

example : vecAsLocationN (.dbl [subHalf]) none 1 3 none {} {} = .error .abort := by
  refine C69_fractional ?_ none 1 3 none {} {}
  rintro ⟨l, h1, h2⟩
  have := dblCastSubscript_iff.2 ⟨h1, h2⟩
  rw [show dblCastSubscript [subHalf] = .error .abort by decide +kernel] at this
  cases this

end Vctrs
