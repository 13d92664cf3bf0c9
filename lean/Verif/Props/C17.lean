import Verif.Lemmas.Fill
import Verif.Lemmas.Rep

/-!
# C17: vec_fill_missing
-/

namespace Vctrs

open Spec

variable {α : Type} {missing : α → Bool}

theorem within_iff {mf : Option Nat} {d : Nat} : Within mf d ↔ Allowed mf d := by
  cases mf <;> simp [Within, Allowed]

/-- Values read through sources that are `Good` form a filled vector. -/
theorem filledDown_of_good {x out : List α} {leading : Bool} {mf : Option Nat} {na : Nat → Bool}
    (hna : ∀ (t : Nat) a, x[t]? = some a → na t = missing a) (hlen : out.length = x.length)
    (h : ∀ t, t < x.length → ∃ L, out[t]? = x[L]? ∧ Good na x.length leading mf t L) :
    FilledDown missing x leading mf out := by
  have hm : ∀ k, MissingAt missing x k → na k = true := by
    rintro k ⟨a, h1, h2⟩; rw [hna k a h1]; exact h2
  have hm' : ∀ k, k < x.length → na k = true → MissingAt missing x k := by
    intro k hk h1
    exact ⟨x[k], List.getElem?_eq_getElem hk, by rw [← hna k _ (List.getElem?_eq_getElem hk)]; exact h1⟩
  have hlt : ∀ {i : Nat} {a}, x[i]? = some a → i < x.length := fun h => (List.getElem?_eq_some_iff.1 h).1
  refine ⟨hlen, ?_, ?_, ?_, ?_, ?_, ?_⟩
  · intro i a ha hma
    obtain ⟨L, hL, hg⟩ := h i (hlt ha)
    have := hg.self (by rw [hna i a ha]; exact hma)
    subst this
    rw [hL, ha]
  · intro i j b hj hi hb hmb hk hA
    obtain ⟨L, hL, hg⟩ := h i hi
    have := hg.near j hj (by rw [hna j b hb]; exact hmb) (fun k h1 h2 => hm k (hk k h1 h2))
      (within_iff.2 hA)
    rw [hL, this, hb]
  · intro i j b hj hi hb hmb hk hA
    obtain ⟨L, hL, hg⟩ := h i hi
    have := hg.far j hj (by rw [hna j b hb]; exact hmb) (fun k h1 h2 => hm k (hk k h1 h2))
      (fun h => hA (within_iff.1 h))
    rw [hL, this]
  · intro hl i j b hj hb hmb hk hA
    obtain ⟨L, hL, hg⟩ := h i (by have := hlt hb; omega)
    have := hg.leadNear hl j hj (hlt hb) (by rw [hna j b hb]; exact hmb) (fun k h1 => hm k (hk k h1))
      (within_iff.2 hA)
    rw [hL, this, hb]
  · intro hl i j b hj hb hmb hk hA
    obtain ⟨L, hL, hg⟩ := h i (by have := hlt hb; omega)
    have := hg.leadFar hl j hj (hlt hb) (by rw [hna j b hb]; exact hmb) (fun k h1 => hm k (hk k h1))
      (fun h => hA (within_iff.1 h))
    rw [hL, this]
  · intro i hi hk hl
    obtain ⟨L, hL, hg⟩ := h i hi
    have := hg.none (fun k hk' => hm k (hk k hk')) (by
      rcases hl with hl | hl
      · exact Or.inl hl
      · exact Or.inr (fun k hk => hm k (hl k hk)))
    obtain ⟨a, h1, h2⟩ := hm' L hg.lt this
    exact ⟨a, by rw [hL, h1], h2⟩

theorem sliceLoc_ret (x : List α) (loc : List Nat)
    (h : ∀ (i : Nat) l, loc[i]? = some l → ∃ j, l = j + 1 ∧ j < x.length) :
    Ret (sliceLoc x loc) (fun out => out.length = loc.length ∧
      ∀ (i j : Nat), loc[i]? = some (j + 1) → out[i]? = x[j]?) := by
  induction loc with
  | nil => exact ⟨[], rfl, rfl, by intro i j hij; simp at hij⟩
  | cons l ls ih =>
    obtain ⟨j, rfl, hj⟩ := h 0 l rfl
    obtain ⟨r, hr, h1, h2⟩ := ih (fun i l' h' => h (i + 1) l' (by simpa using h'))
    refine ⟨x[j] :: r, ?_, by simp [h1], ?_⟩
    · rw [sliceLoc_succ, rd_ok hj, hr]; rfl
    · intro i j' hij
      cases i with
      | zero =>
        simp at hij
        subst hij
        simp [hj]
      | succ i => simpa using h2 i j' (by simpa using hij)

/-- Filling downwards (`"down"`, or `"downup"` when `leading`). -/
theorem C17_fill_down (x : List α) (leading : Bool) (maxFill : Option Nat) :
    ∃ out, fillMissing missing x true leading maxFill = .ok out ∧
      FilledDown missing x leading maxFill out := by
  let na : Nat → Bool := fun t => match x[t]? with | some a => missing a | none => false
  have hna : ∀ (t : Nat) a, x[t]? = some a → na t = missing a := by
    intro t a h; simp [na, h]
  refine Ret.bind (fillLoc_ok (nas := x.map missing) (na := na) (n := x.length) (by simp) true ?_
    maxFill) ?_
  · intro t ht
    simp only [fillDir, if_true, pos]
    rw [hna t _ (List.getElem?_eq_getElem ht)]
    simp [ht]
  · rintro loc ⟨h1, h2⟩
    simp only [fillDir, if_true, pos] at h2
    refine (sliceLoc_ret x loc ?_).mono ?_
    · intro i l hl
      obtain ⟨L, hL, hg⟩ := h2 i (by have := (List.getElem?_eq_some_iff.1 hl).1; omega)
      rw [hL] at hl
      exact ⟨L, by simpa using hl.symm, hg.lt⟩
    · rintro out ⟨h3, h4⟩
      refine filledDown_of_good hna (by omega) ?_
      intro t ht
      obtain ⟨L, hL, hg⟩ := h2 t ht
      exact ⟨L, h4 t L hL, hg⟩

/-- Filling upwards (`"up"`, or `"updown"` when `leading`) is the mirror image. -/
theorem C17_fill_up (x : List α) (leading : Bool) (maxFill : Option Nat) :
    ∃ out, fillMissing missing x false leading maxFill = .ok out ∧
      FilledDown missing x.reverse leading maxFill out.reverse := by
  let na : Nat → Bool := fun t => match x.reverse[t]? with | some a => missing a | none => false
  have hna : ∀ (t : Nat) a, x.reverse[t]? = some a → na t = missing a := by
    intro t a h; simp [na, h]
  refine Ret.bind (fillLoc_ok (nas := x.map missing) (na := na) (n := x.length) (by simp) false ?_
    maxFill) ?_
  · intro t ht
    simp only [fillDir, Bool.false_eq_true, if_false, pos]
    have : x.reverse[t]? = x[x.length - 1 - t]? := by rw [List.getElem?_reverse ht]
    have hlt : x.length - 1 - t < x.length := by omega
    rw [hna t x[x.length - 1 - t] (by rw [this, List.getElem?_eq_getElem hlt])]
    simp [hlt]
  · rintro loc ⟨h1, h2⟩
    simp only [fillDir, Bool.false_eq_true, if_false, pos] at h2
    refine (sliceLoc_ret x loc ?_).mono ?_
    · intro i l hl
      have hi := (List.getElem?_eq_some_iff.1 hl).1
      obtain ⟨L, hL, hg⟩ := h2 (x.length - 1 - i) (by omega)
      rw [show x.length - 1 - (x.length - 1 - i) = i by omega] at hL
      rw [hL] at hl
      exact ⟨_, by simpa using hl.symm, by have := hg.lt; omega⟩
    · rintro out ⟨h3, h4⟩
      refine filledDown_of_good hna (by simp; omega) ?_
      intro t ht
      simp at ht
      obtain ⟨L, hL, hg⟩ := h2 t ht
      refine ⟨L, ?_, by simpa using hg⟩
      rw [List.getElem?_reverse (by omega), List.getElem?_reverse hg.lt, h3, h1]
      exact h4 _ _ hL

/-- The specification determines the result up to which missing value is used: two results agree
wherever one of them is not missing. -/
theorem C17_spec_determines {x o1 o2 : List α} {leading : Bool} {mf : Option Nat}
    (h1 : FilledDown missing x leading mf o1) (h2 : FilledDown missing x leading mf o2)
    (i : Nat) (a : α) (ha : o1[i]? = some a) (hm : missing a = false) : o2[i]? = some a := by
  classical
  have hi : i < x.length := by
    have := (List.getElem?_eq_some_iff.1 ha).1
    rw [h1.size] at this; exact this
  by_cases hx : MissingAt missing x i
  · -- nearest non-missing before
    by_cases hb : ∃ j, j < i ∧ ∃ b, x[j]? = some b ∧ missing b = false
    · have hdec : ∃ d, d < i ∧ ∃ b, x[i - 1 - d]? = some b ∧ missing b = false := by
        obtain ⟨j, hj, b, hb⟩ := hb
        exact ⟨i - 1 - j, by omega, b, by rw [show i - 1 - (i - 1 - j) = j by omega]; exact hb⟩
      obtain ⟨hd, b, hb1, hb2⟩ := Nat.find_spec hdec
      have hmin := fun k (hk : k < Nat.find hdec) => Nat.find_min hdec hk
      generalize Nat.find hdec = d at hd hb1 hmin
      have hk : ∀ k, i - 1 - d < k → k ≤ i → MissingAt missing x k := by
        intro k h3 h4
        by_cases hki : k = i
        · rw [hki]; exact hx
        · have := hmin (i - 1 - k) (by omega)
          have hkx : k < x.length := by omega
          refine ⟨x[k], List.getElem?_eq_getElem hkx, ?_⟩
          cases hmk : missing x[k] with
          | true => rfl
          | false =>
            exact absurd ⟨by omega, x[k], by
              rw [show i - 1 - (i - 1 - k) = k by omega]; exact List.getElem?_eq_getElem hkx, hmk⟩ this
      by_cases hA : Allowed mf (i - (i - 1 - d))
      · have e1 := h1.fill i _ b (by omega) hi hb1 hb2 hk hA
        have e2 := h2.fill i _ b (by omega) hi hb1 hb2 hk hA
        rw [e2, ← e1, ha]
      · have e1 := h1.far i _ b (by omega) hi hb1 hb2 hk hA
        have e2 := h2.far i _ b (by omega) hi hb1 hb2 hk hA
        rw [e2, ← e1, ha]
    · have hall : ∀ k, k ≤ i → MissingAt missing x k := by
        intro k hk
        by_cases hki : k = i
        · rw [hki]; exact hx
        · have hkx : k < x.length := by omega
          refine ⟨x[k], List.getElem?_eq_getElem hkx, ?_⟩
          cases hmk : missing x[k] with
          | true => rfl
          | false => exact absurd ⟨k, by omega, x[k], List.getElem?_eq_getElem hkx, hmk⟩ hb
      by_cases hstay : leading = false ∨ ∀ k, k < x.length → MissingAt missing x k
      · obtain ⟨b, hb1, hb2⟩ := h1.stay i hi hall hstay
        rw [ha] at hb1; cases hb1
        simp [hm] at hb2
      · simp only [not_or, Bool.not_eq_false] at hstay
        obtain ⟨hl, hex⟩ := hstay
        have hdec : ∃ j : Nat, ∃ b, x[j]? = some b ∧ missing b = false := by
          simp only [not_forall] at hex
          obtain ⟨k, hk, hnm⟩ := hex
          refine ⟨k, x[k], List.getElem?_eq_getElem hk, ?_⟩
          cases hmk : missing x[k] with
          | false => rfl
          | true => exact absurd ⟨x[k], List.getElem?_eq_getElem hk, hmk⟩ hnm
        obtain ⟨b, hb1, hb2⟩ := Nat.find_spec hdec
        have hmin := fun k (hk : k < Nat.find hdec) => Nat.find_min hdec hk
        generalize Nat.find hdec = j at hb1 hmin
        have hjx := (List.getElem?_eq_some_iff.1 hb1).1
        have hk : ∀ k, k < j → MissingAt missing x k := by
          intro k h3
          have hkx : k < x.length := by omega
          refine ⟨x[k], List.getElem?_eq_getElem hkx, ?_⟩
          cases hmk : missing x[k] with
          | true => rfl
          | false => exact absurd ⟨x[k], List.getElem?_eq_getElem hkx, hmk⟩ (hmin k h3)
        have hij : i < j := by
          rcases Nat.lt_or_ge i j with h | h
          · exact h
          · obtain ⟨c, hc1, hc2⟩ := hall j h
            rw [hb1] at hc1; cases hc1; simp [hb2] at hc2
        by_cases hA : Allowed mf (j - i)
        · have e1 := h1.lead hl i j b hij hb1 hb2 hk hA
          have e2 := h2.lead hl i j b hij hb1 hb2 hk hA
          rw [e2, ← e1, ha]
        · have e1 := h1.leadFar hl i j b hij hb1 hb2 hk hA
          have e2 := h2.leadFar hl i j b hij hb1 hb2 hk hA
          rw [e2, ← e1, ha]
  · have hxi : x[i]? = some x[i] := List.getElem?_eq_getElem hi
    have hnm : missing x[i] = false := by
      cases hmk : missing x[i] with
      | false => rfl
      | true => exact absurd ⟨x[i], hxi, hmk⟩ hx
    have e1 := h1.keep i _ hxi hnm
    have e2 := h2.keep i _ hxi hnm
    rw [e2, ← e1, ha]

/-- Leading missing elements that are not filled stay missing but need not stay the *same* missing
value: they all become a copy of the first element (of the last one when filling upwards).  For
doubles this turns `NaN` after a leading `NA` into `NA` (src/fill.c:59, :76-82). -/
theorem C17_leading_missing_changes :
    ∃ (x : List (Option Nat × Nat)),
      fillMissing (fun a => a.1.isNone) x true false none ≠ .ok x ∧
      (∀ a ∈ x, a.1.isNone = true) :=
  ⟨[(none, 0), (none, 1)], by decide +kernel, by decide +kernel⟩

example : fillMissing (· == 0) [0, 0, 5, 0, 0, 0, 7, 0] true false none = .ok [0, 0, 5, 5, 5, 5, 7, 7] := by
  decide +kernel
example : fillMissing (· == 0) [0, 0, 5, 0, 0, 0, 7, 0] true true (some 2) = .ok [5, 5, 5, 5, 5, 0, 7, 7] := by
  decide +kernel
example : fillMissing (· == 0) [0, 0, 5, 0, 0, 0, 7, 0, 0] false true (some 1) =
    .ok [0, 5, 5, 0, 0, 7, 7, 7, 0] := by decide +kernel
/-- A filled vector as in `C17_spec_determines`, different in its missing values only. -/
example : ∃ o1 o2 : List Nat, FilledDown (· < 2) [0, 1, 5] false none o1 ∧
    FilledDown (· < 2) [0, 1, 5] false none o2 ∧ o1 ≠ o2 := by
  refine ⟨[0, 0, 5], [0, 1, 5], ?_, ?_, by decide⟩ <;>
  · refine ⟨rfl, ?_, ?_, ?_, by simp, by simp, ?_⟩
    · intro i a; match i with
      | 0 => simp; omega
      | 1 => simp; omega
      | 2 => simp; omega
      | i + 3 => simp
    · intro i j b hj hi hb hm; simp at hi; simp at hm
      match j with
      | 0 => simp at hb; omega
      | 1 => simp at hb; omega
      | j + 2 => omega
    · intro i j b hj hi hb hm; simp at hi; simp at hm
      match j with
      | 0 => simp at hb; omega
      | 1 => simp at hb; omega
      | j + 2 => omega
    · intro i hi hk _
      match i with
      | 0 => exact ⟨_, rfl, rfl⟩
      | 1 => exact ⟨_, rfl, rfl⟩
      | i + 2 =>
        obtain ⟨a, h1, h2⟩ := hk 2 (by omega)
        simp at h1; subst h1; simp at h2

end Vctrs
