import Verif.Props.C17

/-!
# C17: laws of `vec_fill_missing()` without `max_fill`

What is left missing, and that filling again changes nothing but, maybe, which missing value it is
(`C17_leading_missing_changes`).
-/

namespace Vctrs

open Spec

variable {α : Type} {missing : α → Bool}

theorem missingAt_or (missing : α → Bool) {x : List α} {i : Nat} (hi : i < x.length) :
    MissingAt missing x i ∨ ∃ b, x[i]? = some b ∧ missing b = false := by
  cases h : missing x[i] with
  | true => exact .inl ⟨_, List.getElem?_eq_getElem hi, h⟩
  | false => exact .inr ⟨_, List.getElem?_eq_getElem hi, h⟩

theorem last_present (missing : α → Bool) (x : List α) (i : Nat) (hi : i < x.length) :
    (∀ k, k ≤ i → MissingAt missing x k) ∨ ∃ j b, j ≤ i ∧ x[j]? = some b ∧ missing b = false ∧
      ∀ k, j < k → k ≤ i → MissingAt missing x k := by
  induction i with
  | zero =>
    rcases missingAt_or missing hi with h | ⟨b, h1, h2⟩
    · refine .inl (fun k hk => ?_)
      rw [show k = 0 by omega]; exact h
    · exact .inr ⟨0, b, by omega, h1, h2, fun k h3 h4 => by omega⟩
  | succ i ih =>
    rcases missingAt_or missing hi with h | ⟨b, h1, h2⟩
    · rcases ih (by omega) with ih | ⟨j, b, h1, h2, h3, h4⟩
      · refine .inl (fun k hk => ?_)
        by_cases hk' : k = i + 1
        · rw [hk']; exact h
        · exact ih k (by omega)
      · refine .inr ⟨j, b, by omega, h2, h3, fun k h5 h6 => ?_⟩
        by_cases hk' : k = i + 1
        · rw [hk']; exact h
        · exact h4 k h5 (by omega)
    · exact .inr ⟨i + 1, b, by omega, h1, h2, fun k h3 h4 => by omega⟩

theorem first_present (missing : α → Bool) (x : List α) (i : Nat) (hi : i ≤ x.length) :
    (∀ k, k < i → MissingAt missing x k) ∨ ∃ j b, j < i ∧ x[j]? = some b ∧ missing b = false ∧
      ∀ k, k < j → MissingAt missing x k := by
  induction i with
  | zero => exact .inl (fun k hk => by omega)
  | succ i ih =>
    rcases ih (by omega) with ih | ⟨j, b, h1, h2, h3, h4⟩
    · rcases missingAt_or missing (show i < x.length by omega) with h | ⟨b, h1, h2⟩
      · refine .inl (fun k hk => ?_)
        by_cases hk' : k = i
        · rw [hk']; exact h
        · exact ih k (by omega)
      · exact .inr ⟨i, b, by omega, h1, h2, ih⟩
    · exact .inr ⟨j, b, by omega, h2, h3, h4⟩

/-- Without a limit, what stays missing has nothing before it, and nothing after it if leading elements are filled. -/
theorem filledDown_missing {x out : List α} {leading : Bool} (h : FilledDown missing x leading none out) {i : Nat}
    (hi : i < x.length) : MissingAt missing out i ↔
      (∀ k, k ≤ i → MissingAt missing x k) ∧ (leading = false ∨ ∀ k, k < x.length → MissingAt missing x k) := by
  refine ⟨?_, fun hh => h.stay i hi hh.1 hh.2⟩
  rintro ⟨a, ha, hm⟩
  rcases last_present missing x i hi with hall | ⟨j, b, h1, h2, h3, h4⟩
  · refine ⟨hall, ?_⟩
    cases hl : leading with
    | false => exact .inl rfl
    | true =>
      rcases first_present missing x x.length (Nat.le_refl _) with hno | ⟨j, b, h1, h2, h3, h4⟩
      · exact .inr hno
      · exfalso
        have hij : i < j := by
          rcases Nat.lt_or_ge i j with hh | hh
          · exact hh
          · obtain ⟨c, c1, c2⟩ := hall j hh
            rw [h2] at c1; cases c1; rw [h3] at c2; cases c2
        have := h.lead hl i j b hij h2 h3 h4 (by intro m hmm; cases hmm)
        rw [ha] at this; cases this; rw [hm] at h3; cases h3
  · exfalso
    by_cases hj : j = i
    · subst hj
      have := h.keep _ _ h2 h3
      rw [ha] at this; cases this; rw [hm] at h3; cases h3
    · have := h.fill i j b (by omega) hi h2 h3 h4 (by intro m hmm; cases hmm)
      rw [ha] at this; cases this; rw [hm] at h3; cases h3

/-- Filling again changes nothing but missing values. -/
theorem filledDown_again {x out out2 : List α} {leading : Bool} (h : FilledDown missing x leading none out)
    (h2 : FilledDown missing out leading none out2) :
    out2.length = out.length ∧ ∀ (i : Nat) a, missing a = false → (out[i]? = some a ↔ out2[i]? = some a) := by
  refine ⟨h2.size, fun i a ha => ⟨fun hi => h2.keep i a hi ha, fun hi => ?_⟩⟩
  have hlt : i < out.length := by rw [← h2.size]; exact (List.getElem?_eq_some_iff.1 hi).1
  rcases missingAt_or missing hlt with hm | ⟨b, hb, hb'⟩
  · exfalso
    obtain ⟨g1, g2⟩ := (filledDown_missing h (by rw [← h.size]; exact hlt)).1 hm
    have hx : ∀ k, k < x.length → (∀ l, l ≤ k → MissingAt missing x l) → MissingAt missing out k := fun k hk hh =>
      (filledDown_missing h hk).2 ⟨hh, g2⟩
    have hix : i < x.length := by rw [← h.size]; exact hlt
    have hm2 : MissingAt missing out2 i := by
      refine (filledDown_missing h2 hlt).2 ⟨fun k hk => hx k (by omega) (fun l hl => g1 l (by omega)), ?_⟩
      rcases g2 with g2 | g2
      · exact .inl g2
      · exact .inr (fun k hk => by
          have hk' : k < x.length := by rw [← h.size]; exact hk
          exact hx k hk' (fun l hl => g2 l (by omega)))
    obtain ⟨c, c1, c2⟩ := hm2
    rw [hi] at c1; cases c1; rw [ha] at c2; cases c2
  · have := h2.keep i b hb hb'
    rw [hi] at this; cases this; exact hb

/-- `"down"` leaves missing exactly what has nothing before it. -/
theorem C17_down_missing (x : List α) :
    ∃ out, fillMissing missing x true false none = .ok out ∧
      ∀ i, i < x.length → (MissingAt missing out i ↔ ∀ k, k ≤ i → MissingAt missing x k) := by
  obtain ⟨out, h1, h2⟩ := C17_fill_down (missing := missing) x false none
  refine ⟨out, h1, fun i hi => ?_⟩
  rw [filledDown_missing h2 hi]
  exact ⟨fun h => h.1, fun h => ⟨h, .inl rfl⟩⟩

theorem missingAt_reverse {x : List α} {i : Nat} (hi : i < x.length) :
    MissingAt missing x.reverse (x.length - 1 - i) ↔ MissingAt missing x i := by
  unfold MissingAt
  rw [List.getElem?_reverse (by omega), show x.length - 1 - (x.length - 1 - i) = i by omega]

/-- `"up"` leaves missing exactly what has nothing after it. -/
theorem C17_up_missing (x : List α) :
    ∃ out, fillMissing missing x false false none = .ok out ∧
      ∀ i, i < x.length → (MissingAt missing out i ↔ ∀ k, i ≤ k → k < x.length → MissingAt missing x k) := by
  obtain ⟨out, h1, h2⟩ := C17_fill_up (missing := missing) x false none
  refine ⟨out, h1, fun i hi => ?_⟩
  have hlen : out.length = x.length := by simpa using h2.size
  have := filledDown_missing h2 (i := x.length - 1 - i) (by simp; omega)
  rw [← hlen, missingAt_reverse (by omega), hlen] at this
  rw [this]
  constructor
  · intro h k hk hkx
    have := h.1 (x.length - 1 - k) (by omega)
    exact (missingAt_reverse hkx).1 this
  · intro h
    refine ⟨fun k hk => ?_, .inl rfl⟩
    have := (missingAt_reverse (missing := missing) (x := x) (i := x.length - 1 - k) (by omega)).2
      (h _ (by omega) (by omega))
    rwa [show x.length - 1 - (x.length - 1 - k) = k by omega] at this

/-- `"downup"` and `"updown"` leave nothing missing if there is anything to fill with. -/
theorem C17_nothing_missing (x : List α) (down : Bool) (hx : ∃ a ∈ x, missing a = false) :
    ∃ out, fillMissing missing x down true none = .ok out ∧ out.length = x.length ∧
      ∀ a ∈ out, missing a = false := by
  obtain ⟨a, hax, ha⟩ := hx
  cases down with
  | true =>
    obtain ⟨out, h1, h2⟩ := C17_fill_down (missing := missing) x true none
    refine ⟨out, h1, h2.size, fun b hb => ?_⟩
    cases hm : missing b with
    | false => rfl
    | true =>
      obtain ⟨i, hi⟩ := List.mem_iff_getElem?.1 hb
      have hlt : i < x.length := by rw [← h2.size]; exact (List.getElem?_eq_some_iff.1 hi).1
      rcases ((filledDown_missing h2 hlt).1 ⟨b, hi, hm⟩).2 with h | h
      · cases h
      · obtain ⟨k, hk⟩ := List.mem_iff_getElem?.1 hax
        obtain ⟨c, c1, c2⟩ := h k (List.getElem?_eq_some_iff.1 hk).1
        rw [hk] at c1; cases c1; rw [ha] at c2; cases c2
  | false =>
    obtain ⟨out, h1, h2⟩ := C17_fill_up (missing := missing) x true none
    refine ⟨out, h1, by simpa using h2.size, fun b hb => ?_⟩
    cases hm : missing b with
    | false => rfl
    | true =>
      obtain ⟨i, hi⟩ := List.mem_iff_getElem?.1 (List.mem_reverse.2 hb)
      have hlt : i < x.reverse.length := by rw [← h2.size]; exact (List.getElem?_eq_some_iff.1 hi).1
      rcases ((filledDown_missing h2 hlt).1 ⟨b, hi, hm⟩).2 with h | h
      · cases h
      · obtain ⟨k, hk⟩ := List.mem_iff_getElem?.1 (List.mem_reverse.2 hax)
        obtain ⟨c, c1, c2⟩ := h k (List.getElem?_eq_some_iff.1 hk).1
        rw [hk] at c1; cases c1; rw [ha] at c2; cases c2

/-- Filling again in the same direction changes nothing but, maybe, which missing value it is. -/
theorem C17_again (x : List α) (down leading : Bool) :
    ∃ out out2, fillMissing missing x down leading none = .ok out ∧
      fillMissing missing out down leading none = .ok out2 ∧ out2.length = out.length ∧
      ∀ (i : Nat) a, missing a = false → (out[i]? = some a ↔ out2[i]? = some a) := by
  cases down with
  | true =>
    obtain ⟨out, h1, h2⟩ := C17_fill_down (missing := missing) x leading none
    obtain ⟨out2, h3, h4⟩ := C17_fill_down (missing := missing) out leading none
    obtain ⟨h5, h6⟩ := filledDown_again h2 h4
    exact ⟨out, out2, h1, h3, h5, h6⟩
  | false =>
    obtain ⟨out, h1, h2⟩ := C17_fill_up (missing := missing) x leading none
    obtain ⟨out2, h3, h4⟩ := C17_fill_up (missing := missing) out leading none
    obtain ⟨h5, h6⟩ := filledDown_again h2 h4
    have hl : out2.length = out.length := by simpa using h5
    refine ⟨out, out2, h1, h3, hl, fun i a ha => ?_⟩
    by_cases hi : i < out.length
    · have := h6 (out.length - 1 - i) a ha
      rw [List.getElem?_reverse (by omega), List.getElem?_reverse (by omega), hl,
        show out.length - 1 - (out.length - 1 - i) = i by omega] at this
      exact this
    · rw [List.getElem?_eq_none (by omega), List.getElem?_eq_none (by omega)]

/-- If there is one missing value, filling is idempotent. -/
theorem C17_idempotent (x : List α) (down leading : Bool)
    (hone : ∀ a b, missing a = true → missing b = true → a = b) :
    ∃ out, fillMissing missing x down leading none = .ok out ∧
      fillMissing missing out down leading none = .ok out := by
  obtain ⟨out, out2, h1, h2, h3, h4⟩ := C17_again (missing := missing) x down leading
  refine ⟨out, h1, ?_⟩
  rw [h2]
  congr 1
  refine List.ext_getElem h3 (fun i hi hi' => ?_)
  cases hm : missing out[i] with
  | false =>
    have := (h4 i _ hm).1 (List.getElem?_eq_getElem hi')
    rw [List.getElem?_eq_getElem hi] at this
    exact Option.some.inj this
  | true =>
    cases hm2 : missing out2[i] with
    | true => exact hone _ _ hm2 hm
    | false =>
      have := (h4 i _ hm2).2 (List.getElem?_eq_getElem hi)
      rw [List.getElem?_eq_getElem hi'] at this
      exact (Option.some.inj this).symm

/-- With a limit, filling again fills more. -/
theorem C17_again_limited :
    ∃ x out : List Nat, fillMissing (· == 0) x true false (some 1) = .ok out ∧
      fillMissing (· == 0) out true false (some 1) ≠ .ok out :=
  ⟨[5, 0, 0], [5, 5, 0], by decide +kernel, by decide +kernel⟩

example : fillMissing (· == 0) [0, 0, 5, 0, 7, 0] true false none = .ok [0, 0, 5, 5, 7, 7] ∧
    fillMissing (· == 0) [0, 0, 5, 5, 7, 7] true false none = .ok [0, 0, 5, 5, 7, 7] ∧
    fillMissing (· == 0) [0, 0, 5, 0, 7, 0] false true none = .ok [5, 5, 5, 7, 7, 7] ∧
    (∀ a b : Nat, (a == 0) = true → (b == 0) = true → a = b) := by
  refine ⟨by decide +kernel, by decide +kernel, by decide +kernel, ?_⟩
  intro a b ha hb
  simp at ha hb
  omega

end Vctrs
