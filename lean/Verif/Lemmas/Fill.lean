import Verif.Lemmas.Runs
import Verif.Model.Fill

namespace Vctrs

theorem forFrom_eq_forN {S : Type} (f : Nat → S → C S) : ∀ (r i : Nat) (s : S),
    forFrom f i r s = forN r (fun k => f (i + k)) s := by
  suffices h : ∀ (r i j : Nat) (s : S), forFrom f (i + j) r s = forFrom (fun k => f (i + k)) j r s by
    intro r i s; exact h r i 0 s
  intro r
  induction r with
  | zero => intros; rfl
  | succ r ih =>
    intro i j s
    simp only [forFrom]
    cases f (i + j) s with
    | error e => rfl
    | ok s' => exact ih i (j + 1) s'

theorem forDown_eq_forN {S : Type} (f : Nat → S → C S) : ∀ (n : Nat) (s : S),
    forDown f n s = forN n (fun k => f (n - 1 - k)) s := by
  suffices h : ∀ (n m : Nat) (s : S), forDown f n s = forFrom (fun k => f (n + m - 1 - k)) m n s by
    intro n s; exact h n 0 s
  intro n
  induction n with
  | zero => intros; rfl
  | succ n ih =>
    intro m s
    simp only [forDown, forFrom]
    have : n + 1 + m - 1 - m = n := by omega
    rw [this]
    cases f n s with
    | error e => rfl
    | ok s' =>
      have := ih (m + 1) s'
      rw [show n + (m + 1) = n + 1 + m by omega] at this
      exact this

/-- Is a fill over distance `d` within `max_fill`? -/
def Within (mf : Option Nat) (d : Nat) : Prop :=
  match mf with
  | none => True
  | some m => d ≤ m

/-- What is required of the source `L` of element `t`, in the order of visit. -/
structure Good (na : Nat → Bool) (n : Nat) (leading : Bool) (mf : Option Nat) (t L : Nat) : Prop where
  lt : L < n
  self : na t = false → L = t
  near : ∀ s, s < t → na s = false → (∀ k, s < k → k ≤ t → na k = true) → Within mf (t - s) → L = s
  far : ∀ s, s < t → na s = false → (∀ k, s < k → k ≤ t → na k = true) → ¬ Within mf (t - s) → L = t
  leadNear : leading = true → ∀ s, t < s → s < n → na s = false → (∀ k, k < s → na k = true) →
    Within mf (s - t) → L = s
  leadFar : leading = true → ∀ s, t < s → s < n → na s = false → (∀ k, k < s → na k = true) →
    ¬ Within mf (s - t) → L = t
  none : (∀ k, k ≤ t → na k = true) → (leading = false ∨ ∀ k, k < n → na k = true) → na L = true

/-- State of the main loop before visiting `t`. -/
structure FillInv (na : Nat → Bool) (n : Nat) (leading : Bool) (t0 t lv : Nat) : Prop where
  le : t0 ≤ lv
  lt : lv < n
  vis : lv = t0 ∨ lv < t
  gap : ∀ k, lv < k → k < t → na k = true
  miss : na lv = true → lv = 0 ∧ t0 = 0 ∧ (leading = false ∨ ∀ k, k < n → na k = true)
  lead : ∀ k, k < t0 → na k = true

theorem FillInv.hit {na : Nat → Bool} {n : Nat} {leading : Bool} {t0 t lv : Nat}
    (h : FillInv na n leading t0 t lv) (h0 : t0 ≤ t) (ht : t < n) (hna : na t = false) :
    FillInv na n leading t0 (t + 1) t :=
  ⟨h0, ht, Or.inr (by omega), fun k h1 h2 => by omega, fun h => by simp [hna] at h, h.lead⟩

theorem FillInv.missing {na : Nat → Bool} {n : Nat} {leading : Bool} {t0 t lv : Nat}
    (h : FillInv na n leading t0 t lv) (hna : na t = true) :
    FillInv na n leading t0 (t + 1) lv := by
  refine ⟨h.le, h.lt, ?_, ?_, h.miss, h.lead⟩
  · rcases h.vis with h | h
    · exact Or.inl h
    · exact Or.inr (by omega)
  · intro k h1 h2
    by_cases hk : k = t
    · rw [hk]; exact hna
    · exact h.gap k h1 (by omega)

theorem good_self {na : Nat → Bool} {n : Nat} {leading : Bool} {mf : Option Nat} {t : Nat}
    (ht : t < n) (hna : na t = false) : Good na n leading mf t t := by
  refine ⟨ht, fun _ => rfl, ?_, fun _ _ _ _ _ => rfl, ?_, fun _ _ _ _ _ _ _ => rfl, ?_⟩
  · intro s _ _ h; have := h t (by assumption) (Nat.le_refl _); simp [hna] at this
  · intro _ s hs _ _ h; have := h t hs; simp [hna] at this
  · intro h; have := h t (Nat.le_refl _); simp [hna] at this

/-- Filling a missing element from the last one seen. -/
theorem FillInv.good_fill {na : Nat → Bool} {n : Nat} {leading : Bool} {t0 t lv : Nat}
    {mf : Option Nat} (h : FillInv na n leading t0 t lv) (h0 : t0 ≤ t) (ht : t < n)
    (hna : na t = true) (hw : na lv = false → Within mf (t - lv)) :
    Good na n leading mf t lv := by
  have huniq : ∀ s, s < t → na s = false → (∀ k, s < k → k ≤ t → na k = true) → lv = s := by
    intro s hs hns hk
    rcases Nat.lt_trichotomy lv s with h1 | h1 | h1
    · have := h.gap s h1 hs; simp [hns] at this
    · exact h1
    · cases hl : na lv with
      | true => have := (h.miss hl).1; omega
      | false =>
        have hlt : lv ≤ t := by
          rcases h.vis with h2 | h2 <;> omega
        have := hk lv h1 hlt
        simp [hl] at this
  have hlvt : na lv = false → lv < t := by
    intro hl
    rcases h.vis with h2 | h2
    · rcases Nat.lt_or_ge lv t with h3 | h3
      · exact h3
      · have : lv = t := by omega
        rw [this, hna] at hl; simp at hl
    · exact h2
  refine ⟨h.lt, fun h => by simp [hna] at h, fun s h1 h2 h3 _ => huniq s h1 h2 h3, ?_, ?_, ?_, ?_⟩
  · intro s h1 h2 h3 h4
    have := huniq s h1 h2 h3
    subst this
    exact absurd (hw h2) h4
  · intro hle s h1 h2 h3 h4 _
    cases hl : na lv with
    | true =>
      rcases (h.miss hl).2.2 with h5 | h5
      · simp [hle] at h5
      · have := h5 s h2; simp [h3] at this
    | false => have := h4 lv (by have := hlvt hl; omega); simp [hl] at this
  · intro hle s h1 h2 h3 h4 _
    cases hl : na lv with
    | true =>
      rcases (h.miss hl).2.2 with h5 | h5
      · simp [hle] at h5
      · have := h5 s h2; simp [h3] at this
    | false => have := h4 lv (by have := hlvt hl; omega); simp [hl] at this
  · intro h1 _
    cases hl : na lv with
    | true => rfl
    | false => have := h1 lv (Nat.le_of_lt (hlvt hl)); simp [hl] at this

/-- Leaving a missing element alone because `max_fill` is used up. -/
theorem FillInv.good_keep {na : Nat → Bool} {n : Nat} {leading : Bool} {t0 t lv : Nat}
    {mf : Option Nat} (h : FillInv na n leading t0 t lv) (h0 : t0 ≤ t) (ht : t < n)
    (hna : na t = true) (hw : na lv = false → ¬ Within mf (t - lv)) :
    Good na n leading mf t t := by
  have hlvt : na lv = false → lv < t := by
    intro hl
    rcases h.vis with h2 | h2
    · rcases Nat.lt_or_ge lv t with h3 | h3
      · exact h3
      · have : lv = t := by omega
        rw [this, hna] at hl; simp at hl
    · exact h2
  refine ⟨ht, fun _ => rfl, ?_, fun _ _ _ _ _ => rfl, ?_, fun _ _ _ _ _ _ _ => rfl, fun _ _ => hna⟩
  · intro s hs hns hk hwi
    rcases Nat.lt_trichotomy lv s with h1 | h1 | h1
    · have := h.gap s h1 hs; simp [hns] at this
    · subst h1; exact absurd hwi (hw hns)
    · cases hl : na lv with
      | true => have := (h.miss hl).1; omega
      | false =>
        have := hk lv h1 (Nat.le_of_lt (hlvt hl))
        simp [hl] at this
  · intro hle s h1 h2 h3 h4 _
    cases hl : na lv with
    | true =>
      rcases (h.miss hl).2.2 with h5 | h5
      · simp [hle] at h5
      · have := h5 s h2; simp [h3] at this
    | false => have := h4 lv (by have := hlvt hl; omega); simp [hl] at this

/-- Filling a leading missing element from the first non-missing one. -/
theorem good_lead {na : Nat → Bool} {n : Nat} {mf : Option Nat} {t t0 : Nat} (h0 : t0 < n)
    (hna : na t0 = false) (hlead : ∀ k, k < t0 → na k = true) (ht : t < t0) (fill : Bool)
    (hw : fill = true ↔ Within mf (t0 - t)) :
    Good na n true mf t (if fill then t0 else t) := by
  have hs : ∀ s, na s = false → (∀ k, k < s → na k = true) → s = t0 := by
    intro s h1 h2
    rcases Nat.lt_trichotomy s t0 with h | h | h
    · have := hlead s h; simp [h1] at this
    · exact h
    · have := h2 t0 h; simp [hna] at this
  refine ⟨by split <;> omega, ?_, ?_, ?_, ?_, ?_, ?_⟩
  · intro h; have := hlead t ht; simp [h] at this
  · intro s h1 h2; have := hlead s (by omega); simp [h2] at this
  · intro s h1 h2; have := hlead s (by omega); simp [h2] at this
  · intro _ s _ _ h1 h2 h3
    have := hs s h1 h2
    subst this
    rw [if_pos (hw.2 h3)]
  · intro _ s _ _ h1 h2 h3
    have := hs s h1 h2
    subst this
    rw [if_neg (fun h => h3 (hw.1 h))]
  · intro _ h
    rcases h with h | h
    · simp at h
    · have := h t0 h0; simp [hna] at this

/-- Elements visited before `t` (from `t1` on) have their source. -/
structure Srcs (which : RunBound) (na : Nat → Bool) (n : Nat) (leading : Bool) (mf : Option Nat)
    (lo hi : Nat) (out : List (Option Nat)) : Prop where
  len : out.length = n
  val : ∀ k, lo ≤ k → k < hi → ∃ L, out[pos which n k]? = some (some (pos which n L + 1)) ∧
    Good na n leading mf k L

theorem Srcs.push {which : RunBound} {na : Nat → Bool} {n : Nat} {leading : Bool}
    {mf : Option Nat} {lo hi : Nat} {out : List (Option Nat)}
    (h : Srcs which na n leading mf lo hi out) (hlt : hi < n) {L : Nat}
    (hg : Good na n leading mf hi L) :
    wr out (pos which n hi) (some (pos which n L + 1)) =
      .ok (out.set (pos which n hi) (some (pos which n L + 1))) ∧
    Srcs which na n leading mf lo (hi + 1) (out.set (pos which n hi) (some (pos which n L + 1))) := by
  have hp : pos which n hi < out.length := by rw [h.len]; exact pos_lt which hlt
  refine ⟨wr_ok hp, by simpa using h.len, ?_⟩
  intro k h1 h2
  rw [getElem?_set' hp]
  by_cases hk : k = hi
  · subst hk; exact ⟨L, by simp, hg⟩
  · rw [if_neg (fun he => hk (pos_inj which (by omega) hlt he))]
    exact h.val k h1 (by omega)

theorem Srcs.pushDown {which : RunBound} {na : Nat → Bool} {n : Nat} {leading : Bool}
    {mf : Option Nat} {lo hi : Nat} {out : List (Option Nat)}
    (h : Srcs which na n leading mf (lo + 1) hi out) (hlt : lo < n) (hhi : hi ≤ n) {L : Nat}
    (hg : Good na n leading mf lo L) :
    wr out (pos which n lo) (some (pos which n L + 1)) =
      .ok (out.set (pos which n lo) (some (pos which n L + 1))) ∧
    Srcs which na n leading mf lo hi (out.set (pos which n lo) (some (pos which n L + 1))) := by
  have hp : pos which n lo < out.length := by rw [h.len]; exact pos_lt which hlt
  refine ⟨wr_ok hp, by simpa using h.len, ?_⟩
  intro k h1 h2
  rw [getElem?_set' hp]
  by_cases hk : k = lo
  · subst hk; exact ⟨L, by simp, hg⟩
  · rw [if_neg (fun he => hk (pos_inj which (by omega) hlt he))]
    exact h.val k (by omega) h2

theorem posI_succ_toNat (which : RunBound) {n i : Nat} (h : i < n) :
    (posI which n i + 1).toNat = pos which n i + 1 := by
  cases which <;> simp [posI, pos] <;> omega

theorem pos_cast (which : RunBound) {n i : Nat} (h : i < n) :
    ((pos which n i : Nat) : Int) = posI which n i := by
  cases which <;> simp [posI, pos] <;> omega

variable {which : RunBound} {nas : List Bool} {na : Nat → Bool} {n : Nat} {leading : Bool}

/-- The main loop without `max_fill`. -/
theorem mainLoop_ok (hn : nas.length = n)
    (hna : ∀ t, t < n → nas[pos which n t]? = some (na t))
    {t0 : Nat} (ht0 : t0 ≤ n) (out : List (Option Nat)) (idx : Nat → Nat)
    (hidx : ∀ k, k < n - t0 → idx k = pos which n (t0 + k))
    (hs : Srcs which na n leading none 0 t0 out)
    (hi : n = 0 ∨ FillInv na n leading t0 t0 t0) :
    Ret (forN (n - t0) (fun k (s : List (Option Nat) × Int) => do
        let (out, loc) := s
        let b ← rd nas (idx k)
        let loc := if !b then (idx k : Int) else loc
        let out ← wr out (idx k) (some (loc + 1).toNat)
        .ok (out, loc)) (out, posI which n t0))
      (fun s => Srcs which na n leading none 0 n s.1) := by
  refine Ret.mono (Ret.forN (fun k (s : List (Option Nat) × Int) =>
    Srcs which na n leading none 0 (t0 + k) s.1 ∧ (n = 0 ∨
    ∃ lv, s.2 = posI which n lv ∧ FillInv na n leading t0 (t0 + k) lv)) ⟨hs, ?_⟩ ?_) ?_
  · rcases hi with h | h
    · exact Or.inl h
    · exact Or.inr ⟨t0, rfl, h⟩
  · rintro k ⟨out, loc⟩ hk ⟨h1, h2⟩
    rcases h2 with h2 | ⟨lv, hloc, h2⟩
    · omega
    simp only at h1 hloc ⊢
    have hlt : t0 + k < n := by omega
    rw [hidx k hk]
    refine Ret.bind_eq (rd_of_getElem? (hna _ hlt)) ?_
    cases hb : na (t0 + k) with
    | false =>
      simp only [Bool.not_false, if_true, pos_cast which hlt, posI_succ_toNat which hlt]
      obtain ⟨hw, hS⟩ := h1.push hlt (good_self hlt hb)
      refine Ret.bind_eq hw (Ret.ok ⟨hS, Or.inr ⟨t0 + k, rfl, h2.hit (by omega) hlt hb⟩⟩)
    | true =>
      simp only [Bool.not_true, Bool.false_eq_true, if_false, hloc, posI_succ_toNat which h2.lt]
      obtain ⟨hw, hS⟩ := h1.push hlt (h2.good_fill (by omega) hlt hb (fun _ => trivial))
      exact Ret.bind_eq hw (Ret.ok ⟨hS, Or.inr ⟨lv, rfl, h2.missing hb⟩⟩)
  · rintro ⟨out, loc⟩ ⟨h1, _⟩
    rwa [show t0 + (n - t0) = n by omega] at h1

/-- The main loop with `max_fill`. -/
theorem mainLoopMax_ok {m : Nat} (hn : nas.length = n)
    (hna : ∀ t, t < n → nas[pos which n t]? = some (na t))
    {t0 : Nat} (ht0 : t0 ≤ n) (out : List (Option Nat)) (idx : Nat → Nat)
    (hidx : ∀ k, k < n - t0 → idx k = pos which n (t0 + k))
    (hs : Srcs which na n leading (some m) 0 t0 out)
    (hi : n = 0 ∨ FillInv na n leading t0 t0 t0) :
    Ret (forN (n - t0) (fun k (s : List (Option Nat) × Int × Nat) => do
        let (out, loc, nFill) := s
        let b ← rd nas (idx k)
        if !b then do
          let out ← wr out (idx k) (some (idx k + 1))
          .ok (out, (idx k : Int), 0)
        else if nFill = m then do
          let out ← wr out (idx k) (some (idx k + 1))
          .ok (out, loc, nFill)
        else do
          let out ← wr out (idx k) (some (loc + 1).toNat)
          .ok (out, loc, nFill + 1)) (out, posI which n t0, 0))
      (fun s => Srcs which na n leading (some m) 0 n s.1) := by
  refine Ret.mono (Ret.forN (fun k (s : List (Option Nat) × Int × Nat) =>
    Srcs which na n leading (some m) 0 (t0 + k) s.1 ∧ (n = 0 ∨
    ∃ lv, s.2.1 = posI which n lv ∧ FillInv na n leading t0 (t0 + k) lv ∧
      (na lv = false → s.2.2 = min (t0 + k - lv - 1) m))) ⟨hs, ?_⟩ ?_) ?_
  · rcases hi with h | h
    · exact Or.inl h
    · exact Or.inr ⟨t0, rfl, h, fun _ => by simp⟩
  · rintro k ⟨out, loc, nFill⟩ hk ⟨h1, h2⟩
    rcases h2 with h2 | ⟨lv, hloc, h2, h3⟩
    · omega
    simp only at h1 hloc h3 ⊢
    have hlt : t0 + k < n := by omega
    rw [hidx k hk]
    refine Ret.bind_eq (rd_of_getElem? (hna _ hlt)) ?_
    cases hb : na (t0 + k) with
    | false =>
      simp only [Bool.not_false, if_true, pos_cast which hlt]
      obtain ⟨hw, hS⟩ := h1.push hlt (good_self hlt hb)
      refine Ret.bind_eq hw (Ret.ok ⟨hS, Or.inr ⟨t0 + k, rfl, h2.hit (by omega) hlt hb, ?_⟩⟩)
      intro _
      simp only
      omega
    | true =>
      have hlv : na lv = false → lv < t0 + k := by
        intro hl
        rcases h2.vis with h4 | h4
        · rcases Nat.lt_or_ge lv (t0 + k) with h5 | h5
          · exact h5
          · have : lv = t0 + k := by omega
            rw [this, hb] at hl; simp at hl
        · exact h4
      simp only [Bool.not_true, Bool.false_eq_true, if_false]
      by_cases hm : nFill = m
      · rw [if_pos hm]
        obtain ⟨hw, hS⟩ := h1.push hlt (h2.good_keep (mf := some m) (by omega) hlt hb (fun hl => by
          have := h3 hl
          have := hlv hl
          simp only [Within]
          omega))
        refine Ret.bind_eq hw (Ret.ok ⟨hS, Or.inr ⟨lv, hloc, h2.missing hb, ?_⟩⟩)
        intro hl
        have := h3 hl
        have := hlv hl
        simp only
        omega
      · rw [if_neg hm, hloc, posI_succ_toNat which h2.lt]
        obtain ⟨hw, hS⟩ := h1.push hlt (h2.good_fill (mf := some m) (by omega) hlt hb (fun hl => by
          have := h3 hl
          have := hlv hl
          simp only [Within]
          omega))
        refine Ret.bind_eq hw (Ret.ok ⟨hS, Or.inr ⟨lv, rfl, h2.missing hb, ?_⟩⟩)
        intro hl
        have := h3 hl
        have := hlv hl
        simp only
        omega
  · rintro ⟨out, loc⟩ ⟨h1, _⟩
    rwa [show t0 + (n - t0) = n by omega] at h1

/-- The back-fill loop without `max_fill`. -/
theorem leadLoop_ok {t0 : Nat} (ht0 : t0 < n) (h0 : t0 ≠ 0 → na t0 = false)
    (hlead : ∀ k, k < t0 → na k = true) (out : List (Option Nat)) (hlen : out.length = n)
    (idx : Nat → Nat) (hidx : ∀ k, k < t0 → idx k = pos which n (t0 - 1 - k)) :
    Ret (forN t0 (fun k out => wr out (idx k) (some (posI which n t0 + 1).toNat)) out)
      (fun out => Srcs which na n true none 0 t0 out) := by
  refine Ret.mono (Ret.forN (fun k (s : List (Option Nat)) =>
    Srcs which na n true none (t0 - k) t0 s) ⟨hlen, fun k h1 h2 => by omega⟩ ?_) ?_
  · intro k s hk h1
    rw [hidx k hk, posI_succ_toNat which ht0]
    have hg := good_lead (mf := none) ht0 (h0 (by omega)) hlead (t := t0 - 1 - k) (by omega) true
      (by simp [Within])
    obtain ⟨hw, hS⟩ := Srcs.pushDown (lo := t0 - 1 - k)
      (by rwa [show t0 - 1 - k + 1 = t0 - k by omega]) (by omega) (by omega) hg
    exact Ret.of_eq hw (by rwa [show t0 - (k + 1) = t0 - 1 - k by omega])
  · intro s h
    rwa [Nat.sub_self] at h

/-- The back-fill loop with `max_fill`. -/
theorem leadLoopMax_ok {m t0 : Nat} (ht0 : t0 < n) (h0 : t0 ≠ 0 → na t0 = false)
    (hlead : ∀ k, k < t0 → na k = true) (out : List (Option Nat)) (hlen : out.length = n)
    (idx : Nat → Nat) (hidx : ∀ k, k < t0 → idx k = pos which n (t0 - 1 - k)) :
    Ret (forN t0 (fun k (s : List (Option Nat) × Nat) => do
        let (out, nFill) := s
        if nFill = m then do
          let out ← wr out (idx k) (some (idx k + 1))
          .ok (out, nFill)
        else do
          let out ← wr out (idx k) (some (posI which n t0 + 1).toNat)
          .ok (out, nFill + 1)) (out, 0))
      (fun s => Srcs which na n true (some m) 0 t0 s.1) := by
  refine Ret.mono (Ret.forN (fun k (s : List (Option Nat) × Nat) =>
    Srcs which na n true (some m) (t0 - k) t0 s.1 ∧ s.2 = min k m)
    ⟨⟨hlen, fun k h1 h2 => by omega⟩, by simp⟩ ?_) ?_
  · rintro k ⟨out, nFill⟩ hk ⟨h1, h2⟩
    simp only at h1 h2 ⊢
    rw [hidx k hk]
    by_cases hm : nFill = m
    · rw [if_pos hm]
      have hg := good_lead (mf := some m) ht0 (h0 (by omega)) hlead (t := t0 - 1 - k) (by omega)
        false (by simp [Within]; omega)
      obtain ⟨hw, hS⟩ := Srcs.pushDown (lo := t0 - 1 - k)
        (by rwa [show t0 - 1 - k + 1 = t0 - k by omega]) (by omega) (by omega) hg
      exact Ret.bind_eq hw (Ret.ok ⟨by rwa [show t0 - (k + 1) = t0 - 1 - k by omega], by
        simp only; omega⟩)
    · rw [if_neg hm, posI_succ_toNat which ht0]
      have hg := good_lead (mf := some m) ht0 (h0 (by omega)) hlead (t := t0 - 1 - k) (by omega)
        true (by simp [Within]; omega)
      obtain ⟨hw, hS⟩ := Srcs.pushDown (lo := t0 - 1 - k)
        (by rwa [show t0 - 1 - k + 1 = t0 - k by omega]) (by omega) (by omega) hg
      exact Ret.bind_eq hw (Ret.ok ⟨by rwa [show t0 - (k + 1) = t0 - 1 - k by omega], by
        simp only; omega⟩)
  · rintro ⟨s, _⟩ ⟨h, _⟩
    simp only [Nat.sub_self] at h
    exact h

/-- The search for the first non-missing value. -/
theorem search_ok (hn : nas.length = n)
    (hna : ∀ t, t < n → nas[pos which n t]? = some (na t)) (idx : Nat → Nat)
    (hidx : ∀ k, k < n → idx k = pos which n k) :
    Ret (forBrk n (fun k loc => do
        let b ← rd nas (idx k)
        if !b then .ok (.brk (idx k : Int)) else .ok (.next loc)) (posI which n 0))
      (fun loc => ∃ t0, loc = posI which n t0 ∧ (n = 0 ∧ t0 = 0 ∨ t0 < n ∧
        (t0 ≠ 0 → na t0 = false) ∧ (∀ k, k < t0 → na k = true) ∧
        (na t0 = true → ∀ k, k < n → na k = true))) := by
  refine Ret.forBrk (fun k loc => loc = posI which n 0 ∧ ∀ j, j < k → na j = true) _
    ⟨rfl, fun j hj => by omega⟩ ?_ ?_
  · rintro k loc hk ⟨rfl, h2⟩
    rw [hidx k hk]
    refine Ret.bind_eq (rd_of_getElem? (hna _ hk)) ?_
    cases hb : na k with
    | false =>
      simp only [Bool.not_false, if_true, pos_cast which hk]
      refine Ret.ok ⟨k, rfl, Or.inr ⟨hk, fun _ => hb, h2, fun h => by simp [hb] at h⟩⟩
    | true =>
      simp only [Bool.not_true, Bool.false_eq_true, if_false]
      refine Ret.ok ⟨rfl, ?_⟩
      intro j hj
      by_cases h : j = k
      · rw [h]; exact hb
      · exact h2 j (by omega)
  · rintro loc ⟨rfl, h2⟩
    refine ⟨0, rfl, ?_⟩
    by_cases h : n = 0
    · exact Or.inl ⟨h, rfl⟩
    · exact Or.inr ⟨by omega, fun h => absurd rfl h, fun k hk => by omega, fun _ => h2⟩

theorem Srcs.finish {mf : Option Nat} {out : List (Option Nat)}
    (h : Srcs which na n leading mf 0 n out) :
    Ret (initd out) (fun out => out.length = n ∧ ∀ t, t < n → ∃ L,
      out[pos which n t]? = some (pos which n L + 1) ∧ Good na n leading mf t L) := by
  obtain ⟨r, hr, hl, hv⟩ := initd_ret (R := fun _ _ => True) h.len (fun i hi => by
    obtain ⟨L, hL, _⟩ := h.val (pos which n i) (Nat.zero_le _) (pos_lt which hi)
    rw [pos_pos which hi] at hL
    exact ⟨_, hL, trivial⟩)
  refine ⟨r, hr, hl, ?_⟩
  intro t ht
  obtain ⟨L, hL, hg⟩ := h.val t (Nat.zero_le _) ht
  refine ⟨L, ?_, hg⟩
  rw [initd_eq_ok.1 hr] at hL
  simpa using hL

theorem startInv_lead {t0 : Nat} (h : n = 0 ∧ t0 = 0 ∨ t0 < n ∧ (t0 ≠ 0 → na t0 = false) ∧
    (∀ k, k < t0 → na k = true) ∧ (na t0 = true → ∀ k, k < n → na k = true)) :
    n = 0 ∨ FillInv na n true t0 t0 t0 := by
  rcases h with h | ⟨h1, h2, h3, h4⟩
  · exact Or.inl h.1
  · refine Or.inr ⟨Nat.le_refl _, h1, Or.inl rfl, fun k _ _ => by omega, fun h => ?_, h3⟩
    have : t0 = 0 := by
      by_cases h0 : t0 = 0
      · exact h0
      · simp [h2 h0] at h
    exact ⟨this, this, Or.inr (h4 h)⟩

theorem startInv_nolead : n = 0 ∨ FillInv na n false 0 0 0 := by
  by_cases h : n = 0
  · exact Or.inl h
  · exact Or.inr ⟨Nat.le_refl _, by omega, Or.inl rfl, fun k _ _ => by omega,
      fun _ => ⟨rfl, rfl, Or.inl rfl⟩, fun k hk => by omega⟩

theorem startSrcs {mf : Option Nat} : Srcs which na n leading mf 0 0 (alloc Nat n) :=
  ⟨by simp, fun k _ h => by omega⟩

def fillDir (down : Bool) : RunBound := if down then .start else .end

theorem fillLoc_ok (hn : nas.length = n) (down : Bool)
    (hna : ∀ t, t < n → nas[pos (fillDir down) n t]? = some (na t)) (mf : Option Nat) :
    Ret (fillLoc nas down leading mf) (fun out => out.length = n ∧ ∀ t, t < n → ∃ L,
      out[pos (fillDir down) n t]? = some (pos (fillDir down) n L + 1) ∧
      Good na n leading mf t L) := by
  cases down with
  | true =>
    simp only [fillDir, if_true] at hna ⊢
    have hposI : ∀ t, (posI .start n t).toNat = t := by intro t; simp [posI]
    cases mf with
    | none =>
      simp only [fillLoc, if_true, fillDown, hn]
      cases leading with
      | false =>
        simp only [Bool.false_eq_true, if_false, ok_bind, forFrom_eq_forN]
        refine Ret.bind (mainLoop_ok (which := .start) hn hna (Nat.zero_le _) _ (fun k => 0 + k)
          (fun k _ => rfl) startSrcs startInv_nolead) ?_
        rintro ⟨out, loc⟩ h
        exact h.finish
      | true =>
        simp only [if_true]
        refine Ret.bind (P := fun s => ∃ t0, t0 ≤ n ∧ s.2 = posI .start n t0 ∧
          Srcs .start na n true none 0 t0 s.1 ∧ (n = 0 ∨ FillInv na n true t0 t0 t0)) ?_ ?_
        · simp only [firstNonMissing, hn]
          refine Ret.bind (search_ok (which := .start) hn hna (fun k => k) (fun k _ => rfl)) ?_
          rintro loc ⟨t0, rfl, h⟩
          simp only [hposI, forDown_eq_forN]
          rcases h with h | h
          · obtain ⟨rfl, rfl⟩ := h
            exact Ret.ok ⟨0, Nat.le_refl _, rfl, startSrcs, Or.inl rfl⟩
          · refine Ret.bind (leadLoop_ok (which := .start) h.1 h.2.1 h.2.2.1 _ (by simp)
              (fun k => t0 - 1 - k) (fun k _ => rfl)) ?_
            intro out hS
            exact Ret.ok ⟨t0, Nat.le_of_lt h.1, rfl, hS, startInv_lead (Or.inr h)⟩
        · rintro ⟨out, loc⟩ ⟨t0, hle, rfl, hS, hI⟩
          simp only [hposI, forFrom_eq_forN]
          refine Ret.bind (mainLoop_ok (which := .start) hn hna hle _ (fun k => t0 + k)
            (fun k _ => rfl) hS hI) ?_
          rintro ⟨out, loc⟩ h
          exact h.finish
    | some m =>
      simp only [fillLoc, if_true, fillDownMax, hn]
      cases leading with
      | false =>
        simp only [Bool.false_eq_true, if_false, ok_bind, forFrom_eq_forN]
        refine Ret.bind (mainLoopMax_ok (which := .start) hn hna (Nat.zero_le _) _ (fun k => 0 + k)
          (fun k _ => rfl) startSrcs startInv_nolead) ?_
        rintro ⟨out, loc⟩ h
        exact h.finish
      | true =>
        simp only [if_true]
        refine Ret.bind (P := fun s => ∃ t0, t0 ≤ n ∧ s.2 = posI .start n t0 ∧
          Srcs .start na n true (some m) 0 t0 s.1 ∧ (n = 0 ∨ FillInv na n true t0 t0 t0)) ?_ ?_
        · simp only [firstNonMissing, hn]
          refine Ret.bind (search_ok (which := .start) hn hna (fun k => k) (fun k _ => rfl)) ?_
          rintro loc ⟨t0, rfl, h⟩
          simp only [hposI, forDown_eq_forN]
          rcases h with h | h
          · obtain ⟨rfl, rfl⟩ := h
            exact Ret.ok ⟨0, Nat.le_refl _, rfl, startSrcs, Or.inl rfl⟩
          · refine Ret.bind (leadLoopMax_ok (which := .start) h.1 h.2.1 h.2.2.1 _ (by simp)
              (fun k => t0 - 1 - k) (fun k _ => rfl)) ?_
            rintro ⟨out, _⟩ hS
            exact Ret.ok ⟨t0, Nat.le_of_lt h.1, rfl, hS, startInv_lead (Or.inr h)⟩
        · rintro ⟨out, loc⟩ ⟨t0, hle, rfl, hS, hI⟩
          simp only [hposI, forFrom_eq_forN]
          refine Ret.bind (mainLoopMax_ok (which := .start) hn hna hle _ (fun k => t0 + k)
            (fun k _ => rfl) hS hI) ?_
          rintro ⟨out, loc⟩ h
          exact h.finish
  | false =>
    simp only [fillDir, Bool.false_eq_true, if_false] at hna ⊢
    have hposI : ∀ t, (posI .end n t + 1).toNat = n - t := by intro t; simp [posI]; omega
    have hinit : (n : Int) - 1 = posI .end n 0 := by simp [posI]
    cases mf with
    | none =>
      simp only [fillLoc, Bool.false_eq_true, if_false, fillUp, hn, hinit]
      cases leading with
      | false =>
        simp only [Bool.false_eq_true, if_false, ok_bind, hposI 0, forDown_eq_forN, Nat.sub_zero]
        refine Ret.bind (mainLoop_ok (which := .end) hn hna (Nat.zero_le _) _ (fun k => n - 1 - k)
          (fun k _ => by simp [pos]) startSrcs startInv_nolead) ?_
        rintro ⟨out, loc⟩ h
        exact h.finish
      | true =>
        simp only [if_true]
        refine Ret.bind (P := fun s => ∃ t0, t0 ≤ n ∧ s.2 = posI .end n t0 ∧
          Srcs .end na n true none 0 t0 s.1 ∧ (n = 0 ∨ FillInv na n true t0 t0 t0)) ?_ ?_
        · simp only [lastNonMissing, hn, hinit]
          refine Ret.bind (search_ok (which := .end) hn hna (fun k => n - 1 - k) (fun k _ => rfl)) ?_
          rintro loc ⟨t0, rfl, h⟩
          simp only [forFrom_eq_forN]
          rw [show n - (posI .end n t0 + 1).toNat = t0 by rw [hposI]; omega]
          rcases h with h | h
          · obtain ⟨rfl, rfl⟩ := h
            exact Ret.ok ⟨0, Nat.le_refl _, rfl, startSrcs, Or.inl rfl⟩
          · refine Ret.bind (leadLoop_ok (which := .end) h.1 h.2.1 h.2.2.1 _ (by simp)
              (fun k => (posI .end n t0 + 1).toNat + k) (fun k _ => by
                rw [hposI]; simp only [pos]; omega)) ?_
            intro out hS
            exact Ret.ok ⟨t0, Nat.le_of_lt h.1, rfl, hS, startInv_lead (Or.inr h)⟩
        · rintro ⟨out, loc⟩ ⟨t0, hle, rfl, hS, hI⟩
          simp only [hposI t0, forDown_eq_forN]
          refine Ret.bind (mainLoop_ok (which := .end) hn hna hle _ (fun k => n - t0 - 1 - k)
            (fun k _ => by simp only [pos]; omega) hS hI) ?_
          rintro ⟨out, loc⟩ h
          exact h.finish
    | some m =>
      simp only [fillLoc, Bool.false_eq_true, if_false, fillUpMax, hn, hinit]
      cases leading with
      | false =>
        simp only [Bool.false_eq_true, if_false, ok_bind, hposI 0, forDown_eq_forN, Nat.sub_zero]
        refine Ret.bind (mainLoopMax_ok (which := .end) hn hna (Nat.zero_le _) _
          (fun k => n - 1 - k) (fun k _ => by simp [pos]) startSrcs startInv_nolead) ?_
        rintro ⟨out, loc⟩ h
        exact h.finish
      | true =>
        simp only [if_true]
        refine Ret.bind (P := fun s => ∃ t0, t0 ≤ n ∧ s.2 = posI .end n t0 ∧
          Srcs .end na n true (some m) 0 t0 s.1 ∧ (n = 0 ∨ FillInv na n true t0 t0 t0)) ?_ ?_
        · simp only [lastNonMissing, hn, hinit]
          refine Ret.bind (search_ok (which := .end) hn hna (fun k => n - 1 - k) (fun k _ => rfl)) ?_
          rintro loc ⟨t0, rfl, h⟩
          simp only [forFrom_eq_forN]
          rw [show n - (posI .end n t0 + 1).toNat = t0 by rw [hposI]; omega]
          rcases h with h | h
          · obtain ⟨rfl, rfl⟩ := h
            exact Ret.ok ⟨0, Nat.le_refl _, rfl, startSrcs, Or.inl rfl⟩
          · refine Ret.bind (leadLoopMax_ok (which := .end) h.1 h.2.1 h.2.2.1 _ (by simp)
              (fun k => (posI .end n t0 + 1).toNat + k) (fun k _ => by
                rw [hposI]; simp only [pos]; omega)) ?_
            rintro ⟨out, _⟩ hS
            exact Ret.ok ⟨t0, Nat.le_of_lt h.1, rfl, hS, startInv_lead (Or.inr h)⟩
        · rintro ⟨out, loc⟩ ⟨t0, hle, rfl, hS, hI⟩
          simp only [hposI t0, forDown_eq_forN]
          refine Ret.bind (mainLoopMax_ok (which := .end) hn hna hle _ (fun k => n - t0 - 1 - k)
            (fun k _ => by simp only [pos]; omega) hS hI) ?_
          rintro ⟨out, loc⟩ h
          exact h.finish

end Vctrs
