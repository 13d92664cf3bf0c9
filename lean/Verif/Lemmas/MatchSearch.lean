import Verif.Model.Match
import Verif.Lemmas.Compare

/-!
# Binary searches in a sorted range
-/

namespace Vctrs

theorem midpoint_le {lo hi : Int} (h : lo ≤ hi) : lo ≤ midpoint lo hi ∧ midpoint lo hi ≤ hi := by
  unfold midpoint
  omega

/-- `bisect` finds where the test turns true. -/
theorem bisect_ok {left : Int → C Bool} {p : Int → Bool} {lo₀ hi₀ : Int}
    (hl : ∀ k, lo₀ ≤ k → k ≤ hi₀ → left k = .ok (p k))
    (hp : ∀ k k', lo₀ ≤ k → k ≤ k' → k' ≤ hi₀ → p k = true → p k' = true) :
    ∀ (fuel : Nat) (lo hi : Int), lo₀ ≤ lo → hi ≤ hi₀ → lo ≤ hi + 1 → (hi - lo + 1).toNat ≤ fuel →
      (∀ k, lo₀ ≤ k → k < lo → p k = false) → (∀ k, hi < k → k ≤ hi₀ → p k = true) →
      Ret (bisect left fuel lo hi) (fun r => r.1 = r.2 + 1 ∧ lo ≤ r.1 ∧ r.2 ≤ hi ∧
        ∀ k, lo₀ ≤ k → k ≤ hi₀ → (p k = true ↔ r.1 ≤ k)) := by
  intro fuel
  induction fuel with
  | zero =>
    intro lo hi h1 h2 h3 h4 h5 h6
    have : ¬ lo ≤ hi := by omega
    unfold bisect
    rw [if_neg this]
    refine Ret.ok ⟨by dsimp only; omega, Int.le_refl _, Int.le_refl _, fun k hk hk' => ?_⟩
    dsimp only
    constructor
    · intro hpk
      rcases Int.lt_or_le k lo with h | h
      · rw [h5 k hk h] at hpk; cases hpk
      · exact h
    · intro h
      exact h6 k (by omega) hk'
  | succ fuel ih =>
    intro lo hi h1 h2 h3 h4 h5 h6
    unfold bisect
    by_cases hlt : lo ≤ hi
    · rw [if_pos hlt]
      dsimp only
      obtain ⟨m1, m2⟩ := midpoint_le hlt
      rw [hl _ (by omega) (by omega), ok_bind]
      cases hpm : p (midpoint lo hi) with
      | true =>
        rw [if_pos rfl]
        refine (ih lo (midpoint lo hi - 1) h1 (by omega) (by omega) (by omega) h5
          (fun k hk hk' => ?_)).mono ?_
        · exact hp _ k (by omega) (by omega) hk' hpm
        · rintro r ⟨q1, q2, q3, q4⟩
          exact ⟨q1, q2, by omega, q4⟩
      | false =>
        rw [if_neg (by simp)]
        refine (ih (midpoint lo hi + 1) hi (by omega) h2 (by omega) (by omega)
          (fun k hk hk' => ?_) h6).mono ?_
        · cases hpk : p k with
          | false => rfl
          | true =>
            have := hp k (midpoint lo hi) hk (by omega) (by omega) hpk
            rw [hpm] at this; cases this
        · rintro r ⟨q1, q2, q3, q4⟩
          exact ⟨q1, by omega, q3, q4⟩
    · rw [if_neg hlt]
      refine Ret.ok ⟨by dsimp only; omega, Int.le_refl _, Int.le_refl _, fun k hk hk' => ?_⟩
      dsimp only
      constructor
      · intro hpk
        rcases Int.lt_or_le k lo with h | h
        · rw [h5 k hk h] at hpk; cases hpk
        · exact h
      · intro h
        exact h6 k (by omega) hk'

/-- Values at sorted locations `lo..hi`. -/
def OrdVals {α : Type} (v : List α) (o : List Int) (g : Int → α) (lo hi : Int) : Prop :=
  ∀ k, lo ≤ k → k ≤ hi → orderedAt v o k = .ok (g k)

/-- They are in order. -/
def MonoOn (g : Int → Int) (lo hi : Int) : Prop :=
  ∀ k k', lo ≤ k → k ≤ k' → k' ≤ hi → g k ≤ g k'

theorem OrdVals.sub {α : Type} {v : List α} {o : List Int} {g : Int → α} {lo hi lo' hi' : Int}
    (h : OrdVals v o g lo hi) (h1 : lo ≤ lo') (h2 : hi' ≤ hi) : OrdVals v o g lo' hi' :=
  fun k hk hk' => h k (by omega) (by omega)

theorem MonoOn.sub {g : Int → Int} {lo hi lo' hi' : Int}
    (h : MonoOn g lo hi) (h1 : lo ≤ lo') (h2 : hi' ≤ hi) : MonoOn g lo' hi' :=
  fun k k' hk hk' hk'' => h k k' (by omega) hk' (by omega)

theorem locateLowerDuplicate_ok {v o : List Int} {g : Int → Int} {lo hi val : Int}
    (hv : OrdVals v o g lo hi) (hm : MonoOn g lo hi) (hlt : lo ≤ hi) (hval : g hi = val) :
    Ret (locateLowerDuplicate val v o lo hi) (fun l => lo ≤ l ∧ l ≤ hi ∧
      ∀ k, lo ≤ k → k ≤ hi → (g k = val ↔ l ≤ k)) := by
  unfold locateLowerDuplicate
  refine Ret.bind (bisect_ok (p := fun k => val == g k) (lo₀ := lo) (hi₀ := hi) ?_ ?_ _ lo hi
    (Int.le_refl _) (Int.le_refl _) (by omega) (Nat.le_refl _) ?_ ?_) ?_
  · intro k hk hk'
    rw [hv k hk hk']
    rfl
  · intro k k' h1 h2 h3 h4
    simp only [beq_iff_eq] at h4 ⊢
    have a := hm k k' h1 h2 h3
    have b := hm k' hi (by omega) h3 (Int.le_refl _)
    omega
  · intro k h1 h2; omega
  · intro k h1 h2; omega
  · rintro r ⟨h1, h2, h3, h4⟩
    have key : ∀ k, lo ≤ k → k ≤ hi → (g k = val ↔ r.1 ≤ k) := by
      intro k hk hk'
      rw [← h4 k hk hk', beq_iff_eq]
      exact eq_comm
    exact Ret.ok ⟨h2, (key hi hlt (Int.le_refl _)).1 hval, key⟩

theorem locateUpperDuplicate_ok {v o : List Int} {g : Int → Int} {lo hi val : Int}
    (hv : OrdVals v o g lo hi) (hm : MonoOn g lo hi) (hlt : lo ≤ hi) (hval : g lo = val) :
    Ret (locateUpperDuplicate val v o lo hi) (fun u => lo ≤ u ∧ u ≤ hi ∧
      ∀ k, lo ≤ k → k ≤ hi → (g k = val ↔ k ≤ u)) := by
  unfold locateUpperDuplicate
  refine Ret.bind (bisect_ok (p := fun k => !(val == g k)) (lo₀ := lo) (hi₀ := hi) ?_ ?_ _ lo hi
    (Int.le_refl _) (Int.le_refl _) (by omega) (Nat.le_refl _) ?_ ?_) ?_
  · intro k hk hk'
    rw [hv k hk hk']
    rfl
  · intro k k' h1 h2 h3 h4
    simp only [Bool.not_eq_true', beq_eq_false_iff_ne] at h4 ⊢
    have a := hm k k' h1 h2 h3
    have b := hm lo k (Int.le_refl _) h1 (by omega)
    omega
  · intro k h1 h2; omega
  · intro k h1 h2; omega
  · rintro r ⟨h1, h2, h3, h4⟩
    have key : ∀ k, lo ≤ k → k ≤ hi → (g k = val ↔ k ≤ r.2) := by
      intro k hk hk'
      have := h4 k hk hk'
      simp only [Bool.not_eq_true', beq_eq_false_iff_ne] at this
      constructor
      · intro e
        have : ¬ r.1 ≤ k := fun h => (this.2 h) e.symm
        omega
      · intro h
        apply Decidable.byContradiction
        intro hne
        have := this.1 (fun e => hne e.symm)
        omega
    exact Ret.ok ⟨(key lo (Int.le_refl _) hlt).1 hval, h3, key⟩

theorem locateUpperIncomplete_ok {c : List Bool} {o : List Int} {g : Int → Bool} {lo hi : Int}
    (hv : OrdVals c o g lo hi) (hm : ∀ k k', lo ≤ k → k ≤ k' → k' ≤ hi → g k = true → g k' = true)
    (hlt : lo ≤ hi) :
    Ret (locateUpperIncomplete c o lo hi) (fun u => lo ≤ u + 1 ∧ u ≤ hi ∧
      ∀ k, lo ≤ k → k ≤ hi → (g k = true ↔ u < k)) := by
  unfold locateUpperIncomplete
  refine Ret.bind (bisect_ok (p := g) (lo₀ := lo) (hi₀ := hi) hv hm _ lo hi
    (Int.le_refl _) (Int.le_refl _) (by omega) (Nat.le_refl _) ?_ ?_) ?_
  · intro k h1 h2; omega
  · intro k h1 h2; omega
  · rintro r ⟨h1, h2, h3, h4⟩
    refine Ret.ok ⟨by omega, h3, fun k hk hk' => ?_⟩
    rw [h4 k hk hk']
    omega

/-- Before `l` the values are smaller than `val`, after `u` they are greater. -/
def Bounds (g : Int → Int) (val lo hi l u : Int) : Prop :=
  lo ≤ l ∧ u ≤ hi ∧ l ≤ u + 1 ∧
    ∀ k, lo ≤ k → k ≤ hi → (g k < val ↔ k < l) ∧ (val < g k ↔ u < k)

theorem intCompareScalar_cases (a b : Int) : (intCompareScalar a b = 1 ∧ b < a) ∨
    (intCompareScalar a b = -1 ∧ a < b) ∨ (intCompareScalar a b = 0 ∧ a = b) := by
  unfold intCompareScalar
  rcases Int.lt_trichotomy a b with h | h | h
  · right; left
    exact ⟨by simp [h, Int.not_lt.2 (Int.le_of_lt h)], h⟩
  · right; right
    exact ⟨by simp [h], h⟩
  · left
    exact ⟨by simp [h, Int.not_lt.2 (Int.le_of_lt h)], h⟩

theorem locateMatchLoop_ok {v o : List Int} {g : Int → Int} {lo₀ hi₀ val : Int}
    (hv : OrdVals v o g lo₀ hi₀) (hm : MonoOn g lo₀ hi₀) :
    ∀ (fuel : Nat) (lo hi : Int), lo₀ ≤ lo → hi ≤ hi₀ → lo ≤ hi + 1 → (hi - lo + 1).toNat ≤ fuel →
      (∀ k, lo₀ ≤ k → k < lo → g k < val) → (∀ k, hi < k → k ≤ hi₀ → val < g k) →
      Ret (locateMatchLoop val v o fuel lo hi) (fun r => Bounds g val lo₀ hi₀ r.1 r.2) := by
  have done : ∀ lo hi : Int, lo₀ ≤ lo → hi ≤ hi₀ → lo ≤ hi + 1 →
      (∀ k, lo₀ ≤ k → k < lo → g k < val) → (∀ k, hi < k → k ≤ hi₀ → val < g k) → ¬ lo ≤ hi →
      Bounds g val lo₀ hi₀ lo hi := by
    intro lo hi h1 h2 h3 h5 h6 h7
    refine ⟨h1, h2, h3, fun k hk hk' => ?_⟩
    rcases Int.lt_or_le k lo with h | h
    · have := h5 k hk h
      omega
    · have := h6 k (by omega) hk'
      omega
  intro fuel
  induction fuel with
  | zero =>
    intro lo hi h1 h2 h3 h4 h5 h6
    have : ¬ lo ≤ hi := by omega
    unfold locateMatchLoop
    rw [if_neg this]
    exact Ret.ok (done lo hi h1 h2 h3 h5 h6 this)
  | succ fuel ih =>
    intro lo hi h1 h2 h3 h4 h5 h6
    unfold locateMatchLoop
    by_cases hlt : lo ≤ hi
    · rw [if_pos hlt]
      dsimp only
      obtain ⟨m1, m2⟩ := midpoint_le hlt
      rw [hv _ (by omega) (by omega), ok_bind]
      rcases intCompareScalar_cases val (g (midpoint lo hi)) with ⟨e, h⟩ | ⟨e, h⟩ | ⟨e, h⟩
      · rw [e, if_pos rfl]
        refine ih _ _ (by omega) h2 (by omega) (by omega) (fun k hk hk' => ?_) h6
        have := hm k (midpoint lo hi) hk (by omega) (by omega)
        omega
      · rw [e, if_neg (by decide), if_pos rfl]
        refine ih _ _ h1 (by omega) (by omega) (by omega) h5 (fun k hk hk' => ?_)
        have := hm (midpoint lo hi) k (by omega) (by omega) hk'
        omega
      · rw [e, if_neg (by decide), if_neg (by decide)]
        refine Ret.bind (locateLowerDuplicate_ok (hv.sub h1 (by omega)) (hm.sub h1 (by omega)) m1 rfl)
          ?_
        rintro l ⟨l1, l2, l3⟩
        refine Ret.bind (locateUpperDuplicate_ok (hv.sub (by omega) h2) (hm.sub (by omega) h2) m2 rfl)
          ?_
        rintro u ⟨u1, u2, u3⟩
        refine Ret.ok ⟨by dsimp only; omega, by dsimp only; omega, by dsimp only; omega,
          fun k hk hk' => ?_⟩
        dsimp only
        rw [← h] at l3 u3
        rcases Int.lt_or_le k lo with hk1 | hk1
        · have := h5 k hk hk1
          omega
        rcases Int.lt_or_le hi k with hk2 | hk2
        · have := h6 k hk2 hk'
          omega
        rcases Int.le_total k (midpoint lo hi) with hk3 | hk3
        · have a := l3 k hk1 hk3
          have b := hm k (midpoint lo hi) hk hk3 (by omega)
          omega
        · have a := u3 k hk3 hk2
          have b := hm (midpoint lo hi) k (by omega) hk3 hk'
          omega
    · rw [if_neg hlt]
      exact Ret.ok (done lo hi h1 h2 h3 h5 h6 hlt)

theorem locateMatch_ok {v o : List Int} {g : Int → Int} {lo hi val : Int}
    (hv : OrdVals v o g lo hi) (hm : MonoOn g lo hi) (h : lo ≤ hi + 1) :
    Ret (locateMatch val v o lo hi) (fun r => Bounds g val lo hi r.1 r.2) :=
  locateMatchLoop_ok hv hm _ lo hi (Int.le_refl _) (Int.le_refl _) h (Nat.le_refl _)
    (fun k h1 h2 => by omega) (fun k h1 h2 => by omega)

end Vctrs
