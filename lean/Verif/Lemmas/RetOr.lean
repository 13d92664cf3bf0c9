import Verif.Lemmas.Base

/-! Outcomes of computations that may fail in a known way. -/

namespace Vctrs
variable {α γ S : Type _}

/-- The computation returns a value with `P`, or fails with an error in `E`. -/
def RetOr (c : C α) (P : α → Prop) (E : Err → Prop) : Prop :=
  (∃ a, c = .ok a ∧ P a) ∨ ∃ e, c = .error e ∧ E e

theorem RetOr.ok {P : α → Prop} {E : Err → Prop} {a : α} (h : P a) : RetOr (.ok a) P E := Or.inl ⟨a, rfl, h⟩

theorem Ret.orErr {c : C α} {P : α → Prop} {E : Err → Prop} (h : Ret c P) : RetOr c P E := Or.inl h

theorem RetOr.bind {c : C α} {f : α → C γ} {P : α → Prop} {Q : γ → Prop} {E : Err → Prop}
    (h : RetOr c P E) (hf : ∀ a, P a → RetOr (f a) Q E) : RetOr (c >>= f) Q E := by
  rcases h with ⟨a, rfl, ha⟩ | ⟨e, rfl, he⟩
  · rw [ok_bind]; exact hf a ha
  · exact Or.inr ⟨e, rfl, he⟩

theorem RetOr.bind_eq {c : C α} {f : α → C γ} {Q : γ → Prop} {E : Err → Prop} {a : α}
    (h : c = .ok a) (hf : RetOr (f a) Q E) : RetOr (c >>= f) Q E := by rw [h, ok_bind]; exact hf

theorem RetOr.mono {c : C α} {P Q : α → Prop} {E : Err → Prop} (h : RetOr c P E) (hPQ : ∀ a, P a → Q a) :
    RetOr c Q E := by
  rcases h with ⟨a, h1, h2⟩ | h
  · exact Or.inl ⟨a, h1, hPQ a h2⟩
  · exact Or.inr h

/-- An arbitrary computation: it returns or fails. -/
theorem RetOr.self (c : C α) : RetOr c (fun a => c = .ok a) (fun e => c = .error e) := by
  cases c with
  | ok a => exact Or.inl ⟨a, rfl, rfl⟩
  | error e => exact Or.inr ⟨e, rfl, rfl⟩

theorem RetOr.forFrom {f : Nat → S → C S} {E : Err → Prop} (I : Nat → S → Prop) :
    ∀ (r i : Nat) (s : S), I i s → (∀ j s, i ≤ j → j < i + r → I j s → RetOr (f j s) (I (j + 1)) E) →
      RetOr (Vctrs.forFrom f i r s) (I (i + r)) E := by
  intro r
  induction r with
  | zero => intro i s h _; exact RetOr.ok h
  | succ r ih =>
    intro i s h hs
    refine RetOr.bind (hs i s (Nat.le_refl _) (by omega) h) ?_
    intro s' hs'
    have := ih (i + 1) s' hs' (fun j s hj hj' => hs j s (by omega) (by omega))
    rwa [show i + 1 + r = i + (r + 1) by omega] at this

theorem RetOr.forN {f : Nat → S → C S} {n : Nat} {s : S} {E : Err → Prop} (I : Nat → S → Prop) (h0 : I 0 s)
    (hs : ∀ i s, i < n → I i s → RetOr (f i s) (I (i + 1)) E) : RetOr (Vctrs.forN n f s) (I n) E := by
  have := RetOr.forFrom (f := f) (E := E) I n 0 s h0 (fun j s _ hj hI => hs j s (by omega) hI)
  simpa [Vctrs.forN] using this

theorem RetOr.forBrkFrom {f : Nat → S → C (Ctl S)} {E : Err → Prop} (I : Nat → S → Prop) (Q : S → Prop) :
    ∀ (r i : Nat) (s : S), I i s → (∀ j s, i ≤ j → j < i + r → I j s →
        RetOr (f j s) (fun r => match r with | .next s' => I (j + 1) s' | .brk s' => Q s') E) →
      (∀ s, I (i + r) s → Q s) → RetOr (Vctrs.forBrkFrom f i r s) Q E := by
  intro r
  induction r with
  | zero => intro i s h _ hq; exact RetOr.ok (hq s h)
  | succ r ih =>
    intro i s h hs hq
    refine RetOr.bind (hs i s (Nat.le_refl _) (by omega) h) ?_
    intro c hc
    cases c with
    | next s' =>
      refine ih (i + 1) s' hc (fun j s hj hj' => hs j s (by omega) (by omega)) ?_
      intro s hI
      exact hq s (by rwa [show i + (r + 1) = i + 1 + r by omega])
    | brk s' => exact RetOr.ok hc

theorem RetOr.forBrk {f : Nat → S → C (Ctl S)} {n : Nat} {s : S} {E : Err → Prop} (I : Nat → S → Prop)
    (Q : S → Prop) (h0 : I 0 s)
    (hs : ∀ i s, i < n → I i s →
      RetOr (f i s) (fun r => match r with | .next s' => I (i + 1) s' | .brk s' => Q s') E)
    (hq : ∀ s, I n s → Q s) : RetOr (Vctrs.forBrk n f s) Q E :=
  RetOr.forBrkFrom I Q n 0 s h0 (fun j s _ hj hI => hs j s (by omega) hI) (fun s hI => hq s (by simpa using hI))

end Vctrs
