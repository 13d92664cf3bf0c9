import Verif.Base

namespace Vctrs

variable {α β S : Type _}

theorem rd_ok {l : List α} {i : Nat} (h : i < l.length) : rd l i = .ok l[i] := by
  simp [rd, List.getElem?_eq_getElem h]

theorem rd_eq_ok {l : List α} {i : Nat} {a : α} : rd l i = .ok a ↔ l[i]? = some a := by
  unfold rd; split <;> simp_all

theorem rd_of_getElem? {l : List α} {i : Nat} {a : α} (h : l[i]? = some a) : rd l i = .ok a :=
  rd_eq_ok.2 h

theorem rd_ub {l : List α} {i : Nat} (h : l.length ≤ i) : rd l i = .error .ub := by
  simp [rd, List.getElem?_eq_none h]

theorem wr_ok {l : List α} {i : Nat} {a : α} (h : i < l.length) :
    wr l i a = .ok (l.set i a) := by simp [wr, h]

theorem rdI_ok {l : List α} {i : Int} {a : α} (h0 : 0 ≤ i) (h : l[i.toNat]? = some a) :
    rdI l i = .ok a := by
  unfold rdI; rw [if_neg (by omega)]; exact rd_of_getElem? h

theorem wrI_ok {l : List α} {i : Int} {a : α} (h0 : 0 ≤ i) (h : i.toNat < l.length) :
    wrI l i a = .ok (l.set i.toNat a) := by
  unfold wrI; rw [if_neg (by omega)]; exact wr_ok h

theorem rdU_ok {l : List (Option α)} {i : Nat} {a : α} (h : l[i]? = some (some a)) :
    rdU l i = .ok a := by simp [rdU, h]

@[simp] theorem alloc_length (n : Nat) : (alloc α n).length = n := by simp [alloc]

/-- A fully written buffer becomes the vector of its contents. -/
theorem initd_map_some (l : List α) : initd (l.map some) = .ok l := by
  induction l with
  | nil => rfl
  | cons a l ih => simp [initd, ih]

theorem initd_ok {l : List (Option α)} {r : List α} (hl : l.length = r.length)
    (h : ∀ i (hi : i < r.length), l[i]? = some (some r[i])) : initd l = .ok r := by
  have : l = r.map some := by
    apply List.ext_getElem?
    intro i
    by_cases hi : i < r.length
    · rw [h i hi]; simp [hi]
    · rw [List.getElem?_eq_none (by omega), List.getElem?_eq_none (by simp; omega)]
  rw [this, initd_map_some]

/-- `initd` written pointwise by a function. -/
theorem initd_fn {l : List (Option α)} {n : Nat} (f : Nat → α) (hl : l.length = n)
    (h : ∀ i, i < n → l[i]? = some (some (f i))) :
    initd l = .ok ((List.range n).map f) := by
  apply initd_ok (by simpa using hl)
  intro i hi
  simp at hi
  simp [h i hi]

theorem initd_eq_ok {l : List (Option α)} {r : List α} : initd l = .ok r ↔ l = r.map some := by
  constructor
  · intro h
    induction l generalizing r with
    | nil => simp [initd] at h; simp [← h]
    | cons a l ih =>
      cases a with
      | none => simp [initd] at h
      | some a =>
        simp only [initd] at h
        cases hl : initd l with
        | error e => simp [hl] at h
        | ok r' =>
          simp [hl] at h
          subst h
          simp [ih hl]
  · rintro rfl; exact initd_map_some r

/-- Invariant rule for counted loops: if `I` holds initially and every iteration
succeeds and re-establishes it, the loop succeeds and `I` holds at the end. -/
theorem forFrom_inv {f : Nat → S → C S} (I : Nat → S → Prop) :
    ∀ (r i : Nat) (s : S), I i s →
      (∀ j s, i ≤ j → j < i + r → I j s → ∃ s', f j s = .ok s' ∧ I (j + 1) s') →
      ∃ s', forFrom f i r s = .ok s' ∧ I (i + r) s' := by
  intro r
  induction r with
  | zero => intro i s h _; exact ⟨s, rfl, by simpa using h⟩
  | succ r ih =>
    intro i s h hs
    obtain ⟨s1, h1, h2⟩ := hs i s (Nat.le_refl _) (by omega) h
    obtain ⟨s2, h3, h4⟩ := ih (i + 1) s1 h2
      (fun j s hj hj' => hs j s (by omega) (by omega))
    refine ⟨s2, ?_, ?_⟩
    · simp only [forFrom, h1, ok_bind, h3]
    · have : i + (r + 1) = i + 1 + r := by omega
      rw [this]; exact h4

theorem forN_inv {f : Nat → S → C S} {n : Nat} {s : S} (I : Nat → S → Prop) (h0 : I 0 s)
    (hs : ∀ i s, i < n → I i s → ∃ s', f i s = .ok s' ∧ I (i + 1) s') :
    ∃ s', forN n f s = .ok s' ∧ I n s' := by
  have := forFrom_inv (f := f) I n 0 s h0 (fun j s _ hj hI => hs j s (by omega) hI)
  simpa [forN] using this

/-- A counted loop fails with `e` if its first `k` iterations keep the invariant and
iteration `k` fails with `e`. -/
theorem forFrom_err {f : Nat → S → C S} (I : Nat → S → Prop) {e : Err} :
    ∀ (r i k : Nat) (s : S), i ≤ k → k < i + r → I i s →
      (∀ j s, i ≤ j → j < k → I j s → ∃ s', f j s = .ok s' ∧ I (j + 1) s') →
      (∀ s, I k s → f k s = .error e) →
      forFrom f i r s = .error e := by
  intro r
  induction r with
  | zero => intro i k s h1 h2; omega
  | succ r ih =>
    intro i k s hik hk hI hs he
    by_cases h : i = k
    · subst h; simp [forFrom, he s hI]
    · obtain ⟨s1, h1, h2⟩ := hs i s (Nat.le_refl _) (by omega) hI
      simp only [forFrom, h1, ok_bind]
      exact ih (i + 1) k s1 (by omega) (by omega) h2
        (fun j s hj hj' => hs j s (by omega) hj') he

theorem wr_oob {α : Type} {l : List α} {i : Nat} {v : α} (h : l.length ≤ i) :
    wr l i v = .error .ub := by
  unfold wr; rw [if_neg (by omega)]

theorem rd_oob {α : Type} {l : List α} {i : Nat} (h : l.length ≤ i) :
    rd l i = .error .ub := by
  unfold rd; rw [List.getElem?_eq_none h]

theorem wrI_neg {α : Type} {l : List α} {i : Int} {v : α} (h : i < 0) :
    wrI l i v = .error .ub := by
  unfold wrI; rw [if_pos h]

theorem wrI_oob {α : Type} {l : List α} {i : Int} {v : α} (h : (l.length : Int) ≤ i) :
    wrI l i v = .error .ub := by
  unfold wrI
  split
  · rfl
  · exact wr_oob (by omega)

theorem bind_eq_of {α β : Type} {c : C α} {a : α} {f : α → C β} {r : C β} (h : c = .ok a)
    (h2 : f a = r) : (c >>= f) = r := by rw [h]; exact h2

theorem bind_err_of {α β : Type} {c : C α} {f : α → C β} {e : Err} (h : c = .error e) :
    (c >>= f) = .error e := by rw [h]; rfl

theorem forN_err {f : Nat → S → C S} {n k : Nat} {s : S} {e : Err} (I : Nat → S → Prop)
    (hk : k < n) (h0 : I 0 s)
    (hs : ∀ i s, i < k → I i s → ∃ s', f i s = .ok s' ∧ I (i + 1) s')
    (he : ∀ s, I k s → f k s = .error e) : forN n f s = .error e :=
  forFrom_err I n 0 k s (by omega) (by omega) h0 (fun j s _ hj hI => hs j s hj hI) he

/-- Invariant rule for loops with `break`: `I` is the running invariant, `Q` is what holds
on exit (either by `break` or by running to the end). -/
theorem forBrkFrom_inv {f : Nat → S → C (Ctl S)} (I : Nat → S → Prop) (Q : S → Prop) :
    ∀ (r i : Nat) (s : S), I i s →
      (∀ j s, i ≤ j → j < i + r → I j s →
        (∃ s', f j s = .ok (.next s') ∧ I (j + 1) s') ∨ (∃ s', f j s = .ok (.brk s') ∧ Q s')) →
      (∀ s, I (i + r) s → Q s) →
      ∃ s', forBrkFrom f i r s = .ok s' ∧ Q s' := by
  intro r
  induction r with
  | zero => intro i s h _ hq; exact ⟨s, rfl, hq s (by simpa using h)⟩
  | succ r ih =>
    intro i s h hs hq
    rcases hs i s (Nat.le_refl _) (by omega) h with ⟨s1, h1, h2⟩ | ⟨s1, h1, h2⟩
    · obtain ⟨s2, h3, h4⟩ := ih (i + 1) s1 h2
        (fun j s hj hj' => hs j s (by omega) (by omega))
        (fun s hI => hq s (by rwa [show i + (r + 1) = i + 1 + r by omega]))
      refine ⟨s2, ?_, h4⟩
      simp only [forBrkFrom, h1, ok_bind, h3]
    · exact ⟨s1, by simp [forBrkFrom, h1], h2⟩

theorem forBrk_inv {f : Nat → S → C (Ctl S)} {n : Nat} {s : S} (I : Nat → S → Prop)
    (Q : S → Prop) (h0 : I 0 s)
    (hs : ∀ i s, i < n → I i s →
      (∃ s', f i s = .ok (.next s') ∧ I (i + 1) s') ∨ (∃ s', f i s = .ok (.brk s') ∧ Q s'))
    (hq : ∀ s, I n s → Q s) :
    ∃ s', forBrk n f s = .ok s' ∧ Q s' :=
  forBrkFrom_inv I Q n 0 s h0 (fun j s _ hj hI => hs j s (by omega) hI)
    (fun s hI => hq s (by simpa using hI))

/-- Invariant rule for downward loops; `I i s`: indices `≥ i` have been processed. -/
theorem forDown_inv {f : Nat → S → C S} (I : Nat → S → Prop) :
    ∀ (n : Nat) (s : S), I n s →
      (∀ i s, i < n → I (i + 1) s → ∃ s', f i s = .ok s' ∧ I i s') →
      ∃ s', forDown f n s = .ok s' ∧ I 0 s' := by
  intro n
  induction n with
  | zero => intro s h _; exact ⟨s, rfl, h⟩
  | succ n ih =>
    intro s h hs
    obtain ⟨s1, h1, h2⟩ := hs n s (by omega) h
    obtain ⟨s2, h3, h4⟩ := ih s1 h2 (fun i s hi => hs i s (by omega))
    exact ⟨s2, by simp only [forDown, h1, ok_bind, h3], h4⟩

/-! ## Total correctness triples -/

/-- `c` returns normally with a value satisfying `P`. -/
def Ret (c : C α) (P : α → Prop) : Prop := ∃ a, c = .ok a ∧ P a

theorem Ret.ok {P : α → Prop} {a : α} (h : P a) : Ret (.ok a) P := ⟨a, rfl, h⟩

theorem Ret.of_eq {c : C α} {P : α → Prop} {a : α} (he : c = .ok a) (h : P a) : Ret c P :=
  ⟨a, he, h⟩

theorem Ret.bind {c : C α} {k : α → C β} {P : α → Prop} {Q : β → Prop} (h : Ret c P)
    (hk : ∀ a, P a → Ret (k a) Q) : Ret (c >>= k) Q := by
  obtain ⟨a, rfl, ha⟩ := h
  exact hk a ha

theorem Ret.bind_eq {c : C α} {k : α → C β} {Q : β → Prop} {a : α} (h : c = .ok a)
    (hk : Ret (k a) Q) : Ret (c >>= k) Q := by
  rw [h]; exact hk

theorem Ret.mono {c : C α} {P Q : α → Prop} (h : Ret c P) (hpq : ∀ a, P a → Q a) : Ret c Q := by
  obtain ⟨a, ha, hp⟩ := h
  exact ⟨a, ha, hpq a hp⟩

theorem Ret.forN {f : Nat → S → C S} {n : Nat} {s : S} (I : Nat → S → Prop) (h0 : I 0 s)
    (hs : ∀ i s, i < n → I i s → Ret (f i s) (I (i + 1))) : Ret (forN n f s) (I n) :=
  forN_inv I h0 hs

theorem Ret.forFrom {f : Nat → S → C S} {i r : Nat} {s : S} (I : Nat → S → Prop) (h0 : I i s)
    (hs : ∀ j s, i ≤ j → j < i + r → I j s → Ret (f j s) (I (j + 1))) :
    Ret (forFrom f i r s) (I (i + r)) :=
  forFrom_inv I r i s h0 hs

theorem Ret.forDown {f : Nat → S → C S} {n : Nat} {s : S} (I : Nat → S → Prop) (h0 : I n s)
    (hs : ∀ i s, i < n → I (i + 1) s → Ret (f i s) (I i)) : Ret (forDown f n s) (I 0) :=
  forDown_inv I n s h0 hs

theorem Ret.forBrk {f : Nat → S → C (Ctl S)} {n : Nat} {s : S} (I : Nat → S → Prop)
    (Q : S → Prop) (h0 : I 0 s)
    (hs : ∀ i s, i < n → I i s →
      Ret (f i s) (fun r => match r with | .next s' => I (i + 1) s' | .brk s' => Q s'))
    (hq : ∀ s, I n s → Q s) : Ret (forBrk n f s) Q := by
  refine forBrk_inv I Q h0 ?_ hq
  intro i s hi hI
  obtain ⟨r, hr, hP⟩ := hs i s hi hI
  cases r with
  | next s' => exact Or.inl ⟨s', hr, hP⟩
  | brk s' => exact Or.inr ⟨s', hr, hP⟩

/-- Writing one element of a buffer, pointwise. -/
theorem getElem?_set' {l : List α} {i j : Nat} {b : α} (h : i < l.length) :
    (l.set i b)[j]? = if j = i then some b else l[j]? := by
  rw [List.getElem?_set]
  by_cases hij : i = j
  · subst hij; simp [h]
  · rw [if_neg hij, if_neg (Ne.symm hij)]

/-- A buffer all of whose elements have been written, with a property of each element. -/
theorem initd_ret {l : List (Option α)} {n : Nat} {R : Nat → α → Prop} (hl : l.length = n)
    (h : ∀ i, i < n → ∃ r, l[i]? = some (some r) ∧ R i r) :
    Ret (initd l) (fun out => out.length = n ∧ ∀ i r, out[i]? = some r → R i r) := by
  have h' : ∀ i, i < n → ∃ r, l[i]? = some (some r) := fun i hi => by
    obtain ⟨r, hr, _⟩ := h i hi
    exact ⟨r, hr⟩
  have : ∃ r : List α, l = r.map some := by
    clear h
    induction l generalizing n with
    | nil => exact ⟨[], rfl⟩
    | cons a l ih =>
      subst hl
      obtain ⟨r, hr⟩ := ih (n := l.length) rfl (fun i hi => by
        obtain ⟨b, hb⟩ := h' (i + 1) (by simp; omega)
        exact ⟨b, by simpa using hb⟩)
      obtain ⟨b, hb⟩ := h' 0 (by simp)
      exact ⟨b :: r, by simp at hb; simp [hb, hr]⟩
  obtain ⟨r, rfl⟩ := this
  refine ⟨r, initd_map_some r, by simpa using hl, ?_⟩
  intro i a ha
  obtain ⟨b, hb, hR⟩ := h i (by
    have := (List.getElem?_eq_some_iff.1 ha).1
    simp at hl
    omega)
  simp [ha] at hb
  subst hb
  exact hR

/-- The elements below `i` of a buffer of size `n` have been written and satisfy `R`. -/
structure Filled (R : Nat → α → Prop) (n i : Nat) (l : List (Option α)) : Prop where
  len : l.length = n
  val : ∀ j, j < i → ∃ r, l[j]? = some (some r) ∧ R j r

theorem Filled.start (R : Nat → α → Prop) (n : Nat) : Filled R n 0 (alloc α n) :=
  ⟨by simp, by intro j hj; omega⟩

theorem Filled.step {R : Nat → α → Prop} {n i : Nat} {l : List (Option α)} (h : Filled R n i l)
    {r : α} (hi : i < n) (hr : R i r) :
    wr l i (some r) = .ok (l.set i (some r)) ∧ Filled R n (i + 1) (l.set i (some r)) := by
  have hil : i < l.length := by rw [h.len]; exact hi
  refine ⟨wr_ok hil, by simpa using h.len, ?_⟩
  intro j hj
  rw [getElem?_set' hil]
  by_cases hji : j = i
  · subst hji; exact ⟨r, by simp, hr⟩
  · obtain ⟨r', hr', hr''⟩ := h.val j (by omega)
    exact ⟨r', by rw [if_neg hji]; exact hr', hr''⟩

theorem Filled.done {R : Nat → α → Prop} {n : Nat} {l : List (Option α)} (h : Filled R n n l) :
    Ret (initd l) (fun out => out.length = n ∧ ∀ i r, out[i]? = some r → R i r) :=
  initd_ret h.len h.val

/-- Final form: a fully written buffer, read through the source vector it was computed from. -/
theorem Filled.done_of {R : Nat → α → Prop} {n : Nat} {l : List (Option α)} (h : Filled R n n l) :
    Ret (initd l) (fun out => out.length = n ∧ ∀ i, i < n → ∃ r, out[i]? = some r ∧ R i r) := by
  refine h.done.mono ?_
  rintro out ⟨h1, h2⟩
  refine ⟨h1, ?_⟩
  intro i hi
  exact ⟨out[i], List.getElem?_eq_getElem (by omega), h2 i _ (List.getElem?_eq_getElem (by omega))⟩

end Vctrs
