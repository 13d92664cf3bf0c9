import Verif.Lemmas.IntervalGaps

namespace Vctrs

open Spec

/-! ## The points in the gaps -/

section
variable {K : Type} [LinearOrder K] {m : Nat} {A B : Nat → K}

/-- At or after the lower bound, or the first start. -/
def LowOk (m : Nat) (A : Nat → K) (L : Option K) (x : K) : Prop :=
  match L with
  | none => ∃ i, i < m ∧ A i ≤ x
  | some l => l ≤ x

/-- Before the upper bound, or the last end. -/
def UpOk (m : Nat) (B : Nat → K) (U : Option K) (x : K) : Prop :=
  match U with
  | none => ∃ i, i < m ∧ x < B i
  | some u => x < u

theorem exists_count (h : Chain m A B) (x : K) : ∃ c, LowerAt m A (some x) c := by
  have : ∀ k, k ≤ m → ∃ c, c ≤ k ∧ (∀ j, j < c → A j ≤ x) ∧ ∀ j, c ≤ j → j < k → x < A j := by
    intro k
    induction k with
    | zero => intro _; exact ⟨0, by omega, by intro j hj; omega, by intro j _ hj; omega⟩
    | succ k ih =>
      intro hk
      obtain ⟨c, h1, h2, h3⟩ := ih (by omega)
      by_cases hx : A k ≤ x
      · refine ⟨k + 1, by omega, ?_, by intro j _ hj; omega⟩
        intro j hj
        exact le_trans (h.monoA (by omega) (by omega)) hx
      · refine ⟨c, by omega, h2, ?_⟩
        intro j hj hj'
        rcases Nat.lt_or_eq_of_le (Nat.le_of_lt_succ hj') with hj' | rfl
        · exact h3 j hj hj'
        · exact not_le.1 hx
  obtain ⟨c, h1, h2, h3⟩ := this m (le_refl _)
  exact ⟨c, h1, h2, h3⟩

/-- The bounds of the gaps. -/
structure GapKeys (m : Nat) (A B : Nat → K) (L U : Option K) (c d : Nat) (a b : Bool) (j n : Nat)
    (X Y : Nat → K) : Prop where
  chain : Chain m A B
  lower : LowerAt m A L c
  upper : UpperAt m B U d
  first : j = c + (if L.isSome then 0 else 1)
  count : n = d + (if U.isSome then 1 else 0) - j
  addLower : a = true ↔ L.isSome ∧ 0 < n ∧ ¬ LowerIn B L c
  addUpper : b = true ↔ U.isSome ∧ 0 < n ∧ ¬ UpperIn m A U d
  starts : ∀ t, t < n → (t = 0 ∧ a = true ∧ L = some (X t)) ∨ (¬ (t = 0 ∧ a = true) ∧ X t = B (j + t - 1))
  stops : ∀ t, t < n → (t + 1 = n ∧ b = true ∧ U = some (Y t)) ∨
    (¬ (t + 1 = n ∧ b = true) ∧ Y t = A (j + t))
  bounds : ∀ l u, L = some l → U = some u → l < u

variable {L U : Option K} {c d : Nat} {a b : Bool} {j n : Nat} {X Y : Nat → K}

theorem GapKeys.dm (h : GapKeys m A B L U c d a b j n X Y) : d ≤ m := by
  have := h.upper
  cases U with
  | none => exact le_of_eq this
  | some u => exact this.1

theorem GapKeys.pos (h : GapKeys m A B L U c d a b j n X Y) {t : Nat} (ht : t < n)
    (hn : ¬ (t = 0 ∧ a = true)) : 0 < j + t := by
  have hf := h.first
  cases L with
  | none => simp at hf; omega
  | some l =>
    by_cases h0 : t = 0
    · have ha : ¬ a = true := fun e => hn ⟨h0, e⟩
      rw [h.addLower] at ha
      have : LowerIn B (some l) c := by
        by_contra hh
        exact ha ⟨rfl, by omega, hh⟩
      have := this.choose_spec.2.1
      simp at hf
      omega
    · omega

theorem GapKeys.lt (h : GapKeys m A B L U c d a b j n X Y) {t : Nat} (ht : t < n)
    (hn : ¬ (t + 1 = n ∧ b = true)) : j + t < m := by
  have hc := h.count
  have hd := h.dm
  cases U with
  | none => simp at hc; omega
  | some u =>
    simp at hc
    by_cases h0 : t + 1 = n
    · have ha : ¬ b = true := fun e => hn ⟨h0, e⟩
      rw [h.addUpper] at ha
      have : UpperIn m A (some u) d := by
        by_contra hh
        exact ha ⟨rfl, by omega, hh⟩
      have := this.choose_spec.2.1
      omega
    · omega

theorem GapKeys.le (h : GapKeys m A B L U c d a b j n X Y) {t : Nat} (ht : t < n) : j + t ≤ d := by
  have hc := h.count
  cases U with
  | none => simp at hc; omega
  | some u => simp at hc; omega

theorem GapKeys.valid (h : GapKeys m A B L U c d a b j n X Y) {t : Nat} (ht : t < n) : X t < Y t := by
  have hd := h.dm
  have hle := h.le ht
  rcases h.starts t ht with ⟨h0, ha, hX⟩ | ⟨hn, hX⟩
  · rcases h.stops t ht with ⟨_, _, hY⟩ | ⟨hn', hY⟩
    · exact h.bounds _ _ hX hY
    · have hlt := h.lt ht hn'
      have hl := h.lower
      have hf := h.first
      rw [hX] at hl hf
      simp at hf
      rw [hY]
      exact hl.2.2 _ (by omega) hlt
  · have hpos := h.pos ht hn
    rcases h.stops t ht with ⟨_, _, hY⟩ | ⟨hn', hY⟩
    · have hu := h.upper
      rw [hY] at hu
      rw [hX]
      exact hu.2.1 _ (by omega)
    · have hlt := h.lt ht hn'
      rw [hX, hY]
      exact h.chain.sep _ _ (by omega) hlt

theorem GapKeys.apart (h : GapKeys m A B L U c d a b j n X Y) {t t' : Nat} (ht : t < t') (ht' : t' < n) :
    Y t < X t' := by
  have hd := h.dm
  have hle := h.le ht'
  rcases h.starts t' ht' with ⟨h0, _⟩ | ⟨_, hX⟩
  · omega
  · rcases h.stops t (by omega) with ⟨h1, _⟩ | ⟨_, hY⟩
    · omega
    · rw [hX, hY]
      exact lt_of_lt_of_le (h.chain.lt _ (by omega)) (h.chain.monoB (by omega) (by omega))

theorem GapKeys.covers (h : GapKeys m A B L U c d a b j n X Y) (x : K) :
    (∃ t, t < n ∧ X t ≤ x ∧ x < Y t) ↔
      LowOk m A L x ∧ UpOk m B U x ∧ ¬ ∃ i, i < m ∧ A i ≤ x ∧ x < B i := by
  have hd := h.dm
  have hc := h.count
  have hf := h.first
  constructor
  · rintro ⟨t, ht, h1, h2⟩
    have hle := h.le ht
    refine ⟨?_, ?_, ?_⟩
    · rcases h.starts t ht with ⟨h0, ha, hX⟩ | ⟨hn, hX⟩
      · rw [hX]
        exact h1
      · have hpos := h.pos ht hn
        rw [hX] at h1
        cases L with
        | none => exact ⟨j + t - 1, by omega, le_trans (le_of_lt (h.chain.lt _ (by omega))) h1⟩
        | some l =>
          simp at hf
          show l ≤ x
          by_cases h0 : t = 0
          · have ha : ¬ a = true := fun e => hn ⟨h0, e⟩
            rw [h.addLower] at ha
            have : LowerIn B (some l) c := by
              by_contra hh
              exact ha ⟨rfl, by omega, hh⟩
            obtain ⟨l', e, _, hl⟩ := this
            cases e
            have e : j + t - 1 = c - 1 := by omega
            rw [e] at h1
            exact le_trans hl h1
          · have hl : l < A (j + t - 1) := h.lower.2.2 _ (by omega) (by omega)
            have := h.chain.lt (j + t - 1) (by omega)
            order
    · rcases h.stops t ht with ⟨h0, hb, hY⟩ | ⟨hn, hY⟩
      · rw [hY]
        exact h2
      · have hlt := h.lt ht hn
        rw [hY] at h2
        cases U with
        | none => exact ⟨j + t, hlt, lt_trans h2 (h.chain.lt _ hlt)⟩
        | some u =>
          simp at hc
          show x < u
          by_cases h0 : t + 1 = n
          · have ha : ¬ b = true := fun e => hn ⟨h0, e⟩
            rw [h.addUpper] at ha
            have : UpperIn m A (some u) d := by
              by_contra hh
              exact ha ⟨rfl, by omega, hh⟩
            obtain ⟨u', e, _, hl⟩ := this
            cases e
            have e : j + t = d := by omega
            rw [e] at h2
            exact lt_of_lt_of_le h2 hl
          · have hl : B (j + t) < u := h.upper.2.1 _ (by omega)
            have := h.chain.lt (j + t) (by omega)
            order
    · rintro ⟨i, hi, h3, h4⟩
      by_cases hij : i < j + t
      · rcases h.starts t ht with ⟨h0, ha, hX⟩ | ⟨hn, hX⟩
        · have h5 := (h.addLower.1 ha).2.2
          rw [hX] at hf
          simp at hf
          refine h5 ⟨X t, hX, by omega, ?_⟩
          have := h.chain.monoB (i := i) (j := c - 1) (by omega) (by omega)
          order
        · rw [hX] at h1
          have := h.chain.monoB (i := i) (j := j + t - 1) (by omega) (by omega)
          order
      · rcases h.stops t ht with ⟨h0, hb, hY⟩ | ⟨hn, hY⟩
        · have h5 := (h.addUpper.1 hb).2.2
          rw [hY] at hc
          simp at hc
          refine h5 ⟨Y t, hY, by omega, ?_⟩
          have := h.chain.monoA (i := d) (j := i) (by omega) (by omega)
          order
        · rw [hY] at h2
          have := h.chain.monoA (i := j + t) (j := i) (by omega) (by omega)
          order
  · rintro ⟨h1, h2, h3⟩
    obtain ⟨i, him, hi1, hi2⟩ := exists_count h.chain x
    have hB : 0 < i → B (i - 1) ≤ x := by
      intro h0
      by_contra hh
      exact h3 ⟨i - 1, by omega, hi1 _ (by omega), not_le.1 hh⟩
    have hji : j ≤ i := by
      cases L with
      | none =>
        obtain ⟨i0, h4, h5⟩ := h1
        have hl : c = 0 := h.lower
        simp at hf
        by_contra hh
        have := hi2 i0 (by omega) h4
        order
      | some l =>
        have h1 : l ≤ x := h1
        have hl := h.lower
        simp at hf
        by_contra hh
        have h4 := hl.2.1 i (by omega)
        have h5 := hi2 i (le_refl _) (by have := hl.1; omega)
        order
    have hin : i < j + n := by
      cases U with
      | none =>
        obtain ⟨i0, h4, h5⟩ := h2
        have hu : d = m := h.upper
        simp at hc
        by_contra hh
        have h6 := hB (by omega)
        have := h.chain.monoB (i := i0) (j := i - 1) (by omega) (by omega)
        order
      | some u =>
        have h2 : x < u := h2
        have hu := h.upper
        simp at hc
        by_contra hh
        have h6 := hB (by omega)
        have h7 := hu.2.2 (i - 1) (by omega) (by omega)
        order
    have et : j + (i - j) = i := by omega
    refine ⟨i - j, by omega, ?_, ?_⟩
    · rcases h.starts (i - j) (by omega) with ⟨h0, ha, hX⟩ | ⟨hn, hX⟩
      · rw [hX] at h1
        exact h1
      · have hpos := h.pos (t := i - j) (by omega) hn
        rw [hX, et]
        exact hB (by omega)
    · rcases h.stops (i - j) (by omega) with ⟨h0, ha, hX⟩ | ⟨hn, hX⟩
      · rw [hX] at h2
        exact h2
      · have hlt := h.lt (t := i - j) (by omega) hn
        rw [hX, et]
        exact hi2 _ (le_refl _) (by omega)

end

/-! ## Appending -/

/-- The leaves of a value that is made of the rows of two. -/
inductive Joined : List Val → List Val → List Val → Prop
  | nil : Joined [] [] []
  | cons (t : VTy) (xs ys : List t.El) {ps qs rs : List Val} (h : Joined ps qs rs) :
      Joined (.vec t xs :: ps) (.vec t ys :: qs) (.vec t (xs ++ ys) :: rs)

theorem Joined.append {ps qs rs ps' qs' rs' : List Val} (h : Joined ps qs rs) (h' : Joined ps' qs' rs') :
    Joined (ps ++ ps') (qs ++ qs') (rs ++ rs') := by
  induction h with
  | nil => exact h'
  | cons t xs ys _ ih => exact .cons t xs ys ih

mutual

theorem valAppend_ok {n m : Nat} (hnm : n + m ≤ intMax) : (x y : Val) → emptied x = emptied y →
    Sized n x → Sized m y → ∃ z, valAppend x y = .ok z ∧ Sized (n + m) z ∧ emptied z = emptied x ∧
      Joined (leaves x) (leaves y) (leaves z)
  | .vec t xs, .vec u ys, he, hx, hy => by
      have e : t = u := by
        rw [emptied, emptied] at he
        cases he
        rfl
      subst e
      cases hx with
      | vec _ _ h1 =>
      cases hy with
      | vec _ _ h2 =>
      refine ⟨.vec t (xs ++ ys), ?_, .vec _ _ (by simp [h1, h2]), rfl, .cons t xs ys .nil⟩
      rw [valAppend]
      simp only [dite_true]
      have := vecC_ok (naElt t) (xs := [some xs, some ys]) ⟨some xs, by simp, by simp⟩
        (by simp [h1, h2, hnm])
      rw [this, ok_bind]
      simp
  | .vec t xs, .df k ys, he, _, _ => by rw [emptied, emptied] at he; cases he
  | .df k xs, .vec t ys, he, _, _ => by rw [emptied, emptied] at he; cases he
  | .df k xs, .df l ys, he, hx, hy => by
      rw [emptied, emptied] at he
      injection he with _ he
      cases hx with
      | df _ h1 =>
      cases hy with
      | df _ h2 =>
      obtain ⟨zs, hz, h3, h4, h5⟩ := valAppendCols_ok hnm xs ys he h1 h2
      refine ⟨.df (n + m) zs, ?_, .df _ h3, ?_, h5⟩
      · rw [valAppend]
        rw [hz, ok_bind]
      · rw [emptied, emptied, h4]

theorem valAppendCols_ok {n m : Nat} (hnm : n + m ≤ intMax) : (xs ys : List Val) →
    emptiedAll xs = emptiedAll ys → (∀ p ∈ xs, Sized n p) → (∀ p ∈ ys, Sized m p) →
    ∃ zs, valAppendCols xs ys = .ok zs ∧ (∀ p ∈ zs, Sized (n + m) p) ∧
      emptiedAll zs = emptiedAll xs ∧ Joined (leavesAll xs) (leavesAll ys) (leavesAll zs)
  | [], [], _, _, _ => ⟨[], by rw [valAppendCols], by simp, rfl, .nil⟩
  | [], _ :: _, he, _, _ => by rw [emptiedAll, emptiedAll] at he; cases he
  | _ :: _, [], he, _, _ => by rw [emptiedAll, emptiedAll] at he; cases he
  | x :: xs, y :: ys, he, hx, hy => by
      rw [emptiedAll, emptiedAll] at he
      injection he with he1 he2
      obtain ⟨z, hz, h1, h2, h3⟩ := valAppend_ok hnm x y he1 (hx x (by simp)) (hy y (by simp))
      obtain ⟨zs, hzs, h4, h5, h6⟩ := valAppendCols_ok hnm xs ys he2
        (fun p hp => hx p (by simp [hp])) (fun p hp => hy p (by simp [hp]))
      refine ⟨z :: zs, ?_, ?_, ?_, ?_⟩
      · rw [valAppendCols]
        rw [hz, ok_bind, hzs, ok_bind]
      · intro p hp
        rcases List.mem_cons.1 hp with rfl | hp
        · exact h1
        · exact h4 p hp
      · rw [emptiedAll, emptiedAll, h2, h5]
      · exact h3.append h6

end

theorem append_length' {α : Type} {n m : Nat} {xs ys : List α} (h : xs.length = n)
    (h' : ys.length = m) : (xs ++ ys).length = n + m := by simp [h, h']

theorem sortable_append {n m : Nat} {t : VTy} {xs ys : List t.El} (hx : Sortable n (.vec t xs))
    (hy : Sortable m (.vec t ys)) : Sortable (n + m) (.vec t (xs ++ ys)) := by
  match t, xs, ys, hx, hy with
  | .atom .lgl, (xs : List Int), (ys : List Int), ⟨h1, h2⟩, ⟨h3, h4⟩ =>
    refine ⟨append_length' h1 h3, fun v hv => ?_⟩
    rcases List.mem_append.1 hv with hv | hv
    · exact h2 v hv
    · exact h4 v hv
  | .atom .int, (xs : List Int), (ys : List Int), ⟨h1, h2⟩, ⟨h3, h4⟩ =>
    refine ⟨append_length' h1 h3, fun v hv => ?_⟩
    rcases List.mem_append.1 hv with hv | hv
    · exact h2 v hv
    · exact h4 v hv
  | .atom .dbl, (xs : List Dbl), (ys : List Dbl), h1, h3 =>
    have h1 : xs.length = n := h1
    have h3 : ys.length = m := h3
    show (xs ++ ys).length = n + m
    simp [h1, h3]
  | .atom .cpl, (xs : List (Dbl × Dbl)), (ys : List (Dbl × Dbl)), h1, h3 =>
    have h1 : xs.length = n := h1
    have h3 : ys.length = m := h3
    show (xs ++ ys).length = n + m
    simp [h1, h3]
  | .atom .chr, (xs : List Name), (ys : List Name), ⟨h1, h2⟩, ⟨h3, h4⟩ =>
    refine ⟨append_length' h1 h3, fun v hv => ?_⟩
    rcases List.mem_append.1 hv with hv | hv
    · exact h2 v hv
    · exact h4 v hv

theorem Joined.sortable {n m : Nat} {ps qs rs : List Val} (h : Joined ps qs rs)
    (hp : ∀ p ∈ ps, Sortable n p) (hq : ∀ p ∈ qs, Sortable m p) : ∀ p ∈ rs, Sortable (n + m) p := by
  induction h with
  | nil => simp
  | cons t xs ys _ ih =>
    intro p h
    rcases List.mem_cons.1 h with rfl | h
    · exact sortable_append (hp _ (by simp)) (hq _ (by simp))
    · exact ih (fun p h => hp p (by simp [h])) (fun p h => hq p (by simp [h])) p h

theorem Joined.types : {ts : List ATy} → {ps qs rs : List Val} → Joined ps qs rs → HasTypes ts ps →
    HasTypes ts rs
  | [], _, _, _, h, hp => by
      have e : _ = [] := hp
      subst e
      cases h
      rfl
  | _ :: _, _, _, _, h, ⟨xs, ps, e, hp⟩ => by
      subst e
      cases h with
      | cons _ _ ys h => exact ⟨_, _, rfl, h.types hp⟩

theorem Joined.left {n : Nat} : {ts : List ATy} → {ps qs rs : List Val} → Joined ps qs rs →
    (∀ p ∈ ps, Sized n p) → {i : Nat} → {r : Row ts} → HasRow ts ps i r → HasRow ts rs i r
  | [], _, _, _, h, _, _, _, hp => by
      have e : _ = [] := hp
      subst e
      cases h
      rfl
  | _ :: _, _, _, _, h, hs, i, (a, r), ⟨xs, ps, e, ha, hp⟩ => by
      subst e
      cases h with
      | cons _ _ ys h =>
        refine ⟨_, _, rfl, ?_, h.left (fun p h => hs p (by simp [h])) hp⟩
        exact (List.getElem?_append_left (List.getElem?_eq_some_iff.1 ha).1).trans ha

theorem getElem?_append_at {α : Type} {n i : Nat} {xs ys : List α} {a : α} (h : xs.length = n)
    (ha : ys[i]? = some a) : (xs ++ ys)[n + i]? = some a := by
  rw [List.getElem?_append_right (by omega)]
  have e : n + i - xs.length = i := by omega
  rw [e]
  exact ha

theorem Joined.right {n : Nat} : {ts : List ATy} → {ps qs rs : List Val} → Joined ps qs rs →
    (∀ p ∈ ps, Sized n p) → {i : Nat} → {r : Row ts} → HasRow ts qs i r → HasRow ts rs (n + i) r
  | [], _, _, _, h, _, _, _, hp => by
      have e : _ = [] := hp
      subst e
      cases h
      rfl
  | _ :: _, _, _, _, h, hs, i, (a, r), ⟨ys, qs, e, ha, hp⟩ => by
      subst e
      cases h with
      | cons _ xs _ h =>
        refine ⟨_, _, rfl, ?_, h.right (fun p h => hs p (by simp [h])) hp⟩
        have hl : xs.length = n := by
          cases hs _ (List.mem_cons_self ..) with
          | vec _ _ h => exact h
        exact getElem?_append_at hl ha

theorem valAppend_bounds {ts : List ATy} {n m : Nat} (hnm : n + m ≤ intMax) {x y : Val}
    (hx : IsBounds ts n x) (hy : IsBounds ts m y) (he : SameType x y) :
    ∃ z, valAppend x y = .ok z ∧ IsBounds ts (n + m) z ∧ SameType z x ∧
      (∀ {i : Nat} {r : Row ts}, HasRow ts (leaves x) i r → HasRow ts (leaves z) i r) ∧
      ∀ {i : Nat} {r : Row ts}, HasRow ts (leaves y) i r → HasRow ts (leaves z) (n + i) r := by
  obtain ⟨z, hz, h1, h2, h3⟩ := valAppend_ok hnm x y he hx.sized hy.sized
  have hs : ∀ p ∈ leaves x, Sized n p := fun p hp => sized_of_sortable (hx.sortable p hp)
  exact ⟨z, hz, ⟨h1, h3.types hx.types, h3.sortable hx.sortable hy.sortable⟩, h2,
    h3.left hs, h3.right hs⟩

end Vctrs
