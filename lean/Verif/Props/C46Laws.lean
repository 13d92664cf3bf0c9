import Verif.Props.C46

/-!
# C46: laws of slicing and assignment

For all forms of subscripts.  Slicing twice is slicing once; assigning what is there changes nothing; the second of
two assignments wins.
-/

namespace Vctrs

open Spec

variable {α : Type}

theorem lastOccurrence_or (loc : Nat → Option Int) (m p : Nat) :
    (∃ i, LastOccurrence loc m p i) ∨ ∀ i, i < m → loc i ≠ some ((p : Int) + 1) := by
  induction m with
  | zero => exact .inr (fun i hi => absurd hi (by omega))
  | succ m ih =>
    by_cases h : loc m = some ((p : Int) + 1)
    · exact .inl ⟨m, by omega, h, fun j h1 h2 => by omega⟩
    · rcases ih with ⟨i, h1, h2, h3⟩ | ih
      · refine .inl ⟨i, by omega, h2, fun j h4 h5 => ?_⟩
        by_cases hj : j = m
        · subst hj; exact h
        · exact h3 j h4 (by omega)
      · refine .inr (fun i hi => ?_)
        by_cases hj : i = m
        · subst hj; exact h
        · exact ih i (by omega)

/-- `vec_slice(vec_slice(x, i), j)` is `vec_slice(x, vec_slice(i, j))`; `i` and `j` may have missing locations. -/
theorem C46_slice_slice (na : α) {x : List α} {s t : Subscript} {l : List Int} (hs : SubscriptOk x.length s)
    (hl : ∀ i, subscriptAt s i = l[i]?) (hn : subscriptSize s = (l.length : Int)) (ht : SubscriptOk l.length t) :
    ∃ y lt z, sliceBase na x s = .ok y ∧ sliceBase naInt l t = .ok lt ∧ sliceBase na y t = .ok z ∧
      sliceBase na x (.locs lt) = .ok z := by
  obtain ⟨y, h1, h2, h3⟩ := C46_slice na hs
  have hyl : y.length = l.length := by omega
  obtain ⟨lt, h4, h5, h6⟩ := C46_slice naInt ht
  obtain ⟨z, h7, h8, h9⟩ := C46_slice na (x := y) (s := t) (by rw [hyl]; exact ht)
  have hin : ∀ v ∈ l, v = naInt ∨ (1 ≤ v ∧ v ≤ (x.length : Int)) := by
    intro v hv
    obtain ⟨i, hi⟩ := List.mem_iff_getElem?.1 hv
    rw [← hl] at hi
    cases s with
    | rep a n =>
      simp only [subscriptAt] at hi
      split at hi
      · cases hi; exact hs.2
      · cases hi
    | seq start n step =>
      simp only [subscriptAt] at hi
      split at hi
      · rename_i hc
        have := hs.2.2.2.2 i hc
        cases hi
        exact .inr ⟨by omega, by omega⟩
      · cases hi
    | locs l' => exact hs v (List.mem_of_getElem? hi)
  have hlt : SubscriptOk x.length (.locs lt) := by
    intro v hv
    obtain ⟨i, hi⟩ := List.mem_iff_getElem?.1 hv
    have hil : i < lt.length := (List.getElem?_eq_some_iff.1 hi).1
    obtain ⟨loc, _, h10⟩ := h6 i (by omega)
    rw [hi] at h10
    split at h10
    · cases h10; exact .inl rfl
    · exact hin v (List.mem_of_getElem? h10.symm)
  obtain ⟨w, h10, h11, h12⟩ := C46_slice na hlt
  refine ⟨y, lt, z, h1, h4, h7, ?_⟩
  rw [h10]
  congr 1
  have hszw : (subscriptSize (.locs lt)).toNat = lt.length := by simp [subscriptSize]
  apply List.ext_getElem?
  intro i
  by_cases hi : i < (subscriptSize t).toNat
  · obtain ⟨loc, e1, e2⟩ := h9 i hi
    obtain ⟨loc', e3, e4⟩ := h6 i hi
    rw [e1] at e3
    cases e3
    obtain ⟨v, e5, e6⟩ := h12 i (by omega)
    simp only [subscriptAt] at e5
    rw [e5] at e4
    rw [e2, e6]
    split at e4
    · rename_i hna
      cases e4
      rw [if_pos rfl, if_pos hna]
    · rename_i hna
      rw [if_neg hna]
      have hp : (loc - 1).toNat < l.length := (List.getElem?_eq_some_iff.1 e4.symm).1
      obtain ⟨v', e7, e8⟩ := h3 (loc - 1).toNat (by omega)
      rw [hl, ← e4] at e7
      cases e7
      rw [e8]
  · rw [List.getElem?_eq_none (by omega), List.getElem?_eq_none (by omega)]

theorem subscriptAt_none {s : Subscript} (i : Nat) (h : subscriptSize s ≤ (i : Int)) : subscriptAt s i = none := by
  cases s with
  | rep a n => simp only [subscriptAt, subscriptSize] at *; rw [if_neg (by omega)]
  | seq a n b => simp only [subscriptAt, subscriptSize] at *; rw [if_neg (by omega)]
  | locs l => simp only [subscriptAt, subscriptSize] at *; rw [List.getElem?_eq_none (by omega)]

theorem subscriptSize_nonneg {d : Nat} {s : Subscript} (h : SubscriptOk d s) : 0 ≤ subscriptSize s := by
  cases s with
  | rep a n => exact h.1
  | seq a n b => exact h.1
  | locs l => simp [subscriptSize]

/-- `vec_assign(x, i, vec_slice(x, i))` is `x`. -/
theorem C46_assign_slice (na : α) {x : List α} {s : Subscript} (hs : SubscriptOk x.length s) (hr : NotRep s) :
    ∃ v, sliceBase na x s = .ok v ∧ assignBase x s v = .ok x := by
  obtain ⟨v, h1, h2, h3⟩ := C46_slice na hs
  have h0 := subscriptSize_nonneg hs
  obtain ⟨out, h4, h5, h6, h7⟩ := C46_assign hs hr (value := v) (by omega)
  refine ⟨v, h1, ?_⟩
  rw [h4]
  congr 1
  apply List.ext_getElem?
  intro p
  rcases lastOccurrence_or (subscriptAt s) v.length p with ⟨i, hi⟩ | hno
  · rw [h6 p i hi]
    obtain ⟨loc, e1, e2⟩ := h3 i (by have := hi.1; omega)
    rw [hi.2.1] at e1
    cases e1
    rw [e2, if_neg (by simp only [naInt]; omega)]
    congr 1
    omega
  · exact h7 p hno

/-- After `vec_assign(vec_assign(x, i, v), i, w)` nothing is left of `v`. -/
theorem C46_assign_twice {x : List α} {s : Subscript} (hs : SubscriptOk x.length s) (hr : NotRep s)
    {v w : List α} (hv : (v.length : Int) = subscriptSize s) (hw : (w.length : Int) = subscriptSize s) :
    ∃ y z, assignBase x s v = .ok y ∧ assignBase y s w = .ok z ∧ assignBase x s w = .ok z := by
  obtain ⟨y, h1, h2, h3, h4⟩ := C46_assign hs hr hv
  obtain ⟨z, h5, h6, h7, h8⟩ := C46_assign (x := y) (s := s) (by rw [h2]; exact hs) hr hw
  obtain ⟨z', h9, h10, h11, h12⟩ := C46_assign hs hr hw
  refine ⟨y, z, h1, h5, ?_⟩
  rw [h9]
  congr 1
  apply List.ext_getElem?
  intro p
  rcases lastOccurrence_or (subscriptAt s) w.length p with ⟨i, hi⟩ | hno
  · rw [h7 p i hi, h11 p i hi]
  · rw [h8 p hno, h12 p hno, h4 p (fun i hi => hno i (by omega))]

/-- Assignments at locations that are not the same can be exchanged. -/
theorem C46_assign_apart {x : List α} {s t : Subscript} (hs : SubscriptOk x.length s) (ht : SubscriptOk x.length t)
    (hrs : NotRep s) (hrt : NotRep t) {v w : List α} (hv : (v.length : Int) = subscriptSize s)
    (hw : (w.length : Int) = subscriptSize t)
    (hd : ∀ i j loc, subscriptAt s i = some loc → subscriptAt t j = some loc → loc = naInt) :
    ∃ y y' z, assignBase x s v = .ok y ∧ assignBase y t w = .ok z ∧ assignBase x t w = .ok y' ∧
      assignBase y' s v = .ok z := by
  obtain ⟨y, a1, a2, a3, a4⟩ := C46_assign hs hrs hv
  obtain ⟨z, b1, b2, b3, b4⟩ := C46_assign (x := y) (s := t) (by rw [a2]; exact ht) hrt hw
  obtain ⟨y', c1, c2, c3, c4⟩ := C46_assign ht hrt hw
  obtain ⟨z', d1, d2, d3, d4⟩ := C46_assign (x := y') (s := s) (by rw [c2]; exact hs) hrs hv
  refine ⟨y, y', z, a1, b1, c1, ?_⟩
  rw [d1]
  congr 1
  apply List.ext_getElem?
  intro p
  have hne : ((p : Int) + 1) ≠ naInt := by simp only [naInt]; omega
  rcases lastOccurrence_or (subscriptAt s) v.length p with ⟨i, hi⟩ | hno
  · have hno' : ∀ j, j < w.length → subscriptAt t j ≠ some ((p : Int) + 1) :=
      fun j _ h => hne (hd i j _ hi.2.1 h)
    rw [d3 p i hi, b4 p hno', a3 p i hi]
  · rw [d4 p hno]
    rcases lastOccurrence_or (subscriptAt t) w.length p with ⟨i, hi⟩ | hno'
    · rw [c3 p i hi, b3 p i hi]
    · rw [c4 p hno', b4 p hno', a4 p hno]

/-- A location that occurs twice and a missing one. -/
example : sliceBase 0 [10, 20, 30, 40] (.locs [2, naInt, 4, 2]) = .ok [20, 0, 40, 20] ∧
    sliceBase naInt [2, naInt, 4, 2] (.seq 3 3 (-1)) = .ok [2, 4, naInt] ∧
    sliceBase 0 [20, 0, 40, 20] (.seq 3 3 (-1)) = .ok [20, 40, 0] ∧
    sliceBase 0 [10, 20, 30, 40] (.locs [2, 4, naInt]) = .ok [20, 40, 0] ∧
    assignBase [10, 20, 30, 40] (.locs [2, naInt, 4, 2]) [20, 0, 40, 20] = .ok [10, 20, 30, 40] ∧
    assignBase [10, 20, 30, 40] (.locs [2, naInt, 4, 2]) [1, 2, 3, 4] = .ok [10, 4, 30, 3] ∧
    assignBase [10, 4, 30, 3] (.locs [2, naInt, 4, 2]) [5, 6, 7, 8] = .ok [10, 8, 30, 7] ∧
    assignBase [10, 4, 30, 3] (.locs [1, naInt]) [5, 6] = .ok [5, 4, 30, 3] := by decide +kernel

example : SubscriptOk 4 (.locs [2, naInt, 4, 2]) ∧ SubscriptOk 4 (.seq 3 3 (-1)) := by
  refine ⟨?_, by decide, by decide, by decide, by decide, ?_⟩
  · intro v hv; simp at hv; rcases hv with rfl | rfl | rfl | rfl <;> simp [naInt]
  · intro j hj; omega

end Vctrs
