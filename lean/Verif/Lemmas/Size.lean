import Verif.Lemmas.Base
import Verif.Lemmas.Rep
import Verif.Model.Size

namespace Vctrs

open Spec

variable {α β : Type}

/-- A loop reading a vector element by element is a fold. -/
theorem forN_rd_foldlM {S A : Type} (g : A → S → C S) (l : List A) (s : S) :
    forN l.length (fun i s => do
      let a ← rd l i
      g a s) s = l.foldlM (fun s a => g a s) s := by
  suffices h : ∀ (r p : List A) (s : S), forFrom (fun i s => do
      let a ← rd (p ++ r) i
      g a s) p.length r.length s = r.foldlM (fun s a => g a s) s by
    exact h l [] s
  intro r
  induction r with
  | nil => intros; rfl
  | cons a r ih =>
    intro p s
    simp only [List.length_cons, forFrom, List.foldlM_cons]
    have : rd (p ++ a :: r) p.length = .ok a := rd_of_getElem? (by simp)
    rw [this]
    simp only [ok_bind]
    cases g a s with
    | error e => rfl
    | ok s' =>
      simp only [ok_bind]
      have := ih (p ++ [a]) s'
      simpa using this

/-- The values in the dots, splice boxes opened. -/
def Dot.flat : Dot β → List β
  | .plain b => [b]
  | .box bs => bs

theorem reduceSpliced_eq (impl : β → β → C β) (c : β) (xs : List β) :
    reduceSpliced impl c xs = xs.foldlM impl c := by
  simp only [reduceSpliced]
  exact forN_rd_foldlM (fun a s => impl s a) xs c

theorem reduce_eq (impl : β → β → C β) (c : β) (xs : List (Dot β)) :
    reduce impl c xs = (xs.flatMap Dot.flat).foldlM impl c := by
  have := forN_rd_foldlM (fun (a : Dot β) s => match a with
    | .plain next => impl s next
    | .box next => reduceSpliced impl s next) xs c
  refine Eq.trans (b := _) ?_ (this.trans ?_)
  · simp only [reduce]
    congr 1
  clear this
  induction xs generalizing c with
  | nil => rfl
  | cons x xs ih =>
    simp only [List.foldlM_cons, List.flatMap_cons, List.foldlM_append]
    cases x with
    | plain b => simp only [Dot.flat, List.foldlM_cons, List.foldlM_nil, bind_pure, ih]
    | box bs => simp only [Dot.flat, ih, reduceSpliced_eq impl c]

/-- The sizes of the non-`NULL` inputs. -/
def argSizes (xs : List (Arg α)) : List Nat :=
  xs.filterMap (fun x => match x with | .vec a => some a.length | _ => none)

theorem foldSize_ok (xs : List (Arg α)) : ∀ (c : Arg α), (∀ x ∈ c :: xs, x ≠ .scalar) →
    (∃ r, xs.foldlM size2Common c = .ok r ∧ r ≠ .scalar ∧
      (r = .null → argSizes (c :: xs) = []) ∧
      (∀ a, r = .vec a → CommonSize (argSizes (c :: xs)) a.length)) ∨
    (xs.foldlM size2Common c = .error .abort ∧ SizeConflict (argSizes (c :: xs))) := by
  induction xs with
  | nil =>
    intro c hc
    refine Or.inl ⟨c, rfl, hc c (by simp), ?_, ?_⟩
    · rintro rfl; rfl
    · rintro a rfl
      exact ⟨by simp [argSizes], by simp [argSizes]⟩
  | cons y xs ih =>
    intro c hc
    -- one step keeps one of the two and drops one of size 1 or equal size
    have hstep : (∃ c', size2Common c y = .ok c' ∧ (c' = c ∨ c' = y) ∧
        ((argSizes [c', c, y] = argSizes [c, y] ∧ argSizes [c, y] = []) ∨
         (∃ a, c' = .vec a ∧ ∀ s ∈ argSizes [c, y], s = a.length ∨ s = 1))) ∨
        (size2Common c y = .error .abort ∧ SizeConflict (argSizes [c, y])) := by
      cases c with
      | scalar => exact absurd rfl (hc .scalar (by simp))
      | null =>
        cases y with
        | scalar => exact absurd rfl (hc .scalar (by simp))
        | null => exact Or.inl ⟨.null, rfl, Or.inl rfl, Or.inl ⟨rfl, rfl⟩⟩
        | vec b => exact Or.inl ⟨.vec b, rfl, Or.inr rfl, Or.inr ⟨b, rfl, by simp [argSizes]⟩⟩
      | vec a =>
        cases y with
        | scalar => exact absurd rfl (hc .scalar (by simp))
        | null => exact Or.inl ⟨.vec a, rfl, Or.inl rfl, Or.inr ⟨a, rfl, by simp [argSizes]⟩⟩
        | vec b =>
          by_cases h1 : a.length = b.length
          · refine Or.inl ⟨.vec a, ?_, Or.inl rfl, Or.inr ⟨a, rfl, by simp [argSizes, h1]⟩⟩
            simp [size2Common, Arg.check, h1]
          · by_cases h2 : a.length = 1
            · refine Or.inl ⟨.vec b, ?_, Or.inr rfl, Or.inr ⟨b, rfl, ?_⟩⟩
              · simp only [size2Common, Arg.check, ok_bind]
                rw [if_neg h1, if_pos h2]
              · simp [argSizes, h2]
            · by_cases h3 : b.length = 1
              · refine Or.inl ⟨.vec a, ?_, Or.inl rfl, Or.inr ⟨a, rfl, ?_⟩⟩
                · simp only [size2Common, Arg.check, ok_bind]
                  rw [if_neg h1, if_neg h2, if_pos h3]
                · simp [argSizes, h3]
              · refine Or.inr ⟨?_, a.length, by simp [argSizes], b.length, by simp [argSizes], h1, h2, h3⟩
                simp only [size2Common, Arg.check, ok_bind]
                rw [if_neg h1, if_neg h2, if_neg h3]
    have hsplit : ∀ l, argSizes (c :: y :: l) = argSizes [c, y] ++ argSizes l := by
      intro l
      simp only [argSizes]
      rw [← List.filterMap_append]
      rfl
    rcases hstep with ⟨c', h1, h2, h3⟩ | ⟨h1, h2⟩
    · simp only [List.foldlM_cons, h1, ok_bind]
      have hc' : ∀ x ∈ c' :: xs, x ≠ .scalar := by
        intro x hx
        rcases List.mem_cons.1 hx with rfl | hx
        · rcases h2 with rfl | rfl
          · exact hc _ (by simp)
          · exact hc _ (by simp)
        · exact hc x (by simp [hx])
      have hcons : argSizes (c' :: xs) = argSizes [c'] ++ argSizes xs := by
        simp only [argSizes]
        rw [← List.filterMap_append]
        rfl
      have hmem : ∀ s ∈ argSizes [c'], s ∈ argSizes [c, y] := by
        intro s hs
        simp only [argSizes, List.mem_filterMap] at hs ⊢
        obtain ⟨x, hx, hx'⟩ := hs
        simp at hx
        subst hx
        exact ⟨x, by rcases h2 with rfl | rfl <;> simp, hx'⟩
      rcases ih c' hc' with ⟨r, hr, hr1, hr2, hr3⟩ | ⟨hr, s, hs, t, ht, h⟩
      · refine Or.inl ⟨r, hr, hr1, ?_, ?_⟩
        · intro hn
          have := hr2 hn
          rw [hcons, List.append_eq_nil_iff] at this
          rw [hsplit, this.2]
          rcases h3 with ⟨_, h3⟩ | ⟨a, rfl, _⟩
          · rw [h3]; rfl
          · simp [argSizes] at this
        · intro a ha
          obtain ⟨h4, h5⟩ := hr3 a ha
          rw [hcons] at h4 h5
          rw [hsplit]
          refine ⟨?_, ?_⟩
          · rcases List.mem_append.1 h4 with h4 | h4
            · exact List.mem_append.2 (Or.inl (hmem _ h4))
            · exact List.mem_append.2 (Or.inr h4)
          · intro s hs
            rcases List.mem_append.1 hs with hs | hs
            · rcases h3 with ⟨_, h3⟩ | ⟨b, rfl, h3⟩
              · rw [h3] at hs; simp at hs
              · rcases h3 s hs with h | h
                · have := h5 b.length (by simp [argSizes])
                  omega
                · exact Or.inr h
            · exact h5 s (List.mem_append.2 (Or.inr hs))
      · refine Or.inr ⟨hr, s, ?_, t, ?_, h⟩
        · rw [hcons] at hs
          rw [hsplit]
          rcases List.mem_append.1 hs with h | h
          · exact List.mem_append.2 (Or.inl (hmem _ h))
          · exact List.mem_append.2 (Or.inr h)
        · rw [hcons] at ht
          rw [hsplit]
          rcases List.mem_append.1 ht with h | h
          · exact List.mem_append.2 (Or.inl (hmem _ h))
          · exact List.mem_append.2 (Or.inr h)
    · obtain ⟨s, hs, t, ht, h⟩ := h2
      refine Or.inr ⟨?_, s, ?_, t, ?_, h⟩
      · simp only [List.foldlM_cons, h1, error_bind]
      · rw [hsplit]; exact List.mem_append.2 (Or.inl hs)
      · rw [hsplit]; exact List.mem_append.2 (Or.inl ht)

theorem foldSize_scalar (xs : List (Arg α)) : ∀ (c : Arg α), (.scalar ∈ xs) →
    xs.foldlM size2Common c = .error .abort := by
  induction xs with
  | nil => intro c h; simp at h
  | cons y xs ih =>
    intro c h
    simp only [List.foldlM_cons]
    cases hs : size2Common c y with
    | error e =>
      cases c <;> cases y <;> simp [size2Common, Arg.check] at hs ⊢ <;> try exact hs.symm
      split at hs <;> try simp at hs
      split at hs <;> try simp at hs
      split at hs <;> simp at hs
      exact hs.symm
    | ok c' =>
      simp only [ok_bind]
      apply ih
      rcases List.mem_cons.1 h with h | h
      · subst h; cases c <;> simp [size2Common, Arg.check] at hs
      · exact h

theorem commonSize_unique {sizes : List Nat} {n m : Nat} (h1 : CommonSize sizes n)
    (h2 : CommonSize sizes m) : n = m := by
  have := h1.2 m h2.1
  have := h2.2 n h1.1
  omega

theorem commonSize_not_conflict {sizes : List Nat} {n : Nat} (h1 : CommonSize sizes n) :
    ¬ SizeConflict sizes := by
  rintro ⟨s, hs, t, ht, h2, h3, h4⟩
  have := h1.2 s hs
  have := h1.2 t ht
  omega

/-- `vec_size_common_opts` in closed form. -/
theorem vecSizeCommon_cases (xs : List (Dot (Arg α))) (absent : Int) :
    (.scalar ∈ xs.flatMap Dot.flat ∧ vecSizeCommon xs absent = .error .abort) ∨
    (.scalar ∉ xs.flatMap Dot.flat ∧
      ((argSizes (xs.flatMap Dot.flat) = [] ∧ vecSizeCommon xs absent = .ok absent) ∨
       (∃ n, CommonSize (argSizes (xs.flatMap Dot.flat)) n ∧ vecSizeCommon xs absent = .ok n) ∨
       (SizeConflict (argSizes (xs.flatMap Dot.flat)) ∧ vecSizeCommon xs absent = .error .abort))) := by
  simp only [vecSizeCommon, reduce_eq]
  generalize xs.flatMap Dot.flat = l
  classical
  by_cases hsc : .scalar ∈ l
  · exact Or.inl ⟨hsc, by rw [foldSize_scalar l _ hsc]; rfl⟩
  · refine Or.inr ⟨hsc, ?_⟩
    rcases foldSize_ok l .null (by
      intro x hx
      rcases List.mem_cons.1 hx with rfl | hx
      · simp
      · rintro rfl; exact hsc hx) with ⟨r, hr, h1, h2, h3⟩ | ⟨hr, h⟩
    · cases r with
      | scalar => exact absurd rfl h1
      | null => exact Or.inl ⟨h2 rfl, by rw [hr]; rfl⟩
      | vec a => exact Or.inr (Or.inl ⟨a.length, h3 a rfl, by rw [hr]; rfl⟩)
    · exact Or.inr (Or.inr ⟨h, by rw [hr]; rfl⟩)

theorem sliceCompactRep_ok (na : α) {x : List α} {a : α} {j : Int} {n : Nat}
    (h : 1 ≤ j) (hx : x[(j - 1).toNat]? = some a) :
    sliceCompactRep na x j n = .ok (List.replicate n a) := by
  suffices h : Ret (sliceCompactRep na x j n) (fun r => r = List.replicate n a) by
    obtain ⟨r, hr, rfl⟩ := h; exact hr
  unfold sliceCompactRep
  rw [if_neg (by omega)]
  have hj : ¬ j = naInt := by simp only [naInt]; omega
  rw [if_neg hj]
  refine Ret.bind_eq (rdI_ok (by omega) hx) ?_
  simp only [Int.toNat_natCast]
  refine Ret.bind (Ret.forN (fun i (s : List (Option α)) => Wrote (List.replicate i a) n s)
    (Wrote.start _) ?_) ?_
  · intro i s hi hw
    obtain ⟨h1, h2⟩ := hw.step a (by simp) hi
    exact Ret.of_eq h1 (by rw [List.replicate_succ']; exact h2)
  · intro s hw
    exact Ret.of_eq (hw.done (by simp)) rfl

theorem vecCheckRecycle_ok (na : α) (x : List α) (n : Nat) :
    vecCheckRecycle na (.vec x) n = (match x with
      | [a] => .ok (.vec (List.replicate n a))
      | _ => if x.length = n then .ok (.vec x) else .error .abort) := by
  simp only [vecCheckRecycle]
  by_cases h : (x.length : Int) = n
  · rw [if_pos h]
    have h' : x.length = n := by omega
    subst h'
    split
    · rfl
    · simp
  · rw [if_neg h]
    by_cases h1 : x.length = 1
    · rw [if_pos h1]
      obtain ⟨a, rfl⟩ := List.length_eq_one_iff.1 h1
      have : compactRep 1 (n : Int) = .ok (.rep 1 n) := by
        unfold compactRep; rw [if_neg (by omega)]
      rw [this]
      simp only [ok_bind, sliceBase]
      rw [sliceCompactRep_ok na (a := a) (by omega) (by simp)]
      rfl
    · rw [if_neg h1]
      split
      · simp at h1
      · rw [if_neg (by omega)]

theorem flat_plain (xs : List β) : (xs.map Dot.plain).flatMap Dot.flat = xs := by
  induction xs with
  | nil => rfl
  | cons x xs ih =>
    rw [List.map_cons, List.flatMap_cons, ih]; rfl

end Vctrs
