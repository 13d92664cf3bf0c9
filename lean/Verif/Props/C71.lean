import Verif.Lemmas.RetOr
import Verif.Lemmas.Cast
import Verif.Model.Fields

/-!
# C71: fields of records
-/

namespace Vctrs

namespace Spec

variable {S : Type}

/-- The (0-based) position that an index denotes in a list of `n` elements with these names. -/
inductive Finds (H : StrHeap S) (n : Nat) (names : Option (List S)) : FieldIndex S → Nat → Prop
  | int (k : Nat) : k < n → Finds H n names (.int [(k : Int) + 1]) k
  | dbl (d : Dbl) (k : Nat) : isNan d = false → k < n → ((k : Int) + 1) * 2 ^ 1074 ≤ dblVal d →
      dblVal d < ((k : Int) + 2) * 2 ^ 1074 → Finds H n names (.dbl [d]) k
  | chr (s : S) (nms : List S) (k : Nat) (t : S) : names = some nms → s ≠ H.naStr → H.utf8 s ≠ [] →
      nms[k]? = some t → H.utf8 t = H.utf8 s → (∀ j, j ≤ k → nms[j]? ≠ some H.naStr) →
      (∀ (j : Nat) t', j < k → nms[j]? = some t' → H.utf8 t' ≠ H.utf8 s) → Finds H n names (.chr [s]) k

/-- The index is a NaN that is not `NA`. -/
def NanIndex : FieldIndex S → Prop
  | .dbl [d] => isNan d = true ∧ d.toNat % 2 ^ 32 ≠ 1954
  | _ => False

end Spec

open Spec

variable {S V : Type} [DecidableEq S]

theorem equalString_iff {H : StrHeap S} {x y : S} : equalString H x y = true ↔ H.utf8 y = H.utf8 x := by
  unfold equalString
  split
  · rename_i h; subst h; simp
  · simp

/-- The loop over the names finds the first match, unless a missing name comes first. -/
theorem findName_spec (H : StrHeap S) (nms : List S) (s : S) :
    RetOr (forBrk nms.length (findNameStep H nms s) none)
      (fun r => match r with
        | some k => (∃ t, nms[k]? = some t ∧ H.utf8 t = H.utf8 s) ∧ (∀ j, j ≤ k → nms[j]? ≠ some H.naStr) ∧
          ∀ (j : Nat) t', j < k → nms[j]? = some t' → H.utf8 t' ≠ H.utf8 s
        | none => ∀ (j : Nat) t', nms[j]? = some t' → H.utf8 t' ≠ H.utf8 s)
      (fun e => e = .abort ∧ ∃ k : Nat, nms[k]? = some H.naStr ∧
        ∀ (j : Nat) t', j < k → nms[j]? = some t' → H.utf8 t' ≠ H.utf8 s) := by
  refine RetOr.forBrk (fun k (r : Option Nat) => r = none ∧ (∀ j, j < k → nms[j]? ≠ some H.naStr) ∧
    ∀ (j : Nat) t', j < k → nms[j]? = some t' → H.utf8 t' ≠ H.utf8 s) _ ⟨rfl, by simp, by simp⟩ ?_ ?_
  · rintro k r hk ⟨h1, h2, h3⟩
    unfold findNameStep
    refine RetOr.bind_eq (rd_ok hk) ?_
    by_cases hna : nms[k] = H.naStr
    · rw [if_pos hna]
      exact Or.inr ⟨_, rfl, rfl, k, by rw [List.getElem?_eq_getElem hk, hna], h3⟩
    rw [if_neg hna]
    have hna' : ∀ j, j < k + 1 → nms[j]? ≠ some H.naStr := by
      intro j hj
      by_cases hjk : j = k
      · subst hjk
        rw [List.getElem?_eq_getElem hk]
        simpa using hna
      · exact h2 j (by omega)
    by_cases he : equalString H s nms[k] = true
    · rw [if_pos he]
      refine RetOr.ok ⟨⟨nms[k], List.getElem?_eq_getElem hk, equalString_iff.1 he⟩, fun j hj => hna' j (by omega), h3⟩
    · rw [if_neg he]
      refine RetOr.ok ⟨rfl, hna', ?_⟩
      intro j t' hj ht
      by_cases hjk : j = k
      · subst hjk
        rw [List.getElem?_eq_getElem hk] at ht
        cases ht
        exact fun h => he (equalString_iff.2 h)
      · exact h3 j t' (by omega) ht
  · rintro r ⟨rfl, h2, h3⟩ j t' ht
    exact h3 j t' (List.getElem?_eq_some_iff.1 ht).1 ht

theorem findOffset_dbl {n : Nat} (hn : n ≤ intMax) {d : Dbl} :
    (isNan d = true ∧ d.toNat % 2 ^ 32 ≠ 1954 ∧ findOffsetDbl n [d] = .error .ub) ∨
    (¬ (isNan d = true ∧ d.toNat % 2 ^ 32 ≠ 1954) ∧ RetOr (findOffsetDbl n [d])
      (fun k => isNan d = false ∧ k < n ∧ ((k : Int) + 1) * 2 ^ 1074 ≤ dblVal d ∧ dblVal d < ((k : Int) + 2) * 2 ^ 1074)
      (fun e => e = .abort ∧ ∀ k : Nat, k < n → isNan d = false → ((k : Int) + 1) * 2 ^ 1074 ≤ dblVal d →
        ¬ dblVal d < ((k : Int) + 2) * 2 ^ 1074)) := by
  have hU := unit_pos
  unfold findOffsetDbl
  rw [rd_ok (by simp : 0 < [d].length)]
  simp only [ok_bind, List.getElem_cons_zero]
  by_cases hna : rIsNA d = true
  · right
    rw [if_pos hna]
    unfold rIsNA at hna
    simp only [Bool.and_eq_true, decide_eq_true_eq] at hna
    exact ⟨fun h => h.2 hna.2, Or.inr ⟨_, rfl, rfl, fun k _ h => by rw [hna.1] at h; cases h⟩⟩
  rw [if_neg hna]
  by_cases hnan : isNan d = true
  · left
    rw [if_pos hnan]
    refine ⟨hnan, fun h => hna ?_, rfl⟩
    unfold rIsNA
    rw [hnan, Bool.true_and, decide_eq_true_eq]
    exact h
  right
  rw [if_neg hnan]
  refine ⟨fun h => hnan h.1, ?_⟩
  have hnan : isNan d = false := by simpa using hnan
  generalize dblVal d = v
  generalize (2 ^ 1074 : Int) = U at hU ⊢
  by_cases h1 : v - U < 0 ∨ v - U ≥ (n : Int) * U
  · rw [if_pos h1]
    refine Or.inr ⟨_, rfl, rfl, fun k hk _ h2 h3 => ?_⟩
    rcases h1 with h1 | h1
    · have : 0 ≤ (k : Int) * U := Int.mul_nonneg (by omega) (by omega)
      rw [Int.add_mul] at h2
      omega
    · have : ((k : Int) + 1) * U ≤ (n : Int) * U := Int.mul_le_mul_of_nonneg_right (by omega) (by omega)
      rw [Int.add_mul] at h3 this
      omega
  · rw [if_neg h1]
    have h1' : 0 ≤ v - U ∧ v - U < (n : Int) * U := by omega
    have hle : (n : Int) * U ≤ (intMax : Int) * U := Int.mul_le_mul_of_nonneg_right (by omega) (by omega)
    rw [if_neg (by omega)]
    have hq : 0 ≤ (v - U) / U := Int.ediv_nonneg h1'.1 (by omega)
    have hlt : (v - U) / U < n := Int.ediv_lt_of_lt_mul hU h1'.2
    have e1 : (v - U) / U * U ≤ v - U := Int.ediv_mul_le _ (by omega)
    have e2 : v - U < ((v - U) / U + 1) * U := Int.lt_ediv_add_one_mul_self _ hU
    have hk : (((v - U) / U).toNat : Int) = (v - U) / U := Int.toNat_of_nonneg hq
    refine RetOr.ok ⟨hnan, by omega, ?_, ?_⟩
    · rw [hk, Int.add_mul]; omega
    · rw [hk, show (v - U) / U + 2 = ((v - U) / U + 1) + 1 by omega, Int.add_mul ((v - U) / U + 1)]; omega

theorem Spec.Finds.chr_inv {H : StrHeap S} {n : Nat} {names : Option (List S)} {s : S} {k : Nat}
    (h : Finds H n names (.chr [s]) k) : ∃ nms t, names = some nms ∧ s ≠ H.naStr ∧ H.utf8 s ≠ [] ∧
      nms[k]? = some t ∧ H.utf8 t = H.utf8 s ∧ (∀ j, j ≤ k → nms[j]? ≠ some H.naStr) ∧
      ∀ (j : Nat) t', j < k → nms[j]? = some t' → H.utf8 t' ≠ H.utf8 s := by
  generalize hv : FieldIndex.chr [s] = i at h
  cases h with
  | int => cases hv
  | dbl => cases hv
  | chr s nms k t h1 h2 h3 h4 h5 h6 h7 =>
    cases hv
    exact ⟨nms, t, h1, h2, h3, h4, h5, h6, h7⟩

theorem Spec.Finds.dbl_inv {H : StrHeap S} {n : Nat} {names : Option (List S)} {d : Dbl} {k : Nat}
    (h : Finds H n names (.dbl [d]) k) : isNan d = false ∧ k < n ∧ ((k : Int) + 1) * 2 ^ 1074 ≤ dblVal d ∧
      dblVal d < ((k : Int) + 2) * 2 ^ 1074 := by
  generalize hv : FieldIndex.dbl [d] = i at h
  cases h with
  | int => cases hv
  | chr => cases hv
  | dbl d k h1 h2 h3 h4 =>
    cases hv
    exact ⟨h1, h2, h3, h4⟩

theorem Spec.Finds.int_inv {H : StrHeap S} {n : Nat} {names : Option (List S)} {v : Int} {k : Nat}
    (h : Finds H n names (.int [v]) k) : v = (k : Int) + 1 ∧ k < n := by
  generalize hv : FieldIndex.int [v] = i at h
  cases h with
  | dbl => cases hv
  | chr => cases hv
  | int k h =>
    cases hv
    exact ⟨rfl, h⟩

theorem Spec.Finds.unique {H : StrHeap S} {n : Nat} {names : Option (List S)} {index : FieldIndex S} {k k' : Nat}
    (h : Finds H n names index k) (h' : Finds H n names index k') : k = k' := by
  have hU := unit_pos
  cases h with
  | int k hk =>
    have := h'.int_inv
    omega
  | dbl d k h1 h2 h3 h4 =>
    obtain ⟨g1, g2, g3, g4⟩ := h'.dbl_inv
    generalize (2 ^ 1074 : Int) = U at *
    have h5 : ((k : Int) + 1) * U < ((k' : Int) + 2) * U := by omega
    have h6 : ((k' : Int) + 1) * U < ((k : Int) + 2) * U := by omega
    have h5 := Int.lt_of_mul_lt_mul_right h5 (by omega)
    have h6 := Int.lt_of_mul_lt_mul_right h6 (by omega)
    omega
  | chr s nms k t h1 h2 h3 h4 h5 h6 h7 =>
    obtain ⟨nms', t', g1, g2, g3, g4, g5, g6, g7⟩ := h'.chr_inv
    rw [h1] at g1
    cases g1
    rcases Nat.lt_trichotomy k k' with h | h | h
    · exact absurd h5 (g7 k t h h4)
    · exact h
    · exact absurd g5 (h7 k' t' h g4)

/-- What `find_offset()` does with any index but a NaN. -/
theorem findOffset_spec (H : StrHeap S) {n : Nat} (hn : n ≤ intMax) (names : Option (List S)) (index : FieldIndex S)
    (h : ¬ NanIndex index) :
    RetOr (findOffset H n names index) (fun k => Finds H n names index k)
      (fun e => e = .abort ∧ ∀ k, ¬ Finds H n names index k) := by
  unfold findOffset
  by_cases hl : index.length = 1
  swap
  · rw [if_pos hl]
    refine Or.inr ⟨_, rfl, rfl, ?_⟩
    intro k hk
    cases hk <;> exact hl rfl
  rw [if_neg (by simp [hl])]
  cases index with
  | other m => exact Or.inr ⟨_, rfl, rfl, fun k hk => by cases hk⟩
  | int l =>
    obtain ⟨v, rfl⟩ := List.length_eq_one_iff.1 hl
    unfold findOffsetInt
    simp only [rd_ok (by simp : 0 < [v].length), ok_bind, List.getElem_cons_zero]
    by_cases hna : v = naInt
    · rw [if_pos hna]
      refine Or.inr ⟨_, rfl, rfl, ?_⟩
      intro k hk
      have hk := hk.int_inv
      have : naInt = -2147483648 := rfl
      omega
    · rw [if_neg hna]
      by_cases hb : v - 1 < 0 ∨ v - 1 ≥ (n : Int)
      · rw [if_pos hb]
        refine Or.inr ⟨_, rfl, rfl, ?_⟩
        intro k hk
        have hk := hk.int_inv
        omega
      · rw [if_neg hb]
        refine RetOr.ok ?_
        have : v = ((v - 1).toNat : Int) + 1 := by omega
        have hf := Finds.int (H := H) (n := n) (names := names) (v - 1).toNat (by omega)
        rwa [← this] at hf
  | dbl l =>
    obtain ⟨d, rfl⟩ := List.length_eq_one_iff.1 hl
    rcases findOffset_dbl hn (d := d) with ⟨h1, h2, _⟩ | ⟨_, h3⟩
    · exact absurd ⟨h1, h2⟩ h
    · rcases h3 with ⟨k, h4, h5, h6, h7, h8⟩ | ⟨e, h4, h5, h6⟩
      · exact Or.inl ⟨k, h4, .dbl d k h5 h6 h7 h8⟩
      · refine Or.inr ⟨e, h4, h5, ?_⟩
        intro k hk
        obtain ⟨g1, g2, g3, g4⟩ := hk.dbl_inv
        exact h6 k g2 g1 g3 g4
  | chr l =>
    obtain ⟨s, rfl⟩ := List.length_eq_one_iff.1 hl
    show RetOr (findOffsetChr H names [s]) _ _
    unfold findOffsetChr
    cases names with
    | none =>
      refine Or.inr ⟨_, rfl, rfl, ?_⟩
      intro k hk
      obtain ⟨_, _, g, _⟩ := hk.chr_inv
      cases g
    | some nms =>
      simp only [rd_ok (by simp : 0 < [s].length), ok_bind, List.getElem_cons_zero]
      by_cases hna : s = H.naStr
      · rw [if_pos hna]
        refine Or.inr ⟨_, rfl, rfl, ?_⟩
        intro k hk
        obtain ⟨_, _, _, g2, g3, _⟩ := hk.chr_inv
        contradiction
      rw [if_neg hna]
      by_cases he : H.utf8 s = []
      · rw [if_pos he]
        refine Or.inr ⟨_, rfl, rfl, ?_⟩
        intro k hk
        obtain ⟨_, _, _, g2, g3, _⟩ := hk.chr_inv
        contradiction
      rw [if_neg he]
      rcases findName_spec H nms s with ⟨r, h1, h2⟩ | ⟨e, h1, rfl, k0, h2, h3⟩
      · rw [h1, ok_bind]
        cases r with
        | some k =>
          obtain ⟨⟨t, h3, h4⟩, h5, h6⟩ := h2
          exact RetOr.ok (.chr s nms k t rfl hna he h3 h4 h5 h6)
        | none =>
          refine Or.inr ⟨_, rfl, rfl, ?_⟩
          intro k hk
          obtain ⟨_, t, g1, g2, g3, g5, g6, g7, _⟩ := hk.chr_inv
          cases g1
          exact h2 k _ g5 g6
      · rw [h1]
        refine Or.inr ⟨_, rfl, rfl, ?_⟩
        intro k hk
        obtain ⟨_, t, g1, g2, g3, g5, g6, g7, _⟩ := hk.chr_inv
        cases g1
        by_cases hkk : k < k0
        · exact h3 k _ hkk g5 g6
        · exact g7 k0 (by omega) h2

/-- **C71** (which field): an index is accepted exactly if it denotes a position: a whole or fractional number from 1
to the number of fields (rounded down), or the name of a field, the first one in any encoding; missing indices, other
sizes and types, and unnamed fields before the one looked for are not. -/
theorem C71_find (H : StrHeap S) {n : Nat} (hn : n ≤ intMax) (names : Option (List S)) (index : FieldIndex S) (k : Nat) :
    findOffset H n names index = .ok k ↔ Finds H n names index k := by
  by_cases h : NanIndex index
  · have h0 := h
    unfold NanIndex at h
    split at h
    · rename_i d
      rcases findOffset_dbl hn (d := d) with ⟨h1, h2, h3⟩ | ⟨h1, _⟩
      · constructor
        · intro hc
          have : findOffset H n names (.dbl [d]) = findOffsetDbl n [d] := rfl
          rw [this, h3] at hc
          cases hc
        · intro hk
          have g := hk.dbl_inv.1
          rw [h1] at g
          cases g
      · exact absurd h h1
    · exact h.elim
  · rcases findOffset_spec H hn names index h with ⟨k', h1, h2⟩ | ⟨e, h1, rfl, h2⟩
    · rw [h1]
      constructor
      · intro hc; cases hc; exact h2
      · intro hk
        rw [Spec.Finds.unique hk h2]
    · rw [h1]
      exact ⟨fun hc => (by cases hc), fun hk => absurd hk (h2 k)⟩

example : findOffset (S := String) ⟨"<NA>", String.toList⟩ 3 (some ["a", "b", "b"]) (.chr ["b"]) = .ok 1 :=
  (C71_find _ (by decide) _ _ 1).2 (.chr "b" ["a", "b", "b"] 1 "b" rfl (by decide) (by decide) rfl rfl
    (by
      intro j hj
      match j, hj with
      | 0, _ => decide
      | 1, _ => decide)
    (by
      intro j t hj ht
      match j, hj with
      | 0, _ => cases ht; decide))

/-- **C71** (errors): every other index is an error, unless it is NaN.  Full statement: without `h`, which the code
gets wrong, see `C71_nan`. -/
theorem C71_error_partial (H : StrHeap S) {n : Nat} (hn : n ≤ intMax) (names : Option (List S)) (index : FieldIndex S)
    (h : ¬ NanIndex index) (hf : ∀ k, ¬ Finds H n names index k) : findOffset H n names index = .error .abort := by
  rcases findOffset_spec H hn names index h with ⟨k, _, h2⟩ | ⟨e, h1, rfl, _⟩
  · exact absurd h2 (hf k)
  · exact h1

example : findOffset (S := String) ⟨"<NA>", String.toList⟩ 3 none (.int [4]) = .error .abort :=
  C71_error_partial _ (by decide) _ _ (fun h => h) (fun k hk => by have := hk.int_inv; omega)

/-- **C71** (negation): a NaN that is not `NA` passes all checks and is converted to `int`, which is undefined
behaviour, whatever the list. -/
theorem C71_nan (H : StrHeap S) {n : Nat} (hn : n ≤ intMax) (names : Option (List S)) (index : FieldIndex S)
    (h : NanIndex index) : findOffset H n names index = .error .ub := by
  unfold NanIndex at h
  split at h
  · rename_i d
    rcases findOffset_dbl hn (d := d) with ⟨_, _, h3⟩ | ⟨h1, _⟩
    · exact h3
    · exact absurd h h1
  · exact h.elim

example : findOffset (S := String) ⟨"<NA>", String.toList⟩ 3 none (.dbl [rNaN]) = .error .ub :=
  C71_nan _ (by decide) _ _ (by unfold NanIndex rNaN; decide)

theorem Spec.Finds.lt {H : StrHeap S} {n : Nat} {names : Option (List S)} {index : FieldIndex S} {k : Nat}
    (h : Finds H n names index k) (hl : ∀ nms, names = some nms → nms.length = n) : k < n := by
  cases h with
  | int k h => exact h
  | dbl d k _ h => exact h
  | chr s nms k t h1 h2 h3 h4 =>
    have := (List.getElem?_eq_some_iff.1 h4).1
    rw [hl _ h1] at this
    exact this

/-- `fields()` and `n_fields()`: the names and the number of fields, for lists with at least one field; all else is an
error. -/
theorem C71_fields (x : FieldList S V) :
    (∀ nms, rcrdFields x = .ok nms ↔ (x.isList = true ∧ x.elts ≠ []) ∧ nms = x.names) ∧
    (∀ n, rcrdNFields x = .ok n ↔ (x.isList = true ∧ x.elts ≠ []) ∧ n = x.elts.length) ∧
    (¬ (x.isList = true ∧ x.elts ≠ []) → rcrdFields x = .error .abort ∧ rcrdNFields x = .error .abort) := by
  unfold rcrdFields rcrdNFields checkRcrd
  cases x.isList with
  | false => simp [error_bind]
  | true =>
    cases he : x.elts with
    | nil => simp [error_bind]
    | cons a l =>
      simp only [Bool.not_true, List.length_cons, Nat.succ_ne_zero, if_false, Bool.false_eq_true, ok_bind]
      simp [eq_comm]

/-- Two fields. -/
example : rcrdFields (S := String) (V := Nat) ⟨true, [3, 4], some ["x", "y"]⟩ = .ok (some ["x", "y"]) ∧
    rcrdNFields (S := String) (V := Nat) ⟨true, [3, 4], some ["x", "y"]⟩ = .ok 2 := ⟨rfl, rfl⟩

/-- **C71** (reading): `field()` returns the element at the position the index denotes. -/
theorem C71_get (H : StrHeap S) {x : FieldList S V} (hn : x.elts.length ≤ intMax)
    (hl : ∀ nms, x.names = some nms → nms.length = x.elts.length) (index : FieldIndex S) (v : V) :
    fieldGet H x index = .ok v ↔
      x.isList = true ∧ ∃ k, Finds H x.elts.length x.names index k ∧ x.elts[k]? = some v := by
  unfold fieldGet checkRcrd listGet
  by_cases h1 : x.isList = true
  swap
  · simp only [h1, Bool.not_false, if_true, error_bind, false_and]
    exact ⟨fun h => (by cases h), fun h => (by simp at h)⟩
  rw [h1]
  simp only [Bool.not_true, Bool.false_eq_true, if_false, true_and]
  by_cases h0 : x.elts.length = 0
  · rw [if_pos h0]
    refine ⟨fun h => (by cases h), ?_⟩
    rintro ⟨k, _, h⟩
    have := (List.getElem?_eq_some_iff.1 h).1
    omega
  rw [if_neg h0, ok_bind]
  constructor
  · intro h
    cases hf : findOffset H x.elts.length x.names index with
    | error e => rw [hf] at h; cases h
    | ok k =>
      have hk := (C71_find H hn _ _ k).1 hf
      have hlt := hk.lt hl
      rw [hf, ok_bind, rd_ok hlt] at h
      cases h
      exact ⟨k, hk, List.getElem?_eq_getElem hlt⟩
  · rintro ⟨k, hk, hv⟩
    rw [(C71_find H hn _ _ k).2 hk, ok_bind, rd_of_getElem? hv]

/-- **C71** (writing): `field<-` replaces exactly the field the index denotes, by a vector of the size of the record;
all other fields and the names stay. -/
theorem C71_set (H : StrHeap S) (isVec : V → Bool) (size : V → Nat) {x : FieldList S V} (hn : x.elts.length ≤ intMax)
    (hl : ∀ nms, x.names = some nms → nms.length = x.elts.length) (index : FieldIndex S) (v : V) (y : FieldList S V) :
    fieldSet H isVec size x index v = .ok y ↔
      x.isList = true ∧ isVec v = true ∧ (∃ f, x.elts[0]? = some f ∧ size v = size f) ∧
      ∃ k, Finds H x.elts.length x.names index k ∧ y = { x with elts := x.elts.set k v } := by
  unfold fieldSet checkRcrd listSet
  by_cases h1 : x.isList = true
  swap
  · simp only [h1, Bool.not_false, if_true, error_bind, false_and]
    exact ⟨fun h => (by cases h), fun h => (by simp at h)⟩
  rw [h1]
  simp only [Bool.not_true, Bool.false_eq_true, if_false, true_and]
  by_cases h0 : x.elts.length = 0
  · rw [if_pos h0]
    refine ⟨fun h => (by cases h), ?_⟩
    rintro ⟨_, ⟨f, h, _⟩, _⟩
    have := (List.getElem?_eq_some_iff.1 h).1
    omega
  rw [if_neg h0, ok_bind]
  by_cases hv : isVec v = true
  swap
  · simp only [hv, Bool.not_false, if_true, false_and]
    exact ⟨fun h => (by cases h), fun h => (by simp at h)⟩
  rw [hv]
  simp only [Bool.not_true, Bool.false_eq_true, if_false, true_and]
  have h00 : 0 < x.elts.length := by omega
  rw [rd_ok h00, ok_bind]
  by_cases hs : size v = size x.elts[0]
  swap
  · rw [if_pos hs]
    refine ⟨fun h => (by cases h), ?_⟩
    rintro ⟨⟨f, h, h'⟩, _⟩
    rw [List.getElem?_eq_getElem h00] at h
    cases h
    exact absurd h' hs
  rw [if_neg (by simp [hs])]
  constructor
  · intro h
    refine ⟨⟨_, List.getElem?_eq_getElem h00, hs⟩, ?_⟩
    cases hf : findOffset H x.elts.length x.names index with
    | error e => rw [hf] at h; cases h
    | ok k =>
      have hk := (C71_find H hn _ _ k).1 hf
      rw [hf, ok_bind, wr_ok (hk.lt hl)] at h
      cases h
      exact ⟨k, hk, rfl⟩
  · rintro ⟨_, k, hk, rfl⟩
    rw [(C71_find H hn _ _ k).2 hk, ok_bind, wr_ok (hk.lt hl)]
    rfl

/-- **C71** (writing, then reading): the field written is read back, and a record whose fields have one size keeps
it. -/
theorem C71_set_get (H : StrHeap S) (isVec : V → Bool) (size : V → Nat) {x y : FieldList S V}
    (hn : x.elts.length ≤ intMax) (hl : ∀ nms, x.names = some nms → nms.length = x.elts.length)
    {index : FieldIndex S} {v : V} {n : Nat} (hx : ∀ f ∈ x.elts, size f = n)
    (h : fieldSet H isVec size x index v = .ok y) :
    fieldGet H y index = .ok v ∧ ∀ f ∈ y.elts, size f = n := by
  obtain ⟨h1, h2, ⟨f, h3, h4⟩, k, hk, rfl⟩ := (C71_set H isVec size hn hl index v y).1 h
  have hlt := hk.lt hl
  refine ⟨?_, ?_⟩
  · refine (C71_get H (by simpa using hn) (by simpa using hl) index v).2 ⟨h1, k, by simpa using hk, ?_⟩
    rw [List.getElem?_set_self hlt]
  · intro g hg
    rcases List.mem_or_eq_of_mem_set hg with hg | rfl
    · exact hx g hg
    · rw [h4]
      exact hx f (List.mem_of_getElem? h3)

example : fieldSet (S := String) ⟨"<NA>", String.toList⟩ (fun _ : List Nat => true) List.length
    ⟨true, [[1, 2], [3, 4]], some ["a", "b"]⟩ (.int [2]) [7, 8] = .ok ⟨true, [[1, 2], [7, 8]], some ["a", "b"]⟩ :=
  (C71_set _ _ _ (by decide) (by simp) _ _ _).2 ⟨rfl, rfl, ⟨_, rfl, rfl⟩, 1, .int 1 (by decide), rfl⟩

example : fieldGet (S := String) ⟨"<NA>", String.toList⟩ (⟨true, [[1, 2], [7, 8]], some ["a", "b"]⟩ :
    FieldList String (List Nat)) (.int [2]) = .ok [7, 8] :=
  (C71_set_get (x := ⟨true, [[1, 2], [3, 4]], some ["a", "b"]⟩) (n := 2) ⟨"<NA>", String.toList⟩
    (fun _ : List Nat => true) List.length (by decide) (by simp) (by simp)
    ((C71_set _ _ _ (by decide) (by simp) (.int [2]) [7, 8] _).2
      ⟨rfl, rfl, ⟨_, rfl, rfl⟩, 1, .int 1 (by decide), rfl⟩)).1

example : fieldGet (S := String) ⟨"<NA>", String.toList⟩ (⟨true, [[1, 2], [3, 4]], some ["a", "b"]⟩ :
    FieldList String (List Nat)) (.int [2]) = .ok [3, 4] :=
  (C71_get _ (by decide) (by simp) _ _).2 ⟨rfl, 1, .int 1 (by decide), rfl⟩

end Vctrs
