import Verif.Lemmas.Rep

/-! # C15: vec_rep and vec_rep_each -/

namespace Vctrs

open Spec

variable {α : Type}

theorem repEach_eq (ts : List Int) (x : List α) :
    repEach ts x = (List.zipWith (fun (t : Int) a => List.replicate t.toNat a) ts x).flatten := by
  induction ts generalizing x with
  | nil => simp [repEach]
  | cons t ts ih =>
    cases x with
    | nil => simp [repEach]
    | cons a x => simp [repEach, ih]

/-- `vec_rep(x, times)`: `times` copies of `x`, one after the other, or a user error exactly when
`times` is negative or missing or the result would be longer than `2^31 - 1`.  `times` is any C
`int`. -/
theorem C15_rep (x : List α) (times : Int) (hx : x.length ≤ 2147483647)
    (ht : -2147483648 ≤ times ∧ times ≤ 2147483647) :
    (0 ≤ times → x.length * times ≤ 2147483647 →
      ∃ r, vecRep x times = .ok r ∧ (r.length : Int) = x.length * times ∧
        ∀ k, k < r.length → r[k]? = x[k % x.length]?) ∧
    ((times < 0 ∨ x.length * times > 2147483647) → vecRep x times = .error .abort) := by
  constructor
  · intro h0 h
    obtain ⟨t, rfl⟩ := Int.eq_ofNat_of_zero_le h0
    have hi : x.length * t ≤ intMax := by
      have : ((x.length * t : Nat) : Int) ≤ 2147483647 := by push_cast; exact h
      show x.length * t ≤ 2147483647
      omega
    refine ⟨_, vecRep_ok x hx (show t ≤ 2147483647 by omega) hi, ?_, ?_⟩
    · simp [Int.mul_comm]
    · clear h hi h0 ht hx
      induction t with
      | zero => intro k hk; simp at hk
      | succ t ih =>
        intro k hk
        rw [List.replicate_succ, List.flatten_cons] at hk ⊢
        by_cases hlt : k < x.length
        · rw [List.getElem?_append_left hlt, Nat.mod_eq_of_lt hlt]
        · rw [List.getElem?_append_right (by omega)]
          rw [List.length_append] at hk
          rw [ih (k - x.length) (by omega)]
          congr 1
          exact (Nat.mod_eq_sub_mod (by omega)).symm
  · rintro h
    by_cases h0 : times < 0
    · exact vecRep_neg x h0
    · obtain ⟨t, rfl⟩ := Int.eq_ofNat_of_zero_le (show 0 ≤ times by omega)
      have h2 : (x.length : Int) * t > 2147483647 := by
        rcases h with h | h
        · exact absurd h h0
        · exact h
      refine vecRep_big x hx (show t ≤ 2147483647 by omega) ?_
      have : ((x.length * t : Nat) : Int) > 2147483647 := by push_cast; exact h2
      show x.length * t > 2147483647
      omega

/-- `vec_rep_each(x, times)`: with `times` recycled to the size of `x`, every `x[i]` repeated
`times[i]` times, in order; a user error exactly when `times` has a wrong size, contains a negative
or missing value, or the result would be longer than `2^31 - 1`. -/
theorem C15_rep_each (x : List α) (times : List Int) (hx : x.length ≤ 2147483647)
    (ht : ∀ t ∈ times, -2147483648 ≤ t ∧ t ≤ 2147483647) :
    (∀ ts, recycled times x.length = some ts → (∀ t ∈ times, 0 ≤ t) →
      (ts.map Int.toNat).sum ≤ 2147483647 → vecRepEach x times = .ok (repEach ts x)) ∧
    ((recycled times x.length = none ∨ (∃ t ∈ times, t < 0) ∨
      (∃ ts, recycled times x.length = some ts ∧ (ts.map Int.toNat).sum > 2147483647)) →
      vecRepEach x times = .error .abort) := by
  by_cases h1 : times.length = 1
  · obtain ⟨t, rfl⟩ := List.length_eq_one_iff.1 h1
    have hv : vecRepEach x [t] = (if t = 1 then .ok x
        else if t = 0 then sliceLoc x []
        else vecRepEachUniform x t) := by
      unfold vecRepEach
      simp only [List.length_singleton, if_true]
      rfl
    have htt := ht t (by simp)
    rw [hv]
    simp only [recycled, Option.some.injEq, forall_eq', reduceCtorEq, false_or, List.mem_singleton,
      exists_eq_left', forall_eq, exists_eq_left, List.map_replicate, List.sum_replicate_nat]
    have hrep : repEach (List.replicate x.length t) x = (x.map (List.replicate t.toNat)).flatten := by
      rw [repEach_eq]
      congr 1
      apply List.ext_getElem (by simp)
      intro i h1 h2
      simp
    constructor
    · intro h0 hsum
      obtain ⟨m, rfl⟩ := Int.eq_ofNat_of_zero_le h0
      rw [hrep]
      simp only [Int.toNat_natCast] at hsum ⊢
      by_cases hm1 : (m : Int) = 1
      · rw [if_pos hm1]
        have : m = 1 := by omega
        subst this
        clear * -
        congr 1
        induction x with
        | nil => rfl
        | cons a x ih =>
          rw [List.map_cons, List.flatten_cons, ← ih]; rfl
      · rw [if_neg hm1]
        by_cases hm0 : (m : Int) = 0
        · rw [if_pos hm0]
          have : m = 0 := by omega
          subst this
          simp [sliceLoc]
        · rw [if_neg hm0]
          exact vecRepEachUniform_ok x (show m ≤ 2147483647 by omega) hsum
    · intro h
      by_cases hneg : t < 0
      · rw [if_neg (by omega), if_neg (by omega)]
        exact bind_err_of (checkRepTimes_neg hneg)
      · obtain ⟨m, rfl⟩ := Int.eq_ofNat_of_zero_le (show 0 ≤ t by omega)
        have h2 : x.length * m > 2147483647 := by
          rcases h with h | h
          · exact absurd h hneg
          · simpa using h
        have hm1 : m ≠ 1 := by rintro rfl; omega
        have hm0 : m ≠ 0 := by rintro rfl; omega
        rw [if_neg (by omega), if_neg (by omega)]
        exact vecRepEachUniform_big x (show m ≤ 2147483647 by omega) h2
  · have hv : vecRepEach x times = vecRepEachImpl x times := by
      unfold vecRepEach; rw [if_neg h1]
    have hrec : recycled times x.length = if times.length = x.length then some times else none := by
      unfold recycled
      split
      · simp at h1
      · rfl
    rw [hv, hrec]
    constructor
    · intro ts hts h0 hsum
      split at hts
      · cases hts
        rw [repEach_eq]
        exact vecRepEachImpl_ok x times (by assumption) (fun t h => ⟨h0 t h, (ht t h).2⟩) hsum
      · cases hts
    · intro h
      refine vecRepEachImpl_abort x times (fun t h => (ht t h).2) ?_
      split at h
      · right
        rcases h with h | h | ⟨ts, h, h'⟩
        · cases h
        · exact Or.inl h
        · cases h; exact Or.inr h'
      · left; assumption

example : vecRep [1, 2, 3] 2 = .ok [1, 2, 3, 1, 2, 3] := by decide +kernel
example : vecRep [1, 2] naInt = .error .abort := by decide +kernel
example : vecRep [1, 2] 1073741824 = .error .abort := by decide +kernel
example : vecRepEach [1, 2, 3] [2, 0, 1] = .ok [1, 1, 3] := by decide +kernel
example : vecRepEach [1, 2, 3] [2] = .ok [1, 1, 2, 2, 3, 3] := by decide +kernel
example : vecRepEach [1, 2, 3] [1, 2147483647, 1] = .error .abort := by decide +kernel
example : vecRepEach [1, 2, 3] [1, 2] = .error .abort := by decide +kernel
example : recycled [2, 0, 1] [1, 2, 3].length = some [2, 0, 1] := by decide +kernel
example : repEach [2, 0, 1] [1, 2, 3] = [1, 1, 3] := by decide +kernel

end Vctrs
