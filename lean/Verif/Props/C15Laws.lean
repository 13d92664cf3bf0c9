import Verif.Props.C15
import Verif.Props.C04
import Verif.Props.C48
import Verif.Props.C56
import Verif.Lemmas.SetOps

/-!
# C15: laws of repetition

Repeating twice; repetition as concatenation and as interleaving of copies; unique values of repetitions.
-/

namespace Vctrs

open Spec

variable {α : Type}

theorem vecRepEach_one (x : List α) {t : Nat} (ht : t ≤ 2147483647) (hx : x.length ≤ 2147483647)
    (h : x.length * t ≤ 2147483647) : vecRepEach x [(t : Int)] = .ok (x.map (List.replicate t)).flatten := by
  have := (C15_rep_each x [(t : Int)] hx (by intro s hs; simp at hs; omega)).1
    (List.replicate x.length (t : Int)) rfl (by intro s hs; simp at hs; omega)
    (by simp only [List.map_replicate, List.sum_replicate_nat, Int.toNat_natCast]; exact h)
  rw [this, repEach_eq]
  congr 2
  apply List.ext_getElem (by simp)
  intro i h1 h2
  simp

theorem rep_copies (x : List α) (a b : Nat) :
    (List.replicate b (List.replicate a x).flatten).flatten = (List.replicate (a * b) x).flatten := by
  induction b with
  | zero => simp
  | succ b ih =>
    rw [List.replicate_succ, List.flatten_cons, ih, ← List.flatten_append, List.replicate_append_replicate]
    congr 2
    rw [Nat.mul_succ]; omega

theorem each_each (x : List α) (a b : Nat) :
    ((x.map (List.replicate a)).flatten.map (List.replicate b)).flatten = (x.map (List.replicate (a * b))).flatten := by
  induction x with
  | nil => rfl
  | cons v x ih =>
    rw [List.map_cons, List.flatten_cons, List.map_append, List.flatten_append, ih, List.map_cons, List.flatten_cons]
    congr 1
    rw [List.map_replicate]
    simp

/-- `vec_rep(vec_rep(x, a), b)` is `vec_rep(x, a * b)`. -/
theorem C15_rep_rep (x : List α) {a b : Nat} (ha : a ≤ 2147483647) (hb : b ≤ 2147483647) (hab : a * b ≤ 2147483647)
    (hx : x.length ≤ 2147483647) (h1 : x.length * a ≤ 2147483647) (h2 : x.length * (a * b) ≤ 2147483647) :
    ∃ y z, vecRep x a = .ok y ∧ vecRep y b = .ok z ∧ vecRep x ((a * b : Nat) : Int) = .ok z := by
  have hl : (List.replicate a x).flatten.length = x.length * a := by simp [Nat.mul_comm]
  refine ⟨_, _, vecRep_ok x hx ha h1, vecRep_ok _ (by rw [hl]; exact h1) hb ?_, ?_⟩
  · rw [hl, Nat.mul_assoc]; exact h2
  · rw [rep_copies, vecRep_ok x hx hab h2]

/-- The same for `vec_rep_each()`. -/
theorem C15_each_each (x : List α) {a b : Nat} (ha : a ≤ 2147483647) (hb : b ≤ 2147483647) (hab : a * b ≤ 2147483647)
    (hx : x.length ≤ 2147483647) (h1 : x.length * a ≤ 2147483647) (h2 : x.length * (a * b) ≤ 2147483647) :
    ∃ y z, vecRepEach x [(a : Int)] = .ok y ∧ vecRepEach y [(b : Int)] = .ok z ∧
      vecRepEach x [((a * b : Nat) : Int)] = .ok z := by
  have hl : (x.map (List.replicate a)).flatten.length = x.length * a := by
    simp [List.length_flatten, Function.comp_def]
  refine ⟨_, _, vecRepEach_one x ha hx h1, vecRepEach_one _ hb (by rw [hl]; exact h1) ?_, ?_⟩
  · rw [hl, Nat.mul_assoc]; exact h2
  · rw [each_each, vecRepEach_one x hab hx h2]

theorem filterMap_copies (x : List α) (n : Nat) :
    (List.replicate n (some x)).filterMap id = List.replicate n x := by
  induction n with
  | zero => rfl
  | succ n ih => rw [List.replicate_succ, List.replicate_succ, List.filterMap_cons, ih]; rfl

/-- `vec_rep(x, n)` is `vec_c(x, …, x)`. -/
theorem C15_rep_c (na : α) (x : List α) {n : Nat} (h0 : 0 < n) (hn : n ≤ 2147483647) (hx : x.length ≤ 2147483647)
    (h : x.length * n ≤ 2147483647) :
    ∃ y, vecRep x n = .ok y ∧ vecC na (List.replicate n (some x)) = .ok (some y) := by
  have hf := filterMap_copies x n
  refine ⟨_, vecRep_ok x hx hn h, ?_⟩
  rw [C56_concat na ⟨some x, by simp; omega, by simp⟩, hf]
  rw [hf]
  simp only [List.length_flatten, List.map_replicate, List.sum_replicate_nat]
  show n * x.length ≤ 2147483647
  rw [Nat.mul_comm]; exact h

theorem each_getElem (x : List α) (n i j : Nat) (hi : i < n) :
    (x.map (List.replicate n)).flatten[j * n + i]? = x[j]? := by
  induction x generalizing j with
  | nil => simp
  | cons v x ih =>
    rw [List.map_cons, List.flatten_cons]
    cases j with
    | zero =>
      rw [List.getElem?_append_left (by simp; omega)]
      simp [hi]
    | succ j =>
      have e : (j + 1) * n + i = n + (j * n + i) := by rw [Nat.succ_mul]; omega
      rw [List.getElem?_append_right (by simp; omega), List.length_replicate, e,
        show n + (j * n + i) - n = j * n + i by omega, ih]
      simp

/-- `vec_rep_each(x, n)` is `vec_interleave(x, …, x)`. -/
theorem C15_each_interleave (na : α) (x : List α) {n : Nat} (h0 : 0 < n) (hn : n ≤ 2147483647)
    (hx : x.length ≤ 2147483647) (h : x.length * n ≤ 2147483647) :
    ∃ y, vecRepEach x [(n : Int)] = .ok y ∧ vecInterleave na (List.replicate n (some x)) = .ok (some y) := by
  have hf := filterMap_copies x n
  refine ⟨_, vecRepEach_one x hn hx h, ?_⟩
  obtain ⟨out, h1, h2, h3⟩ := C48_interleave na (args := List.replicate n (some x)) (size := x.length)
    (by rw [List.length_replicate]; exact hn)
    (by
      rw [hf, List.map_replicate]
      exact ⟨by simp; omega, fun s hs => .inl (List.eq_of_mem_replicate hs)⟩)
    (by rw [hf, List.length_replicate, Nat.mul_comm]; exact h)
  rw [hf, List.length_replicate] at h2 h3
  rw [h1]
  congr 2
  have hl : (x.map (List.replicate n)).flatten.length = x.length * n := by
    simp [List.length_flatten, Function.comp_def]
  apply List.ext_getElem?
  intro k
  by_cases hk : k < x.length * n
  · have hj : k / n < x.length := (Nat.div_lt_iff_lt_mul h0).2 hk
    have hi : k % n < n := Nat.mod_lt _ h0
    have e : k / n * n + k % n = k := by rw [Nat.mul_comm]; exact Nat.div_add_mod k n
    have := h3 (k % n) (k / n) x (by simp [hi]) hj
    rw [e] at this
    rw [this]
    have g := each_getElem x n (k % n) (k / n) hi
    rw [e] at g
    rw [g]
    split
    · rename_i h1
      rw [show k / n = 0 from Nat.lt_one_iff.1 (h1 ▸ hj)]
    · rfl
  · rw [List.getElem?_eq_none (by rw [h2, Nat.mul_comm]; omega), List.getElem?_eq_none (by omega)]

section

variable {ops : PolyOps α}

theorem nub_rep (he : EqvHash ops) (x : List α) (n : Nat) :
    nub ops.eq (List.replicate (n + 1) x).flatten = nub ops.eq x := by
  induction n with
  | zero => simp
  | succ n ih =>
    rw [List.replicate_succ, List.flatten_cons, nub_append, ih]
    rw [List.filter_eq_nil_iff.2, List.append_nil]
    intro a ha
    have : x.any (fun b => ops.eq b a) = true := List.any_eq_true.2 ⟨a, mem_nub_of_mem ha, he.refl a⟩
    simp [this]

theorem nub_replicate (he : EqvHash ops) (a : α) (n : Nat) : nub ops.eq (List.replicate (n + 1) a) = [a] := by
  induction n with
  | zero => simp [nub]
  | succ n ih => rw [List.replicate_succ, nub, ih]; simp [he.refl a]

theorem nub_each (he : EqvHash ops) (x : List α) (n : Nat) :
    nub ops.eq (x.map (List.replicate (n + 1))).flatten = nub ops.eq x := by
  induction x with
  | nil => rfl
  | cons a x ih =>
    rw [List.map_cons, List.flatten_cons, nub_append, ih, nub_replicate he, nub]
    simp [List.any_replicate]

/-- Repetition adds no unique values and keeps their order. -/
theorem C15_unique (he : EqvHash ops) (x : List α) {n : Nat} (h0 : 0 < n) (hn : n ≤ 2147483647)
    (hx : x.length ≤ 2147483647) (h : x.length * n ≤ 2147483647) :
    ∃ y z u, vecRep x n = .ok y ∧ vecRepEach x [(n : Int)] = .ok z ∧ vecUnique ops x = .ok u ∧
      vecUnique ops y = .ok u ∧ vecUnique ops z = .ok u := by
  have l1 : (List.replicate n x).flatten.length = x.length * n := by simp [Nat.mul_comm]
  have l2 : (x.map (List.replicate n)).flatten.length = x.length * n := by
    simp [List.length_flatten, Function.comp_def]
  refine ⟨_, _, _, vecRep_ok x hx hn h, vecRepEach_one x hn hx h, C04_unique he x hx, ?_, ?_⟩
  · rw [C04_unique he _ (by omega)]
    obtain ⟨m, rfl⟩ : ∃ m, n = m + 1 := ⟨n - 1, by omega⟩
    rw [nub_rep he]
  · rw [C04_unique he _ (by omega)]
    obtain ⟨m, rfl⟩ : ∃ m, n = m + 1 := ⟨n - 1, by omega⟩
    rw [nub_each he]

end

example : vecRep [1, 2] 2 = .ok [1, 2, 1, 2] ∧ vecRep [1, 2, 1, 2] 3 = vecRep [1, 2] 6 ∧
    vecRepEach [1, 2] [2] = .ok [1, 1, 2, 2] ∧ vecRepEach [1, 1, 2, 2] [3] = vecRepEach [1, 2] [6] ∧
    vecC 0 [some [1, 2], some [1, 2]] = .ok (some [1, 2, 1, 2]) ∧
    vecInterleave 0 [some [1, 2], some [1, 2]] = .ok (some [1, 1, 2, 2]) := by decide +kernel

end Vctrs
