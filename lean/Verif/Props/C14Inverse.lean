import Verif.Props.C14

/-! # C14: vec_rep_each() is inverted by vec_unrep() -/

namespace Vctrs

open Spec

variable {α : Type}

/-- Positive sizes are determined by their partial sums. -/
theorem sizes_of_sums (L T : List Nat) (hL : ∀ c ∈ L, 0 < c) (hT : ∀ c ∈ T, 0 < c)
    (h : ∀ i, (∃ k, k < L.length ∧ (L.take (k + 1)).sum = i + 1) ↔
      ∃ k, k < T.length ∧ (T.take (k + 1)).sum = i + 1) : L = T := by
  induction L generalizing T with
  | nil =>
    cases T with
    | nil => rfl
    | cons d T =>
      have hd := hT d (by simp)
      obtain ⟨k, hk, _⟩ := (h (d - 1)).2 ⟨0, by simp, by simp; omega⟩
      simp at hk
  | cons c L ih =>
    have hc := hL c (by simp)
    cases T with
    | nil =>
      obtain ⟨k, hk, _⟩ := (h (c - 1)).1 ⟨0, by simp, by simp; omega⟩
      simp at hk
    | cons d T =>
      have hd := hT d (by simp)
      obtain ⟨k1, _, h1⟩ := (h (c - 1)).1 ⟨0, by simp, by simp; omega⟩
      obtain ⟨k2, _, h2⟩ := (h (d - 1)).2 ⟨0, by simp, by simp; omega⟩
      simp only [List.take_succ_cons, List.sum_cons] at h1 h2
      have e : c = d := by omega
      subst e
      rw [ih T (fun x hx => hL x (by simp [hx])) (fun x hx => hT x (by simp [hx])) ?_]
      intro i
      have hi := h (c + i)
      have key : ∀ S : List Nat, (∀ x ∈ S, 0 < x) →
          ((∃ k, k < (c :: S).length ∧ ((c :: S).take (k + 1)).sum = c + i + 1) ↔
            ∃ k, k < S.length ∧ (S.take (k + 1)).sum = i + 1) := by
        intro S hS
        constructor
        · rintro ⟨k, hk, hsum⟩
          cases k with
          | zero =>
            simp at hsum
            omega
          | succ k =>
            simp only [List.take_succ_cons, List.sum_cons, List.length_cons] at hk hsum
            exact ⟨k, by omega, by omega⟩
        · rintro ⟨k, hk, hsum⟩
          refine ⟨k + 1, by simpa using hk, ?_⟩
          rw [List.take_succ_cons, List.sum_cons, hsum]
          omega
      rw [key L (fun x hx => hL x (by simp [hx])), key T (fun x hx => hT x (by simp [hx]))] at hi
      exact hi

/-- The runs of a vector with elements repeated end where the repetitions of one element end, if neighbours are not
equal. -/
theorem repEach_runEnd {eq : α → α → Bool} (hr : ∀ a, eq a a = true) (key : List α) (T : List Nat)
    (hl : key.length = T.length) (hT : ∀ c ∈ T, 0 < c)
    (hadj : ∀ (k : Nat) a b, key[k]? = some a → key[k + 1]? = some b → eq a b = false) (i : Nat) :
    RunEnd (sameElt eq (repEach (T.map Int.ofNat) key)) (repEach (T.map Int.ofNat) key).length i ↔
      ∃ k, k < T.length ∧ (T.take (k + 1)).sum = i + 1 := by
  have hlen := repEach_length T key hl
  have htot : cumSize T T.length = T.sum := by unfold cumSize; rw [List.take_length]
  constructor
  · rintro ⟨h1, h2⟩
    rw [hlen] at h1 h2
    obtain ⟨k, hk, h3, h4⟩ := exists_block T h1
    refine ⟨k, hk, ?_⟩
    by_cases h5 : i + 1 < cumSize T (k + 1)
    · have h6 := cumSize_mono (L := T) (show k + 1 ≤ T.length by omega)
      rcases h2 with h2 | h2
      · omega
      · unfold sameElt at h2
        rw [repEach_getElem T key hl hk h3 h4, repEach_getElem T key hl hk (by omega) h5,
          List.getElem?_eq_getElem (by omega)] at h2
        simp only [hr] at h2
        cases h2
    · show cumSize T (k + 1) = i + 1
      omega
  · rintro ⟨k, hk, h⟩
    have h : cumSize T (k + 1) = i + 1 := h
    have h6 := cumSize_mono (L := T) (show k + 1 ≤ T.length by omega)
    rw [hlen]
    refine ⟨by omega, ?_⟩
    by_cases hk1 : k + 1 < T.length
    · right
      have h7 := cumSize_succ hk
      have h8 := cumSize_succ hk1
      have h9 := hT _ (List.getElem_mem hk)
      have h10 := hT _ (List.getElem_mem hk1)
      unfold sameElt
      rw [repEach_getElem T key hl hk (by omega) (by omega), repEach_getElem T key hl hk1 (by omega) (by omega),
        List.getElem?_eq_getElem (by omega), List.getElem?_eq_getElem (by omega)]
      exact hadj k _ _ (List.getElem?_eq_getElem (by omega)) (List.getElem?_eq_getElem (by omega))
    · left
      have : k + 1 = T.length := by omega
      rw [this] at h
      omega

/-- `vec_unrep(vec_rep_each(key, times))` is `key` and `times`, if all times are positive and neighbours in `key` are
not equal. -/
theorem C14_rep_each {eq : α → α → Bool} (hr : ∀ a, eq a a = true) (hs : ∀ a b, eq a b = eq b a) (key : List α)
    (times : List Nat) (hl : key.length = times.length) (hpos : ∀ t ∈ times, 0 < t)
    (hadj : ∀ (k : Nat) a b, key[k]? = some a → key[k + 1]? = some b → eq a b = false)
    (hsum : times.sum ≤ 2147483647) :
    ∃ x, vecRepEach key (times.map Int.ofNat) = .ok x ∧ vecUnrep eq x = .ok (key, times) := by
  have hle : ∀ t ∈ times, t ≤ times.sum := by
    clear * -
    induction times with
    | nil => simp
    | cons d L ih =>
      intro t ht
      rcases List.mem_cons.1 ht with rfl | h
      · simp
      · have := ih t h
        simp only [List.sum_cons]
        omega
  have hll : times.length ≤ times.sum := by
    clear * - hpos
    induction times with
    | nil => simp
    | cons c L ih =>
      have h1 := hpos c (by simp)
      have h2 := ih (fun c hc => hpos c (by simp [hc]))
      simp only [List.length_cons, List.sum_cons]
      omega
  have hmem : ∀ t ∈ times.map Int.ofNat, 0 ≤ t ∧ t ≤ 2147483647 := by
    intro t ht
    obtain ⟨c, hc, rfl⟩ := List.mem_map.1 ht
    have := hle c hc
    exact ⟨Int.natCast_nonneg c, by show (c : Int) ≤ 2147483647; omega⟩
  have hrec : recycled (times.map Int.ofNat) key.length = some (times.map Int.ofNat) := by
    unfold recycled
    split
    · rename_i t heq
      have hL1 : times.length = 1 := by have := congrArg List.length heq; simpa using this
      rw [hl, hL1, heq]
      rfl
    · simp [hl]
  have hts : (times.map Int.ofNat).map Int.toNat = times := by
    rw [List.map_map]
    have : Int.toNat ∘ Int.ofNat = id := rfl
    rw [this, List.map_id]
  refine ⟨_, (C15_rep_each key (times.map Int.ofNat) (by omega)
    (fun t h => ⟨by have := hmem t h; omega, (hmem t h).2⟩)).1 _ hrec (fun t h => (hmem t h).1)
    (by rw [hts]; omega), ?_⟩
  obtain ⟨L, hL, h1, h2, h3⟩ := C13_vec_run_sizes hs (repEach (times.map Int.ofNat) key)
  have e : L = times := sizes_of_sums L times h1 hpos
    (fun i => (h3 i).symm.trans (repEach_runEnd hr key times hl hpos hadj i))
  subst e
  obtain ⟨key', hk1, hk2, hk3⟩ := vecUnrep_ok eq _ hL h1 h2
  rw [hk1]
  have : key' = key := by
    apply List.ext_getElem?
    intro k
    by_cases hk : k < L.length
    · have := cumSize_succ hk
      have := hpos _ (List.getElem_mem hk)
      rw [(hk3 k hk).1, repEach_getElem L key hl hk (Nat.le_refl _) (by omega)]
    · rw [List.getElem?_eq_none (by omega), List.getElem?_eq_none (by omega)]
  rw [this]

/-- `vec_unrep()` of a vector put together from `vec_unrep(x)` gives the same again. -/
theorem C14_again {eq : α → α → Bool} (hr : ∀ a, eq a a = true) (hs : ∀ a b, eq a b = eq b a)
    (ht : ∀ a b c, eq a b = true → eq b c = true → eq a c = true) (x : List α) (hx : x.length ≤ 2147483647) :
    ∃ key times y, vecUnrep eq x = .ok (key, times) ∧ vecRepEach key (times.map Int.ofNat) = .ok y ∧
      vecUnrep eq y = .ok (key, times) := by
  obtain ⟨key, times, h1, h2, h3, h4, y, h5, h6, _⟩ := C14_unrep hr hs ht x hx
  obtain ⟨L, hL, hp, hsum, _⟩ := C13_vec_run_sizes hs x
  obtain ⟨key', hk1, _⟩ := vecUnrep_ok eq x hL hp hsum
  rw [h1] at hk1
  cases hk1
  obtain ⟨y', h7, h8⟩ := C14_rep_each hr hs key times h2 h3 h4 (by omega)
  exact ⟨key, times, y', h1, h7, h8⟩

/-- 1 and 2, and 2 and 11, are not equal modulo 10. -/
example : vecRepEach [1, 2, 11] [2, 3, 1] = .ok [1, 1, 2, 2, 2, 11] ∧
    vecUnrep (fun a b : Nat => a % 10 == b % 10) [1, 1, 2, 2, 2, 11] = .ok ([1, 2, 11], [2, 3, 1]) ∧
    (∀ (k : Nat) a b, [1, 2, 11][k]? = some a → [1, 2, 11][k + 1]? = some b → (a % 10 == b % 10) = false) := by
  refine ⟨by decide +kernel, by decide +kernel, ?_⟩
  intro k a b ha hb
  match k, ha, hb with
  | 0, ha, hb => cases ha; cases hb; rfl
  | 1, ha, hb => cases ha; cases hb; rfl
  | k + 2, _, hb => simp at hb

end Vctrs
