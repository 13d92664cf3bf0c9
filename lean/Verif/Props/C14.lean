import Verif.Props.C13
import Verif.Props.C15

/-! # C14: vec_unrep is inverted by vec_rep_each -/

namespace Vctrs

open Spec

variable {α : Type}

theorem cumSize_succ {L : List Nat} {k : Nat} (h : k < L.length) :
    cumSize L (k + 1) = cumSize L k + L[k] := by
  unfold cumSize
  rw [List.take_add_one, List.getElem?_eq_getElem h, List.sum_append]
  rfl

theorem cumSize_mono {L : List Nat} {k m : Nat} (h : k ≤ m) : cumSize L k ≤ cumSize L m := by
  induction m with
  | zero => rw [Nat.le_zero.1 h]
  | succ m ih =>
    rcases Nat.lt_or_ge k (m + 1) with h' | h'
    · have := ih (by omega)
      by_cases hm : m < L.length
      · rw [cumSize_succ hm]; omega
      · have e : cumSize L (m + 1) = cumSize L m := by
          unfold cumSize
          rw [List.take_of_length_le (by omega), List.take_of_length_le (by omega)]
        omega
    · have e : k = m + 1 := by omega
      rw [e]

theorem vecUnrep_ok (eq : α → α → Bool) (x : List α) {L : List Nat} (hL : vecRunSizes eq x = .ok L)
    (hpos : ∀ c ∈ L, 0 < c) (hsum : L.sum = x.length) :
    ∃ key, vecUnrep eq x = .ok (key, L) ∧ key.length = L.length ∧
      ∀ k, k < L.length → key[k]? = x[cumSize L k]? ∧ cumSize L k < x.length := by
  have hlt : ∀ k, k < L.length → cumSize L k < x.length := by
    intro k hk
    have h1 := cumSize_succ hk
    have h2 := hpos _ (List.getElem_mem hk)
    have h3 := cumSize_mono (L := L) (show k + 1 ≤ L.length by omega)
    have h4 : cumSize L L.length = x.length := by unfold cumSize; rw [List.take_length, hsum]
    omega
  obtain ⟨key, hkey⟩ : ∃ key : List α, ((List.range L.length).map (cumSize L)).map (fun j => x[j]?) =
      key.map some := by
    refine ⟨(List.range L.length).pmap (fun k h => x[cumSize L k]'(hlt k h)) (fun k hk =>
      List.mem_range.1 hk), ?_⟩
    apply List.ext_getElem (by simp)
    intro k h1 h2
    simp at h1
    simp [hlt k h1]
  have hlen : key.length = L.length := by
    have := congrArg List.length hkey; simpa using this.symm
  refine ⟨key, ?_, hlen, ?_⟩
  · suffices hs : Ret (vecUnrep eq x) (fun r => r = (key, L)) by
      obtain ⟨r, hr, rfl⟩ := hs; exact hr
    refine Ret.bind_eq hL ?_
    refine Ret.bind (Ret.forN (fun i (s : List (Option Nat) × Nat) =>
      s.2 = 1 + cumSize L i ∧ Wrote ((List.range i).map (fun k => cumSize L k + 1)) L.length s.1)
      ⟨by simp [cumSize], by simpa using Wrote.start _⟩ ?_) ?_
    · rintro i ⟨loc, cur⟩ hi ⟨rfl, hW⟩
      simp only at hW ⊢
      obtain ⟨hw, hW'⟩ := hW.step (1 + cumSize L i) (k := i) (by simp) hi
      refine Ret.bind_eq hw (Ret.bind_eq (rd_ok hi) (Ret.ok ⟨?_, ?_⟩))
      · simp only; rw [cumSize_succ hi]; omega
      · rw [List.range_succ, List.map_append]
        simpa [Nat.add_comm] using hW'
    · rintro ⟨loc, cur⟩ ⟨_, hW⟩
      refine Ret.bind_eq (hW.done (by simp)) ?_
      have e : (List.range L.length).map (fun k => cumSize L k + 1) =
          ((List.range L.length).map (cumSize L)).map (· + 1) := by simp
      rw [e]
      exact Ret.bind_eq (sliceLoc_ok x _ key hkey) (Ret.ok rfl)
  · intro k hk
    refine ⟨?_, hlt k hk⟩
    have := congrArg (fun l => l[k]?) hkey
    have hk2 : k < key.length := by omega
    simp [hk, hk2] at this
    simp [hk2, this]

/-- Element `j` of the expansion lies in the block of the `k`-th key. -/
theorem repEach_getElem (L : List Nat) (key : List α) (hl : key.length = L.length) {k j : Nat}
    (hk : k < L.length) (h1 : cumSize L k ≤ j) (h2 : j < cumSize L (k + 1)) :
    (repEach (L.map Int.ofNat) key)[j]? = key[k]? := by
  induction L generalizing key k j with
  | nil => simp at hk
  | cons c L ih =>
    cases key with
    | nil => simp at hl
    | cons a key =>
      simp only [List.map_cons, repEach]
      have hc : (Int.ofNat c).toNat = c := rfl
      rw [hc]
      cases k with
      | zero =>
        simp only [cumSize, List.take_succ_cons, List.sum_cons, List.take_zero, List.sum_nil] at h2
        have hjc : j < c := by omega
        rw [List.getElem?_append_left (by rw [List.length_replicate]; exact hjc),
          List.getElem?_replicate, if_pos hjc]
        rfl
      | succ k =>
        simp only [cumSize, List.take_succ_cons, List.sum_cons] at h1 h2
        rw [List.getElem?_append_right (by simp; omega)]
        simp only [List.length_replicate, List.getElem?_cons_succ]
        refine ih key (by simpa using hl) (by simpa using hk) ?_ ?_ <;>
          (simp only [cumSize, List.take_succ_cons, List.sum_cons] at *; omega)

theorem repEach_length (L : List Nat) (key : List α) (hl : key.length = L.length) :
    (repEach (L.map Int.ofNat) key).length = L.sum := by
  induction L generalizing key with
  | nil => simp [repEach]
  | cons c L ih =>
    cases key with
    | nil => simp at hl
    | cons a key =>
      simp only [List.map_cons, repEach, List.length_append, List.length_replicate, List.sum_cons]
      rw [ih key (by simpa using hl)]
      rfl

/-- Every position lies in exactly one block. -/
theorem exists_block (L : List Nat) {j : Nat} (hj : j < L.sum) :
    ∃ k, k < L.length ∧ cumSize L k ≤ j ∧ j < cumSize L (k + 1) := by
  induction L generalizing j with
  | nil => simp at hj
  | cons c L ih =>
    by_cases h : j < c
    · exact ⟨0, by simp, by simp [cumSize], by simpa [cumSize] using h⟩
    · obtain ⟨k, hk, h1, h2⟩ := ih (j := j - c) (by simp at hj; omega)
      refine ⟨k + 1, by simpa using hk, ?_, ?_⟩ <;>
        (simp only [cumSize, List.take_succ_cons, List.sum_cons] at *; omega)

/-- For an equivalence `eq` and a vector of R length: `vec_unrep(x)` succeeds, `times` are positive,
adjacent keys are never equal, and `vec_rep_each(key, times)` is `x` up to element equality. -/
theorem C14_unrep {eq : α → α → Bool} (hr : ∀ a, eq a a = true) (hs : ∀ a b, eq a b = eq b a)
    (ht : ∀ a b c, eq a b = true → eq b c = true → eq a c = true)
    (x : List α) (hx : x.length ≤ 2147483647) :
    ∃ key times, vecUnrep eq x = .ok (key, times) ∧ key.length = times.length ∧
      (∀ t ∈ times, 0 < t) ∧
      (∀ (k : Nat) a b, key[k]? = some a → key[k + 1]? = some b → eq a b = false) ∧
      ∃ y, vecRepEach key (times.map Int.ofNat) = .ok y ∧ y.length = x.length ∧
        ∀ (j : Nat) a b, y[j]? = some a → x[j]? = some b → eq a b = true := by
  obtain ⟨L, hL, hpos, hsum, hend⟩ := C13_vec_run_sizes hs x
  obtain ⟨key, hkey, hlen, hval⟩ := vecUnrep_ok eq x hL hpos hsum
  -- within a block all elements equal the first one
  have hblock : ∀ (k : Nat), k < L.length → ∀ (d : Nat), cumSize L k + d < cumSize L (k + 1) →
      ∀ a b, x[cumSize L k]? = some a → x[cumSize L k + d]? = some b → eq a b = true := by
    intro k hk d
    induction d with
    | zero =>
      intro _ a b ha hb
      rw [Nat.add_zero, ha] at hb
      cases hb; exact hr a
    | succ d ih =>
      intro hd a b ha hb
      have hlt := (List.getElem?_eq_some_iff.1 hb).1
      have hc := List.getElem?_eq_getElem (show cumSize L k + d < x.length by omega)
      have hac := ih (by omega) a _ ha hc
      have hne : ¬ RunEnd (sameElt eq x) x.length (cumSize L k + d) := by
        rw [hend]
        rintro ⟨k', hk', he⟩
        have he' : cumSize L (k' + 1) = cumSize L k + d + 1 := he
        rcases Nat.lt_or_ge k' k with h | h
        · have := cumSize_mono (L := L) (show k' + 1 ≤ k by omega); omega
        · have := cumSize_mono (L := L) (show k + 1 ≤ k' + 1 by omega); omega
      have hsame : sameElt eq x (cumSize L k + d) (cumSize L k + d + 1) = true := by
        cases h : sameElt eq x (cumSize L k + d) (cumSize L k + d + 1) with
        | true => rfl
        | false => exact absurd ⟨by omega, Or.inr h⟩ hne
      unfold sameElt at hsame
      rw [hc, show cumSize L k + d + 1 = cumSize L k + (d + 1) by omega, hb] at hsame
      exact ht _ _ _ hac hsame
  refine ⟨key, L, hkey, hlen, hpos, ?_, ?_⟩
  · intro k a b ha hb
    have hk1 : k + 1 < L.length := by rw [← hlen]; exact (List.getElem?_eq_some_iff.1 hb).1
    obtain ⟨h1, h2⟩ := hval k (by omega)
    obtain ⟨h3, h4⟩ := hval (k + 1) hk1
    rw [ha] at h1
    rw [hb] at h3
    have hLk := cumSize_succ (show k < L.length by omega)
    have hp := hpos _ (List.getElem_mem (show k < L.length by omega))
    -- the last element of block k is a run end
    have he : RunEnd (sameElt eq x) x.length (cumSize L (k + 1) - 1) := by
      rw [hend]
      exact ⟨k, by omega, show cumSize L (k + 1) = _ by omega⟩
    have hlt : cumSize L (k + 1) - 1 < x.length := by omega
    have hb' := hblock k (by omega) (L[k] - 1) (by omega) a _ h1.symm
      (by rw [show cumSize L k + (L[k] - 1) = cumSize L (k + 1) - 1 by omega]
          exact List.getElem?_eq_getElem hlt)
    obtain ⟨_, he⟩ := he
    rcases he with he | he
    · omega
    · unfold sameElt at he
      rw [List.getElem?_eq_getElem hlt, show cumSize L (k + 1) - 1 + 1 = cumSize L (k + 1) by omega,
        ← h3] at he
      simp only at he
      cases hab : eq a b with
      | false => rfl
      | true =>
        have := ht _ _ _ ((hs _ _).trans hb') hab
        rw [this] at he
        exact absurd he (by simp)
  · have hmem : ∀ t ∈ L.map Int.ofNat, 0 ≤ t ∧ t ≤ 2147483647 := by
      intro t ht
      obtain ⟨c, hc, rfl⟩ := List.mem_map.1 ht
      have : c ≤ L.sum := by
        clear * - hc
        induction L with
        | nil => simp at hc
        | cons d L ih =>
          rcases List.mem_cons.1 hc with rfl | h
          · simp
          · have := ih h; simp only [List.sum_cons]; omega
      constructor
      · exact Int.natCast_nonneg c
      · show (c : Int) ≤ 2147483647
        omega
    have hlx : key.length ≤ 2147483647 := by
      have hle : L.length ≤ L.sum := by
        clear * - hpos
        induction L with
        | nil => simp
        | cons c L ih =>
          have h1 := hpos c (by simp)
          have h2 := ih (fun c hc => hpos c (by simp [hc]))
          simp only [List.length_cons, List.sum_cons]
          omega
      omega
    obtain ⟨ts, hts, hrep⟩ : ∃ ts, recycled (L.map Int.ofNat) key.length = some ts ∧
        ts = L.map Int.ofNat := by
      refine ⟨_, ?_, rfl⟩
      unfold recycled
      split
      · rename_i t heq
        have hL1 : L.length = 1 := by have := congrArg List.length heq; simpa using this
        rw [hlen, hL1, heq]
        rfl
      · simp [hlen]
    have hts' : (L.map Int.ofNat).map Int.toNat = L := by
      rw [List.map_map]
      have : Int.toNat ∘ Int.ofNat = id := rfl
      rw [this, List.map_id]
    refine ⟨_, (C15_rep_each key (L.map Int.ofNat) hlx (fun t h => ⟨by have := hmem t h; omega, (hmem t h).2⟩)).1
      ts hts (fun t h => (hmem t h).1) (by rw [hrep, hts']; omega), ?_, ?_⟩
    · rw [hrep, repEach_length L key hlen, hsum]
    · intro j a b ha hb
      have hj := (List.getElem?_eq_some_iff.1 hb).1
      obtain ⟨k, hk, h1, h2⟩ := exists_block L (j := j) (by omega)
      rw [hrep, repEach_getElem L key hlen hk h1 h2, (hval k hk).1] at ha
      exact hblock k hk (j - cumSize L k) (by omega) a b ha (by
        rw [show cumSize L k + (j - cumSize L k) = j by omega]; exact hb)

example : vecUnrep (fun a b : Nat => a % 10 == b % 10) [1, 11, 2, 2, 12, 5] = .ok ([1, 2, 5], [2, 3, 1]) := by
  decide +kernel
/-- An equivalence coarser than equality meets the hypotheses. -/
example : ∃ key times, vecUnrep (fun a b : Nat => a % 10 == b % 10) [1, 11, 2, 2, 12, 5] = .ok (key, times) ∧
    (∀ t ∈ times, 0 < t) := by
  obtain ⟨key, times, h1, _, h2, _⟩ := C14_unrep (eq := fun a b : Nat => a % 10 == b % 10)
    (by simp) (by intro a b; exact Bool.beq_comm) (by simp; omega) [1, 11, 2, 2, 12, 5] (by simp)
  exact ⟨key, times, h1, h2⟩

end Vctrs
