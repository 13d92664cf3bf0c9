import Verif.Props.Ex
import Mathlib.Algebra.BigOperators.Group.List.Basic

/-! # C08: vec_count counts every value once -/

namespace Vctrs

open Spec

variable {α : Type} {ops : PolyOps α}

/-- Summing class sizes over a list of representatives, the other way round. -/
theorem sum_countP_comm {β γ : Type} (p : β → γ → Bool) (L : List β) (x : List γ) :
    (L.map (fun b => x.countP (p b))).sum = (x.map (fun c => L.countP (fun b => p b c))).sum := by
  induction x with
  | nil => induction L <;> simp_all
  | cons c x ih =>
    simp only [List.countP_cons, List.map_cons, List.sum_cons, ← ih]
    clear ih
    induction L with
    | nil => simp
    | cons b L ih =>
      simp only [List.map_cons, List.sum_cons, List.countP_cons, ih]
      omega

theorem countP_eq_one {β : Type} {p : β → Bool} {L : List β} {b : β} (hnd : L.Nodup) (hb : b ∈ L)
    (hp : p b = true) (hu : ∀ c ∈ L, p c = true → c = b) : L.countP p = 1 := by
  induction L with
  | nil => simp at hb
  | cons c L ih =>
    rw [List.countP_cons]
    rcases List.mem_cons.1 hb with h | h
    · subst h
      have : L.countP p = 0 := by
        rw [List.countP_eq_zero]
        intro d hd hpd
        have := hu d (by simp [hd]) hpd
        subst this
        exact (List.nodup_cons.1 hnd).1 hd
      simp [this, hp]
    · have hcb : c ≠ b := by rintro rfl; exact (List.nodup_cons.1 hnd).1 h
      have : p c = false := by
        cases hpc : p c with
        | false => rfl
        | true => exact absurd (hu c (by simp) hpc) hcb
      rw [ih (List.nodup_cons.1 hnd).2 h (fun d hd => hu d (by simp [hd]))]
      simp [this]

/-- `vec_count(x)` (before sorting): the locations are exactly the first occurrences, each
once; the count beside a location is the number of elements equal to the element there; counts
are positive and add up to the size of `x`. -/
theorem C08_count (he : EqvHash ops) (x : List α) (hn : x.length ≤ 2147483647) :
    ∃ loc count, vecCount ops x = .ok (loc, count) ∧ loc.Nodup ∧
      (∀ l, l ∈ loc ↔ ∃ i, l = i + 1 ∧ IsFirst ops.eq x i) ∧
      count.length = loc.length ∧
      (∀ (k i : Nat) a, loc[k]? = some (i + 1) → x[i]? = some a →
        count[k]? = some (x.countP (fun b => ops.eq a b))) ∧
      (∀ c ∈ count, 0 < c) ∧ count.sum = x.length := by
  obtain ⟨⟨loc, count⟩, h1, K, hK, rfl, h2, h3⟩ := vecCount_ok he x hn
  simp only at h1 h2 h3
  have hnd : K.Nodup := hK.nodup_iff.2 (firsts_nodup x _)
  have hmem : ∀ i, i ∈ K ↔ IsFirst ops.eq x i := by
    intro i
    rw [hK.mem_iff, mem_firsts]
    constructor
    · exact fun h => h.2
    · intro h
      obtain ⟨b, hb, _⟩ := id h
      exact ⟨(List.getElem?_eq_some_iff.1 hb).1, h⟩
  have hval : ∀ k (hk : k < K.length), ∃ a, x[K[k]]? = some a ∧
      count[k]? = some (x.countP (ops.eq a)) := by
    intro k hk
    obtain ⟨a, ha, _⟩ := (hmem K[k]).1 (List.getElem_mem hk)
    exact ⟨a, ha, h3 k _ a (List.getElem?_eq_getElem hk) ha⟩
  refine ⟨_, count, h1, ?_, ?_, by simpa using h2, ?_, ?_, ?_⟩
  · exact hnd.map (fun a b h => by simpa using h)
  · intro l
    simp only [List.mem_map, hmem]
    constructor
    · rintro ⟨i, h, rfl⟩; exact ⟨i, rfl, h⟩
    · rintro ⟨i, rfl, h⟩; exact ⟨i, h, rfl⟩
  · intro k i a hk ha
    apply h3 k i a ?_ ha
    simpa using hk
  · intro c hc
    obtain ⟨k, hk, hkc⟩ := List.getElem_of_mem hc
    obtain ⟨a, ha, hca⟩ := hval k (by omega)
    rw [List.getElem?_eq_getElem hk, hkc] at hca
    simp at hca
    rw [hca]
    exact List.countP_pos_iff.2 ⟨a, List.mem_of_getElem? ha, he.refl a⟩
  · let p : Nat → α → Bool := fun i c => match x[i]? with | some a => ops.eq a c | none => false
    have hcount : count = K.map (fun i => x.countP (p i)) := by
      apply List.ext_getElem (by simpa using h2)
      intro k hk hk'
      simp at hk'
      obtain ⟨a, ha, hca⟩ := hval k hk'
      rw [List.getElem?_eq_getElem hk] at hca
      simp at hca
      rw [hca, List.getElem_map]
      congr 1
      funext c
      simp only [p, ha]
    rw [hcount, sum_countP_comm]
    have : ∀ c ∈ x, K.countP (fun i => p i c) = 1 := by
      intro c hc
      obtain ⟨j, hj, hjc⟩ := List.getElem_of_mem hc
      obtain ⟨idx, a, hle, hf, ha, hab⟩ := exists_first he x j c
        (by rw [List.getElem?_eq_getElem hj, hjc])
      apply countP_eq_one hnd ((hmem idx).2 hf)
      · simp only [p, ha, hab]
      · intro i hi hpi
        obtain ⟨b, hb, _⟩ := (hmem i).1 hi
        simp only [p, hb] at hpi
        exact first_unique he ((hmem i).1 hi) hf hb ha (he.trans _ _ _ hpi (he.symm _ _ hab))
    rw [List.map_congr_left this]
    simp

example : vecCount exOps10 [14, 2, 4, 7, 12, 9, 24] = .ok ([6, 1, 2, 4], [1, 3, 2, 1]) := by
  decide +kernel

end Vctrs
