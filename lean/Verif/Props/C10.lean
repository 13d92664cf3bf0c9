import Verif.Lemmas.Group
import Verif.Props.Ex

/-! # C10: vec_group_id -/

namespace Vctrs

open Spec

variable {α : Type} {ops : PolyOps α}

/-- Ids are equal iff the elements are equal; they are the numbers `1..n` in order of first
appearance; the attribute `n` is the number of distinct values. -/
theorem C10_group_id (he : EqvHash ops) (x : List α) (hn : x.length ≤ 2147483647) :
    ∃ out n, groupId ops x = .ok (out, n) ∧ out.length = x.length ∧
      n = (nub ops.eq x).length ∧
      (∀ (i j : Nat) (a b : α) (u v : Nat), x[i]? = some a → x[j]? = some b → out[i]? = some u →
        out[j]? = some v → (u = v ↔ ops.eq a b = true)) ∧
      (∀ u, u ∈ out ↔ 1 ≤ u ∧ u ≤ n) ∧
      nub (· == ·) out = (List.range n).map (· + 1) := by
  refine ⟨_, _, groupId_ok he x hn, by simp, rfl, ?_, ?_, ?_⟩
  · intro i j a b u v ha hb hu hv
    simp [ha] at hu
    simp [hb] at hv
    rw [← hu, ← hv, ← classOf_eq_iff he (List.mem_of_getElem? ha) (List.mem_of_getElem? hb)]
    omega
  · intro u
    simp only [List.mem_map]
    constructor
    · rintro ⟨a, ha, rfl⟩
      have := classOf_lt he ha
      omega
    · rintro ⟨h1, h2⟩
      have hlt : u - 1 < (nub ops.eq x).length := by omega
      refine ⟨(nub ops.eq x)[u - 1], mem_nub_of_mem (List.getElem_mem hlt), ?_⟩
      have : classOf ops.eq x (nub ops.eq x)[u - 1] = u - 1 := by
        unfold classOf
        rw [List.findIdx_eq hlt]
        refine ⟨he.refl _, ?_⟩
        intro j hj
        exact List.pairwise_iff_getElem.1 (nub_pairwise ops.eq x) j (u - 1) (by omega) hlt hj
      omega
  · suffices h : ∀ i, i ≤ x.length → nub (· == ·) ((x.take i).map (fun a => classOf ops.eq x a + 1)) =
        (List.range (nub ops.eq (x.take i)).length).map (· + 1) by
      simpa using h x.length (Nat.le_refl _)
    intro i
    induction i with
    | zero => intro _; simp [nub]
    | succ i ih =>
      intro hi
      have hxi : x[i]? = some x[i] := List.getElem?_eq_getElem (by omega)
      have e : (x.take (i + 1)).map (fun a => classOf ops.eq x a + 1) =
          (x.take i).map (fun a => classOf ops.eq x a + 1) ++ [classOf ops.eq x x[i] + 1] := by
        rw [List.take_add_one, hxi, List.map_append]; rfl
      rw [e, nub_append_singleton, ih (by omega)]
      by_cases hf : IsFirst ops.eq x i
      · rw [nub_take_succ_first hxi hf, classOf_first he hxi hf, if_pos]
        · simp [List.range_succ]
        · rw [List.all_eq_true]
          intro u hu
          obtain ⟨a, ha, rfl⟩ := List.mem_map.1 hu
          rw [List.mem_take_iff_getElem] at ha
          obtain ⟨j, hj, rfl⟩ := ha
          have hne : ops.eq x[j] x[i] = false := by
            obtain ⟨b, hb, hall⟩ := hf
            rw [hxi] at hb
            simp at hb
            subst hb
            exact hall j _ (by omega) (List.getElem?_eq_getElem (by omega))
          have h2 := (classOf_eq_iff he (List.getElem_mem (l := x) (n := j) (by omega))
            (List.getElem_mem (l := x) (n := i) (by omega))).not.2 (by simp [hne])
          rw [classOf_first he hxi hf] at h2
          simp
          exact h2
      · have hlen : (nub ops.eq (x.take (i + 1))).length = (nub ops.eq (x.take i)).length := by
          rw [nub_take_length x _ hi, nub_take_length x i (by omega), firsts_succ,
            if_neg (by rw [firstB_iff]; exact hf), List.append_nil]
        rw [hlen, if_neg, List.append_nil]
        obtain ⟨idx, a, hle, hfi, ha, hab⟩ := exists_first he x i _ hxi
        have hlt : idx < i := by
          rcases Nat.lt_or_eq_of_le hle with h | h
          · exact h
          · subst h; exact absurd hfi hf
        simp only [List.all_eq_true, Bool.not_eq_true', not_forall]
        refine ⟨classOf ops.eq x a + 1, List.mem_map.2 ⟨a, ?_, rfl⟩, ?_⟩
        · rw [List.mem_take_iff_getElem]
          obtain ⟨h1, h2⟩ := List.getElem?_eq_some_iff.1 ha
          exact ⟨idx, by omega, h2⟩
        · rw [classOf_congr he x hab]; simp

example : groupId exOps10 [3, 2, 13, 7, 12, 5] = .ok ([1, 2, 1, 3, 2, 4], 4) := by decide +kernel

end Vctrs
