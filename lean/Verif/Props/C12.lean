import Verif.Lemmas.GroupLoc
import Verif.Props.Ex

/-! # C12: vec_group_loc -/

namespace Vctrs

open Spec

variable {α : Type} {ops : PolyOps α}

/-- The keys are the distinct values in order of first appearance.  Location `l` is in the
group of `key` iff `x[l]` equals `key`; locations are strictly increasing within a group;
every location `1..n` occurs exactly once over all groups. -/
theorem C12_group_loc (he : EqvHash ops) (x : List α) (hn : x.length ≤ 2147483647) :
    ∃ keys locs, groupLoc ops x = .ok (keys, locs) ∧ keys = nub ops.eq x ∧
      locs.length = keys.length ∧
      (∀ (k : Nat) (key : α) (loc : List Nat), keys[k]? = some key → locs[k]? = some loc →
        loc.Pairwise (· < ·) ∧ loc ≠ [] ∧
        ∀ l, l ∈ loc ↔ ∃ j a, l = j + 1 ∧ x[j]? = some a ∧ ops.eq key a = true) ∧
      (∀ l, 1 ≤ l → l ≤ x.length →
        ∃! k : Nat, ∃ loc, locs[k]? = some loc ∧ l ∈ loc) ∧
      locs.flatten.Perm ((List.range x.length).map (· + 1)) ∧
      (locs.filterMap List.head?).Pairwise (· < ·) := by
  have hmem : ∀ (k : Nat) (key : α), (nub ops.eq x)[k]? = some key → ∀ l,
      l ∈ ((List.range x.length).filter (fun j => cls ops x j == k)).map (· + 1) ↔
        ∃ j a, l = j + 1 ∧ x[j]? = some a ∧ ops.eq key a = true := by
    intro k key hk l
    simp only [List.mem_map, List.mem_filter, List.mem_range, beq_iff_eq]
    constructor
    · rintro ⟨j, ⟨h1, h2⟩, rfl⟩
      have hj := List.getElem?_eq_getElem h1
      exact ⟨j, _, rfl, hj, (cls_eq_iff he hj hk).1 h2⟩
    · rintro ⟨j, a, rfl, ha, h⟩
      exact ⟨j, ⟨(List.getElem?_eq_some_iff.1 ha).1, (cls_eq_iff he ha hk).2 h⟩, rfl⟩
  have hget : ∀ (k : Nat) (loc : List Nat), ((List.range (nub ops.eq x).length).map (fun k =>
      ((List.range x.length).filter (fun j => cls ops x j == k)).map (· + 1)))[k]? = some loc →
      k < (nub ops.eq x).length ∧
      loc = ((List.range x.length).filter (fun j => cls ops x j == k)).map (· + 1) := by
    intro k loc h
    have hk : k < (nub ops.eq x).length := by
      have := (List.getElem?_eq_some_iff.1 h).1
      simpa using this
    simp [hk] at h
    exact ⟨hk, by rw [← h]⟩
  have hsorted : ∀ k, (((List.range x.length).filter (fun j => cls ops x j == k)).map (· + 1)).Pairwise
      (· < ·) := by
    intro k
    rw [List.pairwise_map]
    refine (List.pairwise_lt_range.sublist List.filter_sublist).imp ?_
    intro a b h; omega
  refine ⟨_, _, groupLoc_ok he x hn, rfl, by simp, ?_, ?_, ?_, ?_⟩
  · intro k key loc hk hl
    obtain ⟨hk', rfl⟩ := hget k loc hl
    refine ⟨hsorted k, ?_, hmem k key hk⟩
    have hkx : key ∈ x := mem_nub_of_mem (List.mem_of_getElem? hk)
    obtain ⟨j, hj, hjk⟩ := List.getElem_of_mem hkx
    have := (hmem k key hk (j + 1)).2 ⟨j, key, rfl, by rw [List.getElem?_eq_getElem hj, hjk], he.refl key⟩
    exact List.ne_nil_of_mem this
  · intro l h1 h2
    have hj : l - 1 < x.length := by omega
    refine ⟨cls ops x (l - 1), ⟨((List.range x.length).filter
      (fun j => cls ops x j == cls ops x (l - 1))).map (· + 1), ?_, ?_⟩, ?_⟩
    · rw [List.getElem?_map, List.getElem?_range (cls_lt he hj)]
      rfl
    · simp only [List.mem_map, List.mem_filter, List.mem_range, beq_iff_eq]
      exact ⟨l - 1, ⟨hj, rfl⟩, by omega⟩
    · rintro k ⟨loc, hl, hm⟩
      obtain ⟨_, rfl⟩ := hget k loc hl
      simp only [List.mem_map, List.mem_filter, List.mem_range, beq_iff_eq] at hm
      obtain ⟨j, ⟨_, rfl⟩, rfl⟩ := hm
      simp
  · rw [List.perm_ext_iff_of_nodup]
    · intro l
      simp only [List.mem_flatten, List.mem_map, List.mem_range]
      constructor
      · rintro ⟨loc, ⟨k, hk, rfl⟩, hm⟩
        simp only [List.mem_map, List.mem_filter, List.mem_range] at hm
        obtain ⟨j, ⟨hj, _⟩, rfl⟩ := hm
        exact ⟨j, hj, rfl⟩
      · rintro ⟨j, hj, rfl⟩
        refine ⟨_, ⟨cls ops x j, cls_lt he hj, rfl⟩, ?_⟩
        simp only [List.mem_map, List.mem_filter, List.mem_range, beq_iff_eq]
        exact ⟨j, ⟨hj, rfl⟩, rfl⟩
    · rw [List.nodup_flatten]
      constructor
      · intro loc hl
        obtain ⟨k, _, rfl⟩ := List.mem_map.1 hl
        exact (hsorted k).imp (fun h => Nat.ne_of_lt h)
      · rw [List.pairwise_map]
        refine (List.pairwise_lt_range (n := _)).imp ?_
        intro k k' hkk l h1 h2
        simp only [List.mem_map, List.mem_filter, List.mem_range, beq_iff_eq] at h1 h2
        obtain ⟨j, ⟨_, rfl⟩, rfl⟩ := h1
        obtain ⟨j', ⟨_, rfl⟩, h⟩ := h2
        simp at h
        subst h
        omega
    · refine List.Nodup.map ?_ List.nodup_range
      intro a b h
      simpa using h
  · -- heads are the first occurrences
    have hhead : ((List.range (nub ops.eq x).length).map (fun k =>
        ((List.range x.length).filter (fun j => cls ops x j == k)).map (· + 1))).filterMap List.head? =
        (firsts ops x x.length).map (· + 1) := by
      have hlen : (firsts ops x x.length).length = (nub ops.eq x).length := by
        rw [← nub_take_length x _ (Nat.le_refl _), List.take_length]
      have hm := getElem?_map_firsts (ops := ops) x x.length (Nat.le_refl _)
      rw [List.take_length] at hm
      have hsome : (List.range (nub ops.eq x).length).map (fun k =>
          (((List.range x.length).filter (fun j => cls ops x j == k)).map (· + 1)).head?) =
          ((firsts ops x x.length).map (· + 1)).map some := by
        apply List.ext_getElem (by simp [hlen])
        intro k h1 h2
        simp at h1
        have hkf : k < (firsts ops x x.length).length := by omega
        simp only [List.getElem_map, List.getElem_range, List.head?_map]
        have hfk := List.getElem_mem hkf
        obtain ⟨hlt, hfirst⟩ := mem_firsts.1 hfk
        have hval : x[(firsts ops x x.length)[k]]? = some (nub ops.eq x)[k] := by
          have := congrArg (fun l => l[k]?) hm
          simp only [List.getElem?_map, List.getElem?_eq_getElem hkf,
            List.getElem?_eq_getElem h1, Option.map_some] at this
          simpa using this
        rw [show (some ((firsts ops x x.length)[k] + 1)) = (some (firsts ops x x.length)[k]).map (· + 1)
          from rfl]
        congr 1
        rw [List.head?_filter, List.find?_range_eq_some]
        refine ⟨?_, by simpa using hlt, ?_⟩
        · simp only [beq_iff_eq]
          exact (cls_eq_iff he hval (List.getElem?_eq_getElem h1)).2 (he.refl _)
        · intro j hj
          have hjx : j < x.length := by omega
          simp only [Bool.not_eq_true', beq_eq_false_iff_ne, ne_eq]
          rw [cls_eq_iff he (List.getElem?_eq_getElem hjx) (List.getElem?_eq_getElem h1)]
          obtain ⟨b, hb, hall⟩ := hfirst
          rw [hval] at hb
          simp at hb
          subst hb
          have := hall j _ hj (List.getElem?_eq_getElem hjx)
          intro hc
          rw [he.symm _ _ hc] at this
          simp at this
      rw [List.filterMap_map]
      have := congrArg (List.filterMap id) hsome
      rw [List.filterMap_map, List.filterMap_map] at this
      simp only [Function.comp_def, id] at this ⊢
      rw [this]
      simp
    rw [hhead, List.pairwise_map]
    unfold firsts
    refine (List.pairwise_lt_range.sublist List.filter_sublist).imp ?_
    intro a b h; omega

example : groupLoc exOps10 [3, 2, 13, 7, 12, 5] =
    .ok ([3, 2, 7, 5], [[1, 3], [2, 5], [4], [6]]) := by decide +kernel

end Vctrs
