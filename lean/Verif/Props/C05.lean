import Verif.Props.Ex

/-! # C05: duplicate detection and distinct counts -/

namespace Vctrs

open Spec

variable {α : Type} {ops : PolyOps α}

/-- `vec_duplicate_detect(x)[i]` is TRUE iff some other element equals `x[i]`. -/
theorem C05_duplicate_detect (he : EqvHash ops) (x : List α) (hn : x.length ≤ 2147483647) :
    ∃ out, duplicatedDetect ops x = .ok out ∧ out.length = x.length ∧
      ∀ (i : Nat) (b : Bool), out[i]? = some b → (b = true ↔
        ∃ (j : Nat) (y z : α), j ≠ i ∧ x[i]? = some y ∧ x[j]? = some z ∧ ops.eq y z = true) := by
  obtain ⟨out, h1, h2, h3⟩ := duplicatedDetect_ok he x hn
  refine ⟨out, h1, h2, ?_⟩
  intro i b hb
  obtain ⟨b', hb', h⟩ := h3 i (by
    have := (List.getElem?_eq_some_iff.1 hb).1; omega)
  rw [hb] at hb'
  simp at hb'
  subst hb'
  exact h

/-- `vec_duplicate_any(x)` is TRUE iff two positions hold equal elements. -/
theorem C05_duplicate_any (he : EqvHash ops) (x : List α) (hn : x.length ≤ 2147483647) :
    ∃ b, duplicatedAny ops x = .ok b ∧ (b = true ↔
      ∃ (i j : Nat) (y z : α), i < j ∧ x[i]? = some y ∧ x[j]? = some z ∧ ops.eq y z = true) := by
  obtain ⟨b, h1, h2⟩ := duplicatedAny_ok he x hn
  refine ⟨b, h1, h2.trans ?_⟩
  constructor
  · rintro ⟨j, hj, hnf⟩
    obtain ⟨idx, a, h1, h2, h3, h4⟩ := exists_first he x j x[j] (List.getElem?_eq_getElem hj)
    refine ⟨idx, j, a, x[j], ?_, h3, List.getElem?_eq_getElem hj, h4⟩
    rcases Nat.lt_or_eq_of_le h1 with h | h
    · exact h
    · subst h; exact absurd h2 hnf
  · rintro ⟨i, j, y, z, hij, hy, hz, hyz⟩
    refine ⟨j, (List.getElem?_eq_some_iff.1 hz).1, ?_⟩
    rintro ⟨z', hz', hall⟩
    rw [hz] at hz'
    simp at hz'
    subst hz'
    have := hall i y hij hy
    rw [hyz] at this
    simp at this

/-- `vec_unique_count(x)` is the number of unique elements, i.e. the length of
`vec_unique_loc(x)` and of `vec_unique(x)`. -/
theorem C05_unique_count (he : EqvHash ops) (x : List α) (hn : x.length ≤ 2147483647) :
    ∃ k loc, nDistinct ops x = .ok k ∧ uniqueLoc ops x = .ok loc ∧ k = loc.length ∧
      k = (nub ops.eq x).length :=
  ⟨_, _, nDistinct_ok he x hn, uniqueLoc_ok he x hn, by simp, firsts_length x⟩

/-- The three functions agree: any duplicate iff a position is flagged iff the distinct count
is below the size. -/
theorem C05_agree (he : EqvHash ops) (x : List α) (hn : x.length ≤ 2147483647) :
    ∃ out b k, duplicatedDetect ops x = .ok out ∧ duplicatedAny ops x = .ok b ∧
      nDistinct ops x = .ok k ∧ (b = true ↔ true ∈ out) ∧ (b = true ↔ k < x.length) := by
  obtain ⟨out, h1, h2, h3⟩ := C05_duplicate_detect he x hn
  obtain ⟨b, h4, h5⟩ := C05_duplicate_any he x hn
  refine ⟨out, b, _, h1, h4, nDistinct_ok he x hn, ?_, ?_⟩
  · rw [h5]
    constructor
    · rintro ⟨i, j, y, z, hij, hy, hz, hyz⟩
      have hi : i < out.length := by
        have := (List.getElem?_eq_some_iff.1 hy).1; omega
      have := (h3 i out[i] (List.getElem?_eq_getElem hi)).2
        ⟨j, y, z, by omega, hy, hz, hyz⟩
      rw [← this]
      exact List.getElem_mem hi
    · intro hm
      obtain ⟨i, hi, hib⟩ := List.getElem_of_mem hm
      obtain ⟨j, y, z, hji, hy, hz, hyz⟩ := (h3 i true (by
        rw [List.getElem?_eq_getElem hi, hib])).1 rfl
      rcases Nat.lt_or_gt_of_ne hji with h | h
      · exact ⟨j, i, z, y, h, hz, hy, he.symm _ _ hyz⟩
      · exact ⟨i, j, y, z, h, hy, hz, hyz⟩
  · obtain ⟨b', h6, h7⟩ := duplicatedAny_ok he x hn
    rw [h4] at h6
    simp at h6
    subst h6
    rw [h7]
    have hlen : (firsts ops x x.length).length < x.length ↔
        ∃ i ∈ List.range x.length, firstB ops x i = false := by
      unfold firsts
      have hle := List.length_filter_le (firstB ops x) (List.range x.length)
      simp only [List.length_range] at hle
      have := List.length_filter_eq_length_iff (p := firstB ops x) (l := List.range x.length)
      simp only [List.length_range] at this
      constructor
      · intro h
        by_contra hc
        have : (List.filter (firstB ops x) (List.range x.length)).length = x.length := by
          rw [this]
          intro a ha
          cases hf : firstB ops x a with
          | true => rfl
          | false => exact absurd ⟨a, ha, hf⟩ hc
        omega
      · rintro ⟨i, hi, hf⟩
        rcases Nat.lt_or_eq_of_le hle with h | h
        · exact h
        · have := this.1 h i hi
          rw [hf] at this
          simp at this
    rw [hlen]
    constructor
    · rintro ⟨i, hi, hnf⟩
      refine ⟨i, by simpa using hi, ?_⟩
      rw [← firstB_iff] at hnf
      simpa using hnf
    · rintro ⟨i, hi, hf⟩
      refine ⟨i, by simpa using hi, ?_⟩
      rw [← firstB_iff, hf]
      simp

example : duplicatedDetect exOps [4, 2, 4, 7, 2, 9] = .ok [true, true, true, false, true, false] ∧
    duplicatedAny exOps [4, 2, 4, 7] = .ok true ∧ duplicatedAny exOps [4, 2, 7] = .ok false ∧
    nDistinct exOps [4, 2, 4, 7, 2, 9] = .ok 4 := by decide +kernel

end Vctrs
