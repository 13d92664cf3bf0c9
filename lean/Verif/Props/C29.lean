import Verif.Lemmas.Proxy

/-! # C29: missingness is "all columns", completeness is "no column" -/

namespace Vctrs

open Spec

/-- Every vector in `x` is missing at row `i`. -/
def AllMissingAt (x : Val) (i : Nat) : Prop := ∀ p ∈ leaves x, MissingCell p i

/-- No vector in `x` is missing at row `i`. -/
def CompleteAt (x : Val) (i : Nat) : Prop := ∀ p ∈ leaves x, ¬ MissingCell p i

theorem allMissing_iff (x : Val) (i : Nat) : allMissing (leaves x) i = true ↔ AllMissingAt x i := by
  unfold allMissing AllMissingAt
  simp only [List.all_eq_true, cellMissing_iff]

theorem noneMissing_iff (x : Val) (i : Nat) : noneMissing (leaves x) i = true ↔ CompleteAt x i := by
  unfold noneMissing CompleteAt
  simp only [List.all_eq_true, Bool.not_eq_true', ← Bool.not_eq_true, cellMissing_iff]

/-- `vec_detect_missing()`: TRUE exactly at the rows where everything is missing. -/
theorem C29_detect_missing (x : Val) (n : Nat) (h : Sized n x) :
    ∃ out, rDetectMissing x = .ok out ∧ out.length = n ∧
      ∀ i, i < n → (out[i]? = some true ↔ AllMissingAt x i) := by
  refine ⟨(List.range n).map (allMissing (leaves x)), ?_, by simp, fun i hi => ?_⟩
  · unfold rDetectMissing
    rw [proxyVal_ok, ok_bind, h.size]
    exact vecDetectMissing_pack n _ (sized_leaves x h)
  · rw [List.getElem?_map, List.getElem?_range hi, Option.map_some, Option.some_inj,
      allMissing_iff]

/-- `vec_detect_complete()`: TRUE exactly at the rows where nothing is missing. -/
theorem C29_detect_complete (x : Val) (n : Nat) (h : Sized n x) :
    ∃ out, rDetectComplete x = .ok out ∧ out.length = n ∧
      ∀ i, i < n → (out[i]? = some true ↔ CompleteAt x i) := by
  refine ⟨(List.range n).map (noneMissing (leaves x)), ?_, by simp, fun i hi => ?_⟩
  · unfold rDetectComplete
    rw [proxyVal_ok, ok_bind, h.size]
    exact vecDetectComplete_pack n _ (sized_leaves x h)
  · rw [List.getElem?_map, List.getElem?_range hi, Option.map_some, Option.some_inj,
      noneMissing_iff]

/-- `vec_first_missing`: the first TRUE of `vec_detect_missing()`, or the size if there is none. -/
theorem C29_first_missing (x : Val) (n : Nat) (h : Sized n x) :
    ∃ r out, rFirstMissing x = .ok r ∧ rDetectMissing x = .ok out ∧ r ≤ n ∧
      (∀ j, j < r → out[j]? = some false) ∧ (r < n → out[r]? = some true) := by
  obtain ⟨r, hr, h1, h2, h3⟩ := vecFirstMissing_pack n _ (sized_leaves x h)
  refine ⟨r, (List.range n).map (allMissing (leaves x)), ?_, ?_, h1, fun j hj => ?_, fun hj => ?_⟩
  · unfold rFirstMissing
    rw [proxyVal_ok, ok_bind, h.size]
    exact hr
  · unfold rDetectMissing
    rw [proxyVal_ok, ok_bind, h.size]
    exact vecDetectMissing_pack n _ (sized_leaves x h)
  · rw [List.getElem?_map, List.getElem?_range (by omega), Option.map_some, h2 j hj]
  · rw [List.getElem?_map, List.getElem?_range hj, Option.map_some, h3 hj]

/-- `vec_any_missing()`: TRUE exactly if `vec_detect_missing()` has a TRUE. -/
theorem C29_any_missing (x : Val) (n : Nat) (h : Sized n x) :
    ∃ b out, rAnyMissing x = .ok b ∧ rDetectMissing x = .ok out ∧ (b = true ↔ true ∈ out) := by
  obtain ⟨r, out, h1, h2, h3, h4, h5⟩ := C29_first_missing x n h
  obtain ⟨out', e1, e2, -⟩ := C29_detect_missing x n h
  rw [h2] at e1
  cases e1
  refine ⟨decide (r ≠ n), out, ?_, h2, ?_⟩
  · unfold rAnyMissing
    rw [h1, ok_bind, h.size]
  · rw [decide_eq_true_iff]
    constructor
    · intro hn
      exact List.mem_of_getElem? (h5 (by omega))
    · intro hm hn
      obtain ⟨j, hj⟩ := List.mem_iff_getElem?.1 hm
      have hj' := (List.getElem?_eq_some_iff.1 hj).1
      rw [h4 j (by omega)] at hj
      cases hj

/-- `vec_locate_complete()`: the complete rows, 1-based and in increasing order. -/
theorem C29_locate_complete (x : Val) (n : Nat) (h : Sized n x) (hn : n ≤ intMax) :
    ∃ out, rLocateComplete x = .ok out ∧ out.Pairwise (· < ·) ∧
      ∀ k : Int, k ∈ out ↔ ∃ i : Nat, k = (i : Int) + 1 ∧ i < n ∧ CompleteAt x i := by
  obtain ⟨w, h1, h2, h3⟩ := C29_detect_complete x n h
  refine ⟨(whichLocs (w.map some) false).map whichVal, ?_, ?_, ?_⟩
  · unfold rLocateComplete
    rw [h1, ok_bind, lglWhich_none_ok (by simpa [h2] using hn), ok_bind]
  · rw [List.pairwise_map]
    have hp : (whichLocs (w.map some) false).Pairwise (fun a b => a.2 < b.2) := kept_sorted _ _
    refine hp.imp_of_mem ?_
    intro a b ha hb hab
    have e1 := whichLocs_true ha
    have e2 := whichLocs_true hb
    simp only [whichVal, e1, e2]
    rw [if_neg (by simp), if_neg (by simp)]
    omega
  · intro k
    rw [List.mem_map]
    constructor
    · rintro ⟨⟨v, i⟩, hm, rfl⟩
      have ht := whichLocs_true hm
      have hi := (kept_mem.1 hm).1
      simp only at ht
      subst ht
      rw [List.getElem?_map, Option.map_eq_some_iff] at hi
      obtain ⟨b, hb, hbt⟩ := hi
      have hin : i < n := by rw [← h2]; exact (List.getElem?_eq_some_iff.1 hb).1
      cases hbt
      exact ⟨i, rfl, hin, (h3 i hin).1 hb⟩
    · rintro ⟨i, rfl, hin, hc⟩
      refine ⟨(some true, i), kept_mem.2 ⟨?_, by simp⟩, rfl⟩
      rw [List.getElem?_map, (h3 i hin).2 hc]
      rfl

/-! ## Examples -/

/-- A data frame of `(NA, 1, NaN)` and of a data frame of `("a", NA, NA)` and of a list. -/
def C29_x : Val := .df 3 [.vec (.atom .dbl) [(naReal : Dbl), (0x3FF0000000000000#64 : Dbl),
  (rNaN : Dbl)], .df 3 [.vec (.atom .chr) [(some ['a'] : Name), (none : Name), (none : Name)],
    .vec .list [Obj.nil, .vec .int [(1 : Int)] .nil, Obj.nil]]]

theorem C29_sized : Sized 3 C29_x := by
  refine .df _ (fun p hp => ?_)
  simp only [List.mem_cons, List.not_mem_nil, or_false] at hp
  rcases hp with rfl | rfl
  · exact .vec _ _ rfl
  · refine .df _ (fun p hp => ?_)
    simp only [List.mem_cons, List.not_mem_nil, or_false] at hp
    rcases hp with rfl | rfl <;> exact .vec _ _ rfl

example : rDetectMissing C29_x = .ok [false, false, true] := by decide +kernel
example : rDetectComplete C29_x = .ok [false, false, false] := by decide +kernel
example : rFirstMissing C29_x = .ok 2 := by decide +kernel
example : rAnyMissing C29_x = .ok true := by decide +kernel

example : ∃ out, rDetectMissing C29_x = .ok out ∧ out.length = 3 ∧
    ∀ i, i < 3 → (out[i]? = some true ↔ AllMissingAt C29_x i) :=
  C29_detect_missing C29_x 3 C29_sized

/-- A data frame without columns: every row is both missing and complete. -/
example : Sized 2 (.df 2 []) ∧ rDetectMissing (.df 2 []) = .ok [true, true] ∧
    rDetectComplete (.df 2 []) = .ok [true, true] ∧ rLocateComplete (.df 2 []) = .ok [1, 2] := by
  refine ⟨.df _ (by simp), by decide +kernel, by decide +kernel, by decide +kernel⟩

end Vctrs
