import Verif.Lemmas.Runs
import Verif.Props.Ex

/-!
# C13: run functions

The run functions of src/runs.c, for a vector `x` whose element equality `eq` is symmetric, and
for data frames given by their columns.
-/

namespace Vctrs

open Spec

variable {α : Type}

/-- `i` is a run start or a run end. -/
def IsBound (which : RunBound) (same : Nat → Nat → Bool) (n i : Nat) : Prop :=
  match which with
  | .start => RunStart same n i
  | .end => RunEnd same n i

/-- `w` marks exactly the run bounds. -/
def Marked (w : List Bool) (which : RunBound) (same : Nat → Nat → Bool) (n : Nat) : Prop :=
  w.length = n ∧ ∀ i, w[i]? = some true ↔ IsBound which same n i

theorem bnd_iff {eq : α → α → Bool} (hs : ∀ a b, eq a b = eq b a) (x : List α) (which : RunBound)
    {i : Nat} (hi : i < x.length) :
    bnd eq x which i = true ↔ IsBound which (sameElt eq x) x.length i := by
  cases which with
  | start =>
    simp only [bnd, IsBound, RunStart, hi, true_and]
    by_cases h0 : i = 0
    · simp [h0]
    · have h1 : x[i - 1]? = some x[i - 1] := List.getElem?_eq_getElem (by omega)
      simp only [if_neg h0, h0, false_or, adjNe, sameElt, h1, List.getElem?_eq_getElem hi]
      rw [hs]
      simp
  | «end» =>
    simp only [bnd, IsBound, RunEnd, hi, true_and]
    by_cases h0 : i + 1 = x.length
    · have h1 : x[i + 1]? = none := List.getElem?_eq_none (by omega)
      simp [h0, adjNe, h1]
    · have h1 : x[i + 1]? = some x[i + 1] := List.getElem?_eq_getElem (by omega)
      simp only [h0, false_or, adjNe, sameElt, h1, List.getElem?_eq_getElem hi]
      simp

/-- `vec_detect_run_bounds(x, which)` marks exactly the first / last elements of the runs. -/
theorem C13_detect {eq : α → α → Bool} (hs : ∀ a b, eq a b = eq b a) (x : List α)
    (which : RunBound) :
    ∃ w, detectBoundsBool eq x which = .ok w ∧ detectRunBounds w = .ok w ∧
      Marked w which (sameElt eq x) x.length := by
  refine ⟨_, detectBoundsBool_ok eq x which, detectRunBounds_ok _, by simp, ?_⟩
  intro i
  rw [List.getElem?_map]
  by_cases hi : i < x.length
  · rw [List.getElem?_range hi]
    simp only [Option.map_some, Option.some.injEq]
    exact bnd_iff hs x which hi
  · rw [List.getElem?_eq_none (by simpa using hi)]
    cases which <;> simp [IsBound, RunStart, RunEnd, hi]

theorem sameRow_symm {cols : List ((α → α → Bool) × List α)}
    (hs : ∀ c ∈ cols, ∀ a b, c.1 a b = c.1 b a) (i j : Nat) :
    sameRow cols i j = sameRow cols j i := by
  unfold sameRow
  rw [Bool.eq_iff_iff, List.all_eq_true, List.all_eq_true]
  have : ∀ c ∈ cols, sameElt c.1 c.2 i j = sameElt c.1 c.2 j i := by
    intro c hc
    unfold sameElt
    cases c.2[i]? <;> cases c.2[j]? <;> simp [hs c hc]
  exact ⟨fun h c hc => by rw [← this c hc]; exact h c hc,
    fun h c hc => by rw [this c hc]; exact h c hc⟩

/-- The same for a data frame: rows are equal when they agree in every column. -/
theorem C13_detect_df {cols : List ((α → α → Bool) × List α)} {n : Nat}
    (hs : ∀ c ∈ cols, ∀ a b, c.1 a b = c.1 b a) (hl : ∀ c ∈ cols, c.2.length = n)
    (which : RunBound) :
    ∃ w, dfDetectBoundsBool cols n which = .ok w ∧ detectRunBounds w = .ok w ∧
      Marked w which (sameRow cols) n := by
  refine ⟨_, dfDetect_ok cols n which hl, detectRunBounds_ok _, by simp, ?_⟩
  intro i
  rw [List.getElem?_map]
  by_cases hi : i < n
  · rw [List.getElem?_range hi]
    simp only [Option.map_some, Option.some.injEq]
    cases which with
    | start =>
      simp only [dfCont, IsBound, RunStart, hi, true_and, rowEq]
      by_cases h0 : i = 0 <;> simp [h0]
    | «end» =>
      simp only [dfCont, IsBound, RunEnd, hi, true_and, rowEq]
      rw [sameRow_symm hs (i + 1) i]
      by_cases h0 : i + 1 = n <;> simp [h0]
  · rw [List.getElem?_eq_none (by simpa using hi)]
    cases which <;> simp [IsBound, RunStart, RunEnd, hi]

theorem Marked.wq {w : List Bool} {which : RunBound} {same : Nat → Nat → Bool} {n : Nat}
    (h : Marked w which same n) (i : Nat) : wq w i = true ↔ IsBound which same n i := by
  rw [← h.2]
  by_cases hi : i < w.length
  · rw [wq_of hi]; simp
  · rw [List.getElem?_eq_none (by omega)]
    simp [Vctrs.wq, List.getElem?_eq_none (show w.length ≤ i by omega)]

/-- `vec_identify_runs()`: the ids start at 1 and increase by one exactly where an element (or
row) differs from the previous one; attribute `n` is the last id. -/
theorem C13_identify {w : List Bool} {same : Nat → Nat → Bool} {n : Nat}
    (h : Marked w .start same n) :
    ∃ ids m, identifyRuns w = .ok (ids, m) ∧ ids.length = n ∧
      (n ≠ 0 → ids[0]? = some 1) ∧
      (∀ (i a : Nat), ids[i]? = some a → i + 1 < n →
        ids[i + 1]? = some (if same i (i + 1) then a else a + 1)) ∧
      (n = 0 → m = 0) ∧ (∀ a, ids.getLast? = some a → m = a) := by
  refine ⟨_, _, identifyRuns_ok w, by simp [h.1], ?_, ?_, ?_, ?_⟩
  · intro h0
    rw [h.1, List.getElem?_map, List.getElem?_range (by omega)]
    have : Vctrs.wq w 0 = true := (h.wq 0).2 ⟨by omega, Or.inl rfl⟩
    simp [countP_range_succ, this]
  · intro i a ha hi
    rw [h.1, List.getElem?_map, List.getElem?_range (by omega)] at ha ⊢
    simp only [Option.map_some, Option.some.injEq] at ha ⊢
    rw [countP_range_succ _ (i + 1), ha]
    have := h.wq (i + 1)
    simp only [IsBound, RunStart, Nat.add_sub_cancel, hi, true_and, Nat.add_eq_zero_iff,
      Nat.one_ne_zero, and_false, false_or] at this
    cases hsame : same i (i + 1) with
    | true =>
      rw [hsame] at this
      simp at this
      simp [this]
    | false =>
      rw [hsame] at this
      simp at this
      simp [this]
  · intro h0
    rw [h.1, h0]; rfl
  · intro a ha
    rw [h.1] at ha ⊢
    cases n with
    | zero => simp at ha
    | succ k =>
      rw [List.range_succ] at ha
      simp at ha
      rw [← ha]

/-- `vec_run_sizes()`: positive sizes, summing to `n`, whose partial sums are exactly the ends
of the runs.  So they are the lengths of the maximal runs. -/
theorem C13_sizes {w : List Bool} {same : Nat → Nat → Bool} {n : Nat}
    (h : Marked w .end same n) :
    ∃ L, runSizes w = .ok L ∧ (∀ c ∈ L, 0 < c) ∧ L.sum = n ∧
      ∀ i, RunEnd same n i ↔ ∃ k, k < L.length ∧ (L.take (k + 1)).sum = i + 1 := by
  obtain ⟨L, hL, h1, h2, h3, h4⟩ := runSizes_ok w (by
    intro i hi
    exact (h.wq i).2 ⟨by rw [← h.1]; omega, Or.inl (by rw [← h.1]; exact hi)⟩)
  refine ⟨L, hL, h2, h3.trans h.1, ?_⟩
  intro i
  have hw := h.wq i
  simp only [IsBound] at hw
  rw [← hw]
  constructor
  · intro hi
    have hm : i ∈ (List.range w.length).filter (Vctrs.wq w) := by
      rw [List.mem_filter, List.mem_range, h.1]
      exact ⟨(hw.1 hi).1, hi⟩
    obtain ⟨k, hk, hke⟩ := List.getElem_of_mem hm
    exact ⟨k, by omega, h4 k i (by rw [List.getElem?_eq_getElem hk, hke])⟩
  · rintro ⟨k, hk, hsum⟩
    rw [h1] at hk
    have := h4 k _ (List.getElem?_eq_getElem hk)
    unfold cumSize at this
    rw [hsum] at this
    have hm := List.getElem_mem hk
    rw [show ((List.range w.length).filter (Vctrs.wq w))[k] = i by omega] at hm
    exact (List.mem_filter.1 hm).2

/-- `vec_run_sizes(x)` of a vector, directly. -/
theorem C13_vec_run_sizes {eq : α → α → Bool} (hs : ∀ a b, eq a b = eq b a) (x : List α) :
    ∃ L, vecRunSizes eq x = .ok L ∧ (∀ c ∈ L, 0 < c) ∧ L.sum = x.length ∧
      ∀ i, RunEnd (sameElt eq x) x.length i ↔
        ∃ k, k < L.length ∧ (L.take (k + 1)).sum = i + 1 := by
  obtain ⟨w, hw, _, hm⟩ := C13_detect hs x .end
  obtain ⟨L, hL, h⟩ := C13_sizes hm
  exact ⟨L, (bind_eq_of hw hL : vecRunSizes eq x = .ok L), h⟩

/-- `L` lists exactly the marked positions (1-based), in increasing order. -/
def Lists (L : List Nat) (which : RunBound) (same : Nat → Nat → Bool) (n : Nat) : Prop :=
  L.Pairwise (· < ·) ∧ ∀ l, l ∈ L ↔ ∃ i, l = i + 1 ∧ IsBound which same n i

theorem Marked.lists {w : List Bool} {which : RunBound} {same : Nat → Nat → Bool} {n : Nat}
    (h : Marked w which same n) :
    Lists (((List.range w.length).filter (Vctrs.wq w)).map (· + 1)) which same n := by
  constructor
  · rw [List.pairwise_map]
    refine (List.pairwise_lt_range.sublist List.filter_sublist).imp ?_
    intro a b h; omega
  · intro l
    simp only [List.mem_map, List.mem_filter, List.mem_range]
    constructor
    · rintro ⟨i, ⟨_, hi⟩, rfl⟩
      exact ⟨i, rfl, (h.wq i).1 hi⟩
    · rintro ⟨i, rfl, hi⟩
      refine ⟨i, ⟨?_, (h.wq i).2 hi⟩, rfl⟩
      rw [h.1]
      cases which <;> exact hi.1

/-- The last position the loop of `vec_locate_run_bounds` visits. -/
def lastVisited : RunBound → Nat → Nat
  | .start, n => n - 1
  | .end, _ => 0

/-- Full claim: `vec_locate_run_bounds()` lists exactly the marked positions.  It holds only
when the last position visited by the loop is itself a bound; otherwise the code writes outside
of the result, see `C13_locate_overrun`. -/
theorem C13_locate_partial {w : List Bool} {which : RunBound} {same : Nat → Nat → Bool} {n : Nat}
    (h : Marked w which same n) (hlast : n ≠ 0 → IsBound which same n (lastVisited which n)) :
    ∃ L, locateRunBounds w which = .ok L ∧ Lists L which same n := by
  refine ⟨_, locate_ok w which ?_, h.lists⟩
  intro i hi
  rw [h.wq]
  have := hlast (by rw [← h.1]; omega)
  have e : pos which w.length i = lastVisited which n := by
    rw [← h.1]
    cases which <;> simp only [pos, lastVisited] <;> omega
  rw [e]; exact this

/-- In every other case `vec_locate_run_bounds()` writes outside of the vector it allocated
(src/runs.c:66-72: the index is advanced past the end after the last bound, and the loop goes on
writing). -/
theorem C13_locate_overrun {w : List Bool} {which : RunBound} {same : Nat → Nat → Bool} {n : Nat}
    (h : Marked w which same n) (h0 : n ≠ 0) (hlast : ¬ IsBound which same n (lastVisited which n)) :
    locateRunBounds w which = .error .ub := by
  have e : pos which w.length (n - 1) = lastVisited which n := by
    rw [← h.1]
    cases which with
    | start => rfl
    | «end» => simp only [pos, lastVisited]; omega
  refine locate_ub w which (i0 := n - 1) (by rw [h.1]; omega) ?_
  rw [e]
  have := h.wq (lastVisited which n)
  cases hq : Vctrs.wq w (lastVisited which n) with
  | false => rfl
  | true => exact absurd (this.1 hq) hlast

/-- The stray writes only ever hit the cell just before or just after the result, and the
result itself holds exactly the marked positions. -/
theorem C13_locate_values_partial {w : List Bool} {which : RunBound} {same : Nat → Nat → Bool}
    {n : Nat} (h : Marked w which same n) :
    ∃ L, locateRunBoundsW wrSlack w which = .ok L ∧ Lists L which same n :=
  ⟨_, locate_slack_ok w which, h.lists⟩

/-- The property is false of the code: `vec_locate_run_bounds(c(1, 2, 2))`. -/
theorem C13_locate_not_safe : ∃ (x : List Nat) (w : List Bool),
    detectBoundsBool (· == ·) x .start = .ok w ∧ locateRunBounds w .start = .error .ub :=
  ⟨[1, 2, 2], [true, true, false], by decide +kernel, by decide +kernel⟩

example : detectBoundsBool (α := Nat) (· == ·) [1, 2, 2, 5] .end = .ok [true, false, true, true] := by
  decide +kernel
example : detectBoundsBool (α := Nat) (· == ·) [1, 2, 2, 5] .start =
    .ok [true, true, false, true] := by decide +kernel
example : dfDetectBoundsBool (α := Nat) [((· == ·), [1, 1, 1, 2]), ((· == ·), [3, 3, 4, 4])] 4 .start =
    .ok [true, false, true, true] := by decide +kernel
example : identifyRuns [true, true, false, true] = .ok ([1, 2, 2, 3], 3) := by decide +kernel
example : vecRunSizes (α := Nat) (· == ·) [1, 2, 2, 5] = .ok [1, 2, 1] := by decide +kernel
example : locateRunBounds [true, true, false, true] .start = .ok [1, 2, 4] := by decide +kernel
example : locateRunBoundsW wrSlack [true, true, false] .start = .ok [1, 2] := by decide +kernel
example : locateRunBounds [false, true, true] .end = .error .ub := by decide +kernel
/-- A data frame meeting the hypotheses of `C13_detect_df`. -/
example : ∃ w, dfDetectBoundsBool (α := Nat) [((· == ·), [1, 1, 1, 2]), ((· == ·), [3, 3, 4, 4])] 4
    .end = .ok w ∧ Marked w .end (sameRow (α := Nat) [((· == ·), [1, 1, 1, 2]), ((· == ·), [3, 3, 4, 4])]) 4 := by
  obtain ⟨w, h1, _, h2⟩ := C13_detect_df (n := 4)
    (cols := [((fun a b : Nat => a == b), [1, 1, 1, 2]), ((fun a b => a == b), [3, 3, 4, 4])])
    (by simp [Bool.beq_comm]) (by simp) .end
  exact ⟨w, h1, h2⟩

end Vctrs
