import Verif.Props.C99
import Verif.Props.C30Sorted

/-!
# C37: the four tie methods compared

No new model: from the ranks as counts (C37).
-/

namespace Vctrs

open Spec

/-- Ranks as counts are in the order of the methods. -/
theorem isRank_methods {before : Nat → Nat → Prop} {S : Nat → Prop} (ha : ∀ i j, before i j → ¬ before j i)
    {i : Nat} (hi : S i) {d m s M : Int} (hd : IsRank before S i d .dense) (hm : IsRank before S i m .min)
    (hs : IsRank before S i s .sequential) (hM : IsRank before S i M .max) :
    1 ≤ d ∧ d ≤ m ∧ m ≤ s ∧ s ≤ M ∧ ((∀ j, S j → j ≠ i → before i j ∨ before j i) → m = M) ∧
      ((∀ j k, S j → S k → j ≠ k → before j k ∨ before k j) → d = m) := by
  obtain ⟨kd, rfl, hd⟩ := hd
  obtain ⟨km, rfl, hm⟩ := hm
  obtain ⟨ks, rfl, hs⟩ := hs
  obtain ⟨kM, rfl, hM⟩ := hM
  have hir : ∀ j, ¬ before j j := fun j h => ha j j h h
  have h1 := hasCount_le hd hm (fun j h => ⟨h.1, h.2.1⟩)
  have h2 := hasCount_le hm hs (fun j h => ⟨h.1, .inl h.2⟩)
  have h3 : ks < kM := hasCount_lt hs hM
    (fun j h => ⟨h.1, h.2.elim (fun h => ha _ _ h) (fun h => h.1)⟩) (z := i) ⟨hi, hir i⟩
    (fun h => h.2.elim (hir i) (fun h => by omega))
  refine ⟨by omega, by omega, by omega, by omega, fun ht => ?_, fun ht => ?_⟩
  · obtain ⟨l, l1, l2, l3⟩ := hm
    have hM' : HasCount (fun j => S j ∧ ¬ before i j) (km + 1) := by
      refine ⟨i :: l, List.nodup_cons.2 ⟨fun h => hir i ((l2 i).1 h).2, l1⟩, fun j => ?_, by simp [l3]⟩
      rw [List.mem_cons, l2]
      constructor
      · rintro (rfl | h)
        · exact ⟨hi, hir _⟩
        · exact ⟨h.1, ha _ _ h.2⟩
      · rintro ⟨h4, h5⟩
        by_cases hj : j = i
        · exact .inl hj
        · exact .inr ⟨h4, (ht j h4 hj).resolve_left h5⟩
    have := hasCount_le hM hM' (fun j h => h)
    have := hasCount_le hM' hM (fun j h => h)
    omega
  · have := hasCount_le hm hd (fun j h => ⟨h.1, h.2, fun j' h' hlt => ht j j' h.1 h' (by omega)⟩)
    omega

/-- The ranks of an element by the four methods: dense, min, sequential and max are in this order, from 1 to n; min, sequential and
max are the same for an element that is tied with no other, and dense is the same as min if no elements are tied. An
element that is not ranked is missing in all. -/
theorem C37_methods (t : ATy) (xs : List t.El) (hs : Sortable xs.length (.vec (.atom t) xs))
    (hn : xs.length ≤ intMax) (direction naValue : Name) (desc naLargest : Bool)
    (hd : IsDirection direction desc) (hna : IsNaValue naValue naLargest) (nanDistinct : Bool)
    (tl : TL) (h0 : ∀ u, 0 ≤ tl u) (incompleteNa : Bool) :
    ∃ r : Ties → List Int,
      (∀ ties, vecRank 1 (.vec (.atom t) xs) ties incompleteNa [direction] [naValue] nanDistinct tl
        (List.replicate 100001 0) = .ok (r ties, tl, List.replicate 100001 0) ∧ (r ties).length = xs.length) ∧
      ∀ (i : Nat) (a : t.El) (d m s M : Int), xs[i]? = some a → (r .dense)[i]? = some d → (r .min)[i]? = some m →
        (r .sequential)[i]? = some s → (r .max)[i]? = some M →
        (incompleteNa = true ∧ MissingAtom t a → d = naInt ∧ m = naInt ∧ s = naInt ∧ M = naInt) ∧
        (incompleteNa = false ∨ ¬ MissingAtom t a →
          1 ≤ d ∧ d ≤ m ∧ m ≤ s ∧ s ≤ M ∧ M ≤ (xs.length : Int) ∧
          ((∀ (j : Nat) (b : t.El), xs[j]? = some b → j ≠ i → (incompleteNa = false ∨ ¬ MissingAtom t b) →
            Before desc naLargest nanDistinct t a b ∨ Before desc naLargest nanDistinct t b a) → m = s ∧ s = M) ∧
          ((∀ (j k : Nat) (b c : t.El), xs[j]? = some b → xs[k]? = some c → j ≠ k →
            (incompleteNa = false ∨ ¬ MissingAtom t b) → (incompleteNa = false ∨ ¬ MissingAtom t c) →
            Before desc naLargest nanDistinct t b c ∨ Before desc naLargest nanDistinct t c b) → d = m)) := by
  have hr := fun ties => C37_vector t xs hs hn direction naValue desc naLargest hd hna nanDistinct tl h0 ties incompleteNa
  refine ⟨fun ties => (hr ties).choose, fun ties => ⟨(hr ties).choose_spec.1, (hr ties).choose_spec.2.1⟩, ?_⟩
  intro i a d m s M ha h1 h2 h3 h4
  have g1 := (hr .dense).choose_spec.2.2 i d a h1 ha
  have g2 := (hr .min).choose_spec.2.2 i m a h2 ha
  have g3 := (hr .sequential).choose_spec.2.2 i s a h3 ha
  have g4 := (hr .max).choose_spec.2.2 i M a h4 ha
  refine ⟨fun h => ⟨g1.1 h, g2.1 h, g3.1 h, g4.1 h⟩, fun h => ?_⟩
  obtain ⟨e1, e2, e3, e4, e5, e6⟩ := isRank_methods (fun i j => elementBefore_asymm i j) ⟨a, ha, h⟩
    (g1.2 h) (g2.2 h) (g3.2 h) (g4.2 h)
  refine ⟨e1, e2, e3, e4, ?_, fun ht => ?_, fun ht => ?_⟩
  · obtain ⟨k, rfl, hk⟩ := g4.2 h
    have := hasCount_le hk (Q := fun j => j < xs.length)
      ⟨List.range xs.length, List.nodup_range, fun j => List.mem_range, List.length_range⟩
      (fun j hj => by
        obtain ⟨⟨b, hb, _⟩, _⟩ := hj
        exact (List.getElem?_eq_some_iff.1 hb).1)
    omega
  · have : m = M := e5 (by
      rintro j ⟨b, hb, hb'⟩ hj
      exact (ht j b hb hj hb').imp (fun h => ⟨a, b, ha, hb, h⟩) (fun h => ⟨b, a, hb, ha, h⟩))
    omega
  · exact e6 (by
      rintro j k ⟨b, hb, hb'⟩ ⟨c, hc, hc'⟩ hj
      exact (ht j k b c hb hc hj hb' hc').imp (fun h => ⟨b, c, hb, hc, h⟩) (fun h => ⟨c, b, hc, hb, h⟩))

/-- The third element and the last are tied with no other. -/
example : (C37_run (vecRank 1 (.vec (.atom .int) C37_x) .dense false exAsc exLargest true exTl exStatic),
    C37_run (vecRank 1 (.vec (.atom .int) C37_x) .min false exAsc exLargest true exTl exStatic),
    C37_run (vecRank 1 (.vec (.atom .int) C37_x) .sequential false exAsc exLargest true exTl exStatic),
    C37_run (vecRank 1 (.vec (.atom .int) C37_x) .max false exAsc exLargest true exTl exStatic)) =
    (some [2, 4, 1, 2, 4, 3], some [2, 5, 1, 2, 5, 4], some [2, 5, 1, 3, 6, 4], some [3, 6, 1, 3, 6, 4]) := by
  decide +kernel
example : ∃ r : Ties → List Int, ∀ ties, vecRank 1 (.vec (.atom .int) C37_x) ties false [some "asc".toList]
    [some "largest".toList] true exTl (List.replicate 100001 0) = .ok (r ties, exTl, List.replicate 100001 0) := by
  obtain ⟨r, h, _⟩ := C37_methods .int C37_x ⟨rfl, by unfold IsInt; decide⟩ (by decide) (some "asc".toList)
    (some "largest".toList) false true rfl rfl true exTl (fun _ => Int.le_refl 0) false
  exact ⟨r, fun ties => (h ties).1⟩

/-- The count of the sequential rank of a row is its position in the stable order. -/
theorem sequential_position {before : Nat → Nat → Prop} (ha : ∀ i j, before i j → ¬ before j i) {n : Nat}
    {S : Nat → Prop} (hS : ∀ j, S j ↔ j < n) {p : List Nat} (hp : p.Perm (List.range n))
    (hpw : p.Pairwise (fun i j => before i j ∨ (¬ before j i ∧ i < j))) {k i : Nat} (hk : p[k]? = some i) {v : Int}
    (hv : IsRank before S i v .sequential) : v = (k : Int) + 1 := by
  obtain ⟨m, rfl, hm⟩ := hv
  have hir : ∀ j, ¬ before j j := fun j h => ha j j h h
  obtain ⟨hkl, hki⟩ := List.getElem?_eq_some_iff.1 hk
  rw [List.pairwise_iff_getElem] at hpw
  have hc : HasCount (fun j => S j ∧ (before j i ∨ (¬ before i j ∧ j < i))) k := by
    refine ⟨p.take k, (hp.nodup_iff.2 List.nodup_range).sublist (List.take_sublist _ _), fun j => ?_, by
      simp; omega⟩
    rw [List.mem_take_iff_getElem]
    constructor
    · rintro ⟨k', hk', rfl⟩
      refine ⟨(hS _).2 (List.mem_range.1 (hp.mem_iff.1 (List.getElem_mem _))), ?_⟩
      have := hpw k' k (by omega) hkl (by omega)
      rwa [hki] at this
    · rintro ⟨h1, h2⟩
      obtain ⟨k', hk', rfl⟩ := List.getElem_of_mem (hp.mem_iff.2 (List.mem_range.2 ((hS j).1 h1)))
      refine ⟨k', ?_, rfl⟩
      rcases Nat.lt_trichotomy k' k with h | h | h
      · omega
      · subst h
        rw [hki] at h2
        rcases h2 with h2 | h2
        · exact absurd h2 (hir _)
        · omega
      · have h3 := hpw k k' hkl hk' h
        rw [hki] at h3
        rcases h3 with h3 | ⟨h3, h4⟩ <;> rcases h2 with h2 | ⟨h2, h5⟩
        · exact absurd h2 (ha _ _ h3)
        · exact absurd h3 h2
        · exact absurd h2 h3
        · omega
  have := hasCount_le hm hc (fun j h => h)
  have := hasCount_le hc hm (fun j h => h)
  omega

/-- The sequential rank is the inverse of the order: the row at position `k` of `vec_order_radix()` has rank `k`. Full
statement: without `hc`, see `C37_partial`. -/
theorem C37_inverse_partial (x : Val) (hn : x.size ≤ intMax) (hz : Sized x.size x)
    (hs : ∀ p ∈ leaves x, Sortable x.size p)
    (hc : ∀ (i : Nat) (p : Val), 0 < i → (leaves x)[i]? = some p → ¬ IsComplex p)
    (direction naValue : List Name) (ds ns : List Bool)
    (hd : ForColumns IsDirection direction (columns x).length ds)
    (hna : ForColumns IsNaValue naValue (columns x).length ns) (nanDistinct : Bool) (tl : TL)
    (h0 : ∀ u, 0 ≤ tl u) (fuel : Nat) (hf : (leaves x).length ≤ fuel) :
    ∃ o r : List Int,
      vecOrder fuel x direction naValue nanDistinct tl (List.replicate 100001 0) =
        .ok (o, tl, List.replicate 100001 0) ∧
      vecRank fuel x .sequential false direction naValue nanDistinct tl (List.replicate 100001 0) =
        .ok (r, tl, List.replicate 100001 0) ∧
      o.length = x.size ∧ r.length = x.size ∧
      ∀ (k : Nat) (l : Int), o[k]? = some l → 1 ≤ l ∧ r[(l - 1).toNat]? = some ((k : Int) + 1) := by
  obtain ⟨o, h1, p, rfl, h2, h3⟩ := C34_order_only_partial x hn hs hc direction naValue ds ns hd hna nanDistinct tl h0
    fuel hf
  obtain ⟨r, h4, h5, h6⟩ := C37_partial x hn hz hs hc direction naValue ds ns hd hna nanDistinct tl h0 .sequential false
    fuel hf
  refine ⟨_, r, h1, h4, by simp [h2.length_eq], h5, ?_⟩
  intro k l hl
  rw [List.getElem?_map, Option.map_eq_some_iff] at hl
  obtain ⟨i, hi, rfl⟩ := hl
  have hin : i < x.size := List.mem_range.1 (h2.mem_iff.1 (List.mem_of_getElem? hi))
  refine ⟨by omega, ?_⟩
  have hir : i < r.length := by omega
  rw [show ((i : Int) + 1 - 1).toNat = i by omega, List.getElem?_eq_getElem hir]
  congr 1
  exact sequential_position (fun _ _ h => rowBefore_not_both h) (fun j => by simp) h2 h3 hi
    ((h6 i _ (List.getElem?_eq_getElem hir)).2 (.inl rfl))

example : C37_run (vecOrder 1 (.vec (.atom .int) C37_x) exAsc exLargest true exTl exStatic) =
      some [3, 1, 4, 6, 2, 5] ∧
    C37_run (vecRank 1 (.vec (.atom .int) C37_x) .sequential false exAsc exLargest true exTl exStatic) =
      some [2, 5, 1, 3, 6, 4] := by decide +kernel
example : ∃ o r : List Int, vecOrder 1 (.vec (.atom .int) C37_x) [some "asc".toList] [some "largest".toList] true exTl
      (List.replicate 100001 0) = .ok (o, exTl, List.replicate 100001 0) ∧
    vecRank 1 (.vec (.atom .int) C37_x) .sequential false [some "asc".toList] [some "largest".toList] true exTl
      (List.replicate 100001 0) = .ok (r, exTl, List.replicate 100001 0) := by
  obtain ⟨o, r, h1, h2, _⟩ := C37_inverse_partial (.vec (.atom .int) C37_x) (by decide) (.vec _ _ rfl) (by
      intro p hp
      simp only [leaves, List.mem_singleton] at hp
      subst hp
      exact ⟨rfl, by unfold IsInt; decide⟩) (by
      intro i p hi hp
      cases i with
      | zero => omega
      | succ i => simp [leaves] at hp) [some "asc".toList] [some "largest".toList] [false] [true]
    (ForColumns.one rfl) (ForColumns.one rfl) true exTl (fun _ => Int.le_refl 0) 1 (by simp [leaves])
  exact ⟨o, r, h1, h2⟩

/-- The same for data frames: the ranks of a row by the four methods. Full statement: without `hc`, see `C37_partial`. -/
theorem C37_methods_partial (x : Val) (hn : x.size ≤ intMax) (hz : Sized x.size x)
    (hs : ∀ p ∈ leaves x, Sortable x.size p)
    (hc : ∀ (i : Nat) (p : Val), 0 < i → (leaves x)[i]? = some p → ¬ IsComplex p)
    (direction naValue : List Name) (ds ns : List Bool)
    (hd : ForColumns IsDirection direction (columns x).length ds)
    (hna : ForColumns IsNaValue naValue (columns x).length ns) (nanDistinct : Bool) (tl : TL)
    (h0 : ∀ u, 0 ≤ tl u) (incompleteNa : Bool) (fuel : Nat) (hf : (leaves x).length ≤ fuel) :
    ∃ r : Ties → List Int,
      (∀ ties, vecRank fuel x ties incompleteNa direction naValue nanDistinct tl (List.replicate 100001 0) =
        .ok (r ties, tl, List.replicate 100001 0) ∧ (r ties).length = x.size) ∧
      ∀ (i : Nat) (d m s M : Int), (r .dense)[i]? = some d → (r .min)[i]? = some m →
        (r .sequential)[i]? = some s → (r .max)[i]? = some M →
        (incompleteNa = true ∧ ¬ CompleteAt x i → d = naInt ∧ m = naInt ∧ s = naInt ∧ M = naInt) ∧
        (incompleteNa = false ∨ CompleteAt x i → 1 ≤ d ∧ d ≤ m ∧ m ≤ s ∧ s ≤ M ∧ M ≤ (x.size : Int) ∧
          ((∀ j : Nat, j < x.size → j ≠ i → (incompleteNa = false ∨ CompleteAt x j) →
            RowBefore nanDistinct (sortKeys x ds ns) i j ∨ RowBefore nanDistinct (sortKeys x ds ns) j i) →
            m = s ∧ s = M)) := by
  have hr := fun ties => C37_partial x hn hz hs hc direction naValue ds ns hd hna nanDistinct tl h0 ties incompleteNa
    fuel hf
  refine ⟨fun ties => (hr ties).choose, fun ties => ⟨(hr ties).choose_spec.1, (hr ties).choose_spec.2.1⟩, ?_⟩
  intro i d m s M h1 h2 h3 h4
  have g1 := (hr .dense).choose_spec.2.2 i d h1
  have g2 := (hr .min).choose_spec.2.2 i m h2
  have g3 := (hr .sequential).choose_spec.2.2 i s h3
  have g4 := (hr .max).choose_spec.2.2 i M h4
  have hi : i < x.size := by
    rw [← (hr .dense).choose_spec.2.1]
    exact (List.getElem?_eq_some_iff.1 h1).1
  refine ⟨fun h => ⟨g1.1 h, g2.1 h, g3.1 h, g4.1 h⟩, fun h => ?_⟩
  obtain ⟨e1, e2, e3, e4, e5, _⟩ := isRank_methods (fun _ _ h => rowBefore_not_both h) ⟨hi, h⟩
    (g1.2 h) (g2.2 h) (g3.2 h) (g4.2 h)
  refine ⟨e1, e2, e3, e4, ?_, fun ht => ?_⟩
  · obtain ⟨k, rfl, hk⟩ := g4.2 h
    have := hasCount_le hk (Q := fun j => j < x.size)
      ⟨List.range x.size, List.nodup_range, fun j => List.mem_range, List.length_range⟩ (fun j hj => hj.1.1)
    omega
  · have : m = M := e5 (fun j hj hne => ht j hj.1 hne hj.2)
    omega

/-- A data frame with incomplete rows; the third and the fourth row are tied with no other. -/
example : (C37_run (vecRank 4 C36_x .dense true exAsc exSmallest true exTl exStatic),
    C37_run (vecRank 4 C36_x .min true exAsc exSmallest true exTl exStatic),
    C37_run (vecRank 4 C36_x .sequential true exAsc exSmallest true exTl exStatic),
    C37_run (vecRank 4 C36_x .max true exAsc exSmallest true exTl exStatic)) =
    (some [3, naInt, 2, 1, 3, naInt], some [3, naInt, 2, 1, 3, naInt], some [3, naInt, 2, 1, 4, naInt],
      some [4, naInt, 2, 1, 4, naInt]) := by decide +kernel

end Vctrs
