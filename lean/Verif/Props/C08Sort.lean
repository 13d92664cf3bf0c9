import Verif.Props.C08
import Verif.Props.C34
import Verif.Lemmas.ValSlice
import Verif.Model.CountSort
import Mathlib.Data.List.Sort

/-! # C08: the orders of the rows that `vec_count()` returns -/

namespace Vctrs

namespace Spec

/-- The rows of `vec_count(x)`: the keys are the elements at `L`, which are the first occurrences,
each once; a count is the number of elements equal to its key. -/
structure CountRows {α : Type} (eq : α → α → Bool) (x : List α) (L : List Nat) (keys : List α)
    (counts : List Nat) : Prop where
  nodup : L.Nodup
  first : ∀ i, i ∈ L ↔ IsFirst eq x i
  atKeys : L.map (fun i => x[i]?) = keys.map some
  counted : counts = keys.map (fun a => x.countP (fun b => eq a b))

end Spec

open Spec

variable {α : Type} {ops : PolyOps α}

/-- `vec_count()` before it is sorted. -/
theorem countRows_ok (he : EqvHash ops) (x : List α) (hn : x.length ≤ 2147483647) :
    ∃ L keys counts, vecCount ops x = .ok (L.map (· + 1), counts) ∧ CountRows ops.eq x L keys counts := by
  obtain ⟨⟨loc, count⟩, h1, K, hK, rfl, h2, h3⟩ := vecCount_ok he x hn
  simp only at h1 h2 h3
  have hmem : ∀ i, i ∈ K ↔ IsFirst ops.eq x i := by
    intro i
    rw [hK.mem_iff, mem_firsts]
    constructor
    · exact fun h => h.2
    · intro h
      obtain ⟨b, hb, _⟩ := id h
      exact ⟨(List.getElem?_eq_some_iff.1 hb).1, h⟩
  have hlt : ∀ i ∈ K, i < x.length := by
    intro i hi
    obtain ⟨b, hb, _⟩ := (hmem i).1 hi
    exact (List.getElem?_eq_some_iff.1 hb).1
  refine ⟨K, pickList K x, count, h1, hK.nodup_iff.2 (firsts_nodup x _), hmem, (pickList_map hlt).symm, ?_⟩
  have hl := pickList_length hlt
  apply List.ext_getElem?
  intro k
  rw [List.getElem?_map]
  by_cases hk : k < K.length
  · have hKk := List.getElem?_eq_getElem hk
    have hx := List.getElem?_eq_getElem (hlt _ (List.getElem_mem hk))
    rw [pickList_get hlt hKk, hx, h3 k _ _ hKk hx]
    rfl
  · rw [List.getElem?_eq_none (by omega), List.getElem?_eq_none (by omega)]
    rfl

theorem orderLocs_map (p : List Nat) : orderLocs (p.map (fun (i : Nat) => (i : Int) + 1)) = p.map (· + 1) := by
  unfold orderLocs
  rw [List.map_map]
  apply List.map_congr_left
  intro i _
  show ((i : Int) + 1).toNat = i + 1
  omega

theorem sliceLoc_pick {β : Type} {p : List Nat} {l : List β} (h : ∀ i ∈ p, i < l.length) :
    sliceLoc l (p.map (· + 1)) = .ok (pickList p l) :=
  sliceLoc_ok l p _ (pickList_map h).symm

theorem pickList_map_fun {β γ : Type} (p : List Nat) (l : List β) (f : β → γ) :
    pickList p (l.map f) = (pickList p l).map f := by
  unfold pickList
  rw [List.map_filterMap]
  apply List.filterMap_congr
  intro i _
  rw [List.getElem?_map]

theorem pickList_perm {β : Type} {p : List Nat} {l : List β} (h : p.Perm (List.range l.length)) :
    (pickList p l).Perm l := by
  have h1 := h.filterMap (fun i => l[i]?)
  have h2 : (List.range l.length).filterMap (fun i => l[i]?) = l := by
    have h3 := pickList_map (l := List.range l.length) (xs := l) (by simp)
    have h4 : (List.range l.length).map (fun i => l[i]?) = l.map some := by
      apply List.ext_getElem (by simp)
      intro k hk hk'
      simp at hk hk' ⊢
    exact (List.map_injective_iff.2 (Option.some_injective β)) (h3.trans h4)
  rw [h2] at h1
  exact h1

/-- Rows put in another order. -/
theorem Spec.CountRows.pick {eq : α → α → Bool} {x : List α} {L : List Nat} {keys : List α}
    {counts : List Nat} (h : CountRows eq x L keys counts) {p : List Nat}
    (hp : p.Perm (List.range L.length)) :
    CountRows eq x (pickList p L) (pickList p keys) (pickList p counts) := by
  have hlen : keys.length = L.length := by have := congrArg List.length h.atKeys; simpa using this.symm
  have hL := pickList_perm hp
  refine ⟨hL.nodup_iff.2 h.nodup, fun i => (hL.mem_iff).trans (h.first i), ?_, ?_⟩
  · rw [← pickList_map_fun, ← pickList_map_fun, h.atKeys]
  · rw [h.counted, pickList_map_fun]

theorem Spec.CountRows.lengths {eq : α → α → Bool} {x : List α} {L : List Nat} {keys : List α}
    {counts : List Nat} (h : CountRows eq x L keys counts) :
    keys.length = L.length ∧ counts.length = L.length := by
  have h1 : keys.length = L.length := by have := congrArg List.length h.atKeys; simpa using this.symm
  refine ⟨h1, ?_⟩
  rw [h.counted, List.length_map, h1]

theorem perm_range_lt {p : List Nat} {n : Nat} (hp : p.Perm (List.range n)) : ∀ i ∈ p, i < n :=
  fun i hi => List.mem_range.1 (hp.mem_iff.1 hi)

/-- A pairwise relation of the elements picked. -/
theorem pickList_pairwise {β : Type} {p : List Nat} {l : List β} {R : Nat → Nat → Prop}
    {S : β → β → Prop} (h : p.Pairwise R)
    (hRS : ∀ (i j : Nat) (a b : β), R i j → l[i]? = some a → l[j]? = some b → S a b) :
    (pickList p l).Pairwise S := by
  unfold pickList
  rw [List.pairwise_filterMap]
  exact h.imp (fun hR a ha b hb => hRS _ _ a b hR ha hb)

/-- `vec_count(sort = "none")`: the rows, in any order. -/
theorem C08_sort_none (he : EqvHash ops) (x : List α) (hn : x.length ≤ 2147483647) (fuel : Nat)
    (orderLoc : List Nat → List Int) (orderKey : List α → List Int) (tl : TL) (static : List Nat) :
    ∃ L keys counts, countSorted fuel ops orderLoc orderKey .none x tl static = .ok ((keys, counts), tl, static) ∧
      CountRows ops.eq x L keys counts := by
  obtain ⟨L, keys, counts, h1, h2⟩ := countRows_ok he x hn
  refine ⟨L, keys, counts, ?_, h2⟩
  unfold countSorted
  rw [h1]
  simp only [ok_bind]
  rw [sliceLoc_ok x L keys h2.atKeys]
  rfl

/-- `vec_count(sort = "location")`: the keys are in the order of `x`, given that `vec_order()` orders
locations. -/
theorem C08_sort_location (he : EqvHash ops) (x : List α) (hn : x.length ≤ 2147483647) (fuel : Nat)
    (orderLoc : List Nat → List Int) (orderKey : List α → List Int) (tl : TL) (static : List Nat)
    (ho : ∀ l : List Nat, StableOrder (fun i j => ∃ a b, l[i]? = some a ∧ l[j]? = some b ∧ a < b) l.length
      (orderLoc l)) :
    ∃ L keys counts, countSorted fuel ops orderLoc orderKey .location x tl static =
        .ok ((keys, counts), tl, static) ∧
      CountRows ops.eq x L keys counts ∧ L.Pairwise (· < ·) := by
  obtain ⟨L, keys, counts, h1, h2⟩ := countRows_ok he x hn
  obtain ⟨p, hp, hperm, hpair⟩ := ho (L.map (· + 1))
  rw [List.length_map] at hperm
  have hlt := perm_range_lt hperm
  have h3 := h2.pick hperm
  refine ⟨_, _, _, ?_, h3, ?_⟩
  · unfold countSorted
    rw [h1]
    simp only [ok_bind]
    rw [hp, orderLocs_map, sliceLoc_pick (by simpa using hlt)]
    simp only [ok_bind]
    rw [sliceLoc_pick (by rw [h2.lengths.2]; exact hlt)]
    simp only [ok_bind]
    rw [pickList_map_fun, sliceLoc_ok x _ _ h3.atKeys]
    rfl
  · have h4 : (pickList p L).Pairwise (· ≤ ·) := by
      refine pickList_pairwise hpair (fun i j a b h ha hb => ?_)
      rcases h with ⟨a', b', ha', hb', h⟩ | ⟨h, _⟩
      · rw [List.getElem?_map, ha] at ha'
        rw [List.getElem?_map, hb] at hb'
        cases ha'
        cases hb'
        exact Nat.le_of_lt (Nat.lt_of_succ_lt_succ h)
      · by_contra hc
        exact h ⟨b + 1, a + 1, by rw [List.getElem?_map, hb]; rfl, by rw [List.getElem?_map, ha]; rfl, by omega⟩
    exact (h4.and h3.nodup).imp (fun h => by omega)

/-- `vec_count(sort = "key")`: the keys are in the order `before` if `vec_order()` orders by it. -/
theorem C08_sort_key (he : EqvHash ops) (x : List α) (hn : x.length ≤ 2147483647) (fuel : Nat)
    (orderLoc : List Nat → List Int) (orderKey : List α → List Int) (tl : TL) (static : List Nat)
    (before : α → α → Prop) (hasym : ∀ a b, before a b → ¬ before b a)
    (ho : ∀ l : List α, StableOrder (fun i j => ∃ a b, l[i]? = some a ∧ l[j]? = some b ∧ before a b) l.length
      (orderKey l)) :
    ∃ L keys counts, countSorted fuel ops orderLoc orderKey .key x tl static =
        .ok ((keys, counts), tl, static) ∧
      CountRows ops.eq x L keys counts ∧ keys.Pairwise (fun a b => ¬ before b a) := by
  obtain ⟨L, keys, counts, h1, h2⟩ := countRows_ok he x hn
  obtain ⟨p, hp, hperm, hpair⟩ := ho keys
  rw [h2.lengths.1] at hperm
  have hlt := perm_range_lt hperm
  refine ⟨_, _, _, ?_, h2.pick hperm, ?_⟩
  · unfold countSorted
    rw [h1]
    simp only [ok_bind]
    rw [sliceLoc_ok x L keys h2.atKeys]
    simp only [ok_bind]
    rw [hp, orderLocs_map, sliceLoc_pick (by rw [h2.lengths.1]; exact hlt)]
    simp only [ok_bind]
    rw [sliceLoc_pick (by rw [h2.lengths.2]; exact hlt)]
    rfl
  · refine pickList_pairwise hpair (fun i j a b h ha hb => ?_)
    rcases h with ⟨a', b', ha', hb', h⟩ | ⟨h, _⟩
    · rw [ha] at ha'
      rw [hb] at hb'
      cases ha'
      cases hb'
      exact hasym _ _ h
    · exact fun hc => h ⟨b, a, hb, ha, hc⟩

/-- The order of integers that are not missing. -/
theorem keyBefore_ints {xs : List Int} {desc : Bool} {i j : Nat} {a b : Int} (ha : xs[i]? = some a)
    (hb : xs[j]? = some b) (h1 : a ≠ naInt) (h2 : b ≠ naInt) :
    KeyBefore false (desc, true, .vec (.atom .int) xs) i j ↔ if desc then b < a else a < b := by
  constructor
  · rintro ⟨u, ys, a', b', e, g1, g2, g3⟩
    cases e
    have g1 : xs[i]? = some a' := g1
    have g2 : xs[j]? = some b' := g2
    rw [ha] at g1
    rw [hb] at g2
    cases g1
    cases g2
    cases desc
    · rcases g3 with h | h | h
      · exact h.2.2
      · exact absurd h.2.2 h2
      · exact absurd h.1 (Bool.noConfusion)
    · rcases g3 with h | h | h
      · exact h.2.2
      · exact absurd h.2.2 h1
      · exact absurd h.1 (Bool.noConfusion)
  · intro h
    refine ⟨.int, xs, a, b, rfl, ha, hb, ?_⟩
    cases desc
    · exact .inl ⟨h1, h2, h⟩
    · exact .inl ⟨h2, h1, h⟩

theorem rowBefore_nil {nd : Bool} {i j : Nat} : ¬ RowBefore nd [] i j := by
  rintro ⟨m, k, h, _⟩
  simp at h

/-- `vec_count(sort = "count")`, the default: the counts do not increase, and keys with the same count
are in the order of `x`. -/
theorem C08_sort_count (he : EqvHash ops) (x : List α) (hn : x.length ≤ 2147483647) (fuel : Nat)
    (hf : 2 ≤ fuel) (orderLoc : List Nat → List Int) (orderKey : List α → List Int) (tl : TL)
    (h0 : ∀ u, 0 ≤ tl u) :
    ∃ L keys counts, countSorted fuel ops orderLoc orderKey .count x tl (List.replicate 100001 0) =
        .ok ((keys, counts), tl, List.replicate 100001 0) ∧
      CountRows ops.eq x L keys counts ∧
      ∀ (k m i j c d : Nat), k < m → L[k]? = some i → L[m]? = some j → counts[k]? = some c →
        counts[m]? = some d → d < c ∨ (c = d ∧ i < j) := by
  obtain ⟨L, keys, counts, h1, h2⟩ := countRows_ok he x hn
  have hlx : L.length ≤ x.length := by
    have hsub : L ⊆ List.range x.length := by
      intro i hi
      obtain ⟨b, hb, _⟩ := (h2.first i).1 hi
      exact List.mem_range.2 (List.getElem?_eq_some_iff.1 hb).1
    have := (List.subperm_of_subset h2.nodup hsub).length_le
    simpa using this
  have hLlt : ∀ i ∈ L, i < x.length := by
    intro i hi
    obtain ⟨b, hb, _⟩ := (h2.first i).1 hi
    exact (List.getElem?_eq_some_iff.1 hb).1
  have hclt : ∀ c ∈ counts, c ≤ x.length := by
    intro c hc
    rw [h2.counted] at hc
    obtain ⟨a, _, rfl⟩ := List.mem_map.1 hc
    exact List.countP_le_length
  have hcl := h2.lengths.2
  let ci := counts.map (fun (c : Nat) => (c : Int))
  let li := (L.map (· + 1)).map (fun (l : Nat) => (l : Int))
  obtain ⟨o, g1, p, rfl, hperm, hpair⟩ := C34_order_only_partial (intDf L.length [ci, li])
    (show L.length ≤ intMax from Nat.le_trans hlx hn)
    (by
      intro q hq
      have hq : q = .vec (.atom .int) ci ∨ q = .vec (.atom .int) li := by
        have hq : q ∈ [Val.vec (.atom .int) ci, Val.vec (.atom .int) li] := hq
        simpa using hq
      rcases hq with rfl | rfl
      · refine ⟨by rw [List.length_map]; exact hcl, ?_⟩
        intro v hv
        obtain ⟨c, hc, rfl⟩ := List.mem_map.1 hv
        have := hclt c hc
        simp only [IsInt, naInt, intMax]
        omega
      · refine ⟨by simp [li, intDf, Val.size], ?_⟩
        intro v hv
        obtain ⟨c, hc, rfl⟩ := List.mem_map.1 hv
        obtain ⟨l, hl, rfl⟩ := List.mem_map.1 hc
        have := hLlt l hl
        simp only [IsInt, naInt, intMax]
        omega)
    (by
      intro i q _ hq hc
      have hq : q ∈ [Val.vec (.atom .int) ci, Val.vec (.atom .int) li] := List.mem_of_getElem? hq
      simp only [List.mem_cons, List.not_mem_nil, or_false] at hq
      rcases hq with rfl | rfl <;> exact hc)
    [some "desc".toList, some "asc".toList] [some "largest".toList] [true, false] [true, true]
    ⟨rfl, .inr ⟨rfl, by
      intro i a v ha hv
      match i with
      | 0 => cases ha; cases hv; rfl
      | 1 => cases ha; cases hv; rfl
      | i + 2 => simp at ha⟩⟩
    ⟨rfl, .inl ⟨_, true, rfl, rfl, by simp⟩⟩ false tl h0 fuel (show 2 ≤ fuel from hf)
  have hperm : p.Perm (List.range L.length) := hperm
  have hlt := perm_range_lt hperm
  have h3 := h2.pick hperm
  refine ⟨_, _, _, ?_, h3, ?_⟩
  · unfold countSorted
    rw [h1]
    simp only [ok_bind]
    rw [List.length_map, g1]
    simp only [ok_bind]
    rw [orderLocs_map, sliceLoc_pick (by simpa using hlt)]
    simp only [ok_bind]
    rw [sliceLoc_pick (by rw [hcl]; exact hlt)]
    simp only [ok_bind]
    rw [pickList_map_fun, sliceLoc_ok x _ _ h3.atKeys]
    rfl
  · intro k m i j c d hkm hi hj hc hd
    have hml : m < p.length := by
      have := (List.getElem?_eq_some_iff.1 hj).1
      rwa [pickList_length hlt] at this
    have hkl : k < p.length := by omega
    have hpk := List.getElem?_eq_getElem hkl
    have hpm := List.getElem?_eq_getElem hml
    rw [pickList_get hlt hpk] at hi
    rw [pickList_get hlt hpm] at hj
    rw [pickList_get (by rw [hcl]; exact hlt) hpk] at hc
    rw [pickList_get (by rw [hcl]; exact hlt) hpm] at hd
    have hr := List.pairwise_iff_getElem.1 hpair k m hkl hml hkm
    generalize p[k] = u at *
    generalize p[m] = w at *
    have e1 : ci[u]? = some (c : Int) := by simp [ci, hc]
    have e2 : ci[w]? = some (d : Int) := by simp [ci, hd]
    have e3 : li[u]? = some ((i + 1 : Nat) : Int) := by simp [li, hi]
    have e4 : li[w]? = some ((j + 1 : Nat) : Int) := by simp [li, hj]
    have nn : ∀ z : Nat, (z : Int) ≠ naInt := by intro z; simp only [naInt]; omega
    have hks : sortKeys (intDf L.length [ci, li]) [true, false] [true, true] =
        [(true, true, .vec (.atom .int) ci), (false, true, .vec (.atom .int) li)] := rfl
    have key : ∀ (u w a b s t : Nat), ci[u]? = some (a : Int) → ci[w]? = some (b : Int) →
        li[u]? = some (s : Int) → li[w]? = some (t : Int) →
        (RowBefore false (sortKeys (intDf L.length [ci, li]) [true, false] [true, true]) u w ↔
          b < a ∨ (a = b ∧ s < t)) := by
      intro u w a b s t f1 f2 f3 f4
      rw [hks, rowBefore_cons, rowBefore_cons, keyBefore_ints f1 f2 (nn _) (nn _),
        keyBefore_ints f2 f1 (nn _) (nn _), keyBefore_ints f3 f4 (nn _) (nn _)]
      have : ¬ RowBefore false [] u w := rowBefore_nil
      simp only [if_true, Bool.false_eq_true, if_false, this, and_false, or_false]
      omega
    have hij : i ≠ j ∨ u = w := by
      by_cases hij : i = j
      · right
        have hu := (List.getElem?_eq_some_iff.1 hi)
        have hw := (List.getElem?_eq_some_iff.1 hj)
        obtain ⟨q1, q2⟩ := hu
        obtain ⟨q3, q4⟩ := hw
        exact (List.Nodup.getElem_inj_iff h2.nodup).1 (by rw [q2, q4, hij])
      · exact .inl hij
    rcases hr with hr | ⟨hr, huw⟩
    · rw [key u w c d _ _ e1 e2 e3 e4] at hr
      omega
    · rw [key w u d c _ _ e2 e1 e4 e3] at hr
      omega

/-- The rows of a count, without the state of the ordering. -/
def C08_run {α : Type} (r : C ((List α × List Nat) × TL × List Nat)) : Option (List α × List Nat) :=
  match r with
  | .ok (k, _, _) => some k
  | .error _ => none

/-- The number at a place, for the examples. -/
def exKey (l : List Nat) (i : Nat) : Nat := match l[i]? with
  | some a => a
  | none => 0

/-- By number, then by place. -/
abbrev exLe (l : List Nat) (i j : Nat) : Prop := exKey l i < exKey l j ∨ (exKey l i = exKey l j ∧ i ≤ j)

/-- The order of numbers, as a stand-in for `vec_order()`. -/
def exOrder (l : List Nat) : List Int :=
  ((List.range l.length).insertionSort (exLe l)).map (fun (i : Nat) => (i : Int) + 1)

/-- The stand-in meets the hypotheses of `C08_sort_location` and `C08_sort_key`. -/
theorem exOrder_stable (l : List Nat) :
    StableOrder (fun i j => ∃ a b, l[i]? = some a ∧ l[j]? = some b ∧ a < b) l.length (exOrder l) := by
  have : Std.Total (exLe l) := ⟨fun a b => by unfold exLe; omega⟩
  have : IsTrans Nat (exLe l) := ⟨fun a b c => by unfold exLe; omega⟩
  have hp := List.perm_insertionSort (exLe l) (List.range l.length)
  refine ⟨_, rfl, hp, ?_⟩
  refine ((List.pairwise_insertionSort (exLe l) _).and (hp.nodup_iff.2 List.nodup_range)).imp_of_mem
    (fun {i j} hi hj h => ?_)
  obtain ⟨h, hne⟩ := h
  have hi := List.mem_range.1 (hp.mem_iff.1 hi)
  have hj := List.mem_range.1 (hp.mem_iff.1 hj)
  have e1 := List.getElem?_eq_getElem hi
  have e2 := List.getElem?_eq_getElem hj
  unfold exLe exKey at h
  rw [e1, e2] at h
  simp only at h
  rcases h with h | ⟨h, hij⟩
  · exact .inl ⟨_, _, e1, e2, h⟩
  · refine .inr ⟨?_, by omega⟩
    rintro ⟨a, b, f1, f2, hab⟩
    rw [e2] at f1
    rw [e1] at f2
    cases f1
    cases f2
    omega

-- 9 and 7 are tied; 7 is first in `x`, though 9 is first in the table.
example : C08_run (countSorted 2 exOps10 (fun _ => []) (fun _ => []) .count [14, 2, 4, 7, 12, 9, 24]
    (fun _ => 0) (List.replicate 100001 0)) = some ([14, 2, 7, 9], [3, 2, 1, 1]) := by
  decide +kernel

example : C08_run (countSorted 2 exOps10 exOrder (fun _ => [])
    .location [14, 2, 4, 7, 12, 9, 24] (fun _ => 0) []) = some ([14, 2, 7, 9], [3, 2, 1, 1]) := by
  decide +kernel

example : C08_run (countSorted 2 exOps10 (fun _ => []) exOrder
    .key [14, 2, 4, 7, 12, 9, 24] (fun _ => 0) []) = some ([2, 7, 9, 14], [2, 1, 1, 3]) := by
  decide +kernel

end Vctrs
