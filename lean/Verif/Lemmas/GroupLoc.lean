import Verif.Lemmas.Group

namespace Vctrs

open Spec

variable {α : Type} {ops : PolyOps α}

/-- Class of the element at position `j`. -/
def cls (ops : PolyOps α) (x : List α) (j : Nat) : Nat :=
  match x[j]? with
  | some a => classOf ops.eq x a
  | none => 0

theorem cls_of {x : List α} {j : Nat} {a : α} (h : x[j]? = some a) :
    cls ops x j = classOf ops.eq x a := by
  unfold cls; rw [h]

theorem cls_lt (he : EqvHash ops) {x : List α} {j : Nat} (h : j < x.length) :
    cls ops x j < (nub ops.eq x).length := by
  rw [cls_of (List.getElem?_eq_getElem h)]
  exact classOf_lt he (List.getElem_mem h)

theorem countP_range_succ (q : Nat → Bool) (i : Nat) :
    (List.range (i + 1)).countP q = (List.range i).countP q + (if q i then 1 else 0) := by
  rw [List.range_succ, List.countP_append]
  simp [List.countP_cons]

theorem filter_range_succ (q : Nat → Bool) (i : Nat) :
    (List.range (i + 1)).filter q = (List.range i).filter q ++ (if q i then [i] else []) := by
  rw [List.range_succ, List.filter_append]
  congr 1
  cases h : q i <;> simp [h]

theorem countP_range_mono (q : Nat → Bool) {i n : Nat} (h : i ≤ n) :
    (List.range i).countP q ≤ (List.range n).countP q := by
  induction n with
  | zero => simp at h; subst h; simp
  | succ n ih =>
    rcases Nat.lt_or_eq_of_le h with h' | h'
    · have := ih (by omega)
      rw [countP_range_succ]
      omega
    · rw [h']

theorem groupCounts_ok (he : EqvHash ops) {x : List α} {groups : List (Option Nat)}
    (hg : ∀ j, j < x.length → groups[j]? = some (some (cls ops x j))) :
    Ret (groupCounts groups x.length (nub ops.eq x).length) (fun s =>
      initd s.1 = .ok ((firsts ops x x.length).map (· + 1)) ∧
      s.2.2 = (List.range (nub ops.eq x).length).map
        (fun k => (List.range x.length).countP (fun j => cls ops x j == k))) := by
  have hnG : (firsts ops x x.length).length = (nub ops.eq x).length := by
    rw [← nub_take_length x _ (Nat.le_refl _), List.take_length]
  refine (Ret.forN (fun i (s : List (Option Nat) × Nat × List Nat) =>
    s.1 = ((firsts ops x i).map (· + 1)).map some ++
      List.replicate ((nub ops.eq x).length - (firsts ops x i).length) none ∧
    s.2.1 = (firsts ops x i).length ∧ s.2.2.length = (nub ops.eq x).length ∧
    ∀ k, k < (nub ops.eq x).length →
      s.2.2[k]? = some ((List.range i).countP (fun j => cls ops x j == k)))
    ⟨?_, by simp [firsts], by simp, ?_⟩ ?_).mono ?_
  · simp [firsts, alloc]
  · intro k hk; simp [hk]
  · rintro i ⟨keyLoc, cur, counts⟩ hi ⟨h1, h2, h3, h4⟩
    simp only at h1 h2 h3 h4 ⊢
    have hxi : x[i]? = some x[i] := List.getElem?_eq_getElem hi
    have hlt := cls_lt he hi
    have hcnt : Ret (do
        let c ← rd counts (cls ops x i)
        wr counts (cls ops x i) (c + 1)) (fun c' => c'.length = (nub ops.eq x).length ∧
          ∀ k, k < (nub ops.eq x).length →
            c'[k]? = some ((List.range (i + 1)).countP (fun j => cls ops x j == k))) := by
      refine Ret.bind_eq (rd_of_getElem? (h4 _ hlt)) ⟨_, wr_ok (by omega), by simpa using h3, ?_⟩
      intro k hk
      rw [getElem?_set' (by omega), countP_range_succ]
      by_cases hkc : k = cls ops x i
      · subst hkc; simp
      · rw [if_neg hkc, h4 k hk]
        have : (cls ops x i == k) = false := by simp; exact fun h => hkc h.symm
        simp [this]
    obtain ⟨c', hc1, hc2, hc3⟩ := hcnt
    have hmono : (firsts ops x (i + 1)).length ≤ (nub ops.eq x).length := by
      rw [← hnG]
      unfold firsts
      rw [← List.countP_eq_length_filter, ← List.countP_eq_length_filter]
      exact countP_range_mono _ (by omega)
    refine Ret.bind_eq (rdU_ok (hg i hi)) ?_
    have hkey : Ret (if cls ops x i = cur then do
        let k ← wr keyLoc cur (some (i + 1))
        .ok (k, cur + 1)
      else .ok (keyLoc, cur) : C (List (Option Nat) × Nat)) (fun s =>
        s.1 = ((firsts ops x (i + 1)).map (· + 1)).map some ++
          List.replicate ((nub ops.eq x).length - (firsts ops x (i + 1)).length) none ∧
        s.2 = (firsts ops x (i + 1)).length) := by
      by_cases hf : IsFirst ops.eq x i
      · have hcl : cls ops x i = cur := by
          rw [cls_of hxi, classOf_first he hxi hf, h2, nub_take_length x i (by omega)]
        rw [if_pos hcl]
        have hs : firsts ops x (i + 1) = firsts ops x i ++ [i] := by
          rw [firsts_succ, if_pos ((firstB_iff x i).2 hf)]
        rw [hs] at hmono ⊢
        simp at hmono
        obtain ⟨m, hm⟩ : ∃ m, (nub ops.eq x).length - (firsts ops x i).length = m + 1 :=
          ⟨(nub ops.eq x).length - (firsts ops x i).length - 1, by omega⟩
        refine Ret.bind_eq (wr_ok (by rw [h1, h2]; simp; omega)) (Ret.ok ⟨?_, by simp [h2]⟩)
        simp only
        have := set_append_replicate ((firsts ops x i).map (· + 1)) m (i + 1)
        rw [h1, h2, hm]
        rw [List.length_map] at this
        rw [this]
        congr 2
        · simp
        · simp; omega
      · have hcl : ¬ cls ops x i = cur := by
          have := classOf_nonfirst he hxi hf
          rw [cls_of hxi, h2, ← nub_take_length x i (by omega)]
          omega
        rw [if_neg hcl]
        have hs : firsts ops x (i + 1) = firsts ops x i := by
          rw [firsts_succ, if_neg (by rw [firstB_iff]; exact hf), List.append_nil]
        rw [hs]
        exact Ret.ok ⟨h1, h2⟩
    refine Ret.bind hkey ?_
    rintro ⟨keyLoc', cur'⟩ ⟨k1, k2⟩
    simp only at k1 k2 ⊢
    refine Ret.bind_eq (rd_of_getElem? (h4 _ hlt)) ?_
    rw [rd_of_getElem? (h4 _ hlt)] at hc1
    refine Ret.bind_eq hc1 (Ret.ok ⟨k1, k2, hc2, hc3⟩)
  · rintro ⟨keyLoc, cur, counts⟩ ⟨h1, h2, h3, h4⟩
    simp only at h1 h2 h3 h4 ⊢
    constructor
    · rw [h1, hnG]
      simp only [Nat.sub_self, List.replicate_zero, List.append_nil]
      exact initd_map_some _
    · apply List.ext_getElem?
      intro k
      by_cases hk : k < (nub ops.eq x).length
      · rw [h4 k hk]; simp [hk]
      · rw [List.getElem?_eq_none (by omega), List.getElem?_eq_none (by simp; omega)]

theorem mapM_initd (L : List (List Nat)) : (L.map (·.map some)).mapM initd = (.ok L : C _) := by
  induction L with
  | nil => rfl
  | cons l L ih => simp [List.mapM_cons, ih, initd_map_some]

theorem groupFill_ok (he : EqvHash ops) {x : List α} {groups : List (Option Nat)}
    (hg : ∀ j, j < x.length → groups[j]? = some (some (cls ops x j))) :
    Ret (groupFill groups x.length (((List.range (nub ops.eq x).length).map
        (fun k => (List.range x.length).countP (fun j => cls ops x j == k))).map (alloc Nat))
        (nub ops.eq x).length) (fun s =>
      s.1 = ((List.range (nub ops.eq x).length).map (fun k =>
        ((List.range x.length).filter (fun j => cls ops x j == k)).map (· + 1))).map (·.map some)) := by
  let tot : Nat → Nat := fun k => (List.range x.length).countP (fun j => cls ops x j == k)
  let cnt : Nat → Nat → Nat := fun i k => (List.range i).countP (fun j => cls ops x j == k)
  let pre : Nat → Nat → List Nat := fun i k =>
    ((List.range i).filter (fun j => cls ops x j == k)).map (· + 1)
  have hpl : ∀ i k, (pre i k).length = cnt i k := by
    intro i k; simp [pre, cnt, List.countP_eq_length_filter]
  refine (Ret.forN (fun i (s : List (List (Option Nat)) × List Nat) =>
    s.1.length = (nub ops.eq x).length ∧ s.2.length = (nub ops.eq x).length ∧
    ∀ k, k < (nub ops.eq x).length →
      s.1[k]? = some ((pre i k).map some ++ List.replicate (tot k - cnt i k) none) ∧
      s.2[k]? = some (cnt i k))
    ⟨by simp, by simp, ?_⟩ ?_).mono ?_
  · intro k hk
    simp [hk, pre, cnt, tot, alloc]
  · rintro i ⟨elts, locs⟩ hi ⟨h1, h2, h3⟩
    simp only at h1 h2 h3 ⊢
    have hlt := cls_lt he hi
    obtain ⟨g1, g2⟩ := h3 _ hlt
    have hstep : cnt (i + 1) (cls ops x i) = cnt i (cls ops x i) + 1 := by
      simp [cnt, countP_range_succ]
    have hle : cnt (i + 1) (cls ops x i) ≤ tot (cls ops x i) := countP_range_mono _ (by omega)
    obtain ⟨m, hm⟩ : ∃ m, tot (cls ops x i) - cnt i (cls ops x i) = m + 1 :=
      ⟨tot (cls ops x i) - cnt i (cls ops x i) - 1, by omega⟩
    have hset := set_append_replicate (pre i (cls ops x i)) m (i + 1)
    rw [hpl, ← hm] at hset
    refine Ret.bind_eq (rdU_ok (hg i hi)) (Ret.bind_eq (rd_of_getElem? g2)
      (Ret.bind_eq (rd_of_getElem? g1) (Ret.bind_eq (wr_ok (by
        rw [List.length_append, List.length_map, hpl]; simp; omega)) (Ret.bind_eq (wr_ok (by omega))
        (Ret.bind_eq (wr_ok (by omega)) (Ret.ok ⟨by simpa using h1, by simpa using h2, ?_⟩))))))
    intro k hk
    simp only
    rw [getElem?_set' (by omega), getElem?_set' (by omega)]
    by_cases hkc : k = cls ops x i
    · subst hkc
      rw [if_pos rfl, if_pos rfl, hset, hstep]
      refine ⟨?_, rfl⟩
      congr 3
      · simp [pre, filter_range_succ]
      · omega
    · have hf : (cls ops x i == k) = false := by simp; exact fun h => hkc h.symm
      rw [if_neg hkc, if_neg hkc]
      have e1 : pre (i + 1) k = pre i k := by simp [pre, filter_range_succ, hf]
      have e2 : cnt (i + 1) k = cnt i k := by simp [cnt, countP_range_succ, hf]
      rw [e1, e2]
      exact h3 k hk
  · rintro ⟨elts, locs⟩ ⟨h1, h2, h3⟩
    simp only at h1 h2 h3 ⊢
    apply List.ext_getElem?
    intro k
    by_cases hk : k < (nub ops.eq x).length
    · rw [(h3 k hk).1]
      have : tot k - cnt x.length k = 0 := by simp [tot, cnt]
      simp [hk, this, pre]
    · rw [List.getElem?_eq_none (by omega), List.getElem?_eq_none (by simp; omega)]

theorem groupLoc_ok (he : EqvHash ops) (x : List α) (hn : x.length ≤ intMax) :
    groupLoc ops x = .ok (nub ops.eq x, (List.range (nub ops.eq x).length).map (fun k =>
      ((List.range x.length).filter (fun j => cls ops x j == k)).map (· + 1))) := by
  obtain ⟨d, h1, h2, _⟩ := newDict_loaded (ops := ops) x hn
  suffices h : Ret (groupLoc ops x) (fun r => r = (nub ops.eq x,
      (List.range (nub ops.eq x).length).map (fun k =>
      ((List.range x.length).filter (fun j => cls ops x j == k)).map (· + 1)))) by
    obtain ⟨g, hg, rfl⟩ := h; exact hg
  refine Ret.bind_eq h1 ?_
  refine Ret.bind (groupLoop_ok he h2 0) ?_
  rintro ⟨d', groups, g⟩ ⟨hd, hF⟩
  simp only at hd hF ⊢
  have hg : ∀ j, j < x.length → groups[j]? = some (some (cls ops x j)) := by
    intro j hj
    obtain ⟨r, hr, hr2⟩ := hF.val j hj
    rw [hr, hr2 _ (List.getElem?_eq_getElem hj), cls_of (List.getElem?_eq_getElem hj)]
    rfl
  have hused : d'.used = (nub ops.eq x).length := by
    rw [loaded_used hd (Nat.le_refl _), List.take_length]
  rw [hused]
  refine Ret.bind (groupCounts_ok he hg) ?_
  rintro ⟨keyLoc, cur, counts⟩ ⟨k1, k2⟩
  simp only at k1 k2 ⊢
  rw [k2]
  refine Ret.bind (groupFill_ok he hg) ?_
  rintro ⟨elts, locs⟩ k3
  simp only at k3 ⊢
  refine Ret.bind_eq k1 (Ret.bind_eq (sliceLoc_firsts x) (Ret.bind_eq ?_ (Ret.ok rfl)))
  rw [k3]
  exact mapM_initd _

/-- The positions in class `k` are those equal to the `k`-th distinct value. -/
theorem cls_eq_iff (he : EqvHash ops) {x : List α} {j k : Nat} {a key : α} (ha : x[j]? = some a)
    (hk : (nub ops.eq x)[k]? = some key) : cls ops x j = k ↔ ops.eq key a = true := by
  have hax : a ∈ x := List.mem_of_getElem? ha
  rw [cls_of ha]
  constructor
  · rintro rfl
    obtain ⟨b, hb, hba⟩ := classOf_getElem he hax
    rw [hk] at hb
    simp at hb
    rw [hb]; exact hba
  · intro h
    have hlt := (List.getElem?_eq_some_iff.1 hk).1
    unfold classOf
    rw [List.findIdx_eq hlt]
    constructor
    · rw [(List.getElem?_eq_some_iff.1 hk).2]; exact h
    · intro j hj
      cases hc : ops.eq (nub ops.eq x)[j] a with
      | false => rfl
      | true =>
        exfalso
        have := List.pairwise_iff_getElem.1 (nub_pairwise ops.eq x) j k (by omega) hlt hj
        rw [(List.getElem?_eq_some_iff.1 hk).2, he.trans _ _ _ hc (he.symm _ _ h)] at this
        simp at this

end Vctrs
