import Verif.SpecFactor
import Verif.Lemmas.Dictionary
import Verif.Lemmas.Chop
import Verif.Lemmas.SetOps
import Verif.Lemmas.Subscript
import Verif.Lemmas.Assign

namespace Vctrs
open Spec

theorem chrOps_eqv (hash : Name → BitVec 32) : EqvHash (chrOps hash) :=
  ⟨by simp [chrOps], by simp [chrOps], by simp [chrOps], by simp [chrOps]⟩

/-- What `vec_match()` finds for one string. -/
def FoundAt (hay : List Name) (s : Name) (c : Int) : Prop :=
  (s ∉ hay ∧ c = naInt) ∨ ∃ k : Nat, c = (k : Int) + 1 ∧ hay[k]? = some s

theorem FoundAt.na {hay : List Name} {s : Name} {c : Int} (h : FoundAt hay s c) : c = naInt ↔ s ∉ hay := by
  rcases h with ⟨h1, h2⟩ | ⟨k, h1, h2⟩
  · simp [h1, h2]
  · have : s ∈ hay := List.mem_of_getElem? h2
    refine ⟨fun h => ?_, fun h => absurd this h⟩
    unfold naInt at h; omega

theorem chrMatch_ok (hash : Name → BitVec 32) (needles hay : List Name) (hn : hay.length ≤ intMax) :
    Ret (chrMatch hash needles hay) (fun out => out.length = needles.length ∧
      ∀ (i : Nat) (s : Name), needles[i]? = some s → ∃ c, out[i]? = some c ∧ FoundAt hay s c) := by
  unfold chrMatch
  refine Ret.bind (vecMatch_ok (chrOps_eqv hash) _ true (by simp) needles hay hn) ?_
  rintro m ⟨h1, h2⟩
  refine Ret.ok ⟨by simp [matchInts, h1], ?_⟩
  intro i s hs
  have hi : i < needles.length := (List.getElem?_eq_some_iff.1 hs).1
  obtain ⟨r, hr, hm⟩ := h2 i hi
  have hm' := hm s hs
  unfold MatchRes at hm'
  rw [if_neg (by simp)] at hm'
  rcases hm' with ⟨rfl, hm'⟩ | ⟨j, rfl, a, ha, hea, _⟩
  · refine ⟨naInt, by simp [matchInts, hr], Or.inl ⟨fun hmem => ?_, rfl⟩⟩
    simpa [chrOps] using hm' s hmem
  · refine ⟨((j + 1 : Nat) : Int), by simp [matchInts, hr], Or.inr ⟨j, by simp, ?_⟩⟩
    simp only [chrOps, decide_eq_true_eq] at hea
    rw [ha, hea]

theorem chr_nub_nodup (hash : Name → BitVec 32) (x : List Name) : (nub (chrOps hash).eq x).Nodup := by
  refine (nub_pairwise (chrOps hash).eq x).imp ?_
  intro a b h; simpa [chrOps] using h

theorem chr_nub_of_nodup (hash : Name → BitVec 32) {x : List Name} (h : x.Nodup) :
    nub (chrOps hash).eq x = x := by
  induction x with
  | nil => rfl
  | cons a l ih =>
    rw [List.nodup_cons] at h
    rw [nub, ih h.2, List.filter_eq_self.2]
    intro b hb
    simp only [chrOps, Bool.not_eq_true', decide_eq_false_iff_not]
    rintro rfl; exact h.1 hb

theorem chr_mem_nub (hash : Name → BitVec 32) {x : List Name} {a : Name} :
    a ∈ nub (chrOps hash).eq x ↔ a ∈ x := by
  refine ⟨mem_nub_of_mem, fun h => ?_⟩
  obtain ⟨b, hb, he⟩ := nub_covers (chrOps_eqv hash).refl (chrOps_eqv hash).trans x a h
  simp only [chrOps, decide_eq_true_eq] at he
  rwa [he] at hb

theorem vecUnique_chr (hash : Name → BitVec 32) (x : List Name) (hn : x.length ≤ intMax) :
    vecUnique (chrOps hash) x = .ok (nub (chrOps hash).eq x) := by
  unfold vecUnique
  rw [uniqueLoc_ok (chrOps_eqv hash) x hn, ok_bind]
  exact sliceLoc_firsts x

theorem levelsUnion_ok (hash : Name → BitVec 32) {x y : List Name} (hx : x.Nodup) (hy : y.Nodup)
    (hn : x.length + y.length ≤ intMax) :
    levelsUnion hash x y = .ok (x ++ y.filter (fun s => decide (s ∉ x))) := by
  unfold levelsUnion
  rw [vecC_ok none ⟨some x, by simp, by simp⟩ (by simpa using hn), ok_bind]
  have e : ([some x, some y].filterMap id).flatten = x ++ y := by simp
  rw [e]
  simp only []
  rw [vecUnique_chr hash _ (by simpa using hn), nub_append, chr_nub_of_nodup hash hx,
    chr_nub_of_nodup hash hy]
  refine congrArg Except.ok (congrArg (x ++ ·) (List.filter_congr ?_))
  intro s _
  by_cases hs : s ∈ x
  · simp [chrOps, hs]
  · simp only [chrOps, hs, not_false_eq_true, decide_true, Bool.not_eq_true', List.any_eq_false,
      decide_eq_true_eq]
    rintro a ha rfl; exact hs ha

theorem chrLossy_ok {x : List Name} {levels : List Name} {out : List Int}
    (h : ∀ (i : Nat) (s : Name), x[i]? = some s → ∃ c, out[i]? = some c ∧ FoundAt levels s c) :
    Ret (forBrk x.length (chrLossyStep x out) false) (fun l => l = true ↔ ∃ s ∈ x, s ≠ none ∧ s ∉ levels) := by
  refine Ret.forBrk (fun i l => l = false ∧ ∀ (j : Nat) (s : Name), j < i → x[j]? = some s → s ≠ none → s ∈ levels)
    _ ⟨rfl, by intro j s hj; omega⟩ ?_ ?_
  · rintro i l hi ⟨rfl, hI⟩
    have hx : x[i]? = some x[i] := List.getElem?_eq_getElem hi
    obtain ⟨c, hc, hf⟩ := h i _ hx
    unfold chrLossyStep
    refine Ret.bind_eq (rd_of_getElem? hc) ?_
    have keep : (x[i] ≠ none → x[i] ∈ levels) → ∀ (j : Nat) (s : Name), j < i + 1 → x[j]? = some s → s ≠ none → s ∈ levels := by
      intro hk j s hj hs hne
      by_cases hji : j = i
      · subst hji; rw [hx] at hs; cases hs; exact hk hne
      · exact hI j s (by omega) hs hne
    by_cases hna : c = naInt
    · rw [if_pos hna]
      refine Ret.bind_eq (rd_of_getElem? hx) ?_
      by_cases hs : x[i] ≠ none
      · rw [if_pos hs]
        exact Ret.ok ⟨fun _ => ⟨x[i], List.getElem_mem hi, hs, hf.na.1 hna⟩, fun _ => rfl⟩
      · rw [if_neg hs]
        exact Ret.ok ⟨rfl, keep (fun h' => absurd h' hs)⟩
    · rw [if_neg hna]
      exact Ret.ok ⟨rfl, keep (fun _ => by by_contra hm; exact hna (hf.na.2 hm))⟩
  · rintro l ⟨rfl, hI⟩
    refine ⟨fun h => by simp at h, ?_⟩
    rintro ⟨s, hs, hne, hm⟩
    obtain ⟨j, hj, rfl⟩ := List.getElem_of_mem hs
    exact absurd (hI j _ hj (List.getElem?_eq_getElem hj) hne) hm

theorem FoundAt.label {levels : List Name} {s : Name} {c : Int} (h : FoundAt levels s c)
    (hs : s ≠ none → s ∈ levels) : HasLabel levels c s := by
  rcases h with ⟨h1, h2⟩ | h
  · refine Or.inl ⟨h2, ?_⟩
    by_contra hne; exact h1 (hs hne)
  · exact Or.inr h

theorem chrAsFactorImpl_ok (hash : Name → BitVec 32) (x levels : List Name) (hn : levels.length ≤ intMax) :
    ((∀ s ∈ x, s ≠ none → s ∈ levels) →
      Ret (chrAsFactorImpl hash x levels) (fun r => ∃ f : Factor, r = some f ∧ f.levels = levels ∧ Reads f x)) ∧
    ((∃ s ∈ x, s ≠ none ∧ s ∉ levels) → chrAsFactorImpl hash x levels = .ok none) := by
  obtain ⟨out, h1, h2, h3⟩ := chrMatch_ok hash x levels hn
  obtain ⟨l, h4, h5⟩ := chrLossy_ok h3
  unfold chrAsFactorImpl
  rw [h1, ok_bind, h4, ok_bind]
  constructor
  · intro hall
    rw [if_neg (by rw [h5]; rintro ⟨s, hs, hne, hm⟩; exact hm (hall s hs hne))]
    refine Ret.ok ⟨_, rfl, rfl, h2, ?_⟩
    intro i c s hc hs
    obtain ⟨c', hc', hf⟩ := h3 i s hs
    rw [hc] at hc'; cases hc'
    exact hf.label (hall s (List.mem_of_getElem? hs))
  · intro hex
    rw [if_pos (h5.2 hex)]

/-- Filtering a vector is choosing positions. -/
theorem filter_range {α : Type _} (x : List α) (P : α → Bool) (Q : Nat → Bool)
    (h : ∀ (p : Nat) (a : α), x[p]? = some a → Q p = P a) :
    ((List.range x.length).filter Q).filterMap (fun p => x[p]?) = x.filter P := by
  induction x using List.reverseRecOn with
  | nil => rfl
  | append_singleton l a ih =>
    have h1 := ih (fun p b hb => h p b (by
      rw [List.getElem?_append_left (List.getElem?_eq_some_iff.1 hb).1]; exact hb))
    have h2 := h l.length a (by simp)
    rw [List.length_append, List.length_singleton, List.range_succ, List.filter_append, List.filterMap_append,
      List.filter_append, ← h1]
    congr 1
    · refine List.filterMap_congr ?_
      intro p hp
      have : p < l.length := by simpa using (List.mem_filter.1 hp).1
      rw [List.getElem?_append_left this]
    · by_cases hq : P a = true
      · simp [h2, hq]
      · simp [h2, hq]

theorem naLevel_ok (levels : List Name) :
    Ret (forBrk levels.length (naLevelStep levels) none) (fun r =>
      (r = none ∧ none ∉ levels) ∨ ∃ i, r = some i ∧ levels[i]? = some none) := by
  refine Ret.forBrk (fun i r => r = none ∧ ∀ j, j < i → levels[j]? ≠ some none) _
    ⟨rfl, by intro j hj; omega⟩ ?_ ?_
  · rintro i r hi ⟨rfl, hI⟩
    have hx : levels[i]? = some levels[i] := List.getElem?_eq_getElem hi
    unfold naLevelStep
    refine Ret.bind_eq (rd_of_getElem? hx) ?_
    by_cases hs : levels[i] = none
    · rw [if_pos hs]; exact Ret.ok (Or.inr ⟨i, rfl, by rw [hx, hs]⟩)
    · rw [if_neg hs]
      refine Ret.ok ⟨rfl, fun j hj => ?_⟩
      by_cases hji : j = i
      · subst hji; rw [hx]; simpa using hs
      · exact hI j (by omega)
  · rintro r ⟨rfl, hI⟩
    refine Or.inl ⟨rfl, fun hm => ?_⟩
    obtain ⟨j, hj, he⟩ := List.getElem_of_mem hm
    exact hI j hj (by rw [List.getElem?_eq_getElem hj, he])

theorem removeNaLevels_ok {levels : List Name} (hd : levels.Nodup) (hn : levels.length ≤ intMax) :
    removeNaLevels levels = .ok (levels.filter (fun s => decide (s ≠ none))) := by
  suffices H : Ret (removeNaLevels levels) (fun r => r = levels.filter (fun s => decide (s ≠ none))) by
    obtain ⟨r, hr, rfl⟩ := H; exact hr
  unfold removeNaLevels
  refine Ret.bind (naLevel_ok levels) ?_
  rintro r (⟨rfl, hno⟩ | ⟨i, rfl, hi⟩)
  · refine Ret.ok (List.filter_eq_self.2 ?_).symm
    intro s hs
    simp only [ne_eq, decide_not, Bool.not_eq_true', decide_eq_false_iff_not]
    rintro rfl; exact hno hs
  · have hil : i < levels.length := (List.getElem?_eq_some_iff.1 hi).1
    have hin : levels[i] = none := (List.getElem?_eq_some_iff.1 hi).2
    have hM : intMax = 2147483647 := rfl
    have hneg : ((i : Int) + 1) * -1 ≠ naInt := by unfold naInt; omega
    have hloc := intAsLocation_inv_ok (l := [((i : Int) + 1) * -1]) hn (opts := {})
      (by
        intro e he
        rw [List.mem_singleton] at he
        subst he
        rintro (⟨h, _⟩ | ⟨h, _⟩ | h | ⟨_, h, _⟩)
        · exact hneg h
        · omega
        · omega
        · omega)
      ⟨_, List.mem_singleton_self _, hneg, by omega, rfl⟩
    refine Ret.bind_eq hloc ?_
    generalize hL : ((List.range levels.length).filter
      (fun p : Nat => decide (-((p : Int) + 1) ∉ [((i : Int) + 1) * -1]))).map (fun p : Nat => (p : Int) + 1) = L
    have hLmem : ∀ v ∈ L, v = naInt ∨ (1 ≤ v ∧ v ≤ (levels.length : Int)) := by
      intro v hv
      rw [← hL] at hv
      simp only [List.mem_map, List.mem_filter, List.mem_range] at hv
      obtain ⟨p, ⟨hp, _⟩, rfl⟩ := hv
      omega
    refine (sliceBase_ok none (x := levels) (s := .locs L) hLmem).mono ?_
    rintro out ⟨h1, h2⟩
    have h1 : out.length = L.length := by simpa [subscriptSize] using h1
    rw [← filter_range levels _ (fun p : Nat => decide (-((p : Int) + 1) ∉ [((i : Int) + 1) * -1]))]
    · generalize hF : (List.range levels.length).filter
        (fun p : Nat => decide (-((p : Int) + 1) ∉ [((i : Int) + 1) * -1])) = F at hL
      have e : out.map some = F.map (fun p => levels[p]?) := by
        apply List.ext_getElem?
        intro k
        by_cases hk : k < F.length
        · have hkL : k < L.length := by rw [← hL]; simpa using hk
          obtain ⟨loc, hl, ho⟩ := h2 k (by simpa [subscriptSize] using hkL)
          have hl' : loc = (F[k] : Int) + 1 := by
            simp only [subscriptAt, ← hL, List.getElem?_map, List.getElem?_eq_getElem hk] at hl
            simpa using hl.symm
          subst hl'
          rw [if_neg (by unfold naInt; omega), show ((F[k] : Int) + 1 - 1).toNat = F[k] by omega] at ho
          have hFk : F[k] < levels.length := by
            have hm : ∀ q ∈ F, q < levels.length := by
              intro q hq
              rw [← hF] at hq
              simpa using (List.mem_filter.1 hq).1
            exact hm _ (List.getElem_mem hk)
          rw [List.getElem?_map, List.getElem?_map, ho, List.getElem?_eq_getElem hk,
            List.getElem?_eq_getElem hFk]
          simp
        · rw [List.getElem?_eq_none (by rw [List.length_map, h1, ← hL, List.length_map]; omega),
            List.getElem?_eq_none (by rw [List.length_map]; omega)]
      have e2 : F.filterMap (fun p => levels[p]?) = (F.map (fun p => levels[p]?)).filterMap id := by
        rw [List.filterMap_map]; rfl
      rw [e2, ← e, List.filterMap_map]
      simp
    · intro p a ha
      have hpl := (List.getElem?_eq_some_iff.1 ha)
      obtain ⟨hp, hpa⟩ := hpl
      rw [decide_eq_decide, List.mem_singleton]
      refine not_congr ⟨fun h => ?_, fun h => ?_⟩
      · have : p = i := by omega
        subst this; rw [← hpa, hin]
      · have : p = i := by
          refine (List.Nodup.getElem_inj_iff hd (hi := hp) (hj := hil)).1 ?_
          rw [hpa, hin, h]
        subst this; omega

theorem nub_length_le {α : Type _} (eq : α → α → Bool) (x : List α) : (nub eq x).length ≤ x.length := by
  induction x with
  | nil => simp [nub]
  | cons a l ih =>
    rw [nub, List.length_cons, List.length_cons]
    have := List.length_filter_le (fun b => !eq a b) (nub eq l)
    omega

theorem chrAsFactorFromSelf_ok (hash : Name → BitVec 32) (x : List Name) (hn : x.length ≤ intMax) :
    Ret (chrAsFactorFromSelf hash x) (fun f =>
      f.levels = (nub (chrOps hash).eq x).filter (fun s => decide (s ≠ none)) ∧ Reads f x) := by
  unfold chrAsFactorFromSelf
  have hl : (nub (chrOps hash).eq x).length ≤ x.length := nub_length_le _ _
  refine Ret.bind_eq (vecUnique_chr hash x hn) ?_
  refine Ret.bind_eq (removeNaLevels_ok (chr_nub_nodup hash x) (by omega)) ?_
  refine Ret.bind (chrMatch_ok hash x _ ?_) ?_
  · exact Nat.le_trans (List.length_filter_le _ _) (by omega)
  rintro out ⟨h1, h2⟩
  refine Ret.ok ⟨rfl, h1, ?_⟩
  intro i c s hc hs
  obtain ⟨c', hc', hf⟩ := h2 i s hs
  dsimp only at hc
  rw [hc] at hc'; cases hc'
  refine hf.label (fun hne => ?_)
  rw [List.mem_filter]
  exact ⟨(chr_mem_nub hash).2 (List.mem_of_getElem? hs), by simpa using hne⟩

/-! ## Factor to factor -/

theorem contiguous_ok {xl tl : List Name} (h : xl.length ≤ tl.length) :
    Ret (forBrk xl.length (contiguousStep xl tl) true) (fun r =>
      r = true → ∀ (i : Nat) (s : Name), xl[i]? = some s → tl[i]? = some s) := by
  refine Ret.forBrk (fun i r => r = true ∧ ∀ (j : Nat) (s : Name), j < i → xl[j]? = some s → tl[j]? = some s) _
    ⟨rfl, by intro j s hj; omega⟩ ?_ ?_
  · rintro i r hi ⟨rfl, hI⟩
    have hx : xl[i]? = some xl[i] := List.getElem?_eq_getElem hi
    have ht : tl[i]? = some tl[i] := List.getElem?_eq_getElem (by omega)
    unfold contiguousStep
    refine Ret.bind_eq (rd_of_getElem? hx) (Ret.bind_eq (rd_of_getElem? ht) ?_)
    by_cases hs : xl[i] ≠ tl[i]
    · rw [if_pos hs]; exact Ret.ok (fun h => by simp at h)
    · rw [if_neg hs]
      refine Ret.ok ⟨rfl, fun j s hj hjs => ?_⟩
      by_cases hji : j = i
      · subst hji; rw [hx] at hjs; cases hjs; rw [ht]; simpa using (not_not.1 hs).symm
      · exact hI j s (by omega) hjs
  · rintro r ⟨rfl, hI⟩ _ i s hs
    exact hI i s (List.getElem?_eq_some_iff.1 hs).1 hs

theorem recodeLossy_ok {xl tl : List Name} {recode : List Int}
    (h : ∀ (i : Nat) (s : Name), xl[i]? = some s → ∃ c, recode[i]? = some c ∧ FoundAt tl s c) :
    Ret (forBrk xl.length (recodeLossyStep recode) false) (fun l => l = true ↔ ∃ s ∈ xl, s ∉ tl) := by
  refine Ret.forBrk (fun i l => l = false ∧ ∀ (j : Nat) (s : Name), j < i → xl[j]? = some s → s ∈ tl)
    _ ⟨rfl, by intro j s hj; omega⟩ ?_ ?_
  · rintro i l hi ⟨rfl, hI⟩
    have hx : xl[i]? = some xl[i] := List.getElem?_eq_getElem hi
    obtain ⟨c, hc, hf⟩ := h i _ hx
    unfold recodeLossyStep
    refine Ret.bind_eq (rd_of_getElem? hc) ?_
    by_cases hna : c = naInt
    · rw [if_pos hna]
      exact Ret.ok ⟨fun _ => ⟨xl[i], List.getElem_mem hi, hf.na.1 hna⟩, fun _ => rfl⟩
    · rw [if_neg hna]
      refine Ret.ok ⟨rfl, fun j s hj hs => ?_⟩
      by_cases hji : j = i
      · subst hji; rw [hx] at hs; cases hs
        by_contra hm; exact hna (hf.na.2 hm)
      · exact hI j s (by omega) hs
  · rintro l ⟨rfl, hI⟩
    refine ⟨fun h => by simp at h, ?_⟩
    rintro ⟨s, hs, hm⟩
    obtain ⟨j, hj, rfl⟩ := List.getElem_of_mem hs
    exact absurd (hI j _ hj (List.getElem?_eq_getElem hj)) hm

/-- Two factors have the same strings. -/
def SameStrings (f g : Factor) : Prop :=
  f.codes.length = g.codes.length ∧ ∀ (i : Nat) (c d : Int) (s : Name), f.codes[i]? = some c →
    g.codes[i]? = some d → HasLabel f.levels c s → HasLabel g.levels d s

theorem recode_ok {x : List Int} {xl tl : List Name} {recode : List Int}
    (hw : ∀ c ∈ x, c = naInt ∨ (1 ≤ c ∧ c ≤ (xl.length : Int)))
    (h : ∀ (i : Nat) (s : Name), xl[i]? = some s → ∃ c, recode[i]? = some c ∧ FoundAt tl s c)
    (hall : ∀ s ∈ xl, s ∈ tl) :
    Ret (do let out ← forN x.length (recodeStep x recode) (alloc Int x.length); initd out)
      (fun out => SameStrings ⟨x, xl⟩ ⟨out, tl⟩) := by
  refine Ret.bind (Ret.forN (fun i out => Filled (fun i d => ∀ (c : Int) (s : Name), x[i]? = some c →
      HasLabel xl c s → HasLabel tl d s) x.length i out) (Filled.start _ _) ?_) ?_
  · intro i out hi hF
    have hx : x[i]? = some x[i] := List.getElem?_eq_getElem hi
    unfold recodeStep
    refine Ret.bind_eq (rd_of_getElem? hx) ?_
    rcases hw _ (List.getElem_mem hi) with hna | ⟨hlo, hhi⟩
    · rw [if_pos hna]
      obtain ⟨h1, h2⟩ := hF.step (r := naInt) hi (by
        intro c s hc hl
        rw [hx] at hc; cases hc
        rcases hl with ⟨_, rfl⟩ | ⟨k, hk, _⟩
        · exact Or.inl ⟨rfl, rfl⟩
        · rw [hna] at hk; unfold naInt at hk; omega)
      exact ⟨_, h1, h2⟩
    · have hne : x[i] ≠ naInt := by unfold naInt; omega
      rw [if_neg hne]
      have hk : (x[i] - 1).toNat < xl.length := by omega
      obtain ⟨d, hd, hf⟩ := h _ _ (List.getElem?_eq_getElem hk)
      refine Ret.bind_eq (rdI_ok (by omega) hd) ?_
      obtain ⟨h1, h2⟩ := hF.step (r := d) hi (by
        intro c s hc hl
        rw [hx] at hc; cases hc
        rcases hl with ⟨hna, _⟩ | ⟨k, hk', hs⟩
        · exact absurd hna hne
        · have : (x[i] - 1).toNat = k := by omega
          rw [List.getElem?_eq_getElem (by omega)] at hs
          cases hs
          subst this
          exact hf.label (fun _ => hall _ (List.getElem_mem hk)))
      exact ⟨_, h1, h2⟩
  · intro buf hF
    refine hF.done.mono ?_
    rintro out ⟨h1, h2⟩
    refine ⟨h1.symm, ?_⟩
    intro i c d s hc hd hl
    exact h2 i d hd c s hc hl

theorem fctAsCharacter_ok {f : Factor} (hw : WellFormed f) : Ret (fctAsCharacter f) (fun out => Reads f out) := by
  unfold fctAsCharacter
  refine Ret.bind (Ret.forN (fun i out => Filled (fun i s => ∀ c : Int, f.codes[i]? = some c →
      HasLabel f.levels c s) f.codes.length i out) (Filled.start _ _) ?_) ?_
  · intro i out hi hF
    have hx : f.codes[i]? = some f.codes[i] := List.getElem?_eq_getElem hi
    refine Ret.bind_eq (rd_of_getElem? hx) ?_
    rcases hw.2.2 _ (List.getElem_mem hi) with hna | ⟨hlo, hhi⟩
    · rw [if_pos hna]
      obtain ⟨h1, h2⟩ := hF.step (r := none) hi (by
        intro c hc
        rw [hx] at hc; cases hc
        exact Or.inl ⟨hna, rfl⟩)
      exact ⟨_, h1, h2⟩
    · rw [if_neg (by unfold naInt; omega), if_neg (by omega)]
      have hk : (f.codes[i] - 1).toNat < f.levels.length := by omega
      rw [List.getElem?_eq_getElem hk]
      obtain ⟨h1, h2⟩ := hF.step (r := f.levels[(f.codes[i] - 1).toNat]) hi (by
        intro c hc
        rw [hx] at hc; cases hc
        exact Or.inr ⟨_, by omega, List.getElem?_eq_getElem hk⟩)
      exact ⟨_, h1, h2⟩
  · intro buf hF
    refine hF.done.mono ?_
    rintro out ⟨h1, h2⟩
    exact ⟨h1.symm, fun i c s hc hs => h2 i s hs c hc⟩

theorem fctAsFactorImpl_ok (hash : Name → BitVec 32) {x : Factor} {tl : List Name} (hw : WellFormed x)
    (ht : tl ≠ []) (hn : tl.length ≤ intMax) :
    ((∀ s ∈ x.levels, s ∈ tl) →
      Ret (fctAsFactorImpl hash false x tl) (fun r => ∃ y : Factor, r = some y ∧ y.levels = tl ∧ SameStrings x y)) ∧
    ((∃ s ∈ x.levels, s ∉ tl) → fctAsFactorImpl hash false x tl = .ok none) := by
  have ht' : tl.length ≠ 0 := by simpa using ht
  unfold fctAsFactorImpl
  rw [if_neg (by simp), if_neg ht']
  obtain ⟨recode, h1, h2, h3⟩ := chrMatch_ok hash x.levels tl hn
  obtain ⟨l, h4, h5⟩ := recodeLossy_ok h3
  constructor
  · intro hall
    have hle : x.levels.length ≤ tl.length := (List.subperm_of_subset hw.1 hall).length_le
    rw [if_neg (by omega)]
    obtain ⟨b, hb, hc⟩ := contiguous_ok hle
    rw [hb, ok_bind]
    cases b with
    | true =>
      rw [if_pos rfl]
      refine Ret.ok ⟨_, rfl, rfl, rfl, ?_⟩
      intro i c d s hc' hd hl
      dsimp only at hd
      rw [hc'] at hd; cases hd
      rcases hl with hl | ⟨k, hk, hs⟩
      · exact Or.inl hl
      · exact Or.inr ⟨k, hk, hc rfl k s hs⟩
    | false =>
      rw [if_neg (by simp), h1, ok_bind, h4, ok_bind,
        if_neg (by rw [h5]; rintro ⟨s, hs, hm⟩; exact hm (hall s hs))]
      obtain ⟨out, ho, hS⟩ := recode_ok hw.2.2 h3 hall
      obtain ⟨buf, hb1, hb2⟩ : ∃ buf, forN x.codes.length (recodeStep x.codes recode) (alloc Int x.codes.length) = .ok buf ∧
          initd buf = .ok out := by
        cases hq : forN x.codes.length (recodeStep x.codes recode) (alloc Int x.codes.length) with
        | error e => rw [hq] at ho; simp [error_bind] at ho
        | ok buf => rw [hq, ok_bind] at ho; exact ⟨buf, rfl, ho⟩
      rw [hb1, ok_bind, hb2, ok_bind]
      exact Ret.ok ⟨_, rfl, rfl, hS⟩
  · rintro hex
    by_cases hgt : x.levels.length > tl.length
    · rw [if_pos hgt]
    · rw [if_neg hgt]
      obtain ⟨b, hb, hc⟩ := contiguous_ok (Nat.le_of_not_gt hgt)
      rw [hb, ok_bind]
      cases b with
      | true =>
        obtain ⟨s, hs, hm⟩ := hex
        obtain ⟨j, hj, rfl⟩ := List.getElem_of_mem hs
        exact absurd (List.mem_of_getElem? (hc rfl j _ (List.getElem?_eq_getElem hj))) hm
      | false =>
        rw [if_neg (by simp), h1, ok_bind, h4, ok_bind, if_pos (h5.2 hex)]

theorem hasLabel_unique {l : List Name} {c : Int} {s t : Name} (h : HasLabel l c s) (h' : HasLabel l c t) : s = t := by
  rcases h with ⟨h1, h2⟩ | ⟨k, h1, h2⟩ <;> rcases h' with ⟨h3, h4⟩ | ⟨k', h3, h4⟩
  · rw [h2, h4]
  · unfold naInt at h1; omega
  · unfold naInt at h3; omega
  · have : k = k' := by omega
    subst this; rw [h2] at h4; exact Option.some.inj h4

theorem SameStrings.reads {x y : Factor} (h : SameStrings x y) {strings : List Name} (hr : Reads x strings) :
    Reads y strings := by
  refine ⟨h.1.symm.trans hr.1, ?_⟩
  intro i d s hd hs
  have hi : i < x.codes.length := by rw [hr.1]; exact (List.getElem?_eq_some_iff.1 hs).1
  have hc := List.getElem?_eq_getElem hi
  exact h.2 i _ d s hc hd (hr.2 i _ s hc hs)

theorem rFactorCodes_found (strings levels : List Name) {i : Nat} {s : Name} (hs : strings[i]? = some s) :
    ∃ c, (rFactorCodes strings levels)[i]? = some c ∧ FoundAt levels s c := by
  simp only [rFactorCodes, List.getElem?_map, hs, Option.map_some]
  refine ⟨_, rfl, ?_⟩
  cases hf : levels.findIdx? (fun l => decide (l = s)) with
  | none =>
    rw [List.findIdx?_eq_none_iff] at hf
    exact Or.inl ⟨fun hm => by simpa using hf s hm, rfl⟩
  | some k =>
    rw [List.findIdx?_eq_some_iff_getElem] at hf
    obtain ⟨hk, he, _⟩ := hf
    exact Or.inr ⟨k, rfl, by rw [List.getElem?_eq_getElem hk, of_decide_eq_true he]⟩

theorem any_drops {x : Factor} {strings tl : List Name} (hr : Reads x strings) :
    (List.zip x.codes strings).any (fun p => !tl.contains p.2 && p.1 ≠ naInt) = true ↔ Drops x tl := by
  rw [List.any_eq_true]
  constructor
  · rintro ⟨⟨c, s⟩, hm, hp⟩
    obtain ⟨i, hi, he⟩ := List.getElem_of_mem hm
    have he' : (List.zip x.codes strings)[i]? = some (c, s) := by rw [List.getElem?_eq_getElem hi, he]
    rw [List.getElem?_zip_eq_some] at he'
    simp only [Bool.and_eq_true, Bool.not_eq_true', decide_eq_true_eq] at hp
    exact ⟨c, s, List.mem_of_getElem? he'.1, hp.2, hr.2 i c s he'.1 he'.2, by simpa using hp.1⟩
  · rintro ⟨c, s, hc, hna, hl, hm⟩
    obtain ⟨i, hi, he⟩ := List.getElem_of_mem hc
    have hci : x.codes[i]? = some c := by rw [List.getElem?_eq_getElem hi, he]
    have hil : i < strings.length := by rw [← hr.1]; exact hi
    have hsi : strings[i]? = some strings[i] := List.getElem?_eq_getElem hil
    have : strings[i] = s := hasLabel_unique (hr.2 i c _ hci hsi) hl
    rw [this] at hsi
    refine ⟨(c, s), List.mem_of_getElem? (List.getElem?_zip_eq_some.2 ⟨hci, hsi⟩), ?_⟩
    simp only [Bool.and_eq_true, Bool.not_eq_true', decide_eq_true_eq]
    exact ⟨by simpa using hm, hna⟩

theorem rFctCast_ok {x : Factor} {tl : List Name} (hw : WellFormed x) (ht : tl.Nodup) :
    (¬ Drops x tl → Ret (rFctCast x tl) (fun y => y.levels = tl ∧ ∀ strings, Reads x strings → Reads y strings)) ∧
    (Drops x tl → rFctCast x tl = .error .abort) := by
  obtain ⟨strings, h1, hr⟩ := fctAsCharacter_ok hw
  unfold rFctCast
  rw [h1, ok_bind, if_neg (not_not.2 ht)]
  constructor
  · intro hd
    rw [if_neg (by rw [any_drops hr]; exact hd)]
    refine Ret.ok ⟨rfl, fun st hst => SameStrings.reads ?_ hst⟩
    refine ⟨by simpa [rFactorCodes] using hr.1, ?_⟩
    intro i c d s hc hd' hl
    have hi := (List.getElem?_eq_some_iff.1 hc).1
    have hil : i < strings.length := by rw [← hr.1]; exact hi
    have hsi : strings[i]? = some strings[i] := List.getElem?_eq_getElem hil
    have hu : strings[i] = s := hasLabel_unique (hr.2 i c _ hc hsi) hl
    rw [hu] at hsi
    obtain ⟨d', hd1, hf⟩ := rFactorCodes_found strings tl hsi
    dsimp only at hd'
    rw [hd'] at hd1; cases hd1
    refine hf.label (fun hne => ?_)
    by_contra hm
    refine hd ⟨c, s, List.mem_of_getElem? hc, ?_, hl, hm⟩
    rintro rfl
    rcases hl with ⟨_, h⟩ | ⟨k, hk, _⟩
    · exact hne h
    · unfold naInt at hk; omega
  · intro hd
    rw [if_pos ((any_drops hr).2 hd)]

end Vctrs
