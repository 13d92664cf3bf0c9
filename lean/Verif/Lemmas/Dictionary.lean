import Verif.Lemmas.DictAny
import Mathlib.Data.List.Perm.Subperm
import Mathlib.Data.List.Nodup

namespace Vctrs

open Spec

variable {α : Type} {ops : PolyOps α}

/-! ## `nub` is the right notion -/

theorem mem_nub_of_mem {eq : α → α → Bool} {x : List α} {a : α} (h : a ∈ nub eq x) : a ∈ x := by
  induction x with
  | nil => simp [nub] at h
  | cons b l ih =>
    simp only [nub, List.mem_cons, List.mem_filter] at h ⊢
    rcases h with h | ⟨h, _⟩
    · exact Or.inl h
    · exact Or.inr (ih h)

theorem nub_pairwise (eq : α → α → Bool) (x : List α) :
    (nub eq x).Pairwise (fun a b => eq a b = false) := by
  induction x with
  | nil => simp [nub]
  | cons b l ih =>
    simp only [nub, List.pairwise_cons]
    constructor
    · intro a ha
      simpa using (List.mem_filter.1 ha).2
    · exact ih.sublist List.filter_sublist

theorem nub_covers {eq : α → α → Bool} (hr : ∀ a, eq a a = true)
    (ht : ∀ a b c, eq a b = true → eq b c = true → eq a c = true) (x : List α) (a : α)
    (h : a ∈ x) : ∃ b ∈ nub eq x, eq b a = true := by
  induction x with
  | nil => simp at h
  | cons c l ih =>
    rcases List.mem_cons.1 h with h | h
    · subst h; exact ⟨a, by simp [nub], hr a⟩
    · obtain ⟨b, hb, hba⟩ := ih h
      cases hcb : eq c b with
      | true => exact ⟨c, by simp [nub], ht _ _ _ hcb hba⟩
      | false => exact ⟨b, by simp [nub, hb, hcb], hba⟩

/-! ## vctrs_unique_loc -/

theorem uniqueLoc_ok (he : EqvHash ops) (x : List α) (hn : x.length ≤ intMax) :
    uniqueLoc ops x = .ok ((firsts ops x x.length).map (· + 1)) := by
  obtain ⟨d, h1, h2, _⟩ := newDict_loaded (ops := ops) x hn
  suffices h : Ret (uniqueLoc ops x) (fun g => g = (firsts ops x x.length).map (· + 1)) by
    obtain ⟨g, hg, rfl⟩ := h; exact hg
  refine Ret.bind_eq h1 ?_
  refine Ret.bind (Ret.forN (fun i (s : Dict α × List Nat) => Loaded ops x s.1 i ∧
    s.2 = (firsts ops x i).map (· + 1)) ⟨h2, by simp [firsts]⟩ ?_) ?_
  · rintro i ⟨d, g⟩ hi ⟨hd, hg⟩
    simp only at hd hg ⊢
    obtain ⟨p, hp, _, hcase⟩ := load_step he hd (List.getElem?_eq_getElem hi)
    rcases hcase with ⟨hf, h2, _, d', h3, h4, _⟩ | ⟨hnf, h2, idx, a, h3, _⟩
    · refine ⟨(d', g ++ [i + 1]), by simp [hp, h2, h3], h4, ?_⟩
      rw [firsts_succ, if_pos ((firstB_iff x i).2 hf)]; simp [hg]
    · refine ⟨(d, g), by simp [hp, h3], h2, ?_⟩
      rw [firsts_succ, if_neg (by rw [firstB_iff]; exact hnf)]; simp [hg]
  · rintro ⟨d', g⟩ ⟨_, hg⟩
    exact Ret.ok hg

/-! ## duplicated_any -/

theorem duplicatedAny_ok (he : EqvHash ops) (x : List α) (hn : x.length ≤ intMax) :
    Ret (duplicatedAny ops x) (fun b =>
      (b = true ↔ ∃ i, i < x.length ∧ ¬ IsFirst ops.eq x i)) := by
  obtain ⟨d, h1, h2, _⟩ := newDict_loaded (ops := ops) x hn
  refine Ret.bind_eq h1 ?_
  refine Ret.bind (Ret.forBrk (fun i (s : Dict α × Bool) => Loaded ops x s.1 i ∧ s.2 = false ∧
      ∀ j, j < i → IsFirst ops.eq x j)
    (fun s => s.2 = true ↔ ∃ i, i < x.length ∧ ¬ IsFirst ops.eq x i)
    ⟨h2, rfl, by intro j hj; omega⟩ ?_ ?_) ?_
  · rintro i ⟨d, out⟩ hi ⟨hd, ho, hall⟩
    simp only at hd ho ⊢
    obtain ⟨p, hp, _, hcase⟩ := load_step he hd (List.getElem?_eq_getElem hi)
    rcases hcase with ⟨hf, h2, _, d', h3, h4, _⟩ | ⟨hnf, h2, idx, a, h3, _⟩
    · refine ⟨.next (d', out), by simp [hp, h2, h3], h4, ho, ?_⟩
      intro j hj
      by_cases hji : j = i
      · subst hji; exact hf
      · exact hall j (by omega)
    · refine ⟨.brk (d, true), by simp [hp, h3], ?_⟩
      simp only [true_iff]
      exact ⟨i, hi, hnf⟩
  · rintro ⟨d, out⟩ ⟨_, ho, hall⟩
    simp only at ho
    subst ho
    simp
    exact hall
  · rintro ⟨d', b⟩ h
    exact Ret.ok h

/-! ## vctrs_n_distinct -/

theorem nDistinct_ok (he : EqvHash ops) (x : List α) (hn : x.length ≤ intMax) :
    nDistinct ops x = .ok (firsts ops x x.length).length := by
  obtain ⟨d, h1, h2, _⟩ := newDict_loaded (ops := ops) x hn
  obtain ⟨d', h3, h4⟩ := loadDict_ok he h2
  unfold nDistinct
  simp only [h1, h3, ok_bind, h4.inv.used]

theorem firsts_length (x : List α) :
    (firsts ops x x.length).length = (nub ops.eq x).length := by
  have := congrArg List.length (getElem?_map_firsts (ops := ops) x x.length (Nat.le_refl _))
  simpa using this

/-! ## vctrs_id -/

/-- A first occurrence equal to `y` is the first element equal to `y`. -/
theorem isFirstEq_of_first (he : EqvHash ops) {x : List α} {idx : Nat} {a y : α}
    (hf : IsFirst ops.eq x idx) (ha : x[idx]? = some a) (hab : ops.eq a y = true) :
    IsFirstEq ops.eq x y idx := by
  refine ⟨a, ha, hab, ?_⟩
  intro j' a' hj' ha'
  cases h' : ops.eq a' y with
  | false => rfl
  | true =>
    obtain ⟨b, hb, hb2⟩ := hf
    rw [ha] at hb
    simp at hb
    subst hb
    have := hb2 j' a' hj' ha'
    rw [he.trans _ _ _ h' (he.symm _ _ hab)] at this
    simp at this

theorem duplicateId_ok (he : EqvHash ops) (x : List α) (hn : x.length ≤ intMax) :
    Ret (duplicateId ops x) (fun out => out.length = x.length ∧
      ∀ i, i < x.length → ∃ r, out[i]? = some r ∧
        ∃ j y, r = j + 1 ∧ x[i]? = some y ∧ IsFirstEq ops.eq x y j) := by
  obtain ⟨d, h1, h2, _⟩ := newDict_loaded (ops := ops) x hn
  refine Ret.bind_eq h1 ?_
  refine Ret.bind (Ret.forN (fun i (s : Dict α × List (Option Nat)) => Loaded ops x s.1 i ∧
    Filled (fun i r => ∃ j y, r = j + 1 ∧ x[i]? = some y ∧ IsFirstEq ops.eq x y j)
      x.length i s.2) ⟨h2, Filled.start _ _⟩ ?_) ?_
  · rintro i ⟨d, out⟩ hi ⟨hd, hF⟩
    simp only at hd hF ⊢
    have hxi := List.getElem?_eq_getElem hi
    obtain ⟨p, hp, hplt, hcase⟩ := load_step he hd hxi
    rcases hcase with ⟨hf, h2, _, d', h3, h4, h5⟩ | ⟨hnf, h2, idx, a, h3, _, hlt, hfi, ha, hab⟩
    · have hkey : rd d'.key p = .ok (some i) := by
        apply rd_of_getElem?; rw [h5]; simp [hplt]
      obtain ⟨hw, hF'⟩ := hF.step (r := i + 1) hi
        ⟨i, x[i], rfl, hxi, isFirstEq_of_first he hf hxi (he.refl _)⟩
      exact ⟨_, by simp only [hp, h2, h3, hkey, hw, ok_bind]; rfl, h4, hF'⟩
    · obtain ⟨hw, hF'⟩ := hF.step (r := idx + 1) hi
        ⟨idx, x[i], rfl, hxi, isFirstEq_of_first he hfi ha hab⟩
      exact ⟨_, by simp only [hp, h3, hw, ok_bind]; rfl, h2, hF'⟩
  · rintro ⟨d', out⟩ ⟨_, hF⟩
    exact hF.done_of

/-! ## vec_match / vec_in -/

/-- `dict_is_incomplete` answers whether the element is incomplete, provided incomplete
elements carry the marker hash. -/
theorem dictIsIncomplete_ok {incomplete : α → Bool}
    (hmiss : ∀ a, incomplete a = true → ops.hash a = 1) {d : Dict α}
    (hh : d.hash = d.vec.map (fun a => (ops.hash a).toNat)) {i : Nat} {y : α}
    (hy : d.vec[i]? = some y) : dictIsIncomplete incomplete d i = .ok (incomplete y) := by
  unfold dictIsIncomplete
  have h1 : rd d.hash i = .ok (ops.hash y).toNat := by
    apply rd_of_getElem?; rw [hh]; simp [hy]
  rw [h1, ok_bind]
  by_cases hh1 : (ops.hash y).toNat = 1
  · rw [if_pos hh1, rd_of_getElem? hy]; rfl
  · rw [if_neg hh1]
    cases hinc : incomplete y with
    | false => rfl
    | true => exact absurd (by rw [hmiss _ hinc]; rfl) hh1

/-- What `vec_match` returns for needle `y`. -/
def MatchRes (ops : PolyOps α) (incomplete : α → Bool) (naEqual : Bool) (haystack : List α)
    (y : α) (r : Option Nat) : Prop :=
  if naEqual = false ∧ incomplete y = true then r = none
  else (r = none ∧ ∀ a ∈ haystack, ops.eq a y = false) ∨
    (∃ j, r = some (j + 1) ∧ IsFirstEq ops.eq haystack y j)

theorem vecMatch_ok (he : EqvHash ops) (incomplete : α → Bool) (naEqual : Bool)
    (hmiss : naEqual = false → ∀ a, incomplete a = true → ops.hash a = 1)
    (needles haystack : List α) (hn : haystack.length ≤ intMax) :
    Ret (vecMatch ops incomplete naEqual needles haystack) (fun out =>
      out.length = needles.length ∧ ∀ i, i < needles.length → ∃ r, out[i]? = some r ∧
        ∀ y, needles[i]? = some y → MatchRes ops incomplete naEqual haystack y r) := by
  obtain ⟨d, h1, h2, _⟩ := newDict_loaded (ops := ops) haystack hn
  obtain ⟨d', h3, h4⟩ := loadDict_ok he h2
  obtain ⟨dn, h5, h6, h7⟩ := newDict_partial_ok (ops := ops) needles
  refine Ret.bind_eq h1 (Ret.bind_eq h3 (Ret.bind_eq h5 ?_))
  refine Ret.bind (Ret.forN (fun i out => Filled (fun i r =>
      ∀ y, needles[i]? = some y → MatchRes ops incomplete naEqual haystack y r)
    needles.length i out) (Filled.start _ _) ?_) ?_
  · rintro i out hi hF
    have hni : needles[i]? = some needles[i] := List.getElem?_eq_getElem hi
    have hdnv : dn.vec[i]? = some needles[i] := by rw [h6]; exact hni
    have hskip : (if naEqual then .ok false else dictIsIncomplete incomplete dn i : C Bool) =
        .ok (!naEqual && incomplete needles[i]) := by
      cases hna : naEqual with
      | true => rfl
      | false => exact dictIsIncomplete_ok (hmiss hna) (by rw [h7, h6]) hdnv
    have hlift : ∀ r, MatchRes ops incomplete naEqual haystack needles[i] r →
        (∀ y, needles[i]? = some y → MatchRes ops incomplete naEqual haystack y r) := by
      intro r hr y hy
      rw [hni] at hy
      simp at hy
      subst hy
      exact hr
    refine Ret.bind_eq hskip ?_
    cases hsk : (!naEqual && incomplete needles[i]) with
    | true =>
      simp at hsk
      obtain ⟨hw, hF'⟩ := hF.step (r := none) hi (hlift _ (by
        unfold MatchRes; rw [if_pos hsk]))
      exact ⟨_, by rw [if_pos rfl]; exact hw, hF'⟩
    | false =>
      have hns : ¬ (naEqual = false ∧ incomplete needles[i] = true) := by
        rintro ⟨ha, hb⟩; simp [ha, hb] at hsk
      simp only [Bool.false_eq_true, if_false]
      obtain ⟨p, hp, hplt, hcase⟩ := lookup_step he h4 (by rw [h7, h6]) hdnv
      refine Ret.bind_eq hp ?_
      rcases hcase with ⟨hk, hno⟩ | ⟨idx, hk, _, hfe⟩
      · obtain ⟨hw, hF'⟩ := hF.step (r := none) hi (hlift _ (by
          unfold MatchRes; rw [if_neg hns]
          left
          refine ⟨rfl, ?_⟩
          intro a ha
          obtain ⟨j, hj, hja⟩ := List.getElem_of_mem ha
          exact hno j a (by rw [List.getElem?_eq_getElem hj, hja])))
        exact Ret.bind_eq hk ⟨_, hw, hF'⟩
      · obtain ⟨hw, hF'⟩ := hF.step (r := some (idx + 1)) hi (hlift _ (by
          unfold MatchRes; rw [if_neg hns]
          exact Or.inr ⟨idx, rfl, hfe⟩))
        exact Ret.bind_eq hk ⟨_, hw, hF'⟩
  · rintro out hF
    exact hF.done_of

/-- What `vec_in` returns for needle `y`. -/
def InRes (ops : PolyOps α) (incomplete : α → Bool) (naEqual : Bool) (haystack : List α)
    (y : α) (r : Option Bool) : Prop :=
  if naEqual = false ∧ incomplete y = true then r = none
  else ∃ b, r = some b ∧ (b = true ↔ ∃ a ∈ haystack, ops.eq a y = true)

theorem vecIn_ok (he : EqvHash ops) (incomplete : α → Bool) (naEqual : Bool)
    (hmiss : naEqual = false → ∀ a, incomplete a = true → ops.hash a = 1)
    (needles haystack : List α) (hn : haystack.length ≤ intMax) :
    Ret (vecIn ops incomplete naEqual needles haystack) (fun out =>
      out.length = needles.length ∧ ∀ i, i < needles.length → ∃ r, out[i]? = some r ∧
        ∀ y, needles[i]? = some y → InRes ops incomplete naEqual haystack y r) := by
  obtain ⟨d, h1, h2, _⟩ := newDict_loaded (ops := ops) haystack hn
  obtain ⟨d', h3, h4⟩ := loadDict_ok he h2
  obtain ⟨dn, h5, h6, h7⟩ := newDict_partial_ok (ops := ops) needles
  refine Ret.bind_eq h1 (Ret.bind_eq h3 (Ret.bind_eq h5 ?_))
  refine Ret.bind (Ret.forN (fun i out => Filled (fun i r =>
      ∀ y, needles[i]? = some y → InRes ops incomplete naEqual haystack y r)
    needles.length i out) (Filled.start _ _) ?_) ?_
  · rintro i out hi hF
    have hni : needles[i]? = some needles[i] := List.getElem?_eq_getElem hi
    have hdnv : dn.vec[i]? = some needles[i] := by rw [h6]; exact hni
    have hskip : (if !naEqual then dictIsIncomplete incomplete dn i else .ok false : C Bool) =
        .ok (!naEqual && incomplete needles[i]) := by
      cases hna : naEqual with
      | true => rfl
      | false => exact dictIsIncomplete_ok (hmiss hna) (by rw [h7, h6]) hdnv
    have hlift : ∀ r, InRes ops incomplete naEqual haystack needles[i] r →
        (∀ y, needles[i]? = some y → InRes ops incomplete naEqual haystack y r) := by
      intro r hr y hy
      rw [hni] at hy
      simp at hy
      subst hy
      exact hr
    refine Ret.bind_eq hskip ?_
    cases hsk : (!naEqual && incomplete needles[i]) with
    | true =>
      simp at hsk
      obtain ⟨hw, hF'⟩ := hF.step (r := none) hi (hlift _ (by
        unfold InRes; rw [if_pos hsk]))
      exact ⟨_, by rw [if_pos rfl]; exact hw, hF'⟩
    | false =>
      have hns : ¬ (naEqual = false ∧ incomplete needles[i] = true) := by
        rintro ⟨ha, hb⟩; simp [ha, hb] at hsk
      simp only [Bool.false_eq_true, if_false]
      obtain ⟨p, hp, hplt, hcase⟩ := lookup_step he h4 (by rw [h7, h6]) hdnv
      refine Ret.bind_eq hp ?_
      rcases hcase with ⟨hk, hno⟩ | ⟨idx, hk, _, hfe⟩
      · obtain ⟨hw, hF'⟩ := hF.step (r := some false) hi (hlift _ (by
          unfold InRes; rw [if_neg hns]
          refine ⟨false, rfl, ?_⟩
          simp
          intro a ha
          obtain ⟨j, hj, hja⟩ := List.getElem_of_mem ha
          exact hno j a (by rw [List.getElem?_eq_getElem hj, hja])))
        exact Ret.bind_eq hk ⟨_, hw, hF'⟩
      · obtain ⟨hw, hF'⟩ := hF.step (r := some true) hi (hlift _ (by
          unfold InRes; rw [if_neg hns]
          obtain ⟨a, ha, hab, _⟩ := hfe
          refine ⟨true, rfl, ?_⟩
          simp
          exact ⟨a, List.mem_of_getElem? ha, hab⟩))
        exact Ret.bind_eq hk ⟨_, hw, hF'⟩
  · rintro out hF
    exact hF.done_of

end Vctrs
