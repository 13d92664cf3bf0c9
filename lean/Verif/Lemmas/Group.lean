import Verif.Lemmas.SetOps
import Verif.Model.Group
import Mathlib.Data.List.Chain

namespace Vctrs

open Spec

variable {α : Type} {ops : PolyOps α}

/-- Index of the class of `a` among the distinct values of `x`, in order of appearance. -/
def Spec.classOf (eq : α → α → Bool) (x : List α) (a : α) : Nat :=
  (nub eq x).findIdx (fun b => eq b a)

theorem classOf_congr (he : EqvHash ops) (x : List α) {a b : α} (h : ops.eq a b = true) :
    classOf ops.eq x a = classOf ops.eq x b := by
  unfold classOf
  congr 1
  funext c
  apply Bool.eq_iff_iff.2
  exact ⟨fun h1 => he.trans _ _ _ h1 h, fun h1 => he.trans _ _ _ h1 (he.symm _ _ h)⟩

theorem nub_take_prefix (eq : α → α → Bool) (x : List α) (i : Nat) :
    ∃ r, nub eq x = nub eq (x.take i) ++ r := by
  refine ⟨_, (congrArg (nub eq) (List.take_append_drop i x)).symm.trans (nub_append eq _ _)⟩

theorem nub_take_succ_first {x : List α} {i : Nat} {y : α} (hy : x[i]? = some y)
    (hf : IsFirst ops.eq x i) :
    nub ops.eq (x.take (i + 1)) = nub ops.eq (x.take i) ++ [y] := by
  rw [List.take_add_one, hy]
  simp only [Option.toList_some]
  rw [nub_append_singleton, if_pos]
  obtain ⟨b, hb, hall⟩ := hf
  rw [hy] at hb
  simp at hb
  subst hb
  rw [List.all_eq_true]
  intro a ha
  rw [List.mem_take_iff_getElem] at ha
  obtain ⟨j, hj, rfl⟩ := ha
  simp [hall j x[j] (by omega) (List.getElem?_eq_getElem (by omega))]

theorem classOf_first (he : EqvHash ops) {x : List α} {i : Nat} {y : α} (hy : x[i]? = some y)
    (hf : IsFirst ops.eq x i) : classOf ops.eq x y = (nub ops.eq (x.take i)).length := by
  obtain ⟨r, hr⟩ := nub_take_prefix ops.eq x (i + 1)
  rw [nub_take_succ_first hy hf] at hr
  unfold classOf
  rw [hr, List.append_assoc, List.findIdx_append]
  have hno : ∀ b ∈ nub ops.eq (x.take i), ops.eq b y = false := by
    intro b hb
    have hb' := mem_nub_of_mem hb
    obtain ⟨z, hz, hall⟩ := hf
    rw [hy] at hz
    simp at hz
    subst hz
    rw [List.mem_take_iff_getElem] at hb'
    obtain ⟨j, hj, rfl⟩ := hb'
    exact hall j _ (by omega) (List.getElem?_eq_getElem (by omega))
  have : List.findIdx (fun b => ops.eq b y) (nub ops.eq (x.take i)) =
      (nub ops.eq (x.take i)).length := by
    rw [List.findIdx_eq_length]
    exact hno
  rw [this]
  simp [he.refl, List.findIdx_cons]

theorem nub_take_length (x : List α) (i : Nat) (hi : i ≤ x.length) :
    (nub ops.eq (x.take i)).length = (firsts ops x i).length := by
  have := congrArg List.length (getElem?_map_firsts (ops := ops) x i hi)
  simpa using this.symm

theorem loaded_used {x : List α} {d : Dict α} {i : Nat} (h : Loaded ops x d i) (hi : i ≤ x.length) :
    d.used = (nub ops.eq (x.take i)).length := by
  rw [h.inv.used, nub_take_length x i hi]

theorem classOf_lt (he : EqvHash ops) {x : List α} {a : α} (h : a ∈ x) :
    classOf ops.eq x a < (nub ops.eq x).length := by
  unfold classOf
  rw [List.findIdx_lt_length]
  exact nub_covers he.refl he.trans x a h

theorem classOf_getElem (he : EqvHash ops) {x : List α} {a : α} (h : a ∈ x) :
    ∃ b, (nub ops.eq x)[classOf ops.eq x a]? = some b ∧ ops.eq b a = true := by
  have hlt := classOf_lt he h
  refine ⟨(nub ops.eq x)[classOf ops.eq x a], List.getElem?_eq_getElem hlt, ?_⟩
  exact List.findIdx_getElem (p := fun b => ops.eq b a) (w := hlt)

/-- Classes agree exactly for equal elements. -/
theorem classOf_eq_iff (he : EqvHash ops) {x : List α} {a b : α} (ha : a ∈ x) (hb : b ∈ x) :
    classOf ops.eq x a = classOf ops.eq x b ↔ ops.eq a b = true := by
  constructor
  · intro h
    obtain ⟨c, hc, hca⟩ := classOf_getElem he ha
    obtain ⟨d, hd, hdb⟩ := classOf_getElem he hb
    rw [← h, hc] at hd
    simp at hd
    subst hd
    exact he.trans _ _ _ (he.symm _ _ hca) hdb
  · exact classOf_congr he x

/-- A non-first element has a class that was already opened. -/
theorem classOf_nonfirst (he : EqvHash ops) {x : List α} {i : Nat} {y : α} (hy : x[i]? = some y)
    (hf : ¬ IsFirst ops.eq x i) : classOf ops.eq x y < (nub ops.eq (x.take i)).length := by
  obtain ⟨idx, a, hle, hfi, ha, hay⟩ := exists_first he x i y hy
  have hlt : idx < i := by
    rcases Nat.lt_or_eq_of_le hle with h | h
    · exact h
    · subst h; exact absurd hfi hf
  rw [← classOf_congr he x hay, classOf_first he ha hfi]
  have hpre : (nub ops.eq (x.take (idx + 1))).length ≤ (nub ops.eq (x.take i)).length := by
    obtain ⟨r, hr⟩ := nub_take_prefix ops.eq (x.take i) (idx + 1)
    rw [List.take_take, Nat.min_eq_left (by omega)] at hr
    rw [hr]
    simp
  rw [nub_take_succ_first ha hfi] at hpre
  simp at hpre
  omega

theorem groupLoop_ok (he : EqvHash ops) {x : List α} {d : Dict α} (h : Loaded ops x d 0) (g0 : Nat) :
    Ret (groupLoop ops d x.length g0) (fun s => Loaded ops x s.1 x.length ∧
      Filled (fun j r => ∀ y, x[j]? = some y → r = classOf ops.eq x y + g0) x.length x.length s.2.1) := by
  refine (Ret.forN (fun i (s : Dict α × List (Option Nat) × Nat) => Loaded ops x s.1 i ∧
    Filled (fun j r => ∀ y, x[j]? = some y → r = classOf ops.eq x y + g0) x.length i s.2.1 ∧
    s.2.2 = (nub ops.eq (x.take i)).length + g0)
    ⟨h, Filled.start _ _, by simp [nub]⟩ ?_).mono (fun s hs => ⟨hs.1, hs.2.1⟩)
  rintro i ⟨d, out, g⟩ hi ⟨hd, hF, hg⟩
  simp only at hd hF hg ⊢
  have hxi := List.getElem?_eq_getElem hi
  obtain ⟨p, hp, hplt, hcase⟩ := load_step he hd hxi
  refine Ret.bind_eq hp ?_
  rcases hcase with ⟨hf, h2, _, d', h3, h4, h5⟩ | ⟨hnf, h2, idx, a, h3, h4, h5, h6, h7, h8⟩
  · obtain ⟨hw, hF'⟩ := hF.step (r := g) hi (by
      intro y hy
      rw [classOf_first he hy hf, hg])
    refine Ret.bind_eq h2 (Ret.bind_eq h3 (Ret.bind_eq hw (Ret.ok ⟨h4, hF', ?_⟩)))
    rw [nub_take_succ_first hxi hf]
    simp [hg]
    omega
  · obtain ⟨v, hv, hv2⟩ := hF.val idx h5
    obtain ⟨hw, hF'⟩ := hF.step (r := v) hi (by
      intro y hy
      rw [hxi] at hy
      simp at hy
      subst hy
      rw [hv2 a h7, classOf_congr he x h8])
    refine Ret.bind_eq h3 (Ret.bind_eq (rdU_ok hv) (Ret.bind_eq hw (Ret.ok ⟨h2, hF', ?_⟩)))
    simp only
    rw [hg, ← loaded_used hd (by omega), ← loaded_used h2 (by omega)]

theorem groupId_ok (he : EqvHash ops) (x : List α) (hn : x.length ≤ intMax) :
    groupId ops x = .ok (x.map (fun a => classOf ops.eq x a + 1), (nub ops.eq x).length) := by
  obtain ⟨d, h1, h2, _⟩ := newDict_loaded (ops := ops) x hn
  suffices h : Ret (groupId ops x)
      (fun r => r = (x.map (fun a => classOf ops.eq x a + 1), (nub ops.eq x).length)) by
    obtain ⟨g, hg, rfl⟩ := h; exact hg
  refine Ret.bind_eq h1 ?_
  refine Ret.bind (groupLoop_ok he h2 1) ?_
  rintro ⟨d', out, g⟩ ⟨hd, hF⟩
  simp only at hd hF ⊢
  refine Ret.bind_eq (a := x.map (fun a => classOf ops.eq x a + 1)) ?_ (Ret.ok ?_)
  · apply initd_ok (by simpa using hF.len)
    intro i hi
    simp at hi
    obtain ⟨r, hr, hr2⟩ := hF.val i hi
    rw [hr, hr2 _ (List.getElem?_eq_getElem hi)]
    simp
  · rw [loaded_used hd (Nat.le_refl _), List.take_length]

/-! ## vctrs_group_rle -/

theorem set_append_replicate {β : Type} (G : List β) (m : Nat) (v : β) :
    (G.map some ++ List.replicate (m + 1) none).set G.length (some v) =
      (G ++ [v]).map some ++ List.replicate m none := by
  rw [List.set_append_right _ _ (by simp)]
  simp [List.replicate_succ]

/-- Expand a run-length encoding. -/
def Spec.rleExpand (runs : List (Nat × Nat)) : List Nat :=
  runs.flatMap (fun r => List.replicate r.2 r.1)

theorem rleExpand_append (r1 r2 : List (Nat × Nat)) :
    rleExpand (r1 ++ r2) = rleExpand r1 ++ rleExpand r2 := by
  simp [rleExpand, List.flatMap_append]

structure RleInv (ops : PolyOps α) (x : List α) (i : Nat) (s : RleSt α) : Prop where
  ld : Loaded ops x s.d i
  mapLen : s.map.length = s.d.key.length
  loc_le : s.loc ≤ i
  pl : s.pl + 1 = s.loc
  runs : ∃ (R : List (Nat × Nat)) (c k : Nat) (y : α), R.length = s.pl ∧
    s.g = (R ++ [(c, k)]).map (fun r => some r.1) ++ List.replicate (x.length - s.loc) none ∧
    s.l = (R ++ [(c, k)]).map (fun r => some r.2) ++ List.replicate (x.length - s.loc) none ∧
    x[i - 1]? = some y ∧ c = classOf ops.eq x y + 1 ∧
    rleExpand (R ++ [(c, k)]) = (x.take i).map (fun a => classOf ops.eq x a + 1) ∧
    (∀ r ∈ R ++ [(c, k)], 0 < r.2) ∧
    (R ++ [(c, k)]).IsChain (fun r r' => r.1 ≠ r'.1)
  slots : ∀ p idx a, s.d.At p idx → x[idx]? = some a → ∃ m, s.map[p]? = some (some m) ∧
    m < s.loc ∧ s.g[m]? = some (some (classOf ops.eq x a + 1))

theorem rleBody_ok (he : EqvHash ops) {x : List α} {i : Nat} {s : RleSt α} (h : RleInv ops x i s)
    (hi : i < x.length) (h1 : 1 ≤ i) : Ret (rleBody ops i s) (RleInv ops x (i + 1)) := by
  obtain ⟨R, c, k, y, hR, hg, hl, hy, hc, hex, hpos, hch⟩ := h.runs
  have hxi : x[i]? = some x[i] := List.getElem?_eq_getElem hi
  have hyx : y ∈ x := List.mem_of_getElem? hy
  have hxx : x[i] ∈ x := List.getElem_mem hi
  obtain ⟨p, hp, hplt, hcase⟩ := load_step he h.ld hxi
  have htake : (x.take (i + 1)).map (fun a => classOf ops.eq x a + 1) =
      (x.take i).map (fun a => classOf ops.eq x a + 1) ++ [classOf ops.eq x x[i] + 1] := by
    rw [List.take_add_one, hxi, List.map_append]; rfl
  have hRloc : R.length + 1 = s.loc := by rw [hR]; exact h.pl
  refine Ret.bind_eq (a := y) (rd_of_getElem? (by rw [h.ld.vec]; exact hy)) ?_
  refine Ret.bind_eq (a := x[i]) (rd_of_getElem? (by rw [h.ld.vec]; exact hxi)) ?_
  by_cases heq : ops.eq y x[i] = true
  · rw [if_pos heq]
    have hlpl : s.l[s.pl]? = some (some k) := by
      rw [hl, ← hR, List.getElem?_append_left (by simp)]
      simp
    have hlt : s.pl < s.l.length := (List.getElem?_eq_some_iff.1 hlpl).1
    refine Ret.bind_eq (rdU_ok hlpl) (Ret.bind_eq (wr_ok hlt) (Ret.ok ?_))
    have hld : Loaded ops x s.d (i + 1) := by
      rcases hcase with ⟨hf, _⟩ | ⟨_, h2, _⟩
      · exfalso
        obtain ⟨b, hb, hall⟩ := hf
        rw [hxi] at hb
        simp at hb
        subst hb
        have := hall (i - 1) y (by omega) hy
        rw [heq] at this
        simp at this
      · exact h2
    have hcls := classOf_congr he x heq
    refine ⟨hld, h.mapLen, by have := h.loc_le; simp; omega, h.pl, ?_, h.slots⟩
    refine ⟨R, c, k + 1, x[i], hR, ?_, ?_, by simpa using hxi, by rw [← hcls]; exact hc, ?_, ?_, ?_⟩
    · simp only [hg, List.map_append, List.map_cons, List.map_nil]
    · simp only [hl, ← hR]
      rw [List.set_append_left _ _ (by simp)]
      simp
    · rw [htake, ← hex, rleExpand_append, rleExpand_append, List.append_assoc, ← hcls, ← hc]
      congr 1
      simp only [rleExpand, List.flatMap_cons, List.flatMap_nil, List.append_nil]
      exact List.replicate_succ' 
    · intro r hr
      rcases List.mem_append.1 hr with h' | h'
      · exact hpos r (List.mem_append_left _ h')
      · simp at h'; rw [h']; simp
    · rw [List.isChain_append] at hch ⊢
      refine ⟨hch.1, by simp, ?_⟩
      intro a ha b hb
      simp at hb
      subst hb
      exact hch.2.2 a ha (c, k) (by simp)
  · rw [if_neg heq]
    have hneq : ¬ (c = classOf ops.eq x x[i] + 1) := by
      intro hcc
      rw [hc] at hcc
      exact heq ((classOf_eq_iff he hyx hxx).1 (by omega))
    have hlocx : s.loc < x.length := by have := h.loc_le; omega
    obtain ⟨m, hm⟩ : ∃ m, x.length - s.loc = m + 1 := ⟨x.length - s.loc - 1, by omega⟩
    have hm' : x.length - (s.loc + 1) = m := by omega
    have hglen : s.g.length = x.length := by
      rw [hg]; simp; omega
    have hllen : s.l.length = x.length := by
      rw [hl]; simp; omega
    have hruns : ∀ (g l : List (Option Nat)), g = s.g.set s.loc (some (classOf ops.eq x x[i] + 1)) →
        l = s.l.set (s.pl + 1) (some 1) →
        ∃ (R' : List (Nat × Nat)) (c' k' : Nat) (y' : α), R'.length = s.pl + 1 ∧
        g = (R' ++ [(c', k')]).map (fun r => some r.1) ++
          List.replicate (x.length - (s.loc + 1)) none ∧
        l = (R' ++ [(c', k')]).map (fun r => some r.2) ++
          List.replicate (x.length - (s.loc + 1)) none ∧
        x[i + 1 - 1]? = some y' ∧ c' = classOf ops.eq x y' + 1 ∧
        rleExpand (R' ++ [(c', k')]) = (x.take (i + 1)).map (fun a => classOf ops.eq x a + 1) ∧
        (∀ r ∈ R' ++ [(c', k')], 0 < r.2) ∧
        (R' ++ [(c', k')]).IsChain (fun r r' => r.1 ≠ r'.1) := by
      rintro g l rfl rfl
      refine ⟨R ++ [(c, k)], classOf ops.eq x x[i] + 1, 1, x[i], by simp [hR], ?_, ?_,
        by simpa using hxi, rfl, ?_, ?_, ?_⟩
      · rw [hg, hm, hm']
        have := set_append_replicate ((R ++ [(c, k)]).map (fun r => r.1)) m
          (classOf ops.eq x x[i] + 1)
        simp only [List.length_map, List.length_append, List.length_singleton, hRloc] at this
        simp only [List.map_map, List.map_append] at this ⊢
        exact this
      · rw [hl, hm, hm']
        have := set_append_replicate ((R ++ [(c, k)]).map (fun r => r.2)) m 1
        simp only [List.length_map, List.length_append, List.length_singleton, hRloc] at this
        rw [h.pl]
        simp only [List.map_map, List.map_append] at this ⊢
        exact this
      · rw [htake, ← hex, rleExpand_append (R ++ [(c, k)])]
        rfl
      · intro r hr
        rcases List.mem_append.1 hr with h' | h'
        · exact hpos r h'
        · simp at h'; rw [h']; simp
      · rw [List.isChain_append]
        refine ⟨hch, by simp, ?_⟩
        intro a ha b hb
        simp at ha hb
        subst ha hb
        exact hneq
    refine Ret.bind_eq (wr_ok (by rw [hllen, h.pl]; exact hlocx)) (Ret.bind_eq hp ?_)
    rcases hcase with ⟨hf, h2, h2', d', h3, h4, h5⟩ | ⟨hnf, h2, idx, a, h3, h4, h5, h6, h7, h8⟩
    · have hused : d'.used = classOf ops.eq x x[i] + 1 := by
        rw [loaded_used h4 (by omega), nub_take_succ_first hxi hf, classOf_first he hxi hf]
        simp
      refine Ret.bind_eq h2 (Ret.bind_eq h3 (Ret.bind_eq (wr_ok (by rw [h.mapLen]; exact hplt))
        (Ret.bind_eq (wr_ok (by rw [hglen]; exact hlocx)) (Ret.ok ?_))))
      refine ⟨h4, by simp [h5, h.mapLen], by have := h.loc_le; simp; omega, by simp [h.pl],
        hruns _ _ (by rw [hused]) rfl, ?_⟩
      intro q idx a hq ha
      simp only at hq ⊢
      rw [At_set_iff h2' h5] at hq
      rw [hused]
      rcases hq with ⟨rfl, rfl⟩ | ⟨hqp, hq⟩
      · refine ⟨s.loc, ?_, by omega, ?_⟩
        · rw [getElem?_set' (by rw [h.mapLen]; exact hplt)]; simp
        · rw [getElem?_set' (by omega)]
          rw [hxi] at ha
          simp at ha
          rw [← ha]
          simp
      · obtain ⟨m', k1, k2, k3⟩ := h.slots q idx a hq ha
        refine ⟨m', ?_, by omega, ?_⟩
        · rw [getElem?_set' (by rw [h.mapLen]; exact hplt), if_neg hqp]; exact k1
        · rw [getElem?_set' (by omega), if_neg (by omega)]; exact k3
    · obtain ⟨m', k1, k2, k3⟩ := h.slots p idx a h4 h7
      rw [classOf_congr he x h8] at k3
      refine Ret.bind_eq h3 (Ret.bind_eq (rdU_ok k1) (Ret.bind_eq (rdU_ok k3)
        (Ret.bind_eq (wr_ok (by rw [hglen]; exact hlocx)) (Ret.ok ?_))))
      refine ⟨h2, h.mapLen, by have := h.loc_le; simp; omega, by simp [h.pl], hruns _ _ rfl rfl, ?_⟩
      intro q idx a hq ha
      obtain ⟨m', k1, k2, k3⟩ := h.slots q idx a hq ha
      refine ⟨m', k1, by simp; omega, ?_⟩
      simp only
      rw [getElem?_set' (by omega), if_neg (by omega)]; exact k3

theorem groupRle_ok (he : EqvHash ops) (x : List α) (hn : x.length ≤ intMax) :
    ∃ R : List (Nat × Nat), groupRle ops x =
        .ok (R.map (·.1), R.map (·.2), (nub ops.eq x).length) ∧
      rleExpand R = x.map (fun a => classOf ops.eq x a + 1) ∧
      (∀ r ∈ R, 0 < r.2) ∧ R.IsChain (fun r r' => r.1 ≠ r'.1) := by
  obtain ⟨d, h1, h2, h2'⟩ := newDict_loaded (ops := ops) x hn
  by_cases h0 : x.length = 0
  · have : x = [] := List.length_eq_zero_iff.1 h0
    subst this
    refine ⟨[], ?_, by simp [rleExpand], by simp, by simp⟩
    unfold groupRle
    simp [h1, nub]
  suffices h : Ret (groupRle ops x) (fun r => ∃ R : List (Nat × Nat),
      r = (R.map (·.1), R.map (·.2), (nub ops.eq x).length) ∧
      rleExpand R = x.map (fun a => classOf ops.eq x a + 1) ∧
      (∀ r ∈ R, 0 < r.2) ∧ R.IsChain (fun r r' => r.1 ≠ r'.1)) by
    obtain ⟨g, hg, R, rfl, h⟩ := h; exact ⟨R, hg, h⟩
  have hpos : 0 < x.length := by omega
  have hx0 : x[0]? = some x[0] := List.getElem?_eq_getElem hpos
  have hfirst : IsFirst ops.eq x 0 := ⟨x[0], hx0, by intro j a hj; omega⟩
  refine Ret.bind_eq h1 ?_
  rw [if_neg h0]
  obtain ⟨p, hp, hplt, hcase⟩ := load_step he h2 hx0
  rcases hcase with ⟨hf, k2, k2', d', k3, k4, k5⟩ | ⟨hnf, _⟩
  case inr => exact absurd hfirst hnf
  have hklen : d'.key.length = d.key.length := by rw [k5]; simp
  refine Ret.bind_eq hp (Ret.bind_eq k3 (Ret.bind_eq (wr_ok (by simp [hklen, hplt]))
    (Ret.bind_eq (wr_ok (by simpa using hpos)) (Ret.bind_eq (wr_ok (by simpa using hpos)) ?_))))
  have hcls : classOf ops.eq x x[0] = 0 := by
    rw [classOf_first he hx0 hfirst]; simp [nub]
  have hset : ∀ v : Nat, (alloc Nat x.length).set 0 (some v) =
      [some v] ++ List.replicate (x.length - 1) none := by
    intro v
    have := set_append_replicate ([] : List Nat) (x.length - 1) v
    have e : x.length - 1 + 1 = x.length := by omega
    rw [e] at this
    simpa [alloc] using this
  refine Ret.bind (Ret.forFrom (RleInv ops x) ?_ ?_) ?_
  · refine ⟨k4, by simp, by simp, by simp, ?_, ?_⟩
    · refine ⟨[], 1, 1, x[0], rfl, ?_, ?_, by simpa using hx0, by simp [hcls], ?_, by simp, by simp⟩
      · simp only [hset]; simp
      · simp only [hset]; simp
      · rw [List.take_one, List.head?_eq_getElem?, hx0]
        simp [rleExpand, hcls]
    · intro q idx a hq ha
      simp only at hq ⊢
      rw [At_set_iff k2' k5] at hq
      rcases hq with ⟨rfl, rfl⟩ | ⟨hqp, hq⟩
      · refine ⟨0, ?_, by omega, ?_⟩
        · rw [getElem?_set' (by simp [hklen, hplt])]; simp
        · rw [hset]
          rw [hx0] at ha
          simp at ha
          rw [← ha, hcls]
          simp
      · exfalso
        have := h2' q (At_lt hq)
        unfold Dict.At at hq
        rw [this] at hq
        simp at hq
  · intro j s hj hj' hI
    exact rleBody_ok he hI (by omega) hj
  · intro s hI
    have e : 1 + (x.length - 1) = x.length := by omega
    rw [e] at hI
    obtain ⟨R, c, k, y, hR, hg, hl, hy, hc, hex, hpos', hch⟩ := hI.runs
    have hloc : s.loc = (R ++ [(c, k)]).length := by
      have := hI.pl
      simp [hR]; omega
    refine Ret.bind_eq (a := (R ++ [(c, k)]).map (·.1)) ?_
      (Ret.bind_eq (a := (R ++ [(c, k)]).map (·.2)) ?_ (Ret.ok ⟨R ++ [(c, k)], ?_, ?_, hpos', hch⟩))
    · rw [hg, List.take_append_of_le_length (by simp [hloc]), List.take_of_length_le (by simp [hloc])]
      rw [← initd_map_some, List.map_map]; rfl
    · rw [hl, List.take_append_of_le_length (by simp [hloc]), List.take_of_length_le (by simp [hloc])]
      rw [← initd_map_some, List.map_map]; rfl
    · rw [loaded_used hI.ld (Nat.le_refl _), List.take_length]
    · rw [hex, List.take_length]

end Vctrs
