import Verif.Lemmas.Dictionary

namespace Vctrs

open Spec

variable {α : Type} {ops : PolyOps α}

/-- Slot `p` is the one holding the representative of element `j`. -/
def SlotOf (ops : PolyOps α) (x : List α) (d : Dict α) (j p : Nat) : Prop :=
  ∃ idx a y, d.At p idx ∧ IsFirst ops.eq x idx ∧ x[idx]? = some a ∧ x[j]? = some y ∧
    ops.eq a y = true

theorem At_set {d d' : Dict α} {p0 v : Nat} (hfree : d.key[p0]? = some none)
    (hk : d'.key = d.key.set p0 (some v)) {p idx : Nat} (h : d.At p idx) : d'.At p idx := by
  unfold Dict.At at *
  have hlt : p0 < d.key.length := (List.getElem?_eq_some_iff.1 hfree).1
  rw [hk, getElem?_set' hlt]
  by_cases hp : p = p0
  · subst hp; rw [hfree] at h; simp at h
  · rw [if_neg hp]; exact h

theorem At_set_iff {d d' : Dict α} {p0 v : Nat} (hfree : d.key[p0]? = some none)
    (hk : d'.key = d.key.set p0 (some v)) {p idx : Nat} :
    d'.At p idx ↔ (p = p0 ∧ idx = v) ∨ (p ≠ p0 ∧ d.At p idx) := by
  unfold Dict.At
  have hlt : p0 < d.key.length := (List.getElem?_eq_some_iff.1 hfree).1
  rw [hk, getElem?_set' hlt]
  by_cases hp : p = p0
  · subst hp; simp; exact eq_comm
  · rw [if_neg hp]; simp [hp]

theorem SlotOf.mono {x : List α} {d d' : Dict α} {p0 v : Nat} (hfree : d.key[p0]? = some none)
    (hk : d'.key = d.key.set p0 (some v)) {j p : Nat} (h : SlotOf ops x d j p) :
    SlotOf ops x d' j p := by
  obtain ⟨idx, a, y, h1, h2⟩ := h
  exact ⟨idx, a, y, At_set hfree hk h1, h2⟩

/-- Two elements share a slot iff they are equal. -/
theorem slot_eq_iff (he : EqvHash ops) {x : List α} {d : Dict α} {i : Nat}
    (h : Loaded ops x d i) {j k p q : Nat} {y z : α} (hj : SlotOf ops x d j p)
    (hk : SlotOf ops x d k q) (hy : x[j]? = some y) (hz : x[k]? = some z) :
    p = q ↔ ops.eq y z = true := by
  obtain ⟨i1, a, y', h1, h2, h3, h4, h5⟩ := hj
  obtain ⟨i2, b, z', g1, g2, g3, g4, g5⟩ := hk
  rw [hy] at h4; rw [hz] at g4
  simp at h4 g4
  subst h4 g4
  constructor
  · rintro rfl
    have := At_inj h1 g1
    subst this
    rw [h3] at g3
    simp at g3
    subst g3
    exact he.trans _ _ _ (he.symm _ _ h5) g5
  · intro hyz
    exact h.inv.uniq p q i1 i2 a b h1 g1 (by rw [h.vec]; exact h3) (by rw [h.vec]; exact g3)
      (he.trans _ _ _ (he.trans _ _ _ h5 hyz) (he.symm _ _ g5))

theorem Filled.mono {β : Type} {R R' : Nat → β → Prop} {n i : Nat} {l : List (Option β)}
    (h : Filled R n i l) (hR : ∀ j r, j < i → R j r → R' j r) : Filled R' n i l :=
  ⟨h.len, fun j hj => by
    obtain ⟨r, h1, h2⟩ := h.val j hj
    exact ⟨r, h1, hR j r hj h2⟩⟩

/-- Loading step with the slot of the new element. -/
theorem load_step_slot (he : EqvHash ops) {x : List α} {d : Dict α} {i : Nat}
    (h : Loaded ops x d i) {y : α} (hy : x[i]? = some y) :
    ∃ p, dictHashScalar ops d i = .ok p ∧ p < d.key.length ∧
      ((IsFirst ops.eq x i ∧ rd d.key p = .ok none ∧ d.key[p]? = some none ∧
          ∃ d', dictPut d p i = .ok d' ∧ Loaded ops x d' (i + 1) ∧
            d'.key = d.key.set p (some i) ∧ d'.used = d.used + 1 ∧ SlotOf ops x d' i p) ∨
        (¬ IsFirst ops.eq x i ∧ Loaded ops x d (i + 1) ∧ SlotOf ops x d i p ∧
          ∃ idx a, rd d.key p = .ok (some idx) ∧ d.At p idx ∧ idx < i ∧
            IsFirst ops.eq x idx ∧ x[idx]? = some a ∧ ops.eq a y = true)) := by
  obtain ⟨p, hp, hplt, hcase⟩ := load_step he h hy
  refine ⟨p, hp, hplt, ?_⟩
  rcases hcase with ⟨hf, h2, h2', d', h3, h4, h5⟩ | ⟨hnf, h2, idx, a, h3, h4, h5, h6, h7, h8⟩
  · refine Or.inl ⟨hf, h2, h2', d', h3, h4, h5, ?_, i, y, y, ?_, hf, hy, hy, he.refl y⟩
    · unfold dictPut at h3
      rw [wr_ok hplt] at h3
      simp at h3
      rw [← h3]
    · unfold Dict.At; rw [h5]; simp [hplt]
  · exact Or.inr ⟨hnf, h2, ⟨idx, a, y, h4, h6, h7, hy, h8⟩, idx, a, h3, h4, h5, h6, h7, h8⟩

/-! ## vctrs_duplicated -/

theorem clear_ok (key : List (Option Nat)) :
    Ret (forN key.length (fun i k => wr k i none) key) (fun (k : List (Option Nat)) => k.length = key.length ∧
      ∀ p, p < key.length → k[p]? = some none) := by
  refine (Ret.forN (fun i (k : List (Option Nat)) => k.length = key.length ∧ ∀ p, p < i → k[p]? = some none)
    ⟨rfl, by intro p hp; omega⟩ ?_)
  rintro i k hi ⟨hl, hk⟩
  refine ⟨k.set i none, wr_ok (by omega), by simpa using hl, ?_⟩
  intro p hp
  rw [getElem?_set' (by omega)]
  by_cases hpi : p = i
  · rw [if_pos hpi]
  · rw [if_neg hpi]; exact hk p (by omega)

theorem duplicatedDetect_ok (he : EqvHash ops) (x : List α) (hn : x.length ≤ intMax) :
    Ret (duplicatedDetect ops x) (fun out => out.length = x.length ∧
      ∀ i, i < x.length → ∃ b, out[i]? = some b ∧ (b = true ↔
        ∃ j y z, j ≠ i ∧ x[i]? = some y ∧ x[j]? = some z ∧ ops.eq y z = true)) := by
  obtain ⟨d, h1, h2, _⟩ := newDict_loaded (ops := ops) x hn
  refine Ret.bind_eq h1 ?_
  refine Ret.bind (Ret.forN (fun i (s : Dict α × List Bool × List (Option Nat)) =>
    Loaded ops x s.1 i ∧ s.2.1.length = x.length ∧
    (∀ j, j < x.length → ∃ b, s.2.1[j]? = some b ∧
      (b = true ↔ j < i ∧ ¬ IsFirst ops.eq x j)) ∧
    Filled (fun j p => SlotOf ops x s.1 j p) x.length i s.2.2)
    ⟨h2, by simp, ?_, Filled.start _ _⟩ ?_) ?_
  · intro j hj
    exact ⟨false, by simp [hj], by simp⟩
  · rintro i ⟨d, out, hashes⟩ hi ⟨hd, hl, ho, hF⟩
    simp only at hd hl ho hF ⊢
    obtain ⟨p, hp, hplt, hcase⟩ := load_step_slot he hd (List.getElem?_eq_getElem hi)
    refine Ret.bind_eq hp ?_
    rcases hcase with ⟨hf, h2, h2', d', h3, h4, h5, _, h6⟩ | ⟨hnf, h2, h6, idx, a, h3, _⟩
    · obtain ⟨hw, hF'⟩ := (hF.mono (fun j r _ h => SlotOf.mono h2' h5 h)).step (r := p) hi h6
      refine Ret.bind_eq hw ?_
      refine Ret.bind_eq h2 (Ret.bind_eq h3 (Ret.ok ⟨h4, hl, ?_, hF'⟩))
      intro j hj
      obtain ⟨b, hb, hb2⟩ := ho j hj
      refine ⟨b, hb, hb2.trans ?_⟩
      constructor
      · rintro ⟨h1, h2⟩; exact ⟨by omega, h2⟩
      · rintro ⟨h1, h2⟩
        refine ⟨?_, h2⟩
        by_contra hc
        have : j = i := by omega
        subst this
        exact h2 hf
    · obtain ⟨hw, hF'⟩ := hF.step (r := p) hi h6
      refine Ret.bind_eq hw (Ret.bind_eq h3 ?_)
      refine Ret.bind_eq (wr_ok (by omega)) (Ret.ok ⟨h2, by simpa using hl, ?_, hF'⟩)
      intro j hj
      obtain ⟨b, hb, hb2⟩ := ho j hj
      by_cases hji : j = i
      · subst hji
        exact ⟨true, by rw [getElem?_set' (by omega)]; simp, by simp; exact hnf⟩
      · refine ⟨b, by rw [getElem?_set' (by omega), if_neg hji]; exact hb, hb2.trans ?_⟩
        constructor
        · rintro ⟨h1, h2⟩; exact ⟨by omega, h2⟩
        · rintro ⟨h1, h2⟩; exact ⟨by omega, h2⟩
  · rintro ⟨d, out, hashes⟩ ⟨hd, hl, ho, hF⟩
    simp only at hd hl ho hF ⊢
    refine Ret.bind (clear_ok d.key) ?_
    rintro key ⟨hkl, hkn⟩
    refine Ret.bind (Ret.forDown (fun i (s : Dict α × List Bool) =>
      s.1.key.length = d.key.length ∧ s.2.length = x.length ∧
      (∀ p, p < d.key.length → ((s.1.key[p]? = some none ∧
          ∀ k, i ≤ k → k < x.length → hashes[k]? ≠ some (some p)) ∨
        (∃ v, s.1.key[p]? = some (some v) ∧
          ∃ k, i ≤ k ∧ k < x.length ∧ hashes[k]? = some (some p)))) ∧
      (∀ j, j < x.length → ∃ b, s.2[j]? = some b ∧ (b = true ↔ ¬ IsFirst ops.eq x j ∨
        (i ≤ j ∧ ∃ k, j < k ∧ k < x.length ∧ hashes[k]? = hashes[j]?))))
      ⟨hkl, hl, ?_, ?_⟩ ?_) ?_
    · intro p hp
      exact Or.inl ⟨hkn p hp, by intro k h1 h2; omega⟩
    · intro j hj
      obtain ⟨b, hb, hb2⟩ := ho j hj
      refine ⟨b, hb, hb2.trans ?_⟩
      constructor
      · rintro ⟨_, h⟩; exact Or.inl h
      · rintro (h | ⟨h, _⟩)
        · exact ⟨hj, h⟩
        · omega
    · rintro i ⟨d2, out⟩ hi ⟨hl1, hl2, hk, ho⟩
      simp only at hl1 hl2 hk ho ⊢
      obtain ⟨p, hp, hslot⟩ := hF.val i hi
      refine Ret.bind_eq (rdU_ok hp) ?_
      have hplt : p < d.key.length := by
        obtain ⟨idx, a, y, h1, _⟩ := hslot
        exact At_lt h1
      rcases hk p hplt with ⟨hfree, hno⟩ | ⟨v, hv, k, hk1, hk2, hk3⟩
      · refine Ret.bind_eq (rd_of_getElem? hfree) ?_
        have hput : dictPut d2 p i = .ok { d2 with key := d2.key.set p (some i), used := d2.used + 1 } := by
          unfold dictPut; rw [wr_ok (by omega)]; rfl
        refine Ret.bind_eq hput (Ret.ok ⟨by simpa using hl1, hl2, ?_, ?_⟩)
        · intro q hq
          simp only
          rw [getElem?_set' (by omega)]
          by_cases hqp : q = p
          · subst hqp
            exact Or.inr ⟨i, by simp, i, by omega, hi, hp⟩
          · rw [if_neg hqp]
            rcases hk q hq with ⟨h1, h2⟩ | ⟨v, h1, k, h2, h3, h4⟩
            · refine Or.inl ⟨h1, ?_⟩
              intro k hk1 hk2 hk3
              by_cases hki : k = i
              · subst hki; rw [hp] at hk3; simp at hk3; exact hqp hk3.symm
              · exact h2 k (by omega) hk2 hk3
            · exact Or.inr ⟨v, h1, k, by omega, h3, h4⟩
        · intro j hj
          obtain ⟨b, hb, hb2⟩ := ho j hj
          refine ⟨b, hb, hb2.trans ?_⟩
          constructor
          · rintro (h | ⟨h1, h2⟩)
            · exact Or.inl h
            · exact Or.inr ⟨by omega, h2⟩
          · rintro (h | ⟨h1, k, h2, h3, h4⟩)
            · exact Or.inl h
            · by_cases hji : j = i
              · subst hji
                rw [hp] at h4
                exact absurd h4 (hno k (by omega) h3)
              · exact Or.inr ⟨by omega, k, h2, h3, h4⟩
      · refine Ret.bind_eq (rd_of_getElem? hv) ?_
        refine Ret.bind_eq (wr_ok (by omega)) (Ret.ok ⟨hl1, by simpa using hl2, ?_, ?_⟩)
        · intro q hq
          rcases hk q hq with ⟨h1, h2⟩ | ⟨v, h1, k', h2, h3, h4⟩
          · refine Or.inl ⟨h1, ?_⟩
            intro k' hk1' hk2' hk3'
            by_cases hki : k' = i
            · subst hki
              rw [hp] at hk3'
              simp at hk3'
              subst hk3'
              exact h2 k hk1 hk2 hk3
            · exact h2 k' (by omega) hk2' hk3'
          · exact Or.inr ⟨v, h1, k', by omega, h3, h4⟩
        · intro j hj
          obtain ⟨b, hb, hb2⟩ := ho j hj
          by_cases hji : j = i
          · subst hji
            refine ⟨true, by rw [getElem?_set' (by omega)]; simp, ?_⟩
            simp only [true_iff]
            exact Or.inr ⟨by omega, k, by omega, hk2, by rw [hk3, hp]⟩
          · refine ⟨b, by rw [getElem?_set' (by omega), if_neg hji]; exact hb, hb2.trans ?_⟩
            constructor
            · rintro (h | ⟨h1, h2⟩)
              · exact Or.inl h
              · exact Or.inr ⟨by omega, h2⟩
            · rintro (h | ⟨h1, h2⟩)
              · exact Or.inl h
              · exact Or.inr ⟨by omega, h2⟩
    · rintro ⟨d2, out2⟩ ⟨_, hl2, _, ho2⟩
      refine Ret.ok ⟨hl2, ?_⟩
      intro i hi
      obtain ⟨b, hb, hb2⟩ := ho2 i hi
      refine ⟨b, hb, hb2.trans ?_⟩
      have hxi := List.getElem?_eq_getElem hi
      obtain ⟨p, hp, hps⟩ := hF.val i hi
      constructor
      · rintro (h | ⟨_, k, h1, h2, h3⟩)
        · obtain ⟨idx, a, hle, hfi, ha, hab⟩ := exists_first he x i x[i] hxi
          refine ⟨idx, x[i], a, ?_, hxi, ha, he.symm _ _ hab⟩
          rintro rfl
          exact h hfi
        · obtain ⟨q, hq, hqs⟩ := hF.val k h2
          refine ⟨k, x[i], x[k], by omega, hxi, List.getElem?_eq_getElem h2, ?_⟩
          rw [hp, hq] at h3
          simp at h3
          exact (slot_eq_iff he hd hps hqs hxi (List.getElem?_eq_getElem h2)).1 h3.symm
      · rintro ⟨j, y, z, hji, hy, hz, hyz⟩
        rw [hxi] at hy
        simp at hy
        subst hy
        have hj : j < x.length := (List.getElem?_eq_some_iff.1 hz).1
        by_cases hlt : j < i
        · left
          rintro ⟨y', hy', hall⟩
          rw [hxi] at hy'
          simp at hy'
          subst hy'
          have := hall j z hlt hz
          rw [he.symm _ _ hyz] at this
          simp at this
        · right
          refine ⟨by omega, j, by omega, hj, ?_⟩
          obtain ⟨q, hq, hqs⟩ := hF.val j hj
          rw [hp, hq, (slot_eq_iff he hd hps hqs hxi hz).2 hyz]

/-! ## vctrs_count -/

/-- Stored indices in slot order. -/
def slotKeys (d : Dict α) : List Nat := d.key.filterMap id

theorem slotKeys_length {d : Dict α} {L : List Nat} (h : DInv ops d L) :
    (slotKeys d).length = L.length := by
  rw [← h.occ]
  unfold slotKeys
  generalize d.key = k
  induction k with
  | nil => rfl
  | cons a k ih => cases a <;> simp <;> exact ih

theorem mem_slotKeys {d : Dict α} {idx : Nat} : idx ∈ slotKeys d ↔ ∃ p, d.At p idx := by
  unfold slotKeys Dict.At
  rw [List.mem_filterMap]
  simp only [id]
  constructor
  · rintro ⟨a, ha, rfl⟩
    obtain ⟨p, hp, hpa⟩ := List.getElem_of_mem ha
    exact ⟨p, by rw [List.getElem?_eq_getElem hp, hpa]⟩
  · rintro ⟨p, hp⟩
    exact ⟨some idx, List.mem_of_getElem? hp, rfl⟩

theorem firsts_nodup (x : List α) (i : Nat) : (firsts ops x i).Nodup := by
  unfold firsts
  exact List.Nodup.filter _ List.nodup_range

theorem slotKeys_perm {x : List α} {d : Dict α} {i : Nat} (h : Loaded ops x d i) :
    (slotKeys d).Perm (firsts ops x i) := by
  have hsub : (firsts ops x i).Subperm (slotKeys d) := by
    apply List.subperm_of_subset (firsts_nodup x i)
    intro idx hidx
    exact mem_slotKeys.2 ((h.inv.mem idx).2 hidx)
  exact (hsub.perm_of_length_le (by rw [slotKeys_length h.inv])).symm

theorem countP_take_succ {p : α → Bool} {x : List α} {i : Nat} {y : α} (hy : x[i]? = some y) :
    (x.take (i + 1)).countP p = (x.take i).countP p + (if p y then 1 else 0) := by
  rw [List.take_add_one, hy]
  simp [List.countP_append, List.countP_cons]

theorem countP_take_first {x : List α} {i : Nat} {y : α} (hy : x[i]? = some y)
    (hf : IsFirst ops.eq x i) : (x.take i).countP (fun b => ops.eq b y) = 0 := by
  rw [List.countP_eq_zero]
  have := (firstB_iff (ops := ops) x i).2 hf
  unfold firstB at this
  rw [hy] at this
  simp only [List.all_eq_true] at this
  intro a ha
  simpa using this a ha

theorem countP_eq_symm (he : EqvHash ops) (x : List α) (y : α) :
    x.countP (fun b => ops.eq b y) = x.countP (ops.eq y) := by
  apply List.countP_congr
  intro a _
  exact ⟨he.symm _ _, he.symm _ _⟩

theorem vecCount_ok (he : EqvHash ops) (x : List α) (hn : x.length ≤ intMax) :
    Ret (vecCount ops x) (fun r => ∃ K : List Nat, K.Perm (firsts ops x x.length) ∧
      r.1 = K.map (· + 1) ∧ r.2.length = K.length ∧
      ∀ (k : Nat) idx a, K[k]? = some idx → x[idx]? = some a →
        r.2[k]? = some (x.countP (ops.eq a))) := by
  obtain ⟨d, h1, h2, _⟩ := newDict_loaded (ops := ops) x hn
  refine Ret.bind_eq h1 ?_
  refine Ret.bind (Ret.forN (fun i (s : Dict α × List (Option Nat)) =>
    Loaded ops x s.1 i ∧ s.2.length = s.1.key.length ∧
    ∀ p idx a, s.1.At p idx → x[idx]? = some a →
      s.2[p]? = some (some ((x.take i).countP (ops.eq a))))
    ⟨h2, by simp, ?_⟩ ?_) ?_
  · intro p idx a hAt
    have := (h2.inv.mem idx).1 ⟨p, hAt⟩
    simp [firsts] at this
  · rintro i ⟨d, count⟩ hi ⟨hd, hl, hc⟩
    simp only at hd hl hc ⊢
    have hxi := List.getElem?_eq_getElem hi
    obtain ⟨p, hp, hplt, hcase⟩ := load_step_slot he hd hxi
    refine Ret.bind_eq hp ?_
    rcases hcase with ⟨hf, h2, h2', d', h3, h4, h5, _, h6⟩ | ⟨hnf, h2, h6, idx0, a0, h3, hAt0, h7, h8, h9, h10⟩
    · refine Ret.bind_eq h2 ?_
      simp only [h3, ok_bind]
      rw [wr_ok (by omega)]
      simp only [ok_bind]
      refine Ret.bind_eq (rdU_ok (a := 0) (by simp [hl, hplt])) ?_
      refine Ret.bind_eq (wr_ok (by simp [hl, hplt])) (Ret.ok ⟨h4, by simp [h5, hl], ?_⟩)
      intro q idx a hAt ha
      simp only at hAt ⊢
      rw [getElem?_set' (by simp [hl, hplt])]
      rw [At_set_iff h2' h5] at hAt
      rcases hAt with ⟨rfl, rfl⟩ | ⟨hqp, hAt⟩
      · rw [if_pos rfl, countP_take_succ ha, ← countP_eq_symm he, countP_take_first ha hf]
        simp [he.refl]
      · rw [if_neg hqp, getElem?_set' (by omega), if_neg hqp, hc q idx a hAt ha,
          countP_take_succ hxi]
        have : ops.eq a x[i] = false := by
          obtain ⟨y', hy', hall⟩ := hf
          rw [hxi] at hy'
          simp at hy'
          subst hy'
          exact hall idx a (mem_firsts.1 ((hd.inv.mem idx).1 ⟨q, hAt⟩)).1 ha
        simp [this]
    · refine Ret.bind_eq h3 ?_
      simp only [ok_bind]
      refine Ret.bind_eq (rdU_ok (hc p idx0 a0 hAt0 h9)) ?_
      refine Ret.bind_eq (wr_ok (by omega)) (Ret.ok ⟨h2, by simp [hl], ?_⟩)
      intro q idx a hAt ha
      simp only at hAt ⊢
      rw [getElem?_set' (by omega), countP_take_succ hxi]
      by_cases hqp : q = p
      · subst hqp
        have := At_inj hAt hAt0
        subst this
        rw [ha] at h9
        simp at h9
        subst h9
        simp [h10]
      · rw [if_neg hqp, hc q idx a hAt ha]
        have : ops.eq a x[i] = false := by
          cases hax : ops.eq a x[i] with
          | false => rfl
          | true =>
            exact absurd (hd.inv.uniq q p idx idx0 a a0 hAt hAt0 (by rw [hd.vec]; exact ha)
              (by rw [hd.vec]; exact h9) (he.trans _ _ _ hax (he.symm _ _ h10))) hqp
        simp [this]
  · rintro ⟨d, count⟩ ⟨hd, hl, hc⟩
    simp only at hd hl hc ⊢
    simp only [List.take_length] at hc
    -- prefix of the slot keys
    let K : Nat → List Nat := fun h => (d.key.take h).filterMap id
    have hKfull : K d.key.length = slotKeys d := by simp [K, slotKeys]
    have hKle : ∀ h, (K h).length ≤ h := by
      intro h
      exact Nat.le_trans (List.length_filterMap_le _ _) (by simp)
    have hused : d.used = (slotKeys d).length := by rw [hd.inv.used, slotKeys_length hd.inv]
    have hKsucc : ∀ h (r : Option Nat), d.key[h]? = some r → K (h + 1) = K h ++ r.toList := by
      intro h r hr
      simp only [K]
      rw [List.take_add_one, hr]
      cases r <;> simp
    have hKmono : ∀ h, h ≤ d.key.length → (K h).length ≤ d.used := by
      intro h hh
      rw [hused]
      show ((d.key.take h).filterMap id).length ≤ (d.key.filterMap id).length
      conv_rhs => rw [← List.take_append_drop h d.key, List.filterMap_append]
      simp
    refine Ret.bind (Ret.forN (fun h (s : List (Option Nat) × List (Option Nat) × Nat) =>
      s.2.2 = (K h).length ∧ s.1.length = d.used ∧ s.2.1.length = d.key.length ∧
      (∀ (k : Nat) idx, (K h)[k]? = some idx → s.1[k]? = some (some (idx + 1)) ∧
        ∀ a, x[idx]? = some a → s.2.1[k]? = some (some (x.countP (ops.eq a)))) ∧
      (∀ p idx a, h ≤ p → d.At p idx → x[idx]? = some a →
        s.2.1[p]? = some (some (x.countP (ops.eq a)))))
      ⟨by simp [K], by simp, hl, ?_, ?_⟩ ?_) ?_
    · intro k idx h; simp [K] at h
    · intro p idx a _ hAt ha; exact hc p idx a hAt ha
    · rintro h ⟨loc, cnt, i⟩ hh ⟨hi, hl1, hl2, h3, h4⟩
      simp only at hi hl1 hl2 h3 h4 ⊢
      cases hkey : d.key[h] with
      | none =>
        have hk : d.key[h]? = some none := by rw [List.getElem?_eq_getElem hh, hkey]
        refine Ret.bind_eq (rd_of_getElem? hk) (Ret.ok ?_)
        have := hKsucc h none hk
        simp at this
        refine ⟨by rw [this]; exact hi, hl1, hl2, ?_, ?_⟩
        · rw [this]; exact h3
        · intro p idx a hp; exact h4 p idx a (by omega)
      | some idx0 =>
        have hk : d.key[h]? = some (some idx0) := by rw [List.getElem?_eq_getElem hh, hkey]
        have hs := hKsucc h _ hk
        simp at hs
        have hilt : i < d.used := by
          have := hKmono (h + 1) (by omega)
          rw [hs] at this
          simp at this
          omega
        have hile : i ≤ h := by rw [hi]; exact hKle h
        have hidx : idx0 < x.length := by
          have := hd.inv.bound idx0 ((hd.inv.mem idx0).1 ⟨h, hk⟩)
          rwa [hd.vec] at this
        have hxidx := List.getElem?_eq_getElem hidx
        refine Ret.bind_eq (rd_of_getElem? hk) ?_
        refine Ret.bind_eq (wr_ok (by omega)) ?_
        refine Ret.bind_eq (rdU_ok (h4 h idx0 x[idx0] (Nat.le_refl _) hk hxidx)) ?_
        refine Ret.bind_eq (wr_ok (by omega)) (Ret.ok ⟨?_, by simpa using hl1, by simpa using hl2, ?_, ?_⟩)
        · rw [hs]; simp [hi]
        · intro k idx hkidx
          rw [hs] at hkidx
          simp only
          rw [getElem?_set' (by omega), getElem?_set' (by omega)]
          by_cases hki : k = i
          · subst hki
            rw [hi] at hkidx
            simp at hkidx
            subst hkidx
            refine ⟨by simp, ?_⟩
            intro a ha
            rw [hxidx] at ha
            simp at ha
            subst ha
            simp
          · rw [if_neg hki, if_neg hki]
            apply h3
            have hklt : k < (K h).length := by
              have := (List.getElem?_eq_some_iff.1 hkidx).1
              simp at this
              omega
            rwa [List.getElem?_append_left hklt] at hkidx
        · intro p idx a hp hAt ha
          simp only
          rw [getElem?_set' (by omega), if_neg (by omega)]
          exact h4 p idx a (by omega) hAt ha
    · rintro ⟨loc, cnt, i⟩ ⟨hi, hl1, hl2, h3, h4⟩
      simp only at hi hl1 hl2 h3 h4 ⊢
      rw [hKfull] at h3
      have hloc : initd loc = .ok ((slotKeys d).map (· + 1)) := by
        apply initd_ok (by simp [hl1, hused])
        intro k hk
        simp at hk
        rw [(h3 k _ (List.getElem?_eq_getElem hk)).1]
        simp
      refine Ret.bind_eq hloc ?_
      have hule : d.used ≤ cnt.length := by
        rw [hl2, hused]
        exact List.length_filterMap_le _ _
      have hxk : ∀ k (hk : k < (slotKeys d).length), ∃ a, x[(slotKeys d)[k]]? = some a := by
        intro k hk
        have hm : (slotKeys d)[k] ∈ slotKeys d := List.getElem_mem hk
        obtain ⟨p, hp⟩ := mem_slotKeys.1 hm
        have := hd.inv.bound _ ((hd.inv.mem _).1 ⟨p, hp⟩)
        rw [hd.vec] at this
        exact ⟨_, List.getElem?_eq_getElem this⟩
      refine Ret.bind (initd_ret (n := d.used)
        (R := fun k c => ∀ idx a, (slotKeys d)[k]? = some idx → x[idx]? = some a →
          c = x.countP (ops.eq a)) (by simp; omega) ?_) ?_
      · intro k hk
        have hk' : k < (slotKeys d).length := by omega
        obtain ⟨a, ha⟩ := hxk k hk'
        refine ⟨x.countP (ops.eq a), ?_, ?_⟩
        · rw [List.getElem?_take_of_lt hk]
          exact (h3 k _ (List.getElem?_eq_getElem hk')).2 a ha
        · intro idx a' hidx ha'
          rw [List.getElem?_eq_getElem hk'] at hidx
          simp at hidx
          subst hidx
          rw [ha] at ha'
          simp at ha'
          rw [ha']
      · rintro out ⟨ho1, ho2⟩
        refine Ret.ok ⟨slotKeys d, slotKeys_perm hd, rfl, by simp [ho1, hused], ?_⟩
        intro k idx a hidx ha
        have hk : k < out.length := by
          have := (List.getElem?_eq_some_iff.1 hidx).1
          omega
        simp only
        rw [List.getElem?_eq_getElem hk]
        exact congrArg some (ho2 k _ (List.getElem?_eq_getElem hk) idx a hidx ha)

end Vctrs
