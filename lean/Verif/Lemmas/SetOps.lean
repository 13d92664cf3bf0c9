import Verif.Lemmas.Slots
import Verif.Model.SetOps

namespace Vctrs

open Spec

variable {α : Type} {ops : PolyOps α}

/-- The buffer holds the values of `q` on `0..n-1`. -/
structure Marks (q : Nat → Bool) (n : Nat) (l : List (Option Bool)) : Prop where
  len : l.length = n
  val : ∀ j, j < n → l[j]? = some (some (q j))

theorem Marks.congr {q q' : Nat → Bool} {n : Nat} {l : List (Option Bool)} (h : Marks q n l)
    (hq : ∀ j, j < n → q j = q' j) : Marks q' n l :=
  ⟨h.len, fun j hj => by rw [← hq j hj]; exact h.val j hj⟩

theorem Marks.set {q : Nat → Bool} {n : Nat} {l : List (Option Bool)} (h : Marks q n l)
    {k : Nat} (hk : k < n) (b : Bool) :
    wr l k (some b) = .ok (l.set k (some b)) ∧
      Marks (fun j => if j = k then b else q j) n (l.set k (some b)) := by
  have hkl : k < l.length := by rw [h.len]; exact hk
  refine ⟨wr_ok hkl, by simpa using h.len, ?_⟩
  intro j hj
  rw [getElem?_set' hkl]
  by_cases hjk : j = k
  · simp [hjk]
  · simp only [if_neg hjk]; exact h.val j hj

theorem Marks.of_replicate (n : Nat) (b : Bool) :
    Marks (fun _ => b) n (List.replicate n (some b)) :=
  ⟨by simp, by intro j hj; simp [hj]⟩

theorem Marks.of_filled {q : Nat → Bool} {n : Nat} {l : List (Option Bool)}
    (h : Filled (fun j b => b = q j) n n l) : Marks q n l :=
  ⟨h.len, fun j hj => by
    obtain ⟨r, h1, h2⟩ := h.val j hj
    rw [h1, h2]⟩

theorem countMarked_ok {q : Nat → Bool} {n : Nat} {l : List (Option Bool)} (h : Marks q n l) :
    countMarked l n = .ok ((List.range n).countP q) := by
  suffices hs : Ret (countMarked l n) (fun k => k = (List.range n).countP q) by
    obtain ⟨k, hk, rfl⟩ := hs; exact hk
  refine Ret.forN (fun i k => k = (List.range i).countP q) (by simp) ?_
  rintro i k hi rfl
  refine Ret.bind_eq (rdU_ok (h.val i hi)) (Ret.ok ?_)
  rw [List.range_succ, List.countP_append]
  simp [List.countP_cons]

theorem collectMarked_ok {q : Nat → Bool} {n : Nat} {l : List (Option Bool)} (h : Marks q n l)
    {loc : List (Option Nat)} (hl : loc.length = (List.range n).countP q) :
    ∃ loc', collectMarked l n loc = .ok loc' ∧
      initd loc' = .ok (((List.range n).filter q).map (· + 1)) ∧ loc'.length = loc.length := by
  have hcount : ∀ i, i ≤ n → ((List.range i).filter q).length ≤ loc.length := by
    intro i hi
    rw [hl, ← List.countP_eq_length_filter]
    have : List.range n = List.range i ++ (List.range (n - i)).map (i + ·) := by
      rw [← List.range_add]; congr 1; omega
    rw [this, List.countP_append]
    omega
  have : Ret (collectMarked l n loc) (fun loc' => loc'.length = loc.length ∧
      ∀ k, k < ((List.range n).filter q).length →
        loc'[k]? = some (some (((List.range n).filter q)[k]! + 1))) := by
    unfold collectMarked
    refine Ret.bind (Ret.forN (fun i (s : List (Option Nat) × Nat) =>
      s.1.length = loc.length ∧ s.2 = ((List.range i).filter q).length ∧
      ∀ (k v : Nat), ((List.range i).filter q)[k]? = some v → s.1[k]? = some (some (v + 1)))
      ⟨rfl, by simp, by simp⟩ ?_) ?_
    · rintro i ⟨loc', j⟩ hi ⟨h1, h2, h3⟩
      simp only at h1 h2 h3 ⊢
      refine Ret.bind_eq (rdU_ok (h.val i hi)) ?_
      cases hq : q i with
      | true =>
        have hs : (List.range (i + 1)).filter q = (List.range i).filter q ++ [i] := by
          rw [List.range_succ, List.filter_append]; simp [hq]
        have hlt : j < loc'.length := by
          have := hcount (i + 1) (by omega)
          rw [hs] at this
          simp at this
          omega
        simp only [if_true]
        refine Ret.bind_eq (wr_ok hlt) (Ret.ok ⟨by simpa using h1, by rw [hs]; simp [h2], ?_⟩)
        intro k v hk
        simp only
        rw [getElem?_set' hlt]
        rw [hs] at hk
        by_cases hkj : k = j
        · subst hkj
          rw [h2] at hk
          simp at hk
          simp [hk]
        · rw [if_neg hkj]
          apply h3
          have hklt : k < ((List.range i).filter q).length := by
            have := (List.getElem?_eq_some_iff.1 hk).1
            simp at this
            omega
          rwa [List.getElem?_append_left hklt] at hk
      | false =>
        have hs : (List.range (i + 1)).filter q = (List.range i).filter q := by
          rw [List.range_succ, List.filter_append]; simp [hq]
        simp only [Bool.false_eq_true, if_false]
        refine Ret.ok ⟨h1, by rw [hs]; exact h2, by rw [hs]; exact h3⟩
    · rintro ⟨loc', j⟩ ⟨h1, h2, h3⟩
      refine Ret.ok ⟨h1, ?_⟩
      intro k hk
      rw [h3 k _ (List.getElem?_eq_getElem hk), List.getElem!_eq_getElem?_getD,
        List.getElem?_eq_getElem hk]
      rfl
  obtain ⟨loc', h1, h2, h3⟩ := this
  refine ⟨loc', h1, ?_, h2⟩
  apply initd_ok
  · rw [h2, hl]; simp [List.countP_eq_length_filter]
  · intro k hk
    simp at hk
    rw [h3 k hk, List.getElem!_eq_getElem?_getD, List.getElem?_eq_getElem hk]
    simp

theorem resize_length {β : Type} (l : List (Option β)) (n : Nat) : (resize l n).length = n := by
  unfold resize; simp; omega

theorem loadMark_ok (he : EqvHash ops) {x : List α} {d : Dict α} (h : Loaded ops x d 0)
    {marked : List (Option Bool)} (hm : marked.length = x.length) :
    ∃ d' m', loadMark ops d x.length marked = .ok (d', m') ∧ Loaded ops x d' x.length ∧
      Marks (firstB ops x) x.length m' := by
  have : Ret (loadMark ops d x.length marked) (fun s => Loaded ops x s.1 x.length ∧
      Filled (fun j b => b = firstB ops x j) x.length x.length s.2) := by
    unfold loadMark
    refine Ret.forN (fun i (s : Dict α × List (Option Bool)) => Loaded ops x s.1 i ∧
      Filled (fun j b => b = firstB ops x j) x.length i s.2)
      ⟨h, hm, by intro j hj; omega⟩ ?_
    rintro i ⟨d, m⟩ hi ⟨hd, hF⟩
    simp only at hd hF ⊢
    obtain ⟨p, hp, _, hcase⟩ := load_step he hd (List.getElem?_eq_getElem hi)
    rcases hcase with ⟨hf, h2, _, d', h3, h4, _⟩ | ⟨hnf, h2, idx, a, h3, _⟩
    · obtain ⟨hw, hF'⟩ := hF.step (r := true) hi ((firstB_iff x i).2 hf).symm
      exact ⟨(d', _), by simp [hp, h2, h3, hw], h4, hF'⟩
    · obtain ⟨hw, hF'⟩ := hF.step (r := false) hi (by
        rw [← firstB_iff] at hnf
        simpa using hnf)
      exact ⟨(d, _), by simp [hp, h3, hw], h2, hF'⟩
  obtain ⟨⟨d', m'⟩, h1, h2, h3⟩ := this
  exact ⟨d', m', h1, h2, Marks.of_filled h3⟩

/-- Does `x[j]` equal `y`? -/
def eqAt (ops : PolyOps α) (x : List α) (y : α) (j : Nat) : Bool :=
  match x[j]? with
  | some a => ops.eq a y
  | none => false

/-- Is `x[j]` among `ys`? -/
def hit (ops : PolyOps α) (x ys : List α) (j : Nat) : Bool :=
  match x[j]? with
  | some a => ys.any (ops.eq a)
  | none => false

theorem hit_succ {x ys : List α} {k : Nat} {y : α} (hy : ys[k]? = some y) (j : Nat) :
    hit ops x (ys.take (k + 1)) j = (hit ops x (ys.take k) j || eqAt ops x y j) := by
  unfold hit eqAt
  rw [List.take_add_one, hy]
  cases x[j]? <;> simp

theorem hit_nil (x : List α) (j : Nat) : hit ops x [] j = false := by
  unfold hit; cases x[j]? <;> rfl

/-- The slot found for `y` is the only first occurrence equal to `y`. -/
theorem first_and_eqAt (he : EqvHash ops) {x : List α} {y : α} {idx : Nat}
    (h : IsFirstEq ops.eq x y idx) (j : Nat) :
    (firstB ops x j && eqAt ops x y j) = (j == idx) := by
  obtain ⟨a, ha, hay, hmin⟩ := h
  have hf : IsFirst ops.eq x idx := by
    refine ⟨a, ha, ?_⟩
    intro j' b hj' hb
    cases h' : ops.eq b a with
    | false => rfl
    | true =>
      have := hmin j' b hj' hb
      rw [he.trans _ _ _ h' hay] at this
      simp at this
  by_cases hj : j = idx
  · subst hj
    simp [(firstB_iff x j).2 hf, eqAt, ha, hay]
  · have : (j == idx) = false := by simp [hj]
    rw [this]
    cases hb : (firstB ops x j && eqAt ops x y j) with
    | false => rfl
    | true =>
      exfalso
      simp at hb
      obtain ⟨hb1, hb2⟩ := hb
      unfold eqAt at hb2
      cases hxj : x[j]? with
      | none => simp [hxj] at hb2
      | some b =>
        simp [hxj] at hb2
        exact hj (first_unique he ((firstB_iff x j).1 hb1) hf hxj ha
          (he.trans _ _ _ hb2 (he.symm _ _ hay)))

theorem eqAt_none {x : List α} {y : α} (h : ∀ (j : Nat) a, x[j]? = some a → ops.eq a y = false)
    (j : Nat) : eqAt ops x y j = false := by
  unfold eqAt
  cases hx : x[j]? with
  | none => rfl
  | some a => exact h j a hx

theorem firstEq_lt {x : List α} {y : α} {idx : Nat} (h : IsFirstEq ops.eq x y idx) :
    idx < x.length := by
  obtain ⟨a, ha, _⟩ := h
  exact (List.getElem?_eq_some_iff.1 ha).1

/-- Filtering first occurrences by a property of the value. -/
theorem filter_map_some {β γ : Type} (f : β → Option γ) (q : β → Bool) (r : γ → Bool) :
    ∀ (L : List β) (M : List γ), L.map f = M.map some →
      (∀ b ∈ L, ∀ c, f b = some c → q b = r c) →
      (L.filter q).map f = (M.filter r).map some := by
  intro L
  induction L with
  | nil => intro M h _; cases M <;> simp_all
  | cons b L ih =>
    intro M h hq
    cases M with
    | nil => simp at h
    | cons c M =>
      simp only [List.map_cons, List.cons.injEq] at h
      have hbc := hq b (by simp) c h.1
      have ih' := ih M h.2 (fun b' hb' => hq b' (by simp [hb']))
      simp only [List.filter_cons, hbc]
      cases r c
      · simpa using ih'
      · simp [ih', h.1]

/-- Slicing the marked first occurrences that satisfy `r`. -/
theorem slice_marked (x : List α) (q : Nat → Bool) (r : α → Bool)
    (hq : ∀ j a, x[j]? = some a → q j = r a) :
    sliceLoc x (((List.range x.length).filter (fun j => firstB ops x j && q j)).map (· + 1)) =
      .ok ((nub ops.eq x).filter r) := by
  apply sliceLoc_ok
  have := filter_map_some (fun j => x[j]?) q r (firsts ops x x.length) (nub ops.eq x)
    (by rw [getElem?_map_firsts x _ (Nat.le_refl _), List.take_length])
    (fun j _ a ha => hq j a ha)
  unfold firsts at this
  rw [List.filter_filter] at this
  rw [← this]
  congr 1
  apply List.filter_congr
  intro j _
  exact Bool.and_comm _ _

theorem setIntersect_ok (he : EqvHash ops) (x y : List α) (hn : x.length ≤ intMax) :
    setIntersect ops x y = .ok ((nub ops.eq x).filter (fun a => y.any (fun b => ops.eq a b))) := by
  obtain ⟨d, h1, h2, _⟩ := newDict_loaded (ops := ops) x hn
  obtain ⟨d', h3, h4⟩ := loadDict_ok he h2
  obtain ⟨dn, h5, h6, h7⟩ := newDict_partial_ok (ops := ops) y
  suffices hs : Ret (setIntersect ops x y)
      (fun r => r = (nub ops.eq x).filter (fun a => y.any (fun b => ops.eq a b))) by
    obtain ⟨r, hr, rfl⟩ := hs; exact hr
  refine Ret.bind_eq h1 (Ret.bind_eq h3 (Ret.bind_eq h5 ?_))
  refine Ret.bind (Ret.forN (fun k l => Marks (fun j => firstB ops x j && hit ops x (y.take k) j)
    x.length l) ?_ ?_) ?_
  · refine (Marks.of_replicate x.length false).congr ?_
    intro j _; simp [hit_nil]
  · rintro k l hk hM
    have hyk : y[k]? = some y[k] := List.getElem?_eq_getElem hk
    obtain ⟨p, hp, hplt, hcase⟩ := lookup_step he h4 (dn := dn) (by rw [h7, h6])
      (y := y[k]) (i := k) (by rw [h6]; exact hyk)
    refine Ret.bind_eq hp ?_
    rcases hcase with ⟨hkey, hno⟩ | ⟨idx, hkey, _, hfe⟩
    · refine Ret.bind_eq hkey (Ret.ok (hM.congr ?_))
      intro j _
      rw [hit_succ hyk, eqAt_none hno, Bool.or_false]
    · obtain ⟨hw, hM'⟩ := hM.set (firstEq_lt hfe) true
      refine Ret.bind_eq hkey ⟨_, hw, hM'.congr ?_⟩
      intro j _
      rw [hit_succ hyk, Bool.and_or_distrib_left, first_and_eqAt he hfe]
      by_cases hj : j = idx <;> simp [hj]
  · intro l hM
    simp only [List.take_length] at hM
    refine Ret.bind_eq (countMarked_ok hM) ?_
    obtain ⟨loc', g1, g2, _⟩ := collectMarked_ok hM (loc := alloc Nat _) (by simp; rfl)
    refine Ret.bind_eq g1 (Ret.bind_eq g2 ⟨_, slice_marked x _ _ ?_, rfl⟩)
    intro j a ha
    simp [hit, ha]

theorem setDifference_ok (he : EqvHash ops) (x y : List α) (hn : x.length ≤ intMax) :
    setDifference ops x y =
      .ok ((nub ops.eq x).filter (fun a => !y.any (fun b => ops.eq a b))) := by
  obtain ⟨d, h1, h2, _⟩ := newDict_loaded (ops := ops) x hn
  obtain ⟨d', m, h3, h4, hm⟩ := loadMark_ok he h2 (marked := alloc Bool x.length) (by simp)
  obtain ⟨dn, h5, h6, h7⟩ := newDict_partial_ok (ops := ops) y
  suffices hs : Ret (setDifference ops x y)
      (fun r => r = (nub ops.eq x).filter (fun a => !y.any (fun b => ops.eq a b))) by
    obtain ⟨r, hr, rfl⟩ := hs; exact hr
  refine Ret.bind_eq h1 (Ret.bind_eq h3 (Ret.bind_eq h5 ?_))
  refine Ret.bind (Ret.forN (fun k l => Marks (fun j => firstB ops x j && !hit ops x (y.take k) j)
    x.length l) ?_ ?_) ?_
  · refine hm.congr ?_
    intro j _; simp [hit_nil]
  · rintro k l hk hM
    have hyk : y[k]? = some y[k] := List.getElem?_eq_getElem hk
    obtain ⟨p, hp, hplt, hcase⟩ := lookup_step he h4 (dn := dn) (by rw [h7, h6])
      (y := y[k]) (i := k) (by rw [h6]; exact hyk)
    refine Ret.bind_eq hp ?_
    rcases hcase with ⟨hkey, hno⟩ | ⟨idx, hkey, _, hfe⟩
    · refine Ret.bind_eq hkey (Ret.ok (hM.congr ?_))
      intro j _
      rw [hit_succ hyk, eqAt_none hno, Bool.or_false]
    · obtain ⟨hw, hM'⟩ := hM.set (firstEq_lt hfe) false
      refine Ret.bind_eq hkey ⟨_, hw, hM'.congr ?_⟩
      intro j _
      have := first_and_eqAt he hfe j
      rw [hit_succ hyk]
      by_cases hj : j = idx
      · subst hj
        simp at this
        simp [this.2]
      · rw [if_neg hj]
        have h0 : (j == idx) = false := by simp [hj]
        rw [h0] at this
        cases hf : firstB ops x j with
        | false => simp
        | true =>
          rw [hf, Bool.true_and] at this
          simp [this]
  · intro l hM
    simp only [List.take_length] at hM
    refine Ret.bind_eq (countMarked_ok hM) ?_
    obtain ⟨loc', g1, g2, _⟩ := collectMarked_ok hM (loc := alloc Nat _) (by simp; rfl)
    refine Ret.bind_eq g1 (Ret.bind_eq g2 ⟨_, slice_marked x _ _ ?_, rfl⟩)
    intro j a ha
    simp [hit, ha]

/-- Unmarking one marked position lowers the count by one. -/
theorem countP_range_update {q q' : Nat → Bool} {n k : Nat} (hk : k < n) (h1 : q k = true)
    (h2 : q' k = false) (h3 : ∀ j, j ≠ k → q j = q' j) :
    (List.range n).countP q = (List.range n).countP q' + 1 := by
  induction n with
  | zero => omega
  | succ n ih =>
    rw [List.range_succ, List.countP_append, List.countP_append]
    by_cases hkn : k = n
    · subst hkn
      have : (List.range k).countP q = (List.range k).countP q' := by
        apply List.countP_congr
        intro j hj
        rw [h3 j (by simp at hj; omega)]
      simp [this, h1, h2]
    · have := ih (by omega)
      have h4 := h3 n (fun h => hkn h.symm)
      simp only [List.countP_cons, List.countP_nil, h4]
      omega

theorem used_eq_countP {x : List α} {d : Dict α} (h : Loaded ops x d x.length) :
    d.used = (List.range x.length).countP (firstB ops x) := by
  rw [h.inv.used, List.countP_eq_length_filter]
  rfl

/-- Is `y[j]` among `x`? (elements of `x` on the left of the comparison) -/
def inx (ops : PolyOps α) (x y : List α) (j : Nat) : Bool :=
  match y[j]? with
  | some b => x.any (fun a => ops.eq a b)
  | none => false

theorem lookup_inx (he : EqvHash ops) {x y : List α} {d dn : Dict α}
    (h : Loaded ops x d x.length) (hv : dn.vec = y)
    (hh : dn.hash = y.map (fun a => (ops.hash a).toNat)) {k : Nat} (hk : k < y.length) :
    ∃ p, dictHashWith ops d dn k = .ok p ∧
      ((rd d.key p = .ok none ∧ inx ops x y k = false ∧ ∀ j, eqAt ops x y[k] j = false) ∨
       (∃ idx, rd d.key p = .ok (some idx) ∧ inx ops x y k = true ∧
         IsFirstEq ops.eq x y[k] idx)) := by
  have hyk : y[k]? = some y[k] := List.getElem?_eq_getElem hk
  obtain ⟨p, hp, hplt, hcase⟩ := lookup_step he h (dn := dn) (by rw [hh, hv])
    (y := y[k]) (i := k) (by rw [hv]; exact hyk)
  refine ⟨p, hp, ?_⟩
  rcases hcase with ⟨hkey, hno⟩ | ⟨idx, hkey, _, hfe⟩
  · refine Or.inl ⟨hkey, ?_, eqAt_none hno⟩
    unfold inx
    rw [hyk]
    simp
    intro a ha
    obtain ⟨j, hj, hja⟩ := List.getElem_of_mem ha
    exact hno j a (by rw [List.getElem?_eq_getElem hj, hja])
  · refine Or.inr ⟨idx, hkey, ?_, hfe⟩
    obtain ⟨a, ha, hay, _⟩ := hfe
    unfold inx
    rw [hyk]
    simp
    exact ⟨a, List.mem_of_getElem? ha, hay⟩

theorem nub_append (eq : α → α → Bool) (x y : List α) :
    nub eq (x ++ y) = nub eq x ++ (nub eq y).filter (fun b => !x.any (fun a => eq a b)) := by
  induction y using List.reverseRecOn with
  | nil => simp [nub]
  | append_singleton y b ih =>
    rw [← List.append_assoc, nub_append_singleton, ih, nub_append_singleton, List.filter_append,
      List.append_assoc]
    congr 2
    by_cases h1 : (y.all (fun c => !eq c b)) = true
    · rw [if_pos h1]
      cases h2 : x.any (fun a => eq a b)
      · rw [if_pos]
        · simp [h2]
        · rw [List.all_append, h1, Bool.and_true]
          simp at h2 ⊢
          exact h2
      · rw [if_neg]
        · simp [h2]
        · rw [List.all_append, h1, Bool.and_true]
          simp at h2 ⊢
          exact h2
    · rw [if_neg h1, if_neg]
      · simp
      · rw [List.all_append]
        simp [h1]

theorem setUnion_ok (he : EqvHash ops) (x y : List α) (hn : x.length ≤ intMax)
    (hm : y.length ≤ intMax) :
    setUnion ops x y = .ok (nub ops.eq (x ++ y)) := by
  obtain ⟨d, h1, h2, _⟩ := newDict_loaded (ops := ops) x hn
  obtain ⟨d', m, h3, h4, hmx⟩ := loadMark_ok he h2 (marked := alloc Bool x.length) (by simp)
  obtain ⟨e, g1, g2, _⟩ := newDict_loaded (ops := ops) y hm
  obtain ⟨loc, h5, h6, h7⟩ := collectMarked_ok hmx (loc := alloc Nat d'.used)
    (by simp [used_eq_countP h4])
  obtain ⟨e', m', g3, g4, hmy⟩ := loadMark_ok he g2 (marked := resize m y.length)
    (by simp [resize_length])
  suffices hs : Ret (setUnion ops x y) (fun r => r = nub ops.eq (x ++ y)) by
    obtain ⟨r, hr, rfl⟩ := hs; exact hr
  refine Ret.bind_eq h1 (Ret.bind_eq h3 (Ret.bind_eq h5 (Ret.bind_eq h6
    (Ret.bind_eq (sliceLoc_firsts x) (Ret.bind_eq g1 (Ret.bind_eq g3 ?_))))))
  refine Ret.bind (Ret.forN (fun k (s : List (Option Bool) × Nat) =>
    Marks (fun j => firstB ops y j && (decide (k ≤ j) || !inx ops x y j)) y.length s.1 ∧
    s.2 = (List.range y.length).countP
      (fun j => firstB ops y j && (decide (k ≤ j) || !inx ops x y j)))
    ⟨hmy.congr (by intro j _; simp), ?_⟩ ?_) ?_
  · simp only [used_eq_countP g4]
    congr 1
    funext j
    simp
  · rintro k ⟨l, n⟩ hk ⟨hM, hN⟩
    simp only at hM hN ⊢
    refine Ret.bind_eq (rdU_ok (hM.val k hk)) ?_
    -- the predicate at stage k and k + 1 agree off k
    have hoff : ∀ j, j ≠ k → (firstB ops y j && (decide (k ≤ j) || !inx ops x y j)) =
        (firstB ops y j && (decide (k + 1 ≤ j) || !inx ops x y j)) := by
      intro j hj
      have : decide (k ≤ j) = decide (k + 1 ≤ j) := by
        apply Bool.eq_iff_iff.2; simp; omega
      rw [this]
    have hkk : (firstB ops y k && (decide (k ≤ k) || !inx ops x y k)) = firstB ops y k := by simp
    have hkk1 : (firstB ops y k && (decide (k + 1 ≤ k) || !inx ops x y k)) =
        (firstB ops y k && !inx ops x y k) := by simp
    rw [hkk]
    cases hf : firstB ops y k with
    | false =>
      have hsame : ∀ j, (firstB ops y j && (decide (k ≤ j) || !inx ops x y j)) =
          (firstB ops y j && (decide (k + 1 ≤ j) || !inx ops x y j)) := by
        intro j
        by_cases hj : j = k
        · subst hj; simp [hf]
        · exact hoff j hj
      refine Ret.ok ⟨hM.congr (fun j _ => hsame j), ?_⟩
      simp only [hN]
      congr 1
      funext j
      exact hsame j
    | true =>
      simp only [Bool.not_true, Bool.false_eq_true, if_false]
      obtain ⟨p, hp, hcase⟩ := lookup_inx he h4 (dn := e') g4.vec (by rw [g4.inv.hash, g4.vec]) hk
      refine Ret.bind_eq hp ?_
      rcases hcase with ⟨hkey, hin, _⟩ | ⟨idx, hkey, hin, _⟩
      · refine Ret.bind_eq hkey ?_
        obtain ⟨hw, hM'⟩ := hM.set hk true
        have hsame : ∀ j, (firstB ops y j && (decide (k ≤ j) || !inx ops x y j)) =
            (firstB ops y j && (decide (k + 1 ≤ j) || !inx ops x y j)) := by
          intro j
          by_cases hj : j = k
          · subst hj; simp [hf, hin]
          · exact hoff j hj
        refine Ret.bind_eq (a := l.set k (some true)) hw ?_
        simp only [Option.isSome_none, Bool.false_eq_true, false_and, if_false]
        refine Ret.ok ⟨hM'.congr ?_, ?_⟩
        · intro j _
          by_cases hj : j = k
          · subst hj; simp [hf, hin]
          · simp only [if_neg hj]; exact hoff j hj
        · simp only [Nat.sub_zero]
          rw [hN]
          congr 1
          funext j
          exact hsame j
      · refine Ret.bind_eq hkey ?_
        obtain ⟨hw, hM'⟩ := hM.set hk false
        refine Ret.bind_eq (a := l.set k (some false)) hw ?_
        have hcnt := countP_range_update (n := y.length) hk
          (q := fun j => firstB ops y j && (decide (k ≤ j) || !inx ops x y j))
          (q' := fun j => firstB ops y j && (decide (k + 1 ≤ j) || !inx ops x y j))
          (by simp [hf]) (by simp [hin]) hoff
        rw [← hN] at hcnt
        rw [if_neg (by simp; omega)]
        refine Ret.ok ⟨hM'.congr ?_, ?_⟩
        · intro j _
          by_cases hj : j = k
          · subst hj; simp [hin]
          · simp only [if_neg hj]; exact hoff j hj
        · simp only [Option.isSome_some, if_true]
          omega
  · rintro ⟨l, n⟩ ⟨hM, hN⟩
    simp only at hM hN ⊢
    have hM' : Marks (fun j => firstB ops y j && !inx ops x y j) y.length l := by
      refine hM.congr ?_
      intro j hj
      have : decide (y.length ≤ j) = false := by simp; omega
      rw [this, Bool.false_or]
    obtain ⟨loc', k1, k2, _⟩ := collectMarked_ok hM' (loc := resize loc n) (by
      rw [resize_length, hN]
      apply List.countP_congr
      intro j hj
      have : decide (y.length ≤ j) = false := by simp at hj; simp; omega
      rw [this, Bool.false_or])
    refine Ret.bind_eq k1 (Ret.bind_eq k2 (Ret.bind_eq (slice_marked y _
      (fun b => !x.any (fun a => ops.eq a b)) ?_) (Ret.ok ?_)))
    · intro j a ha
      simp [inx, ha]
    · rw [nub_append]

theorem setSymmetricDifference_ok (he : EqvHash ops) (x y : List α) (hn : x.length ≤ intMax)
    (hm : y.length ≤ intMax) :
    setSymmetricDifference ops x y =
      .ok ((nub ops.eq x).filter (fun a => !y.any (fun b => ops.eq a b)) ++
        (nub ops.eq y).filter (fun b => !x.any (fun a => ops.eq a b))) := by
  obtain ⟨d, h1, h2, _⟩ := newDict_loaded (ops := ops) x hn
  obtain ⟨d', m, h3, h4, hmx⟩ := loadMark_ok he h2 (marked := alloc Bool x.length) (by simp)
  obtain ⟨e, g1, g2, _⟩ := newDict_loaded (ops := ops) y hm
  obtain ⟨e', m', g3, g4, hmy⟩ := loadMark_ok he g2 (marked := alloc Bool y.length) (by simp)
  suffices hs : Ret (setSymmetricDifference ops x y) (fun r => r =
      (nub ops.eq x).filter (fun a => !y.any (fun b => ops.eq a b)) ++
        (nub ops.eq y).filter (fun b => !x.any (fun a => ops.eq a b))) by
    obtain ⟨r, hr, rfl⟩ := hs; exact hr
  refine Ret.bind_eq h1 (Ret.bind_eq g1 (Ret.bind_eq h3 (Ret.bind_eq g3 ?_)))
  let qx : Nat → Nat → Bool := fun k j => firstB ops x j && !hit ops x (y.take k) j
  let qy : Nat → Nat → Bool := fun k j => firstB ops y j && (decide (k ≤ j) || !inx ops x y j)
  refine Ret.bind (Ret.forN (fun k (s : List (Option Bool) × List (Option Bool) × Nat × Nat) =>
    Marks (qx k) x.length s.1 ∧ Marks (qy k) y.length s.2.1 ∧
    s.2.2.1 = (List.range x.length).countP (qx k) ∧
    s.2.2.2 = (List.range y.length).countP (qy k))
    ⟨hmx.congr (by intro j _; simp [qx, hit_nil]), hmy.congr (by intro j _; simp [qy]), ?_, ?_⟩
    ?_) ?_
  · simp only [used_eq_countP h4]
    congr 1
    funext j
    simp [qx, hit_nil]
  · simp only [used_eq_countP g4]
    congr 1
    funext j
    simp [qy]
  · rintro k ⟨lx, ly, nx, ny⟩ hk ⟨hX, hY, hNx, hNy⟩
    simp only at hX hY hNx hNy ⊢
    have hyk : y[k]? = some y[k] := List.getElem?_eq_getElem hk
    refine Ret.bind_eq (rdU_ok (hY.val k hk)) ?_
    have hoff : ∀ j, j ≠ k → qy k j = qy (k + 1) j := by
      intro j hj
      have : decide (k ≤ j) = decide (k + 1 ≤ j) := by
        apply Bool.eq_iff_iff.2; simp; omega
      simp only [qy, this]
    have hkk : qy k k = firstB ops y k := by simp [qy]
    have hx_same : (∀ j, eqAt ops x y[k] j = true → hit ops x (y.take k) j = true) →
        ∀ j, qx k j = qx (k + 1) j := by
      intro hsub j
      simp only [qx, hit_succ hyk]
      cases he1 : eqAt ops x y[k] j with
      | false => simp
      | true => simp [hsub j he1]
    rw [hkk]
    cases hf : firstB ops y k with
    | false =>
      have hysame : ∀ j, qy k j = qy (k + 1) j := by
        intro j
        by_cases hj : j = k
        · subst hj; simp [qy, hf]
        · exact hoff j hj
      have hxsame : ∀ j, qx k j = qx (k + 1) j := by
        apply hx_same
        intro j hj
        obtain ⟨idx, a, hle, hfi, ha, hab⟩ := exists_first he y k y[k] hyk
        have hlt : idx < k := by
          rcases Nat.lt_or_eq_of_le hle with h | h
          · exact h
          · subst h; rw [(firstB_iff y idx).2 hfi] at hf; simp at hf
        unfold eqAt at hj
        unfold hit
        cases hxj : x[j]? with
        | none => simp [hxj] at hj
        | some b =>
          simp only [hxj] at hj ⊢
          rw [List.any_eq_true]
          refine ⟨a, ?_, he.trans _ _ _ hj (he.symm _ _ hab)⟩
          rw [List.mem_take_iff_getElem]
          obtain ⟨hl, hla⟩ := List.getElem?_eq_some_iff.1 ha
          exact ⟨idx, by omega, hla⟩
      refine Ret.ok ⟨hX.congr (fun j _ => hxsame j), hY.congr (fun j _ => hysame j), ?_, ?_⟩
      · simp only [hNx]; congr 1; funext j; exact hxsame j
      · simp only [hNy]; congr 1; funext j; exact hysame j
    | true =>
      simp only [Bool.not_true, Bool.false_eq_true, if_false]
      obtain ⟨p, hp, hcase⟩ := lookup_inx he h4 (dn := e') g4.vec (by rw [g4.inv.hash, g4.vec]) hk
      refine Ret.bind_eq hp ?_
      rcases hcase with ⟨hkey, hin, heq⟩ | ⟨idx, hkey, hin, hfe⟩
      · have hysame : ∀ j, qy k j = qy (k + 1) j := by
          intro j
          by_cases hj : j = k
          · subst hj; simp [qy, hf, hin]
          · exact hoff j hj
        have hxsame := hx_same (by intro j hj; rw [heq j] at hj; simp at hj)
        refine Ret.bind_eq hkey (Ret.ok
          ⟨hX.congr (fun j _ => hxsame j), hY.congr (fun j _ => hysame j), ?_, ?_⟩)
        · simp only [hNx]; congr 1; funext j; exact hxsame j
        · simp only [hNy]; congr 1; funext j; exact hysame j
      · have hidx := firstEq_lt hfe
        have hfa := first_and_eqAt he hfe
        have hfidx : firstB ops x idx = true ∧ eqAt ops x y[k] idx = true := by
          have := hfa idx
          simpa using this
        have hxk : qx k idx = true := by
          simp only [qx, hfidx.1, Bool.true_and]
          cases hh : hit ops x (y.take k) idx with
          | false => rfl
          | true =>
            exfalso
            have h2 := hfidx.2
            unfold hit at hh
            unfold eqAt at h2
            cases hxi : x[idx]? with
            | none => simp [hxi] at h2
            | some a =>
              simp only [hxi] at hh h2
              rw [List.any_eq_true] at hh
              obtain ⟨b, hb, hab⟩ := hh
              rw [List.mem_take_iff_getElem] at hb
              obtain ⟨j, hj, hjb⟩ := hb
              obtain ⟨z, hz, hall⟩ := (firstB_iff y k).1 hf
              rw [hyk] at hz
              simp at hz
              subst hz
              have := hall j b (by omega) (by rw [List.getElem?_eq_getElem (by omega), hjb])
              rw [he.trans _ _ _ (he.symm _ _ hab) h2] at this
              simp at this
        have hxk1 : qx (k + 1) idx = false := by
          simp [qx, hit_succ hyk, hfidx.2]
        have hxoff : ∀ j, j ≠ idx → qx k j = qx (k + 1) j := by
          intro j hj
          have := hfa j
          simp only [qx, hit_succ hyk]
          cases hfj : firstB ops x j with
          | false => rfl
          | true =>
            have h0 : (j == idx) = false := by simp [hj]
            rw [hfj, h0, Bool.true_and] at this
            simp [this]
        obtain ⟨hwx, hX'⟩ := hX.set hidx false
        obtain ⟨hwy, hY'⟩ := hY.set hk false
        have c1 := countP_range_update (n := x.length) hidx hxk hxk1 hxoff
        have c2 := countP_range_update (n := y.length) (q := qy k) (q' := qy (k + 1)) hk
          (by simp [qy, hf]) (by simp [qy, hin]) hoff
        rw [← hNx] at c1
        rw [← hNy] at c2
        refine Ret.bind_eq hkey (Ret.bind_eq hwx (Ret.bind_eq hwy ?_))
        rw [if_neg (by omega)]
        refine Ret.ok ⟨hX'.congr ?_, hY'.congr ?_, ?_, ?_⟩
        · intro j _
          by_cases hj : j = idx
          · subst hj; simp [hxk1]
          · simp only [if_neg hj]; exact hxoff j hj
        · intro j _
          by_cases hj : j = k
          · subst hj; simp [qy, hin]
          · simp only [if_neg hj]; exact hoff j hj
        · simp only; omega
        · simp only; omega
  · rintro ⟨lx, ly, nx, ny⟩ ⟨hX, hY, hNx, hNy⟩
    simp only at hX hY hNx hNy ⊢
    have hX' : Marks (fun j => firstB ops x j && !hit ops x y j) x.length lx := by
      refine hX.congr ?_
      intro j hj
      simp only [qx, List.take_length]
    have hY' : Marks (fun j => firstB ops y j && !inx ops x y j) y.length ly := by
      refine hY.congr ?_
      intro j hj
      have : decide (y.length ≤ j) = false := by simp; omega
      simp only [qy, this, Bool.false_or]
    obtain ⟨loc', k1, k2, k3⟩ := collectMarked_ok hX' (loc := alloc Nat nx) (by
      rw [alloc_length, hNx]
      apply List.countP_congr
      intro j hj
      simp only [qx, List.take_length])
    obtain ⟨loc2, k4, k5, _⟩ := collectMarked_ok hY' (loc := resize loc' ny) (by
      rw [resize_length, hNy]
      apply List.countP_congr
      intro j hj
      have : decide (y.length ≤ j) = false := by simp at hj; simp; omega
      simp only [qy, this, Bool.false_or])
    refine Ret.bind_eq k1 (Ret.bind_eq k2 (Ret.bind_eq (slice_marked x _
      (fun a => !y.any (fun b => ops.eq a b)) ?_) ?_))
    · intro j a ha
      simp [hit, ha]
    · refine Ret.bind_eq k4 (Ret.bind_eq k5 (Ret.bind_eq (slice_marked y _
        (fun b => !x.any (fun a => ops.eq a b)) ?_) (Ret.ok rfl)))
      intro j a ha
      simp [inx, ha]

end Vctrs
