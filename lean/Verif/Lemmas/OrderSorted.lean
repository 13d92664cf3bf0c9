import Verif.Lemmas.OrderRadix

/-!
# Vectors that are already sorted
-/

namespace Vctrs

variable {α : Type}

/-- `gi'` has the same groups as `gi`; the maximal group size may be larger, but not larger
than the number of occurrences of some key. -/
structure Unpushed (gi : GroupInfos) (ks : List Nat) (gi' : GroupInfos) : Prop where
  static : SameStatic gi gi'
  ign : gi.ignore = true → gi' = gi
  has : gi.ignore = false → ∀ l, GHas gi l → GHas gi' l
  max : gi.ignore = false → gi.current.maxGroupSize ≤ gi'.current.maxGroupSize ∧
    ∀ M, (∀ k, ks.count k ≤ M) → gi'.current.maxGroupSize ≤ Nat.max gi.current.maxGroupSize M

theorem Unpushed.refl (gi : GroupInfos) (ks : List Nat) : Unpushed gi ks gi :=
  ⟨SameStatic.refl gi, fun _ => rfl, fun _ _ h => h, fun _ => ⟨Nat.le_refl _, fun _ _ =>
    Nat.le_max_left _ _⟩⟩

theorem Unpushed.room {gi gi' : GroupInfos} {ks : List Nat} (h : Unpushed gi ks gi') {n : Nat}
    (hr : Room gi n) : Room gi' n := by
  intro hi
  rw [h.static.ignore] at hi
  obtain ⟨l, hl, hn⟩ := hr hi
  exact ⟨l, h.has hi l hl, by rw [h.static.maxData]; exact hn⟩

theorem Ordered.count_le {β : Type} {R : Nat → Nat → Prop} {key : β → Nat} {w w' : List β}
    {gs : List Nat} (h : Ordered R key w w' gs) (hirr : ∀ a, ¬ R a a) (k : Nat) :
    (w.map key).count k ≤ maxOf gs := by
  have hcount : (w.map key).count k = (w'.map key).count k :=
    ((h.perm.map key).count_eq k).symm
  obtain ⟨_, bs, hb, rfl⟩ := h
  rw [hcount, hb.eq]
  have hlt := hb.lt
  clear hb hcount
  induction bs with
  | nil => simp
  | cons b bs ih =>
    rw [List.flatMap_cons, List.count_append, List.count_replicate]
    rw [List.pairwise_cons] at hlt
    have h2 : maxOf ((b :: bs).map (·.2)) = max b.2 (maxOf (bs.map (·.2))) := rfl
    rw [h2]
    by_cases hk : b.1 = k
    · have : (bs.flatMap (fun b => List.replicate b.2 b.1)).count k = 0 := by
        rw [List.count_eq_zero]
        intro hm
        obtain ⟨c, hc, hm⟩ := List.mem_flatMap.1 hm
        have := List.eq_of_mem_replicate hm
        have hR := hlt.1 c hc
        rw [hk, this] at hR
        exact hirr _ hR
      rw [this]
      simp [hk]
      omega
    · have := ih hlt.2
      simp [hk]
      omega

theorem Unpushed.pushed {gi g1 g2 : GroupInfos} {β : Type} {key : β → Nat} {w w' : List β}
    {gs : List Nat} (h : Unpushed gi (w.map key) g1) (ho : Ordered (· < ·) key w w' gs)
    (hp : Pushed g1 gs g2) : Pushed gi gs g2 := by
  refine ⟨h.static.trans hp.static, ?_, ?_, ?_⟩
  · intro hi
    rw [hp.ign (by rw [h.static.ignore, hi]), h.ign hi]
  · intro hi l hl
    exact hp.has (by rw [h.static.ignore, hi]) l (h.has hi l hl)
  · intro hi
    have e := hp.max (by rw [h.static.ignore, hi])
    obtain ⟨h1, h2⟩ := h.max hi
    have h3 := h2 _ (fun k => ho.count_le (fun a => Nat.lt_irrefl a) k)
    rw [e]
    apply Nat.le_antisymm
    · exact Nat.max_le.2 ⟨h3, Nat.le_max_right _ _⟩
    · exact Nat.max_le.2 ⟨Nat.le_trans h1 (Nat.le_max_left _ _), Nat.le_max_right _ _⟩

/-- How a comparison relates to a key. -/
def CmpKey (cmp : α → α → Int) (k : α → Nat) (x : List α) : Prop :=
  ∀ a ∈ x, ∀ b ∈ x, (cmp a b < 0 ↔ k a < k b) ∧ (cmp a b = 0 ↔ k a = k b)

theorem has_of_take {gi : GroupInfos} {l l' : List Nat} (h : GHas gi (l ++ l')) :
    GHas (gi.resetGroups l.length) l := by
  unfold GHas GroupInfos.resetGroups
  rw [current_setCurrent]
  refine ⟨rfl, ?_⟩
  have := congrArg (List.take l.length) h.2
  rw [List.take_take, Nat.min_eq_left (by simp)] at this
  dsimp only
  rw [this]
  simp

theorem strict_ok {cmp : α → α → Int} {k : α → Nat} {x : List α} (hck : CmpKey cmp k x)
    (hx : 2 ≤ x.length) (first : α) (hf : x[0]? = some first) :
    Ret (forBrkFrom (strictStep cmp x) 1 (x.length - 1) (first, 0)) (fun r =>
      (r.2 = x.length - 1 → (x.map k).Pairwise (· > ·)) ∧
      (r.2 = 0 → ∀ b, x[1]? = some b → k first ≤ k b)) := by
  refine forBrkFrom_inv (fun i (s : α × Nat) => s.2 = i - 1 ∧ x[i - 1]? = some s.1 ∧
    ((x.take i).map k).Pairwise (· > ·)) _ _ _ _ ?_ ?_ ?_
  · refine ⟨rfl, hf, ?_⟩
    cases x with
    | nil => simp at hf
    | cons a x => simp
  · rintro i ⟨p, c⟩ hi1 hi2 ⟨h1, h2, h3⟩
    dsimp only at h1 h2 h3
    have hix : i < x.length := by omega
    have hxi : x[i]? = some x[i] := List.getElem?_eq_getElem hix
    unfold strictStep
    rw [rd_ok hix, ok_bind]
    dsimp only
    have hck' := hck x[i] (List.getElem_mem hix) p (List.mem_of_getElem? h2)
    split
    · rename_i hge
      refine Or.inr ⟨_, rfl, ?_, ?_⟩
      · intro hc; dsimp only at hc; omega
      · intro hc b hb
        dsimp only at hc
        have hi : i = 1 := by omega
        subst hi
        rw [hf] at h2
        cases h2
        rw [hxi] at hb
        cases hb
        have : ¬ cmp x[1] first < 0 := by omega
        rw [hck'.1] at this
        omega
    · rename_i hge
      have hlt : k x[i] < k p := hck'.1.1 (by omega)
      refine Or.inl ⟨_, rfl, by dsimp only; omega, by simpa using hxi, ?_⟩
      rw [List.take_succ, hxi]
      simp only [Option.toList, List.map_append, List.map_cons, List.map_nil]
      rw [List.pairwise_append]
      refine ⟨h3, by simp, ?_⟩
      intro a ha b hb
      simp at hb
      subst hb
      have hlast : (x.take i).map k = (x.take (i - 1)).map k ++ [k p] := by
        conv_lhs => rw [show i = (i - 1) + 1 by omega]
        rw [List.take_succ, h2]
        simp
      rw [hlast] at ha h3
      rcases List.mem_append.1 ha with ha | ha
      · have := (List.pairwise_append.1 h3).2.2 a ha (k p) (by simp)
        omega
      · simp at ha; omega
  · rintro ⟨p, c⟩ ⟨h1, h2, h3⟩
    dsimp only at h1 h2 h3
    rw [show 1 + (x.length - 1) = x.length by omega, List.take_length] at h3
    refine ⟨fun _ => h3, ?_⟩
    intro hc
    dsimp only at hc
    omega

/-- Count of the last value in a prefix. -/
theorem count_prefix_le (l : List Nat) (i k : Nat) : (l.take i).count k ≤ l.count k :=
  (List.take_sublist i l).count_le k

theorem sorted_ok {cmp : α → α → Int} {k : α → Nat} {x : List α} (hck : CmpKey cmp k x)
    (hx : 2 ≤ x.length) (first : α) (hf : x[0]? = some first) (gi : GroupInfos)
    (hr : Room gi x.length) :
    Ret (forBrkFrom (sortedStep cmp x gi.current.nGroups) 1 (x.length - 1) ⟨first, 1, gi, false⟩)
      (fun s => (s.unsorted = false → ∃ bs kl, 0 < s.groupSize ∧
          Blocks (· < ·) (x.map k) (bs ++ [(kl, s.groupSize)]) ∧ Pushed gi (bs.map (·.2)) s.gi) ∧
        (s.unsorted = true → Unpushed gi (x.map k) s.gi)) := by
  refine forBrkFrom_inv (fun i (s : SortednessState α) => s.unsorted = false ∧
    x[i - 1]? = some s.previous ∧ 0 < s.groupSize ∧ ∃ bs,
    Blocks (· < ·) ((x.take i).map k) (bs ++ [(k s.previous, s.groupSize)]) ∧
    Pushed gi (bs.map (·.2)) s.gi) _ _ _ _ ?_ ?_ ?_
  · refine ⟨rfl, hf, by simp, [], ?_, Pushed.refl gi⟩
    have : (x.take 1).map k = List.replicate 1 (k first) := by
      cases x with
      | nil => simp at hf
      | cons a x => simp at hf; simp [hf]
    rw [this]
    exact Blocks.const _ _ (by simp)
  · rintro i ⟨p, n, g, u⟩ hi1 hi2 ⟨h1, h2, h3, bs, hb, hp⟩
    dsimp only at h1 h2 h3 hb hp
    subst h1
    have hix : i < x.length := by omega
    have hxi : x[i]? = some x[i] := List.getElem?_eq_getElem hix
    have ht : (x.take (i + 1)).map k = (x.take i).map k ++ [k x[i]] := by
      rw [List.take_succ, hxi, List.map_append]; rfl
    have hpm : p ∈ x := List.mem_of_getElem? h2
    have hck' := hck x[i] (List.getElem_mem hix) p hpm
    have hlen : (bs.map (·.2)).length + 1 ≤ x.length := by
      have := hb.length_le
      simp at this ⊢; omega
    unfold sortedStep
    rw [rd_ok hix, ok_bind]
    dsimp only
    by_cases hlt : cmp x[i] p < 0
    · rw [if_pos hlt]
      refine Or.inr ⟨_, rfl, by simp, fun _ => ?_⟩
      dsimp only
      refine ⟨?_, ?_, ?_, ?_⟩
      · exact hp.static.trans (sameStatic_setCurrent _ _)
      · intro hi
        rw [hp.ign hi]
        show gi.setCurrent { gi.current with nGroups := gi.current.nGroups } = gi
        unfold GroupInfos.setCurrent GroupInfos.current
        cases gi with
        | mk i0 i1 m s f ig => cases s <;> rfl
      · intro hi l hl
        have := has_of_take (hp.has hi l hl)
        rw [hl.1]
        exact this
      · intro hi
        have hm := hp.max hi
        have hres : (g.resetGroups gi.current.nGroups).current.maxGroupSize =
            g.current.maxGroupSize := by
          unfold GroupInfos.resetGroups
          rw [current_setCurrent]
        rw [hres, hm]
        refine ⟨Nat.le_max_left _ _, ?_⟩
        intro M hM
        apply Nat.max_le.2
        refine ⟨Nat.le_max_left _ _, Nat.le_trans (maxOf_le ?_) (Nat.le_max_right _ _)⟩
        intro y hy
        obtain ⟨c, hc, rfl⟩ := List.mem_map.1 hy
        refine Nat.le_trans ?_ (hM c.1)
        rw [List.map_take] at hb
        refine Nat.le_trans ?_ (count_prefix_le (x.map k) i c.1)
        rw [hb.eq]
        obtain ⟨l1, l2, rfl⟩ := List.append_of_mem hc
        simp only [List.flatMap_append, List.flatMap_cons, List.count_append,
          List.count_replicate_self]
        omega
    · rw [if_neg hlt]
      by_cases heq : cmp x[i] p = 0
      · rw [if_pos heq]
        have hke : k x[i] = k p := hck'.2.1 heq
        refine Or.inl ⟨_, rfl, rfl, by simpa using hxi, by simp, bs, ?_, hp⟩
        dsimp only
        rw [ht]
        refine ⟨?_, ?_, ?_⟩
        · intro b hb'
          rcases List.mem_append.1 hb' with h | h
          · exact hb.pos b (by simp [h])
          · simp at h; subst h; simp
        · have := hb.lt
          rw [List.pairwise_append] at this ⊢
          refine ⟨this.1, by simp, ?_⟩
          intro a ha b hb'
          simp at hb'
          subst hb'
          have := this.2.2 a ha (k p, n) (by simp)
          simp at this
          show a.1 < k x[i]
          omega
        · rw [hb.eq]
          simp [List.flatMap_append, hke, List.replicate_succ']
      · rw [if_neg heq]
        have hgt : k p < k x[i] := by
          have e1 : ¬ k x[i] < k p := fun h => hlt (hck'.1.2 h)
          have e2 : ¬ k x[i] = k p := fun h => heq (hck'.2.2 h)
          omega
        obtain ⟨g', hg', hpg⟩ := groupsSizeMaybePush_ok (gi := g) h3
          ((hr.pushed hp (by omega)).mono (by omega))
        rw [hg', ok_bind]
        refine Or.inl ⟨_, rfl, rfl, by simpa using hxi, by simp, bs ++ [(k p, n)], ?_, ?_⟩
        · dsimp only
          rw [ht]
          refine hb.append (Blocks.const _ _ (n := 1) (by simp)) ?_
          intro a ha b hb'
          simp at hb'
          subst hb'
          obtain ⟨c, hc', rfl⟩ := hb.mem.1 ha
          rcases List.mem_append.1 hc' with h | h
          · have := (List.pairwise_append.1 hb.lt).2.2 c h (k p, n) (by simp)
            simp at this
            show c.1 < k x[i]
            omega
          · simp at h; subst h
            show k p < k x[i]
            omega
        · have := hp.trans hpg
          simpa using this
  · rintro ⟨p, n, g, u⟩ ⟨h1, h2, h3, bs, hb, hp⟩
    dsimp only at h1 h2 h3 hb hp
    subst h1
    rw [show 1 + (x.length - 1) = x.length by omega, List.take_length] at hb
    exact ⟨fun _ => ⟨bs, k p, h3, hb, hp⟩, by simp⟩

/-- What `sortedness` finds out, in terms of the keys. -/
def SortednessSpec (ks : List Nat) (gi : GroupInfos) (r : Sortedness × GroupInfos) : Prop :=
  match r.1 with
  | .sorted => ∃ bs, Blocks (· < ·) ks bs ∧ Pushed gi (bs.map (·.2)) r.2
  | .reversed => ks.Pairwise (· > ·) ∧ Pushed gi (List.replicate ks.length 1) r.2
  | .unsorted => 2 ≤ ks.length ∧ Unpushed gi ks r.2

theorem sortedness_ok {cmp : α → α → Int} {k : α → Nat} {x : List α} (hck : CmpKey cmp k x)
    (gi : GroupInfos) (hr : Room gi x.length) :
    Ret (sortedness cmp x gi) (SortednessSpec (x.map k) gi) := by
  unfold sortedness
  dsimp only
  split
  · rename_i h
    have : x = [] := List.length_eq_zero_iff.1 h
    subst this
    exact Ret.ok ⟨[], Blocks.nil _, Pushed.refl gi⟩
  · rename_i h0
    split
    · rename_i h1
      refine Ret.bind (groupsSizeMaybePush_ok (by omega) (hr.mono (by omega))) ?_
      intro g hg
      obtain ⟨a, rfl⟩ := List.length_eq_one_iff.1 h1
      exact Ret.ok ⟨[(k a, 1)], Blocks.const _ _ (n := 1) (by omega), hg⟩
    · rename_i h1
      have hf : x[0]? = some x[0] := List.getElem?_eq_getElem (by omega)
      refine Ret.bind_eq (rd_ok (by omega)) ?_
      refine Ret.bind (strict_ok hck (by omega) x[0] hf) ?_
      rintro ⟨p, c⟩ ⟨hs1, hs2⟩
      dsimp only at hs1 hs2 ⊢
      split
      · rename_i hc
        refine Ret.bind (P := fun g => Pushed gi (List.replicate x.length 1) g) ?_ ?_
        · refine Ret.forN (fun i g => Pushed gi (List.replicate i 1) g) (Pushed.refl gi) ?_
          intro i g hi hg
          refine (groupsSizeMaybePush_ok (by omega)
            ((hr.pushed hg (by simp; omega)).mono (by simp; omega))).mono ?_
          intro g' hg'
          rw [List.replicate_succ']
          exact hg.trans hg'
        · intro g hg
          refine Ret.ok ⟨hs1 hc, ?_⟩
          rw [List.length_map]
          exact hg
      · split
        · exact Ret.ok ⟨by simp; omega, Unpushed.refl gi _⟩
        · refine Ret.bind (sorted_ok hck (by omega) x[0] hf gi hr) ?_
          rintro ⟨p, n, g, u⟩ ⟨hu1, hu2⟩
          dsimp only at hu1 hu2 ⊢
          cases u with
          | true =>
            rw [if_pos rfl]
            exact Ret.ok ⟨by simp; omega, hu2 rfl⟩
          | false =>
            rw [if_neg (by simp)]
            obtain ⟨bs, kl, hn, hb, hp⟩ := hu1 rfl
            have hlen : (bs.map (·.2)).length + 1 ≤ x.length := by
              have := hb.length_le
              simp at this ⊢; omega
            refine Ret.bind (groupsSizeMaybePush_ok hn
              ((hr.pushed hp (by omega)).mono (by omega))) ?_
            intro g' hg'
            refine Ret.ok ⟨_, hb, ?_⟩
            have := hp.trans hg'
            simpa using this

/-! ## Resolving -/

/-- `1, ..., n`. -/
def oneTo (n : Nat) : List Int := (List.range n).map (fun i : Nat => (i : Int) + 1)

theorem oneTo_length (n : Nat) : (oneTo n).length = n := by simp [oneTo]

theorem oneTo_getElem? {n i : Nat} (h : i < n) : (oneTo n)[i]? = some ((i : Int) + 1) := by
  simp [oneTo, h]

theorem intIncr_ok (n : Nat) : intIncr n = .ok (oneTo n) := by
  suffices h : Ret (intIncr n) (fun r => r = oneTo n) by
    obtain ⟨r, hr, rfl⟩ := h; exact hr
  unfold intIncr
  refine Ret.bind (P := fun o => Filled (fun i (v : Int) => v = (i : Int) + 1) n n o) ?_ ?_
  · refine Ret.forN (fun i o => Filled (fun i (v : Int) => v = (i : Int) + 1) n i o)
      (Filled.start _ _) ?_
    intro i o hi hF
    obtain ⟨h1, h2⟩ := hF.step (r := (i : Int) + 1) hi rfl
    exact ⟨_, h1, h2⟩
  · intro o hF
    refine hF.done_of.mono ?_
    rintro out ⟨h1, h2⟩
    apply List.ext_getElem?
    intro i
    by_cases hi : i < n
    · obtain ⟨r, hr, rfl⟩ := h2 i hi
      rw [hr, oneTo_getElem? hi]
    · rw [List.getElem?_eq_none (by omega), List.getElem?_eq_none (by rw [oneTo_length]; omega)]

theorem ordReverse_ok (n : Nat) : ordReverse n = .ok (oneTo n).reverse := by
  suffices h : Ret (ordReverse n) (fun r => r = (oneTo n).reverse) by
    obtain ⟨r, hr, rfl⟩ := h; exact hr
  unfold ordReverse
  dsimp only
  refine Ret.bind (P := fun o : List (Option Int) => o.length = n ∧ ∀ p,
      (p < n / 2 ∨ (n - n / 2 ≤ p ∧ p < n)) → o[p]? = some (some ((n - 1 - p : Nat) + 1 : Int))) ?_ ?_
  · refine (Ret.forN (fun i (o : List (Option Int)) => o.length = n ∧ ∀ p,
      (p < i ∨ (n - i ≤ p ∧ p < n)) → o[p]? = some (some ((n - 1 - p : Nat) + 1 : Int)))
      ⟨by simp, fun p hp => by omega⟩ ?_).mono ?_
    · intro i o hi ⟨h1, h2⟩
      refine Ret.bind_eq (wr_ok (by omega)) (Ret.of_eq (wr_ok (by simp; omega)) ⟨by simpa using h1, ?_⟩)
      intro p hp
      rw [getElem?_set' (by simp; omega), getElem?_set' (by omega)]
      split
      · rename_i h; subst h
        congr 3
        omega
      · split
        · rename_i h; subst h; rfl
        · exact h2 p (by omega)
    · intro o h; exact h
  · rintro o ⟨h1, h2⟩
    have hfin : ∀ o : List (Option Int), o.length = n → (∀ p, p < n →
        o[p]? = some (some ((n - 1 - p : Nat) + 1 : Int))) →
        Ret (initd o) (fun r => r = (oneTo n).reverse) := by
      intro o h3 h4
      refine ⟨_, initd_ok (r := (oneTo n).reverse) (by simp [oneTo, h3]) ?_, rfl⟩
      intro i hi
      have hin : i < n := by simpa [oneTo] using hi
      rw [h4 i hin]
      congr 2
      rw [List.getElem_reverse]
      simp [oneTo]
    split
    · refine Ret.bind_eq (wr_ok (by omega)) (hfin _ (by simpa using h1) ?_)
      intro p hp
      rw [getElem?_set' (by omega)]
      split
      · rename_i h; subst h
        congr 3
        omega
      · exact h2 p (by omega)
    · exact hfin o h1 (fun p hp => h2 p (by omega))

theorem ordReverseChunk_ok (o : List Int) : ordReverseChunk o = .ok o.reverse := by
  suffices h : Ret (ordReverseChunk o) (fun r => r = o.reverse) by
    obtain ⟨r, hr, rfl⟩ := h; exact hr
  unfold ordReverseChunk
  dsimp only
  refine (Ret.forN (fun i (l : List Int) => l.length = o.length ∧ ∀ p, p < o.length →
      l[p]? = if p < i ∨ o.length - i ≤ p then o[o.length - 1 - p]? else o[p]?)
      ⟨rfl, fun p hp => by rw [if_neg (by omega)]⟩ ?_).mono ?_
  · intro i l hi ⟨h1, h2⟩
    have hlt : i < o.length := by omega
    have e1 := h2 i hlt
    rw [if_neg (by omega), List.getElem?_eq_getElem hlt] at e1
    have e2 := h2 (o.length - 1 - i) (by omega)
    rw [if_neg (by omega), List.getElem?_eq_getElem (l := o) (by omega)] at e2
    refine Ret.bind_eq (rd_of_getElem? e1) ?_
    refine Ret.bind_eq (rd_of_getElem? e2) ?_
    refine Ret.bind_eq (wr_ok (by omega)) (Ret.of_eq (wr_ok (by simp; omega)) ⟨by simpa using h1, ?_⟩)
    intro p hp
    rw [getElem?_set' (by simp; omega), getElem?_set' (by omega)]
    split
    · rename_i h; subst h
      rw [if_pos (by omega), show o.length - 1 - (o.length - 1 - i) = i by omega,
        List.getElem?_eq_getElem hlt]
    · split
      · rename_i h; subst h
        rw [if_pos (by omega), List.getElem?_eq_getElem (by omega)]
      · rw [h2 p hp]
        by_cases hc : p < i ∨ o.length - i ≤ p
        · rw [if_pos hc, if_pos (by omega)]
        · rw [if_neg hc, if_neg (by omega)]
  · rintro l ⟨h1, h2⟩
    apply List.ext_getElem?
    intro p
    by_cases hp : p < o.length
    · rw [h2 p hp, List.getElem?_reverse hp]
      split
      · rfl
      · congr 1
        omega
    · rw [List.getElem?_eq_none (by omega), List.getElem?_eq_none (by simp; omega)]

/-- Strictly decreasing keys: the reverse is the order. -/
theorem Ordered.reverse {β : Type} {key : β → Nat} {w : List β}
    (h : (w.map key).Pairwise (· > ·)) :
    Ordered (· < ·) key w w.reverse (List.replicate w.length 1) := by
  refine ⟨?_, w.reverse.map (fun a => (key a, 1)), ⟨?_, ?_, ?_⟩, ?_⟩
  · intro k
    rw [List.filter_reverse]
    have : ((w.filter (fun a => decide (key a = k)))).length ≤ 1 := by
      rw [List.pairwise_map] at h
      induction w with
      | nil => simp
      | cons a w ih =>
        rw [List.pairwise_cons] at h
        rw [List.filter_cons]
        split
        · rename_i hk
          have hnil : w.filter (fun a => decide (key a = k)) = [] := by
            rw [List.filter_eq_nil_iff]
            intro b hb hkb
            have := h.1 b hb
            simp at hk hkb
            omega
          rw [hnil]; simp
        · exact ih h.2
    generalize w.filter (fun a => decide (key a = k)) = l at this
    match l, this with
    | [], _ => rfl
    | [a], _ => rfl
  · intro b hb
    obtain ⟨a, _, rfl⟩ := List.mem_map.1 hb
    simp
  · rw [List.pairwise_map, List.pairwise_reverse]
    rw [List.pairwise_map] at h
    exact h
  · rw [List.flatMap_map]
    simp [List.flatMap_singleton', ← List.map_eq_flatMap]
  · simp [Function.comp_def, List.map_const']

theorem Ordered.sorted {β : Type} {key : β → Nat} {w : List β} {bs : List (Nat × Nat)}
    (h : Blocks (· < ·) (w.map key) bs) : Ordered (· < ·) key w w (bs.map (·.2)) :=
  ⟨fun _ => rfl, bs, h, rfl⟩

/-- A chunk found to be sorted or reversed. -/
theorem ordResolveChunk_ok {key : Int → Nat} {w : List Int} {gi : GroupInfos}
    {r : Sortedness × GroupInfos} (h : SortednessSpec (w.map key) gi r) (hu : r.1 ≠ .unsorted) :
    Ret (ordResolveChunk r.1 w) (fun o => ∃ gs, Ordered (· < ·) key w o gs ∧ Pushed gi gs r.2) := by
  obtain ⟨s, g⟩ := r
  cases s with
  | unsorted => exact absurd rfl hu
  | reversed =>
    obtain ⟨h1, h2⟩ := h
    rw [List.length_map] at h2
    exact ⟨w.reverse, ordReverseChunk_ok w, _, Ordered.reverse h1, h2⟩
  | sorted =>
    obtain ⟨bs, h1, h2⟩ := h
    exact Ret.ok ⟨_, Ordered.sorted h1, h2⟩

/-- A vector found to be sorted or reversed. -/
theorem ordResolve_ok {key : Int → Nat} {n : Nat} {gi : GroupInfos}
    {r : Sortedness × GroupInfos} (h : SortednessSpec ((oneTo n).map key) gi r)
    (hu : r.1 ≠ .unsorted) :
    Ret (ordResolve r.1 n) (fun o => ∃ gs, Ordered (· < ·) key (oneTo n) o gs ∧
      Pushed gi gs r.2) := by
  obtain ⟨s, g⟩ := r
  cases s with
  | unsorted => exact absurd rfl hu
  | reversed =>
    obtain ⟨h1, h2⟩ := h
    rw [List.length_map] at h2
    exact ⟨_, ordReverse_ok n, _, Ordered.reverse h1, h2⟩
  | sorted =>
    obtain ⟨bs, h1, h2⟩ := h
    exact ⟨_, intIncr_ok n, _, Ordered.sorted h1, h2⟩

/-- `adjustLoop` computes the keys. -/
theorem adjustLoop_ok {f : α → C Nat} {k : α → Nat} {x : List α} (hf : ∀ a ∈ x, f a = .ok (k a)) :
    adjustLoop f x = .ok (x.map k) := by
  suffices h : Ret (adjustLoop f x) (fun r => r = x.map k) by
    obtain ⟨r, hr, rfl⟩ := h; exact hr
  unfold adjustLoop
  refine Ret.bind (P := fun o => Filled (fun i v => x[i]?.map k = some v) x.length x.length o) ?_ ?_
  · refine Ret.forN (fun i o => Filled (fun i v => x[i]?.map k = some v) x.length i o)
      (Filled.start _ _) ?_
    intro i o hi hF
    refine Ret.bind_eq (rd_ok hi) ?_
    refine Ret.bind_eq (hf _ (List.getElem_mem hi)) ?_
    obtain ⟨h1, h2⟩ := hF.step (r := k x[i]) hi (by simp [hi])
    exact ⟨_, h1, h2⟩
  · intro o hF
    refine hF.done_of.mono ?_
    rintro out ⟨h1, h2⟩
    apply List.ext_getElem?
    intro i
    by_cases hi : i < x.length
    · obtain ⟨r, hr, hr'⟩ := h2 i hi
      rw [hr, List.getElem?_map, hr']
    · rw [List.getElem?_eq_none (by omega), List.getElem?_eq_none (by simp; omega)]

end Vctrs
