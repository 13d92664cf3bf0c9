import Verif.Lemmas.Rank
import Verif.SpecRank

namespace Vctrs

open Spec

/-- Where the groups are, rows are before one another. -/
theorem Spec.TieGroups.before_iff {before : Nat → Nat → Prop} {n : Nat} {B : List (List Nat)}
    (h : TieGroups before n B) (ha : ∀ i j, i < n → j < n → before i j → ¬ before j i)
    {g g' i j : Nat} {b c : List Nat} (hb : B[g]? = some b) (hc : B[g']? = some c) (hi : i ∈ b)
    (hj : j ∈ c) : before i j ↔ g < g' := by
  have hlt : ∀ {r : Nat} {d : List Nat}, d ∈ B → r ∈ d → r < n := fun hd hr =>
    List.mem_range.1 (h.perm.mem_iff.1 (List.mem_flatten.2 ⟨_, hd, hr⟩))
  have hbB := List.mem_of_getElem? hb
  have hcB := List.mem_of_getElem? hc
  have key : ∀ {g g' i j : Nat} {b c : List Nat}, B[g]? = some b → B[g']? = some c → i ∈ b →
      j ∈ c → g < g' → before i j := by
    intro g g' i j b c hb hc hi hj hlt
    obtain ⟨h1, rfl⟩ := List.getElem?_eq_some_iff.1 hb
    obtain ⟨h2, rfl⟩ := List.getElem?_eq_some_iff.1 hc
    exact List.pairwise_iff_getElem.1 h.sorted g g' h1 h2 hlt i hi j hj
  constructor
  · intro hij
    rcases Nat.lt_trichotomy g g' with h1 | h1 | h1
    · exact h1
    · subst h1
      rw [hb] at hc
      cases hc
      exact absurd hij (h.tied b hbB i hi j hj)
    · exact absurd (key hc hb hj hi h1) (ha _ _ (hlt hbB hi) (hlt hcB hj) hij)
  · exact key hb hc hi hj

theorem Spec.TieGroups.locate {before : Nat → Nat → Prop} {n : Nat} {B : List (List Nat)}
    (h : TieGroups before n B) {i : Nat} (hi : i < n) : ∃ (g : Nat) (b : List Nat), B[g]? = some b ∧ i ∈ b := by
  obtain ⟨b, hb, hib⟩ := List.mem_flatten.1 (h.perm.mem_iff.2 (List.mem_range.2 hi))
  obtain ⟨g, hg⟩ := List.mem_iff_getElem?.1 hb
  exact ⟨g, b, hg, hib⟩

theorem Spec.TieGroups.lt {before : Nat → Nat → Prop} {n : Nat} {B : List (List Nat)}
    (h : TieGroups before n B) {g i : Nat} {b : List Nat} (hb : B[g]? = some b) (hi : i ∈ b) :
    i < n :=
  List.mem_range.1 (h.perm.mem_iff.1 (List.mem_flatten.2 ⟨_, List.mem_of_getElem? hb, hi⟩))

theorem Spec.TieGroups.nodup {before : Nat → Nat → Prop} {n : Nat} {B : List (List Nat)}
    (h : TieGroups before n B) : B.flatten.Nodup := h.perm.nodup_iff.2 List.nodup_range

theorem mem_take_flatten {B : List (List Nat)} {g j : Nat} :
    j ∈ (B.take g).flatten ↔ ∃ g' c, g' < g ∧ B[g']? = some c ∧ j ∈ c := by
  rw [List.mem_flatten]
  constructor
  · rintro ⟨c, hc, hj⟩
    obtain ⟨g', hg'⟩ := List.mem_iff_getElem?.1 hc
    rw [List.getElem?_take] at hg'
    split at hg'
    · exact ⟨g', c, by assumption, hg', hj⟩
    · cases hg'
  · rintro ⟨g', c, hlt, hc, hj⟩
    exact ⟨c, List.mem_iff_getElem?.2 ⟨g', by rw [List.getElem?_take, if_pos hlt, hc]⟩, hj⟩

theorem flatten_take_nodup {B : List (List Nat)} (h : B.flatten.Nodup) (g : Nat) :
    (B.take g).flatten.Nodup := by
  rw [← List.take_append_drop g B, List.flatten_append] at h
  exact (List.nodup_append.1 h).1

/-- What the loops compute are ranks. -/
theorem isRank_rankVal {before : Nat → Nat → Prop} {n : Nat} {B : List (List Nat)}
    (h : TieGroups before n B) (ha : ∀ i j, i < n → j < n → before i j → ¬ before j i) (ties : Ties)
    {i : Nat} (hi : i < n) : IsRank before (fun j => j < n) i (rankVal B ties i) ties := by
  obtain ⟨g, b, hb, hib⟩ := h.locate hi
  have hg := groupOf_eq h.nodup hb hib
  cases ties with
  | min =>
    refine ⟨_, by rw [rankVal, hg], (B.take g).flatten, flatten_take_nodup h.nodup g, fun j => ?_, rfl⟩
    rw [mem_take_flatten]
    constructor
    · rintro ⟨g', c, hlt, hc, hj⟩
      exact ⟨h.lt hc hj, (h.before_iff ha hc hb hj hib).2 hlt⟩
    · rintro ⟨hj, hB⟩
      obtain ⟨g', c, hc, hjc⟩ := h.locate hj
      exact ⟨g', c, (h.before_iff ha hc hb hjc hib).1 hB, hc, hjc⟩
  | max =>
    refine ⟨_, by rw [rankVal, hg], (B.take (g + 1)).flatten, flatten_take_nodup h.nodup _,
      fun j => ?_, rfl⟩
    rw [mem_take_flatten]
    constructor
    · rintro ⟨g', c, hlt, hc, hj⟩
      refine ⟨h.lt hc hj, fun hB => ?_⟩
      have := (h.before_iff ha hb hc hib hj).1 hB
      omega
    · rintro ⟨hj, hB⟩
      obtain ⟨g', c, hc, hjc⟩ := h.locate hj
      rw [h.before_iff ha hb hc hib hjc] at hB
      exact ⟨g', c, by omega, hc, hjc⟩
  | dense =>
    obtain ⟨ks, hks⟩ : ∃ ks : List Nat, B.map List.head? = ks.map some := by
      have hne := h.nonempty
      clear h hb hg
      induction B with
      | nil => exact ⟨[], rfl⟩
      | cons b B ih =>
        obtain ⟨ks, h⟩ := ih (fun c hc => hne c (by simp [hc]))
        cases b with
        | nil => exact absurd rfl (hne [] (by simp))
        | cons k b => exact ⟨k :: ks, by simp [h]⟩
    have hlen : ks.length = B.length := by
      have := congrArg List.length hks
      simpa using this.symm
    have hhd : ∀ (g k : Nat), ks[g]? = some k → ∃ b, B[g]? = some b ∧ b.head? = some k := by
      intro g k hg
      have := congrArg (fun l => l[g]?) hks
      simp only [List.getElem?_map, hg] at this
      cases hb : B[g]? with
      | none => simp [hb] at this
      | some b =>
        simp only [hb, Option.map_some, Option.some.injEq] at this
        exact ⟨b, rfl, this⟩
    have hgB := (List.getElem?_eq_some_iff.1 hb).1
    have hinj : ∀ (g g' k : Nat), ks[g]? = some k → ks[g']? = some k → g = g' := by
      intro g g' k h1 h2
      obtain ⟨b1, e1, f1⟩ := hhd g k h1
      obtain ⟨b2, e2, f2⟩ := hhd g' k h2
      rw [← groupOf_eq h.nodup e1 (List.mem_of_mem_head? f1),
        ← groupOf_eq h.nodup e2 (List.mem_of_mem_head? f2)]
    refine ⟨_, by rw [rankVal, hg], ks.take g, ?_, fun j => ?_, by rw [List.length_take]; omega⟩
    · have : ks.Nodup := by
        rw [List.nodup_iff_getElem?_ne_getElem?]
        intro p q hpq hq he
        have hp' : ks[p]? = some ks[p] := List.getElem?_eq_getElem (by omega)
        have := hinj p q ks[p] hp' (he ▸ hp')
        omega
      exact (List.take_sublist g ks).nodup this
    · rw [List.mem_iff_getElem?]
      constructor
      · rintro ⟨g', hg'⟩
        rw [List.getElem?_take] at hg'
        split at hg'
        · obtain ⟨c, hc, hj⟩ := hhd g' j hg'
          have hjc := List.mem_of_mem_head? hj
          refine ⟨h.lt hc hjc, (h.before_iff ha hc hb hjc hib).2 (by assumption), ?_⟩
          intro j' hj' hlt
          obtain ⟨g'', d, hd, hjd⟩ := h.locate hj'
          rcases Nat.lt_trichotomy g' g'' with h1 | h1 | h1
          · exact Or.inl ((h.before_iff ha hc hd hjc hjd).2 h1)
          · subst h1
            rw [hc] at hd
            cases hd
            cases c with
            | nil => simp at hj
            | cons k c =>
              simp only [List.head?_cons, Option.some.injEq] at hj
              subst hj
              have := h.increasing _ (List.mem_of_getElem? hc)
              rw [List.pairwise_cons] at this
              rcases List.mem_cons.1 hjd with rfl | h2
              · omega
              · have := this.1 j' h2
                omega
          · exact Or.inr ((h.before_iff ha hd hc hjd hjc).2 h1)
        · cases hg'
      · rintro ⟨hj, hB, hfirst⟩
        obtain ⟨g', c, hc, hjc⟩ := h.locate hj
        have hlt := (h.before_iff ha hc hb hjc hib).1 hB
        refine ⟨g', ?_⟩
        rw [List.getElem?_take, if_pos hlt]
        have hk : ks[g']? = some ks[g'] := List.getElem?_eq_getElem (by omega)
        rw [hk]
        obtain ⟨c', hc', hh⟩ := hhd g' _ hk
        rw [hc] at hc'
        cases hc'
        congr 1
        generalize ks[g'] = k at *
        have hkc := List.mem_of_mem_head? hh
        by_contra hne
        have hkj : k < j := by
          cases c with
          | nil => simp at hh
          | cons k' c =>
            simp only [List.head?_cons, Option.some.injEq] at hh
            subst hh
            have := h.increasing _ (List.mem_of_getElem? hc)
            rw [List.pairwise_cons] at this
            rcases List.mem_cons.1 hjc with rfl | h2
            · exact absurd rfl hne
            · exact this.1 j h2
        have hcB := List.mem_of_getElem? hc
        rcases hfirst k (h.lt hc hkc) hkj with h1 | h1
        · exact h.tied c hcB _ hjc _ hkc h1
        · exact h.tied c hcB _ hkc _ hjc h1
  | sequential =>
    have hiF : i ∈ B.flatten := h.perm.mem_iff.2 (List.mem_range.2 hi)
    have hp := List.idxOf_lt_length_iff.2 hiF
    have hpi : B.flatten[B.flatten.idxOf i] = i := List.getElem_idxOf hp
    have hst : B.flatten.Pairwise (fun i j => before i j ∨ (¬ before j i ∧ i < j)) := by
      obtain ⟨p, he, hperm, hpw⟩ := h.stable
      have : B.flatten = p := (List.map_injective_iff.2 (fun a b h => by simpa using h)) he
      rw [this]
      exact hpw
    have hget := List.pairwise_iff_getElem.1 hst
    refine ⟨_, rfl, B.flatten.take (B.flatten.idxOf i), (List.take_sublist _ _).nodup h.nodup,
      fun j => ?_, by rw [List.length_take]; omega⟩
    constructor
    · intro hj
      obtain ⟨q, hq, rfl⟩ := List.mem_iff_getElem.1 hj
      rw [List.length_take] at hq
      rw [List.getElem_take]
      have := hget q (B.flatten.idxOf i) (by omega) hp (by omega)
      rw [hpi] at this
      exact ⟨List.mem_range.1 (h.perm.mem_iff.1 (List.getElem_mem _)), this⟩
    · rintro ⟨hj, hB⟩
      have hjF : j ∈ B.flatten := h.perm.mem_iff.2 (List.mem_range.2 hj)
      obtain ⟨q, hq, rfl⟩ := List.mem_iff_getElem.1 hjF
      have hqp : q < B.flatten.idxOf i := by
        rcases Nat.lt_trichotomy q (B.flatten.idxOf i) with h1 | h1 | h1
        · exact h1
        · have e : B.flatten[q] = i := by
            rw [← hpi]; congr 1
          rw [e] at hB
          rcases hB with h2 | h2
          · exact absurd h2 (ha i i hi hi h2)
          · omega
        · exfalso
          have := hget _ q hp hq h1
          rw [hpi] at this
          rcases hB with h2 | ⟨h2, h3⟩ <;> rcases this with h4 | ⟨h4, h5⟩
          · exact ha _ _ hj hi h2 h4
          · exact h4 h2
          · exact h2 h4
          · omega
      exact List.mem_iff_getElem.2 ⟨q, by rw [List.length_take]; omega, by rw [List.getElem_take]⟩

/-! ## Ranks of some of the rows -/

theorem Spec.HasCount.map {P P' : Nat → Prop} {l : List Nat} (hl : l.Nodup)
    (h : ∀ (a i : Nat), l[a]? = some i → (P' a ↔ P i)) (h1 : ∀ a, P' a → a < l.length)
    (h2 : ∀ i, P i → i ∈ l) {k : Nat} (hk : HasCount P' k) : HasCount P k := by
  obtain ⟨w, hw, hm, hlen⟩ := hk
  have hb : ∀ a ∈ w, a < l.length := fun a ha => h1 a ((hm a).1 ha)
  refine ⟨pickList w l, ?_, fun j => ?_, by rw [pickList_length hb, hlen]⟩
  · rw [List.nodup_iff_getElem?_ne_getElem?]
    intro p q hpq hq he
    rw [pickList_length hb] at hq
    rw [pickList_get hb (List.getElem?_eq_getElem (show p < w.length by omega)),
      pickList_get hb (List.getElem?_eq_getElem hq)] at he
    have hp1 := hb _ (List.getElem_mem (show p < w.length by omega))
    have hq1 := hb _ (List.getElem_mem hq)
    rw [List.getElem?_eq_getElem hp1, List.getElem?_eq_getElem hq1, Option.some_inj,
      List.Nodup.getElem_inj_iff hl, List.Nodup.getElem_inj_iff hw] at he
    omega
  · unfold pickList
    rw [List.mem_filterMap]
    constructor
    · rintro ⟨a, ha, hj⟩
      exact (h a j hj).1 ((hm a).1 ha)
    · intro hj
      obtain ⟨a, ha⟩ := List.mem_iff_getElem?.1 (h2 j hj)
      exact ⟨a, (hm a).2 ((h a j ha).2 hj), ha⟩

theorem Spec.IsRank.pick {before before' : Nat → Nat → Prop} {l : List Nat} (hl : l.Pairwise (· < ·))
    (h : ∀ (a b i j : Nat), l[a]? = some i → l[b]? = some j → (before' a b ↔ before i j))
    {a i : Nat} (ha : l[a]? = some i) {r : Int} {ties : Ties}
    (hr : IsRank before' (fun b => b < l.length) a r ties) :
    IsRank before (fun j => j ∈ l) i r ties := by
  have hnd : l.Nodup := hl.imp (fun h => by omega)
  have hlt : ∀ (a b i j : Nat), l[a]? = some i → l[b]? = some j → (a < b ↔ i < j) := by
    intro a b i j h1 h2
    obtain ⟨g1, rfl⟩ := List.getElem?_eq_some_iff.1 h1
    obtain ⟨g2, rfl⟩ := List.getElem?_eq_some_iff.1 h2
    have hp := List.pairwise_iff_getElem.1 hl
    constructor
    · exact fun h => hp a b g1 g2 h
    · intro h
      rcases Nat.lt_trichotomy a b with h3 | h3 | h3
      · exact h3
      · subst h3; omega
      · have := hp b a g2 g1 h3
        omega
  have hmem : ∀ (b j : Nat), l[b]? = some j → (b < l.length ↔ j ∈ l) := by
    intro b j hb
    exact ⟨fun _ => List.mem_of_getElem? hb, fun _ => (List.getElem?_eq_some_iff.1 hb).1⟩
  cases ties with
  | min =>
    obtain ⟨k, hk, hc⟩ := hr
    refine ⟨k, hk, HasCount.map hnd (fun b j hb => ?_) (fun b hb => hb.1) (fun j hj => hj.1) hc⟩
    dsimp only
    rw [hmem b j hb, h b a j i hb ha]
  | max =>
    obtain ⟨k, hk, hc⟩ := hr
    refine ⟨k, hk, HasCount.map hnd (fun b j hb => ?_) (fun b hb => hb.1) (fun j hj => hj.1) hc⟩
    dsimp only
    rw [hmem b j hb, h a b i j ha hb]
  | sequential =>
    obtain ⟨k, hk, hc⟩ := hr
    refine ⟨k, hk, HasCount.map hnd (fun b j hb => ?_) (fun b hb => hb.1) (fun j hj => hj.1) hc⟩
    dsimp only
    rw [hmem b j hb, h a b i j ha hb, h b a j i hb ha, hlt b a j i hb ha]
  | dense =>
    obtain ⟨k, hk, hc⟩ := hr
    refine ⟨k, hk, HasCount.map hnd (fun b j hb => ?_) (fun b hb => hb.1) (fun j hj => hj.1) hc⟩
    dsimp only
    rw [hmem b j hb, h b a j i hb ha]
    refine and_congr_right (fun _ => and_congr_right (fun _ => ?_))
    constructor
    · intro H j' hj' hlt'
      obtain ⟨b', hb'⟩ := List.mem_iff_getElem?.1 hj'
      have := H b' (List.getElem?_eq_some_iff.1 hb').1 ((hlt b' b j' j hb' hb).2 hlt')
      rw [h b b' j j' hb hb', h b' b j' j hb' hb] at this
      exact this
    · intro H b' hb' hlt'
      have hb'' : l[b']? = some l[b'] := List.getElem?_eq_getElem hb'
      have := H l[b'] (List.getElem_mem _) ((hlt b' b _ j hb'' hb).1 hlt')
      rw [h b b' j _ hb hb'', h b' b _ j hb'' hb]
      exact this

theorem Spec.IsRank.congr {before : Nat → Nat → Prop} {S S' : Nat → Prop} (h : ∀ j, S j ↔ S' j)
    {i : Nat} {r : Int} {ties : Ties} (hr : IsRank before S i r ties) :
    IsRank before S' i r ties := by
  have : S = S' := by funext j; exact propext (h j)
  exact this ▸ hr

/-! ## Putting ranks in place -/

theorem truePos_take_succ {w : List Bool} {i : Nat} {b : Bool} (h : w[i]? = some b) :
    truePos (w.take (i + 1)) = truePos (w.take i) ++ if b then [i] else [] := by
  have hi := (List.getElem?_eq_some_iff.1 h).1
  unfold truePos
  rw [List.length_take, List.length_take, Nat.min_eq_left (by omega), Nat.min_eq_left (by omega),
    List.range_succ, List.filter_append]
  congr 1
  · apply List.filter_congr
    intro j hj
    rw [List.mem_range] at hj
    rw [List.getElem?_take_of_lt (by omega), List.getElem?_take_of_lt hj]
  · rw [List.filter_singleton, List.getElem?_take_of_lt (by omega), h]
    cases b <;> rfl

theorem truePos_take_prefix (w : List Bool) (i : Nat) : truePos (w.take i) <+: truePos w := by
  by_cases hi : i ≤ w.length
  · obtain ⟨m, hm⟩ : ∃ m, w.length = i + m := ⟨w.length - i, by omega⟩
    have : ∀ m, i + m ≤ w.length → truePos (w.take i) <+: truePos (w.take (i + m)) := by
      intro m
      induction m with
      | zero => intro _; exact List.prefix_refl _
      | succ m ih =>
        intro hle
        refine (ih (by omega)).trans ?_
        rw [← Nat.add_assoc, truePos_take_succ (List.getElem?_eq_getElem (by omega))]
        exact List.prefix_append _ _
    have := this m (by omega)
    rwa [← hm, List.take_length] at this
  · rw [List.take_of_length_le (by omega)]

theorem rankSpread_ok {w : List Bool} {rank : List Int} (h : rank.length = (truePos w).length) :
    Ret (rankSpread w rank w.length) (fun s => Ret (initd s.1) (fun out => out.length = w.length ∧
      (∀ (i : Nat), w[i]? = some false → out[i]? = some naInt) ∧
      (∀ (a i : Nat), (truePos w)[a]? = some i → out[i]? = rank[a]?))) := by
  unfold rankSpread
  refine (Ret.forN (fun k (s : List (Option Int) × Nat) => s.2 = (truePos (w.take k)).length ∧
    Filled (fun i v => (w[i]? = some false → v = naInt) ∧
      (∀ a : Nat, (truePos w)[a]? = some i → rank[a]? = some v)) w.length k s.1) ⟨by simp [truePos],
        Filled.start _ _⟩ ?_).mono ?_
  · rintro i ⟨buf, j⟩ hi ⟨h1, h2⟩
    dsimp only at h1 h2 ⊢
    have hw : w[i]? = some w[i] := List.getElem?_eq_getElem hi
    refine Ret.bind_eq (rd_of_getElem? hw) ?_
    have hsucc := truePos_take_succ hw
    have hpre := truePos_take_prefix w (i + 1)
    cases hb : w[i] with
    | true =>
      rw [hb] at hw hsucc
      rw [if_pos rfl] at hsucc
      simp only [if_true]
      have hji : (truePos w)[j]? = some i := by
        obtain ⟨t, ht⟩ := hpre
        rw [← ht, hsucc, h1, List.append_assoc, List.getElem?_append_right (Nat.le_refl _), Nat.sub_self]
        rfl
      have hj : j < rank.length := by rw [h]; exact (List.getElem?_eq_some_iff.1 hji).1
      refine Ret.bind_eq (rd_ok hj) ?_
      obtain ⟨hw1, hF⟩ := h2.step (r := rank[j]) hi ⟨fun h => (by rw [hw] at h; cases h), by
        intro a ha
        obtain rfl : a = j := by
          have hnd : (truePos w).Nodup := (truePos_sorted w).imp (fun h => by omega)
          have h3 := (List.getElem?_eq_some_iff.1 ha).1
          have h4 := (List.getElem?_eq_some_iff.1 hji).1
          rw [← hji, List.getElem?_eq_getElem h3, List.getElem?_eq_getElem h4, Option.some_inj,
            List.Nodup.getElem_inj_iff hnd] at ha
          exact ha
        exact List.getElem?_eq_getElem hj⟩
      refine Ret.bind_eq hw1 (Ret.ok ⟨?_, hF⟩)
      dsimp only
      rw [hsucc, List.length_append, h1]; rfl
    | false =>
      rw [hb] at hw hsucc
      simp only [Bool.false_eq_true, if_false, List.append_nil] at hsucc ⊢
      obtain ⟨hw1, hF⟩ := h2.step (r := naInt) hi ⟨fun _ => rfl, by
        intro a ha
        have := mem_truePos.1 (List.mem_of_getElem? ha)
        rw [hw] at this
        cases this⟩
      exact Ret.bind_eq hw1 (Ret.ok ⟨by dsimp only; rw [hsucc, h1], hF⟩)
  · rintro ⟨buf, j⟩ ⟨h1, h2⟩
    dsimp only at h1 h2 ⊢
    obtain ⟨out, ho, hl, hv⟩ := h2.done
    refine ⟨out, ho, hl, ?_, ?_⟩
    · intro i hi
      have hi' := (List.getElem?_eq_some_iff.1 hi).1
      have hoi : out[i]? = some out[i] := List.getElem?_eq_getElem (by omega)
      rw [hoi, (hv i _ hoi).1 hi]
    · intro a i hai
      have hi' := (List.getElem?_eq_some_iff.1 (mem_truePos.1 (List.mem_of_getElem? hai))).1
      have hoi : out[i]? = some out[i] := List.getElem?_eq_getElem (by omega)
      rw [hoi, (hv i _ hoi).2 a hai]

end Vctrs
