import Verif.Lemmas.MatchNest
import Verif.Lemmas.Rank

/-!
# The order of the haystack, with its containers
-/

namespace Vctrs

open Spec

theorem perm_get_lt {p : List Nat} {n : Nat} (h : p.Perm (List.range n)) {t i : Nat}
    (ht : p[t]? = some i) : i < n := List.mem_range.1 (h.mem_iff.1 (List.mem_of_getElem? ht))

theorem perm_locate {p : List Nat} {n : Nat} (h : p.Perm (List.range n)) {i : Nat}
    (hi : i < n) : ∃ t, t < n ∧ p[t]? = some i := by
  obtain ⟨t, ht⟩ := List.mem_iff_getElem?.1 (h.mem_iff.2 (List.mem_range.2 hi))
  have := (List.getElem?_eq_some_iff.1 ht).1
  rw [h.length_eq, List.length_range] at this
  exact ⟨t, this, ht⟩

/-- What the containers are for. -/
structure IdsOk (X : Nat → Nat → Int) (f nc m : Nat) (p : List Nat) (r : List Int × Nat) : Prop where
  pos : 1 ≤ r.2
  le : r.2 ≤ m + 1
  ids : ∃ idf : Nat → Nat, r.1 = (List.range m).map (fun i => (idf i : Int)) ∧
    (∀ i, i < m → idf i < r.2) ∧
    ∀ (t t' i j : Nat), t ≤ t' → p[t]? = some i → p[t']? = some j → idf i = idf j → NestRel X f nc i j

theorem groups_le {before : Nat → Nat → Prop} {n : Nat} {B : List (List Nat)}
    (h : TieGroups before n B) : B.length ≤ n := by
  have h1 := h.perm.length_eq
  rw [List.length_range, List.length_flatten] at h1
  have : ∀ l : List (List Nat), (∀ b ∈ l, b ≠ []) → l.length ≤ (l.map List.length).sum := by
    intro l
    induction l with
    | nil => intro _; simp
    | cons b l ih =>
      intro hl
      have := ih fun c hc => hl c (List.mem_cons_of_mem _ hc)
      have := List.length_pos_of_ne_nil (hl b List.mem_cons_self)
      simp only [List.length_cons, List.map_cons, List.sum_cons]
      omega
  have := this B h.nonempty
  omega

theorem nestIds_ok {X : Nat → Nat → Int} {f nc n : Nat} (hf : f < nc) {B : List (List Nat)}
    (hB : TieGroups (ColLt X nc) n B) {cols : List (List Int)}
    (hcols : ColsAre cols n (fun c => X (f + c))) (hlen : cols.length = nc - f)
    {outer : Option (List Nat)} (ho : OuterIs X f n outer) :
    Ret (nestIds cols (B.flatten.map (fun (i : Nat) => (i : Int) + 1)) (B.map List.length) outer n)
      (fun r => IdsOk X f nc n B.flatten r ∧ (f + 1 = nc → r.2 = 1)) := by
  unfold nestIds
  dsimp only
  have zeros : List.replicate n (0 : Int) = (List.range n).map (fun _ => ((0 : Nat) : Int)) := by
    rw [List.map_const', List.length_range]
    rfl
  by_cases h0 : n = 0
  · rw [if_pos h0]
    refine Ret.ok ⟨⟨Nat.le_refl _, by omega, fun _ => 0, zeros, fun i hi => by omega, ?_⟩, fun _ => rfl⟩
    intro t t' i j _ hi
    have := perm_get_lt hB.perm hi
    omega
  rw [if_neg h0]
  by_cases h1 : cols.length = 1
  · rw [if_pos h1]
    refine Ret.ok ⟨⟨Nat.le_refl _, by omega, fun _ => 0, zeros, fun i hi => by simp, ?_⟩, fun _ => rfl⟩
    intro t t' i j htt hi hj _
    exact nestRel_of_sorted hf (hB.not_lt htt hi hj) fun c hc hc' => by omega
  rw [if_neg h1, List.length_map]
  refine Ret.bind (Ret.forN (NestInv X f nc n B outer) ?_ fun i s hi h =>
    nestRound_ok hf hB hcols hlen ho hi h) ?_
  · refine ⟨by simp, by simp, Nat.le_refl _, Nat.zero_le _, Nat.le_refl _, Nat.le_refl _, ?_, ?_, ?_,
      ⟨0, Nat.le_refl _, ?_, ?_⟩, ?_⟩
    · intro Bo _
      simp
    · intro t r h; exact absurd h (Nat.not_lt_zero _)
    · intro t t' r r' _ h; exact absurd h (Nat.not_lt_zero _)
    · intro t t' r r' h; exact absurd h (Nat.not_lt_zero _)
    · intro t r _ h; exact absurd h (Nat.not_lt_zero _)
    · intro k r h
      simp at h
  · intro s h
    have hst : s.start = n := by
      rw [h.start, List.take_length, hB.perm.length_eq, List.length_range]
    have hid : ∀ i, i < n → ∃ id : Nat, s.ids[i]? = some (id : Int) ∧ id < s.n := by
      intro i hi
      obtain ⟨t, ht, hp⟩ := perm_locate hB.perm hi
      exact h.ids t i (by omega) hp
    have hids : s.ids = (List.range n).map (fun i => (((s.ids[i]?.getD 0).toNat : Nat) : Int)) := by
      apply List.ext_getElem?
      intro i
      by_cases hi : i < n
      · obtain ⟨id, e, _⟩ := hid i hi
        simp [hi, e]
      · rw [List.getElem?_eq_none (by rw [h.len]; omega), List.getElem?_eq_none (by simp; omega)]
    refine Ret.ok ⟨⟨h.n1, ?_, fun i => (s.ids[i]?.getD 0).toNat, hids, ?_, ?_⟩, fun hc => by omega⟩
    · have := h.ni
      have := groups_le hB
      dsimp only
      omega
    · intro i hi
      obtain ⟨id, e, hlt⟩ := hid i hi
      simp only [e, Option.getD_some, Int.toNat_natCast]
      exact hlt
    · intro t t' i j htt hi hj hij
      have hi' := perm_get_lt hB.perm hi
      have hj' := perm_get_lt hB.perm hj
      refine h.rel t t' i j htt ?_ hi hj ?_
      · rw [hst]
        have := (List.getElem?_eq_some_iff.1 hj).1
        rw [hB.perm.length_eq, List.length_range] at this
        exact this
      · obtain ⟨id, e, _⟩ := hid i hi'
        obtain ⟨id', e', _⟩ := hid j hj'
        dsimp only at hij
        rw [e, e'] at hij ⊢
        simp only [Option.getD_some, Int.toNat_natCast] at hij
        rw [hij]

theorem haystackProxy_ok {before : Nat → Nat → Prop} {n : Nat} {B : List (List Nat)}
    (hB : TieGroups before n B) :
    haystackProxy (B.flatten.map (fun (i : Nat) => (i : Int) + 1)) (B.map List.length) n =
      .ok ((List.range n).map (fun i => (groupOf B i : Int))) := by
  have hF : ∀ r ∈ B.flatten, r < n := fun r hr => List.mem_range.1 (hB.perm.mem_iff.1 hr)
  have main : Ret (forN B.length (fun i (s : List (Option Int) × Nat) => do
    let z ← rd (B.map List.length) i
    rankFill (B.flatten.map (fun (i : Nat) => (i : Int) + 1)) (i : Int) z s) (alloc Int n, 0))
    (fun s => Ranked (fun i => (groupOf B i : Int)) n B.flatten B.flatten.length s.1) := by
    refine (Ret.forN (fun g (s : List (Option Int) × Nat) => s.2 = (B.take g).flatten.length ∧
      Ranked (fun i => (groupOf B i : Int)) n B.flatten (B.take g).flatten.length s.1)
      ⟨by simp, ?_⟩ ?_).mono ?_
    · refine ⟨by simp [alloc], ?_⟩
      intro p r hp
      simp at hp
    · rintro g ⟨buf, k⟩ hg ⟨h1, h2⟩
      dsimp only at h1 h2 ⊢
      subst h1
      have hb : B[g]? = some B[g] := List.getElem?_eq_getElem hg
      rw [rd_length hb, ok_bind]
      refine rankFill_group hF hb ?_ h2
      intro r hr
      rw [groupOf_eq hB.nodup hb hr]
    · rintro s ⟨_, h⟩
      rw [List.take_length] at h
      exact h
  obtain ⟨s, h1, h2⟩ := main
  unfold haystackProxy
  rw [List.length_map]
  refine (bind_eq_of (a := s) h1 ?_)
  exact h2.final hB.perm

/-- The order of the haystack and its containers are as the recursion needs them. -/
structure NestOk (X : Nat → Nat → Int) (nc m : Nat) (op : Nat → MOp) (info : NestInfo)
    (p : List Nat) (idf : Nat → Nat) : Prop where
  perm : p.Perm (List.range m)
  order : info.o = p.map (fun (i : Nat) => (i : Int) + 1)
  ids : info.n ≠ 1 → info.ids = (List.range m).map (fun i => (idf i : Int))
  lt : ∀ i, i < m → idf i < info.n
  mono : ∀ (t t' i j : Nat), t ≤ t' → p[t]? = some i → p[t']? = some j → idf i ≤ idf j
  nest : ∀ (t t' i j : Nat), t ≤ t' → p[t]? = some i → p[t']? = some j → idf i = idf j →
    ∀ (g : Int → Nat) (k k' : Int), g k = i → g k' = j → NestLe op (fun c k => X c (g k)) nc 0 k k'
  nonEqui : info.nonEqui = true ↔ ∃ c, c < nc ∧ op c ≠ .eq
  stable : info.nonEqui = false → ∀ (t t' i j : Nat), t < t' → p[t]? = some i → p[t']? = some j →
    ColEq X nc i j → i < j
  single : (∀ c, c + 1 < nc → op c = .eq) → info.n = 1
  pos : 1 ≤ info.n

theorem nestOrder_ok {X : Nat → Nat → Int} {f nc n : Nat} (hf : f < nc) {B : List (List Nat)}
    (hB : TieGroups (ColLt X nc) n B) {r : List Int × Nat} (hr : IdsOk X f nc n B.flatten r)
    (hn : n ≤ intMax) {tl : TL} (h0 : ∀ u, 0 ≤ tl u) {fuel : Nat} (hfu : 2 ≤ fuel) :
    ∃ (p : List Nat) (idf : Nat → Nat), nestOrder fuel (B.flatten.map (fun (i : Nat) => (i : Int) + 1))
        (B.map List.length) r.1 n tl (List.replicate 100001 0) =
        .ok (p.map (fun (i : Nat) => (i : Int) + 1), tl, List.replicate 100001 0) ∧
      p.Perm (List.range n) ∧ r.1 = (List.range n).map (fun i => (idf i : Int)) ∧
      (∀ i, i < n → idf i < r.2) ∧
      (∀ (t t' i j : Nat), t ≤ t' → p[t]? = some i → p[t']? = some j → idf i ≤ idf j) ∧
      ∀ (t t' i j : Nat), t ≤ t' → p[t]? = some i → p[t']? = some j → idf i = idf j →
        NestRel X f nc i j := by
  obtain ⟨idf, e, hlt, hrel⟩ := hr.ids
  let Y : Nat → Nat → Int := fun c i => if c = 0 then (idf i : Int) else (groupOf B i : Int)
  have hgl : ∀ i, i < n → groupOf B i < B.length := by
    intro i hi
    obtain ⟨g, b, hb, hib⟩ := hB.locate hi
    rw [groupOf_eq hB.nodup hb hib]
    exact (List.getElem?_eq_some_iff.1 hb).1
  have hcols : ColsAre [r.1, (List.range n).map (fun i => (groupOf B i : Int))] n Y := by
    intro c v hv
    have hgn := groups_le hB
    have hle := hr.le
    match c with
    | 0 =>
      simp only [List.getElem?_cons_zero, Option.some.injEq] at hv
      subst hv
      refine ⟨e, ?_⟩
      rw [e]
      intro a ha
      obtain ⟨i, hi, rfl⟩ := List.mem_map.1 ha
      have := hlt i (List.mem_range.1 hi)
      unfold IsInt naInt
      unfold intMax at hn ⊢
      omega
    | 1 =>
      simp only [List.getElem?_cons_succ, List.getElem?_cons_zero, Option.some.injEq] at hv
      subst hv
      refine ⟨rfl, ?_⟩
      intro a ha
      obtain ⟨i, hi, rfl⟩ := List.mem_map.1 ha
      have := hgl i (List.mem_range.1 hi)
      unfold IsInt naInt
      unfold intMax at hn ⊢
      omega
    | c + 2 => simp at hv
  obtain ⟨B', hB', ho⟩ := intDf_order hcols hn h0 (fuel := fuel) (by simpa using hfu)
  have split : ∀ (t t' i j : Nat), t ≤ t' → B'.flatten[t]? = some i → B'.flatten[t']? = some j →
      idf i < idf j ∨ (idf i = idf j ∧ groupOf B i ≤ groupOf B j) := by
    intro t t' i j htt hi hj
    have hnl := hB'.not_lt htt hi hj
    rcases Nat.lt_trichotomy (idf i) (idf j) with h1 | h1 | h1
    · exact .inl h1
    · refine .inr ⟨h1, ?_⟩
      refine Decidable.byContradiction fun h2 => hnl ⟨1, by simp, ?_, fun c hc => ?_⟩
      · show ((groupOf B j : Nat) : Int) < (groupOf B i : Nat)
        omega
      · have : c = 0 := by omega
        subst this
        show ((idf j : Nat) : Int) = (idf i : Nat)
        omega
    · refine absurd ⟨0, by simp, ?_, fun c hc => by omega⟩ hnl
      show ((idf j : Nat) : Int) < (idf i : Nat)
      omega
  refine ⟨B'.flatten, idf, ?_, hB'.perm, e, hlt, ?_, ?_⟩
  · unfold nestOrder
    rw [haystackProxy_ok hB, ok_bind]
    exact ho
  · intro t t' i j htt hi hj
    rcases split t t' i j htt hi hj with h | h <;> omega
  · intro t t' i j htt hi hj hij
    rcases split t t' i j htt hi hj with h | ⟨_, hg⟩
    · omega
    · have hi' := perm_get_lt hB'.perm hi
      have hj' := perm_get_lt hB'.perm hj
      obtain ⟨g, b, hb, hib⟩ := hB.locate hi'
      obtain ⟨g', b', hb', hjb⟩ := hB.locate hj'
      rw [groupOf_eq hB.nodup hb hib, groupOf_eq hB.nodup hb' hjb] at hg
      rcases Nat.eq_or_lt_of_le hg with e' | e'
      · subst e'
        rw [hb] at hb'
        cases hb'
        have hbB := List.mem_of_getElem? hb
        refine NestRel.of_eq (by omega) ?_
        rcases col_tri X nc i j with h1 | h1 | h1
        · exact absurd h1 (hB.tied b hbB i hib j hjb)
        · exact h1
        · exact absurd h1 (hB.tied b hbB j hjb i hib)
      · obtain ⟨s, hs, hps⟩ := perm_locate hB.perm hi'
        obtain ⟨s', hs', hps'⟩ := perm_locate hB.perm hj'
        have hlt' : ColLt X nc i j := (hB.before_iff (fun _ _ _ _ => colLt_asymm) hb hb' hib hjb).2 e'
        rcases Nat.lt_or_ge s' s with h1 | h1
        · exact absurd hlt' (hB.not_lt (Nat.le_of_lt h1) hps' hps)
        · exact hrel s s' i j h1 hps hps' hij

theorem ColsAre.take {cols : List (List Int)} {n : Nat} {X : Nat → Nat → Int} (h : ColsAre cols n X)
    (k : Nat) : ColsAre (cols.take k) n X := by
  intro c v hv
  rw [List.getElem?_take] at hv
  split at hv
  · exact h c v hv
  · cases hv

theorem ColsAre.drop {cols : List (List Int)} {n : Nat} {X : Nat → Nat → Int} (h : ColsAre cols n X)
    (k : Nat) : ColsAre (cols.drop k) n (fun c => X (k + c)) := by
  intro c v hv
  rw [List.getElem?_drop] at hv
  exact h (k + c) v hv

theorem outerSizes_ok {cols : List (List Int)} {n : Nat} {X : Nat → Nat → Int} (h : ColsAre cols n X)
    (hn : n ≤ intMax) {f : Nat} (hf : f < cols.length) {tl : TL} (h0 : ∀ u, 0 ≤ tl u) {fuel : Nat}
    (hfu : cols.length ≤ fuel) :
    ∃ outer, OuterIs X f n outer ∧ outerSizes fuel cols n f tl (List.replicate 100001 0) =
      .ok (outer, tl, List.replicate 100001 0) := by
  unfold outerSizes
  by_cases hf0 : f ≠ 0
  · rw [if_pos hf0]
    obtain ⟨⟨⟨o, g⟩, tl', st⟩, h1, h2, h3, B, hB, h4, h5⟩ := intDf_info (h.take f) hn true h0
      (fuel := fuel) (by rw [List.length_take]; omega)
    dsimp only at h2 h3 h4 h5
    rw [if_pos rfl] at h5
    subst h2 h3 h4 h5
    rw [h1, ok_bind]
    rw [List.length_take, Nat.min_eq_left (by omega)] at hB
    exact ⟨some (B.map List.length), ⟨B, hB, rfl⟩, rfl⟩
  · rw [if_neg hf0]
    exact ⟨none, trivial, rfl⟩

theorem nestInfo_ok {cols : List (List Int)} {m : Nat} {X : Nat → Nat → Int} (h : ColsAre cols m X)
    (hm : m ≤ intMax) {ops : List MOp} {op : Nat → MOp} (hl : ops.length = cols.length)
    (hop : ∀ c, c < cols.length → ops[c]? = some (op c)) {tl : TL} (h0 : ∀ u, 0 ≤ tl u) {fuel : Nat}
    (hfu : cols.length + 1 ≤ fuel) :
    ∃ info p idf, nestInfo fuel cols m ops tl (List.replicate 100001 0) =
        .ok (info, tl, List.replicate 100001 0) ∧ NestOk X cols.length m op info p idf := by
  unfold nestInfo
  cases hfi : ops.findIdx? (fun op => op != .eq) with
  | none =>
    dsimp only
    have alleq : ∀ c, c < cols.length → op c = .eq := by
      intro c hc
      have := List.findIdx?_eq_none_iff.1 hfi _ (List.mem_of_getElem? (hop c hc))
      simpa using this
    obtain ⟨B, hB, ho⟩ := intDf_order h hm h0 (fuel := fuel) (by omega)
    rw [ho, ok_bind]
    refine ⟨⟨B.flatten.map (fun (i : Nat) => (i : Int) + 1), [], 1, false⟩, B.flatten, fun _ => 0, rfl,
      hB.perm, rfl, fun h => absurd rfl h, fun i _ => by simp, fun _ _ _ _ _ _ _ => Nat.le_refl _, ?_,
      ?_, ?_, fun _ => rfl, Nat.le_refl _⟩
    · intro t t' i j htt hi hj _ g k k' hg hg'
      exact nestLe_of_eq hg hg' alleq (hB.not_lt htt hi hj) _ _ (by omega) fun c hc => by omega
    · constructor
      · intro h; cases h
      · rintro ⟨c, hc, hne⟩
        exact absurd (alleq c hc) hne
    · intro _ t t' i j htt hi hj he
      rcases hB.ordered htt hi hj with h1 | h1
      · exact absurd h1 (colLt_irrefl he)
      · exact h1.2
  | some f =>
    dsimp only
    obtain ⟨hf, hfne, hfeq⟩ := List.findIdx?_eq_some_iff_getElem.1 hfi
    rw [hl] at hf
    have opne : op f ≠ .eq := by
      have := hop f hf
      rw [List.getElem?_eq_getElem (by omega)] at this
      rw [Option.some.inj this] at hfne
      simpa using hfne
    have opeq : ∀ c, c < f → op c = .eq := by
      intro c hc
      have := hop c (by omega)
      rw [List.getElem?_eq_getElem (by omega)] at this
      have h' := hfeq c hc
      rw [Option.some.inj this] at h'
      simpa using h'
    have nonE : ∃ c, c < cols.length ∧ op c ≠ .eq := ⟨f, hf, opne⟩
    obtain ⟨⟨⟨o, g⟩, tl', st⟩, h1, h2, h3, B, hB, h4, h5⟩ := intDf_info h hm true h0
      (fuel := fuel) (by omega)
    dsimp only at h2 h3 h4 h5
    rw [if_pos rfl] at h5
    subst h2 h3 h4 h5
    rw [h1, ok_bind]
    dsimp only
    obtain ⟨outer, hou, ho⟩ := outerSizes_ok h hm hf h0 (fuel := fuel) (by omega)
    rw [ho, ok_bind]
    dsimp only
    obtain ⟨⟨ids, n⟩, hi1, hi2, hi3⟩ := nestIds_ok hf hB (h.drop f) (by rw [List.length_drop]) hou
    rw [hi1, ok_bind]
    dsimp only at hi3 ⊢
    have single : (∀ c, c + 1 < cols.length → op c = .eq) → n = 1 := by
      intro hall
      refine hi3 ?_
      refine Decidable.byContradiction fun hne => opne (hall f (by omega))
    by_cases hn1 : n = 1
    · subst hn1
      rw [if_pos rfl]
      obtain ⟨idf, e, hlt, hrel⟩ := hi2.ids
      dsimp only at e hlt hrel
      refine ⟨⟨B.flatten.map (fun (i : Nat) => (i : Int) + 1), [], 1, true⟩, B.flatten, fun _ => 0, rfl,
        hB.perm, rfl, fun h => absurd rfl h, fun i _ => by simp, fun _ _ _ _ _ _ _ => Nat.le_refl _, ?_,
        ⟨fun _ => nonE, fun _ => rfl⟩, (fun h => by cases h), fun _ => rfl, Nat.le_refl _⟩
      intro t t' i j htt hi hj _ g k k' hg hg'
      refine (hrel t t' i j htt hi hj ?_).nestLe hg hg' opeq _ _ (by omega) (Nat.zero_le _)
        fun c hc => by omega
      have a := hlt i (perm_get_lt hB.perm hi)
      have b := hlt j (perm_get_lt hB.perm hj)
      omega
    · rw [if_neg hn1]
      obtain ⟨p, idf, ho', hp, e, hlt, hmono, hrel⟩ := nestOrder_ok hf hB hi2 hm h0 (fuel := fuel)
        (by omega)
      dsimp only at ho' e hlt
      rw [ho', ok_bind]
      refine ⟨⟨p.map (fun (i : Nat) => (i : Int) + 1), ids, n, true⟩, p, idf, rfl, hp, rfl, fun _ => e,
        hlt, hmono, ?_, ⟨fun _ => nonE, fun _ => rfl⟩, (fun h => by cases h), fun h => single h, hi2.pos⟩
      intro t t' i j htt hi hj hij g k k' hg hg'
      exact (hrel t t' i j htt hi hj hij).nestLe hg hg' opeq _ _ (by omega) (Nat.zero_le _)
        fun c hc => by omega

end Vctrs
