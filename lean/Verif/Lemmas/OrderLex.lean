import Verif.Lemmas.OrderSorted

/-!
# Ordering by several keys
-/

namespace Vctrs

/-- Lexicographic order: the first keys that differ decide. -/
def LexLt (a b : List Nat) : Prop :=
  ∃ p x y s t, a = p ++ x :: s ∧ b = p ++ y :: t ∧ x < y

section
variable {β κ : Type} [DecidableEq κ]

/-- Nonempty blocks of ties. -/
structure TieBlocks (R : κ → κ → Prop) (key : β → κ) (B : List (List β)) : Prop where
  ne : ∀ b ∈ B, b ≠ []
  tied : ∀ b ∈ B, ∀ a ∈ b, ∀ c ∈ b, key a = key c
  sep : B.Pairwise (fun b c => ∀ a ∈ b, ∀ d ∈ c, R (key a) (key d))

omit [DecidableEq κ] in
theorem blocks_to_ties {R : κ → κ → Prop} {key : β → κ} : (bs : List (κ × Nat)) → (w : List β) →
    Blocks R (w.map key) bs →
    ∃ B, TieBlocks R key B ∧ w = B.flatten ∧ bs.map (·.2) = B.map List.length
  | [], w, h => by
      have := h.eq
      simp at this
      subst this
      exact ⟨[], ⟨by simp, by simp, List.Pairwise.nil⟩, rfl, rfl⟩
  | b :: bs, w, h => by
      have he := h.eq
      rw [List.flatMap_cons] at he
      obtain ⟨w1, w2, rfl, h1, h2⟩ := List.map_eq_append_iff.1 he
      obtain ⟨B, hB, rfl, hl⟩ := blocks_to_ties bs w2
        ⟨fun c hc => h.pos c (by simp [hc]), (List.pairwise_cons.1 h.lt).2, h2⟩
      have hl1 : w1.length = b.2 := by
        have := congrArg List.length h1
        simpa using this
      have hk : ∀ a ∈ w1, key a = b.1 := by
        intro a ha
        have : key a ∈ w1.map key := List.mem_map_of_mem ha
        rw [h1] at this
        exact (List.mem_replicate.1 this).2
      refine ⟨w1 :: B, ⟨?_, ?_, ?_⟩, by simp, by simp [hl1, hl]⟩
      · intro c hc
        rcases List.mem_cons.1 hc with rfl | hc
        · have := h.pos b (by simp)
          intro hn
          subst hn
          simp at hl1
          omega
        · exact hB.ne c hc
      · intro c hc
        rcases List.mem_cons.1 hc with rfl | hc
        · intro a ha d hd
          rw [hk a ha, hk d hd]
        · exact hB.tied c hc
      · refine List.pairwise_cons.2 ⟨?_, hB.sep⟩
        intro c hc a ha d hd
        rw [hk a ha]
        have hmem : key d ∈ (B.flatten).map key :=
          List.mem_map_of_mem (List.mem_flatten.2 ⟨c, hc, hd⟩)
        rw [h2] at hmem
        obtain ⟨e, he1, he2⟩ := List.mem_flatMap.1 hmem
        rw [(List.mem_replicate.1 he2).2]
        exact (List.pairwise_cons.1 h.lt).1 e he1

omit [DecidableEq κ] in
theorem ties_to_blocks {R : κ → κ → Prop} {key : β → κ} : (B : List (List β)) →
    TieBlocks R key B →
    ∃ bs, Blocks R (B.flatten.map key) bs ∧ bs.map (·.2) = B.map List.length
  | [], _ => ⟨[], Blocks.nil R, rfl⟩
  | b :: B, h => by
      obtain ⟨bs, hb, hl⟩ := ties_to_blocks B ⟨fun c hc => h.ne c (by simp [hc]),
        fun c hc => h.tied c (by simp [hc]), (List.pairwise_cons.1 h.sep).2⟩
      obtain ⟨a, ha⟩ := List.exists_mem_of_ne_nil b (h.ne b (by simp))
      have hbk : b.map key = List.replicate b.length (key a) := by
        rw [List.eq_replicate_iff]
        refine ⟨by simp, ?_⟩
        intro k hk
        obtain ⟨c, hc, rfl⟩ := List.mem_map.1 hk
        exact h.tied b (by simp) c hc a ha
      have hpos : 0 < b.length := List.length_pos_of_mem ha
      refine ⟨(key a, b.length) :: bs, ?_, by simp [hl]⟩
      have := (Blocks.const R (key a) hpos).append hb (by
        intro k1 hk1 k2 hk2
        rw [(List.mem_replicate.1 hk1).2]
        obtain ⟨d, hd, rfl⟩ := List.mem_map.1 hk2
        obtain ⟨c, hc, hdc⟩ := List.mem_flatten.1 hd
        exact (List.pairwise_cons.1 h.sep).1 c hc a ha d hdc)
      rw [List.flatten_cons, List.map_append, hbk]
      exact this

theorem ordered_iff_ties {R : κ → κ → Prop} {key : β → κ} {w w' : List β} {gs : List Nat} :
    Ordered R key w w' gs ↔
      (∀ k, w'.filter (fun a => decide (key a = k)) = w.filter (fun a => decide (key a = k))) ∧
      ∃ B, TieBlocks R key B ∧ w' = B.flatten ∧ gs = B.map List.length := by
  constructor
  · rintro ⟨h1, bs, h2, rfl⟩
    obtain ⟨B, hB, rfl, hl⟩ := blocks_to_ties bs w' h2
    exact ⟨h1, B, hB, rfl, hl⟩
  · rintro ⟨h1, B, hB, rfl, rfl⟩
    obtain ⟨bs, hb, hl⟩ := ties_to_blocks B hB
    exact ⟨h1, bs, hb, hl.symm⟩

end

/-- Ordering each block of ties by a further key orders by both keys. -/
theorem Ordered.refine {β κ κ' : Type} [DecidableEq κ] [DecidableEq κ'] {R : κ → κ → Prop}
    {key1 : β → κ} {w w' : List β} {gs : List Nat} (h : Ordered R key1 w w' gs) :
    ∃ B : List (List β), w' = B.flatten ∧ gs = B.map List.length ∧ (∀ b ∈ B, b ≠ []) ∧
      (∀ b ∈ B, ∀ a ∈ b, a ∈ w) ∧
      ∀ (key2 : β → Nat) (Cs : List (List β × List Nat)),
        List.Forall₂ (fun b c => Ordered (· < ·) key2 b c.1 c.2) B Cs →
      ∀ (R' : κ' → κ' → Prop) (key' : β → κ'),
        (∀ a ∈ w, ∀ b ∈ w, R (key1 a) (key1 b) → R' (key' a) (key' b)) →
        (∀ a ∈ w, ∀ b ∈ w, key1 a = key1 b → key2 a < key2 b → R' (key' a) (key' b)) →
        (∀ a ∈ w, ∀ b ∈ w, key' a = key' b ↔ key1 a = key1 b ∧ key2 a = key2 b) →
        Ordered R' key' w (Cs.flatMap (·.1)) (Cs.flatMap (·.2)) := by
  have hmem : ∀ a, a ∈ w' ↔ a ∈ w := fun a => h.mem
  obtain ⟨hf, B, hB, rfl, rfl⟩ := ordered_iff_ties.1 h
  have hBw : ∀ b ∈ B, ∀ a ∈ b, a ∈ w := fun b hb a ha =>
    (hmem a).1 (List.mem_flatten.2 ⟨b, hb, ha⟩)
  refine ⟨B, rfl, rfl, hB.ne, hBw, ?_⟩
  intro key2 Cs hCs R' key' hR1 hR2 hk
  -- the filters
  have filt : ∀ (k : κ') (B : List (List β)) (Cs : List (List β × List Nat)),
      (∀ b ∈ B, ∀ a ∈ b, a ∈ w) → (∀ b ∈ B, ∀ a ∈ b, ∀ c ∈ b, key1 a = key1 c) →
      List.Forall₂ (fun b c => Ordered (· < ·) key2 b c.1 c.2) B Cs →
      (Cs.flatMap (·.1)).filter (fun a => decide (key' a = k)) =
        B.flatten.filter (fun a => decide (key' a = k)) := by
    intro k B Cs hw ht hc
    induction hc with
    | nil => rfl
    | @cons b c B Cs hbc _ ih =>
      rw [List.flatMap_cons, List.flatten_cons, List.filter_append, List.filter_append,
        ih (fun d hd => hw d (by simp [hd])) (fun d hd => ht d (by simp [hd]))]
      congr 1
      have hbm : ∀ a, a ∈ c.1 ↔ a ∈ b := fun a => hbc.mem
      by_cases hex : ∃ a ∈ b, key' a = k
      · obtain ⟨a0, ha0, rfl⟩ := hex
        have hb1 : ∀ a ∈ b, (key' a = key' a0 ↔ key2 a = key2 a0) := by
          intro a ha
          rw [hk a (hw b (by simp) a ha) a0 (hw b (by simp) a0 ha0)]
          simp [ht b (by simp) a ha a0 ha0]
        have e1 : c.1.filter (fun a => decide (key' a = key' a0)) =
            c.1.filter (fun a => decide (key2 a = key2 a0)) := by
          apply List.filter_congr
          intro a ha
          simp [hb1 a ((hbm a).1 ha)]
        have e2 : b.filter (fun a => decide (key' a = key' a0)) =
            b.filter (fun a => decide (key2 a = key2 a0)) := by
          apply List.filter_congr
          intro a ha
          simp [hb1 a ha]
        rw [e1, e2, hbc.1]
      · have e1 : c.1.filter (fun a => decide (key' a = k)) = [] := by
          rw [List.filter_eq_nil_iff]
          intro a ha h'
          exact hex ⟨a, (hbm a).1 ha, by simpa using h'⟩
        have e2 : b.filter (fun a => decide (key' a = k)) = [] := by
          rw [List.filter_eq_nil_iff]
          intro a ha h'
          exact hex ⟨a, ha, by simpa using h'⟩
        rw [e1, e2]
  -- the blocks
  have blk : ∀ (B : List (List β)) (Cs : List (List β × List Nat)),
      (∀ b ∈ B, ∀ a ∈ b, a ∈ w) → TieBlocks R key1 B →
      List.Forall₂ (fun b c => Ordered (· < ·) key2 b c.1 c.2) B Cs →
      ∃ D, TieBlocks R' key' D ∧ Cs.flatMap (·.1) = D.flatten ∧
        Cs.flatMap (·.2) = D.map List.length := by
    intro B Cs hw hB hc
    induction hc with
    | nil => exact ⟨[], ⟨by simp, by simp, List.Pairwise.nil⟩, rfl, rfl⟩
    | @cons b c B Cs hbc hrest ih =>
      obtain ⟨D, hD, e1, e2⟩ := ih (fun d hd => hw d (by simp [hd]))
        ⟨fun d hd => hB.ne d (by simp [hd]), fun d hd => hB.tied d (by simp [hd]),
          (List.pairwise_cons.1 hB.sep).2⟩
      have hbm : ∀ a, a ∈ c.1 ↔ a ∈ b := fun a => hbc.mem
      obtain ⟨_, E, hE, f1, f2⟩ := ordered_iff_ties.1 hbc
      have hEb : ∀ e ∈ E, ∀ a ∈ e, a ∈ b := by
        intro e he a ha
        rw [← hbm, f1]
        exact List.mem_flatten.2 ⟨e, he, ha⟩
      have hEw : ∀ e ∈ E, ∀ a ∈ e, a ∈ w := fun e he a ha => hw b (by simp) a (hEb e he a ha)
      have hDw : ∀ d ∈ D, ∀ a ∈ d, a ∈ B.flatten := by
        intro d hd a ha
        have : a ∈ Cs.flatMap (·.1) := by rw [e1]; exact List.mem_flatten.2 ⟨d, hd, ha⟩
        clear ih e1 e2 hD
        induction hrest with
        | nil => simp at this
        | @cons b' c' B' Cs' hbc' _ ih =>
          rw [List.flatMap_cons] at this
          rw [List.flatten_cons]
          rcases List.mem_append.1 this with h1 | h1
          · exact List.mem_append_left _ (hbc'.mem.1 h1)
          · refine List.mem_append_right _ (ih ?_ ?_ h1)
            · intro x hx
              rcases List.mem_cons.1 hx with rfl | hx
              · exact hw x (by simp)
              · exact hw x (by simp [hx])
            · refine ⟨fun x hx => hB.ne x ?_, fun x hx => hB.tied x ?_, ?_⟩
              · rcases List.mem_cons.1 hx with rfl | hx
                · simp
                · simp [hx]
              · rcases List.mem_cons.1 hx with rfl | hx
                · simp
                · simp [hx]
              · have h3 := List.pairwise_cons.1 hB.sep
                refine List.pairwise_cons.2 ⟨fun x hx => h3.1 x (by simp [hx]),
                  (List.pairwise_cons.1 h3.2).2⟩
      refine ⟨E ++ D, ⟨?_, ?_, ?_⟩, ?_, ?_⟩
      · intro d hd
        rcases List.mem_append.1 hd with hd | hd
        · exact hE.ne d hd
        · exact hD.ne d hd
      · intro d hd a ha e he
        rcases List.mem_append.1 hd with hd | hd
        · rw [hk a (hEw d hd a ha) e (hEw d hd e he)]
          exact ⟨hB.tied b (by simp) a (hEb d hd a ha) e (hEb d hd e he), hE.tied d hd a ha e he⟩
        · exact hD.tied d hd a ha e he
      · rw [List.pairwise_append]
        refine ⟨?_, hD.sep, ?_⟩
        · refine hE.sep.imp_of_mem ?_
          intro x y hx hy hxy a ha d hd
          exact hR2 a (hEw x hx a ha) d (hEw y hy d hd)
            (hB.tied b (by simp) a (hEb x hx a ha) d (hEb y hy d hd)) (hxy a ha d hd)
        · intro x hx y hy a ha d hd
          obtain ⟨b', hb', hdb'⟩ := List.mem_flatten.1 (hDw y hy d hd)
          exact hR1 a (hEw x hx a ha) d (hw b' (by simp [hb']) d hdb')
            ((List.pairwise_cons.1 hB.sep).1 b' hb' a (hEb x hx a ha) d hdb')
      · rw [List.flatMap_cons, e1, f1, List.flatten_append]
      · rw [List.flatMap_cons, e2, f2, List.map_append]
  rw [ordered_iff_ties]
  refine ⟨?_, blk B Cs hBw hB hCs⟩
  intro k
  rw [filt k B Cs hBw hB.tied hCs]
  by_cases hex : ∃ a ∈ w, key' a = k
  · obtain ⟨a0, ha0, rfl⟩ := hex
    have e : ∀ v : List β, (∀ a ∈ v, a ∈ w) → v.filter (fun a => decide (key' a = key' a0)) =
        (v.filter (fun a => decide (key1 a = key1 a0))).filter
          (fun a => decide (key2 a = key2 a0)) := by
      intro v hv
      rw [List.filter_filter]
      apply List.filter_congr
      intro a ha
      have := hk a (hv a ha) a0 ha0
      simp only [this]
      rw [Bool.decide_and, Bool.and_comm]
    rw [e _ (fun a ha => (hmem a).1 ha), e w (fun a ha => ha), hf]
  · have e : ∀ v : List β, (∀ a ∈ v, a ∈ w) → v.filter (fun a => decide (key' a = k)) = [] := by
      intro v hv
      rw [List.filter_eq_nil_iff]
      intro a ha h'
      exact hex ⟨a, hv a ha, by simpa using h'⟩
    rw [e _ (fun a ha => (hmem a).1 ha), e w (fun a ha => ha)]

theorem LexLt.append {a b : List Nat} (h : LexLt a b) (s t : List Nat) :
    LexLt (a ++ s) (b ++ t) := by
  obtain ⟨p, x, y, u, v, rfl, rfl, hxy⟩ := h
  exact ⟨p, x, y, u ++ s, v ++ t, by simp, by simp, hxy⟩

theorem LexLt.last (p : List Nat) {x y : Nat} (h : x < y) : LexLt (p ++ [x]) (p ++ [y]) :=
  ⟨p, x, y, [], [], rfl, rfl, h⟩

/-- The keys of an element. -/
def keysOf {β : Type} (ks : List (β → Nat)) (a : β) : List Nat := ks.map (fun k => k a)

/-- `w'` is `w` ordered by several keys. -/
def LexOrdered {β : Type} (ks : List (β → Nat)) (w w' : List β) (gs : List Nat) : Prop :=
  Ordered LexLt (keysOf ks) w w' gs

theorem LexOrdered.refine {β : Type} {ks : List (β → Nat)} {w w' : List β} {gs : List Nat}
    (h : LexOrdered ks w w' gs) :
    ∃ B : List (List β), w' = B.flatten ∧ gs = B.map List.length ∧ (∀ b ∈ B, b ≠ []) ∧
      (∀ b ∈ B, ∀ a ∈ b, a ∈ w) ∧
      ∀ (key2 : β → Nat) (Cs : List (List β × List Nat)),
        List.Forall₂ (fun b c => Ordered (· < ·) key2 b c.1 c.2) B Cs →
        LexOrdered (ks ++ [key2]) w (Cs.flatMap (·.1)) (Cs.flatMap (·.2)) := by
  obtain ⟨B, h1, h2, h3, h4, h5⟩ := Ordered.refine (κ' := List Nat) h
  refine ⟨B, h1, h2, h3, h4, ?_⟩
  intro key2 Cs hC
  have happ : ∀ a, keysOf (ks ++ [key2]) a = keysOf ks a ++ [key2 a] := by
    intro a; simp [keysOf]
  refine h5 key2 Cs hC _ _ ?_ ?_ ?_
  · intro a _ b _ hab
    rw [happ, happ]
    exact hab.append _ _
  · intro a _ b _ he hlt
    rw [happ, happ, he]
    exact LexLt.last _ hlt
  · intro a _ b _
    rw [happ, happ]
    constructor
    · intro he
      have := List.append_inj he (by simp [keysOf])
      exact ⟨this.1, by simpa using this.2⟩
    · rintro ⟨e1, e2⟩
      rw [e1, e2]

/-- Ordering by one key. -/
theorem LexOrdered.single {β : Type} {key : β → Nat} {w w' : List β} {gs : List Nat}
    (h : Ordered (· < ·) key w w' gs) : LexOrdered [key] w w' gs :=
  h.congr_key (fun a _ b _ => by simp [keysOf])
    (fun a _ b _ hab => ⟨[], key a, key b, [], [], rfl, rfl, hab⟩)

theorem all_one_of_sum {β : Type} : (B : List (List β)) → (∀ b ∈ B, 1 ≤ b.length) →
    (B.map List.length).sum = B.length → ∀ b ∈ B, b.length = 1
  | [], _, _ => by simp
  | b :: B, hge, hs => by
      have hle : ∀ B : List (List β), (∀ b ∈ B, 1 ≤ b.length) →
          B.length ≤ (B.map List.length).sum := by
        intro B
        induction B with
        | nil => simp
        | cons c B ih =>
          intro h
          have := h c (by simp)
          have := ih (fun d hd => h d (by simp [hd]))
          simp; omega
      have h1 := hge b (by simp)
      have h2 := hle B (fun d hd => hge d (by simp [hd]))
      simp at hs
      intro d hd
      rcases List.mem_cons.1 hd with rfl | hd
      · omega
      · exact all_one_of_sum B (fun e he => hge e (by simp [he])) (by omega) d hd

/-- Elements that are all told apart stay so under further keys. -/
theorem LexOrdered.more {β : Type} {ks : List (β → Nat)} {w w' : List β} {gs : List Nat}
    (h : LexOrdered ks w w' gs) (hg : gs.length = w.length)
    (ks' : List (β → Nat)) : LexOrdered (ks ++ ks') w w' gs := by
  have hlen : w'.length = w.length := h.length
  have happ : ∀ a, keysOf (ks ++ ks') a = keysOf ks a ++ keysOf ks' a := by
    intro a; simp [keysOf]
  have hinj : ∀ a ∈ w, ∀ b ∈ w, keysOf ks a = keysOf ks b → a = b := by
    have hmem : ∀ a, a ∈ w' ↔ a ∈ w := fun a => h.mem
    obtain ⟨-, B, hB, rfl, rfl⟩ := ordered_iff_ties.1 h
    have h1 : ∀ b ∈ B, b.length = 1 := by
      have hs : (B.map List.length).sum = B.length := by
        rw [List.length_map] at hg
        rw [← List.length_flatten, hlen, hg]
      have hge : ∀ b ∈ B, 1 ≤ b.length := fun b hb => List.length_pos_iff.2 (hB.ne b hb)
      exact all_one_of_sum B hge hs
    intro a ha b hb he
    obtain ⟨x, hx, hax⟩ := List.mem_flatten.1 ((hmem a).2 ha)
    obtain ⟨y, hy, hby⟩ := List.mem_flatten.1 ((hmem b).2 hb)
    have hxy : x = y := by
      by_contra hne
      have hir : ∀ l : List Nat, ¬ LexLt l l := by
        rintro l ⟨p, u, v, s, t, e1, e2, huv⟩
        rw [e1] at e2
        have := List.append_inj_right e2 rfl
        simp at this
        omega
      have hp := hB.sep
      rcases (List.pairwise_iff_getElem.1 hp) with hp'
      obtain ⟨i, hi, rfl⟩ := List.getElem_of_mem hx
      obtain ⟨j, hj, rfl⟩ := List.getElem_of_mem hy
      rcases Nat.lt_trichotomy i j with hij | hij | hij
      · have := hp' i j hi hj hij a hax b hby
        rw [he] at this
        exact hir _ this
      · subst hij; exact hne rfl
      · have := hp' j i hj hi hij b hby a hax
        rw [he] at this
        exact hir _ this
    subst hxy
    obtain ⟨z, hz⟩ := List.length_eq_one_iff.1 (h1 x hx)
    rw [hz] at hax hby
    simp at hax hby
    rw [hax, hby]
  refine h.congr_key ?_ ?_
  · intro a ha b hb
    rw [happ, happ]
    constructor
    · intro he; rw [hinj a ha b hb he]
    · intro he; exact (List.append_inj he (by simp [keysOf])).1
  · intro a ha b hb hab
    rw [happ, happ]
    exact hab.append _ _

end Vctrs
