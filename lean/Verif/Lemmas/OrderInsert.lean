import Verif.Lemmas.OrderCore

/-!
# Insertion sort
-/

namespace Vctrs

variable {α β : Type}

theorem rd_append_mid {A B : List α} {h : α} {i : Nat} (hi : i = A.length) :
    rd (A ++ h :: B) i = .ok h := by
  subst hi
  exact rd_of_getElem? (by simp)

theorem wr_append_mid {A B : List α} {h v : α} {i : Nat} (hi : i = A.length) :
    wr (A ++ h :: B) i v = .ok (A ++ v :: B) := by
  subst hi
  rw [wr_ok (by simp)]
  simp

theorem insertWhile_ok (geC : α → C Bool) (ge : α → Bool) : ∀ (n : Nat) (A : List (α × β))
    (h : α × β) (B : List (α × β)), (∀ a ∈ A, geC a.1 = .ok (ge a.1)) → A.length = n → ∃ A1 A2 h', A = A1 ++ A2 ∧ (∀ a ∈ A2, ge a.1 = false) ∧
      (∀ a ∈ A1.getLast?, ge a.1 = true) ∧
      insertWhile geC n ((A ++ h :: B).map (·.1)) ((A ++ h :: B).map (·.2)) =
        .ok (A1.length, (A1 ++ h' :: (A2 ++ B)).map (·.1), (A1 ++ h' :: (A2 ++ B)).map (·.2)) := by
  intro n
  induction n with
  | zero =>
    intro A h B _ hA
    have : A = [] := List.length_eq_zero_iff.1 hA
    subst this
    exact ⟨[], [], h, rfl, by simp, by simp, rfl⟩
  | succ n ih =>
    intro A h B hC hA
    obtain ⟨A', a, rfl⟩ : ∃ A' a, A = A' ++ [a] := by
      rcases List.eq_nil_or_concat A with rfl | ⟨A', a, rfl⟩
      · simp at hA
      · exact ⟨A', a, by simp⟩
    have hA' : A'.length = n := by simpa using hA
    have e1 : rd ((A' ++ [a] ++ h :: B).map (·.1)) n = .ok a.1 := by
      rw [show (A' ++ [a] ++ h :: B).map (·.1) = A'.map (·.1) ++ a.1 :: (h :: B).map (·.1) by simp]
      exact rd_append_mid (by simp [hA'])
    have e2 : rd ((A' ++ [a] ++ h :: B).map (·.2)) n = .ok a.2 := by
      rw [show (A' ++ [a] ++ h :: B).map (·.2) = A'.map (·.2) ++ a.2 :: (h :: B).map (·.2) by simp]
      exact rd_append_mid (by simp [hA'])
    by_cases hg : ge a.1 = true
    · refine ⟨A' ++ [a], [], h, by simp, by simp, by simpa using hg, ?_⟩
      unfold insertWhile
      rw [e1, ok_bind, hC a (by simp), ok_bind, if_pos hg]
      simp [hA']
    · obtain ⟨A1, A2, h', h1, h2, h3, h4⟩ := ih A' a (a :: B)
        (fun b hb => hC b (by simp [hb])) hA'
      refine ⟨A1, A2 ++ [a], h', by simp [h1], ?_, h3, ?_⟩
      · intro b hb
        rcases List.mem_append.1 hb with hb | hb
        · exact h2 b hb
        · simp at hb; subst hb; simpa using hg
      · unfold insertWhile
        rw [e1, ok_bind, hC a (by simp), ok_bind, if_neg hg, e2, ok_bind]
        have w1 : wr ((A' ++ [a] ++ h :: B).map (·.1)) (n + 1) a.1 =
            .ok ((A' ++ a :: a :: B).map (·.1)) := by
          rw [show (A' ++ [a] ++ h :: B).map (·.1) = (A' ++ [a]).map (·.1) ++ h.1 :: B.map (·.1)
            by simp, wr_append_mid (by simp [hA'])]
          simp
        have w2 : wr ((A' ++ [a] ++ h :: B).map (·.2)) (n + 1) a.2 =
            .ok ((A' ++ a :: a :: B).map (·.2)) := by
          rw [show (A' ++ [a] ++ h :: B).map (·.2) = (A' ++ [a]).map (·.2) ++ h.2 :: B.map (·.2)
            by simp, wr_append_mid (by simp [hA'])]
          simp
        rw [w1, ok_bind, w2, ok_bind, h4]
        simp

theorem insertionLoop_ok (le : α × β → α × β → Prop) (geC : α → β → α → C Bool)
    (z : List (α × β))
    (hgeC : ∀ a ∈ z, ∀ b ∈ z, ∃ g, geC a.1 a.2 b.1 = .ok g ∧ (g = true ↔ le b a))
    (htot : ∀ a ∈ z, ∀ b ∈ z, le a b ∨ le b a)
    (htr : ∀ a ∈ z, ∀ b ∈ z, ∀ c ∈ z, le a b → le b c → le a c) :
    Ret (insertionLoop geC (z.map (·.1)) (z.map (·.2))) (fun r => ∃ z' : List (α × β), r = (z'.map (·.1), z'.map (·.2)) ∧
      z'.Pairwise le ∧ z'.Perm z ∧
      ∀ q : α × β → Bool, (∀ a ∈ z, ∀ b ∈ z, q a = true → q b = true → le a b) →
        z'.filter q = z.filter q) := by
  let ge : α → β → α → Bool := fun a b c => match geC a b c with
    | .ok g => g
    | .error _ => false
  have hgeE : ∀ a ∈ z, ∀ b ∈ z, geC a.1 a.2 b.1 = .ok (ge a.1 a.2 b.1) := by
    intro a ha b hb
    obtain ⟨g, hg, _⟩ := hgeC a ha b hb
    simp only [ge, hg]
  have hge : ∀ a ∈ z, ∀ b ∈ z, (ge a.1 a.2 b.1 = true ↔ le b a) := by
    intro a ha b hb
    obtain ⟨g, hg, h⟩ := hgeC a ha b hb
    simp only [ge, hg]
    exact h
  clear hgeC
  clear_value ge
  by_cases hz : z = []
  · subst hz
    exact ⟨([], []), rfl, [], rfl, List.Pairwise.nil, List.Perm.refl _, fun _ _ => rfl⟩
  have hzl : 0 < z.length := List.length_pos_iff.2 hz
  unfold insertionLoop
  have H := Ret.forFrom (f := fun i (s : List α × List β) => do
      let xe ← rd s.1 i
      let oe ← rd s.2 i
      let (p, x, o) ← insertWhile (geC xe oe) i s.1 s.2
      let x ← wr x p xe
      let o ← wr o p oe
      .ok (x, o)) (i := 1) (r := (z.map (·.1)).length - 1) (s := (z.map (·.1), z.map (·.2)))
    (fun i s => ∃ S : List (α × β), s = ((S ++ z.drop i).map (·.1), (S ++ z.drop i).map (·.2)) ∧
      S.Pairwise le ∧ S.Perm (z.take i) ∧
      ∀ q : α × β → Bool, (∀ a ∈ z, ∀ b ∈ z, q a = true → q b = true → le a b) →
        S.filter q = (z.take i).filter q) ?_ ?_
  · refine H.mono ?_
    rintro r ⟨S, rfl, h1, h2, h3⟩
    have hl : 1 + ((z.map (·.1)).length - 1) = z.length := by simp; omega
    rw [hl] at h2 h3 ⊢
    rw [List.drop_length, List.append_nil]
    rw [List.take_length] at h2 h3
    exact ⟨S, rfl, h1, h2, h3⟩
  · refine ⟨z.take 1, by rw [List.take_append_drop], ?_, List.Perm.refl _, fun _ _ => rfl⟩
    cases z with
    | nil => simp at hz
    | cons a z => simp
  · rintro i s hi1 hi2 ⟨S, rfl, h1, h2, h3⟩
    have hiz : i < z.length := by simp at hi2; omega
    have hSl : S.length = i := by have := h2.length_eq; simp at this; omega
    obtain ⟨e, hez⟩ : ∃ e, z[i]? = some e := ⟨z[i], List.getElem?_eq_getElem hiz⟩
    have hd : z.drop i = e :: z.drop (i + 1) := by
      have := List.drop_eq_getElem_cons hiz
      rw [List.getElem?_eq_getElem hiz] at hez
      cases hez
      exact this
    have hem : e ∈ z := List.mem_of_getElem? hez
    have ht : z.take (i + 1) = z.take i ++ [e] := by
      rw [List.take_succ, hez]; rfl
    have hSm : ∀ a ∈ S, a ∈ z := fun a ha => List.mem_of_mem_take (h2.mem_iff.1 ha)
    rw [hd]
    obtain ⟨A1, A2, h', rfl, g1, g2, g3⟩ := insertWhile_ok (geC e.1 e.2) (ge e.1 e.2) i S e
      (z.drop (i + 1)) (fun a ha => hgeE e hem a (hSm a ha)) hSl
    have r1 : rd ((A1 ++ A2 ++ e :: z.drop (i + 1)).map (·.1)) i = .ok e.1 := by
      rw [List.map_append, List.map_cons]
      exact rd_append_mid (by simpa using hSl.symm)
    have r2 : rd ((A1 ++ A2 ++ e :: z.drop (i + 1)).map (·.2)) i = .ok e.2 := by
      rw [List.map_append, List.map_cons]
      exact rd_append_mid (by simpa using hSl.symm)
    refine Ret.bind_eq r1 ?_
    refine Ret.bind_eq r2 ?_
    refine Ret.bind_eq g3 ?_
    dsimp only
    rw [List.map_append, List.map_cons, wr_append_mid (by simp), ok_bind, List.map_append,
      List.map_cons, wr_append_mid (by simp)]
    have hA2 : ∀ a ∈ A2, ¬ le a e := by
      intro a ha hle
      have := (hge e hem a (hSm a (by simp [ha]))).2 hle
      rw [g1 a ha] at this
      cases this
    refine Ret.ok ⟨A1 ++ e :: A2, by simp, ?_, ?_, ?_⟩
    · rw [List.pairwise_append] at h1 ⊢
      refine ⟨h1.1, ?_, ?_⟩
      · rw [List.pairwise_cons]
        refine ⟨?_, h1.2.1⟩
        intro a ha
        rcases htot e hem a (hSm a (by simp [ha])) with h | h
        · exact h
        · exact absurd h (hA2 a ha)
      · intro a ha b hb
        rcases List.mem_cons.1 hb with rfl | hb
        · rcases List.eq_nil_or_concat A1 with rfl | ⟨A', c, rfl⟩
          · simp at ha
          · rw [List.concat_eq_append] at g2 ha h1 hSm
            have hc : le c b := (hge b hem c (hSm c (by simp))).1 (g2 c (by simp))
            rcases List.mem_append.1 ha with ha | ha
            · have := (List.pairwise_append.1 h1.1).2.2 a ha c (by simp)
              exact htr a (hSm a (by simp [ha])) c (hSm c (by simp)) b hem this hc
            · simp at ha; subst ha; exact hc
        · exact h1.2.2 a ha b hb
    · rw [ht]
      have : (A1 ++ e :: A2).Perm ((A1 ++ A2) ++ [e]) := by
        rw [List.append_assoc]
        exact List.Perm.append_left _ (List.perm_append_singleton e A2).symm
      exact this.trans (h2.append_right _)
    · intro q hq
      rw [ht, List.filter_append (p := q) (z.take i), ← h3 q hq]
      rw [List.filter_append, List.filter_append, List.filter_cons, List.filter_cons]
      by_cases hqe : q e = true
      · have : A2.filter q = [] := by
          rw [List.filter_eq_nil_iff]
          intro a ha hqa
          exact hA2 a ha (hq a (hSm a (by simp [ha])) e hem hqa hqe)
        simp [hqe, this]
      · simp [hqe]

/-! ## Runs of sorted keys -/

/-- Sorted keys consist of blocks. -/
theorem pushRuns_ok (x : List Nat) (gi : GroupInfos) (hx : 0 < x.length) (hs : x.Pairwise (· ≤ ·))
    (hr : Room gi x.length) :
    Ret (pushRuns x gi) (fun gi' => ∃ bs, Blocks (· < ·) x bs ∧ Pushed gi (bs.map (·.2)) gi') := by
  unfold pushRuns
  refine Ret.bind_eq (rd_ok hx) ?_
  refine Ret.bind (P := fun s : Nat × Nat × GroupInfos => ∃ bs, 0 < s.2.1 ∧
      Blocks (· < ·) x (bs ++ [(s.1, s.2.1)]) ∧ Pushed gi (bs.map (·.2)) s.2.2) ?_ ?_
  · have H := Ret.forFrom (f := fun i (s : Nat × Nat × GroupInfos) => do
      let current ← rd x i
      if current = s.1 then .ok (s.1, s.2.1 + 1, s.2.2)
      else
        let gi ← groupsSizeMaybePush s.2.1 s.2.2
        .ok (current, 1, gi)) (i := 1) (r := x.length - 1) (s := (x[0], 1, gi))
      (fun i s => ∃ bs, 0 < s.2.1 ∧ Blocks (· < ·) (x.take i) (bs ++ [(s.1, s.2.1)]) ∧
        Pushed gi (bs.map (·.2)) s.2.2) ?_ ?_
    · refine H.mono ?_
      rintro s ⟨bs, h1, h2, h3⟩
      rw [show 1 + (x.length - 1) = x.length by omega, List.take_length] at h2
      exact ⟨bs, h1, h2, h3⟩
    · refine ⟨[], by simp, ?_, Pushed.refl gi⟩
      have : x.take 1 = List.replicate 1 x[0] := by
        cases x with
        | nil => simp at hx
        | cons a x => simp
      rw [this]
      exact Blocks.const _ _ (by simp)
    · rintro i ⟨k, n, g⟩ hi1 hi2 ⟨bs, hn, hb, hp⟩
      have hix : i < x.length := by omega
      have ht : x.take (i + 1) = x.take i ++ [x[i]] := by
        rw [List.take_succ, List.getElem?_eq_getElem hix]; rfl
      refine Ret.bind_eq (rd_ok hix) ?_
      dsimp only at hn hb hp ⊢
      have hkm : k ∈ x.take i := hb.mem.2 ⟨(k, n), by simp, rfl⟩
      have hkle : k ≤ x[i] := by
        have : (x.take i ++ [x[i]]).Pairwise (· ≤ ·) := ht ▸ hs.sublist (List.take_sublist _ _)
        exact (List.pairwise_append.1 this).2.2 k hkm _ (by simp)
      split
      · rename_i hc
        refine Ret.ok ⟨bs, by simp, ?_, hp⟩
        rw [ht]
        refine ⟨?_, ?_, ?_⟩
        · intro b hb'
          rcases List.mem_append.1 hb' with h | h
          · exact hb.pos b (by simp [h])
          · simp at h; subst h; simp
        · have := hb.lt
          rw [List.pairwise_append] at this ⊢
          refine ⟨this.1, by simp, ?_⟩
          intro a ha b hb'
          simp at hb'
          subst hb'
          exact this.2.2 a ha (k, n) (by simp)
        · rw [hb.eq]
          simp [List.flatMap_append, hc, List.replicate_succ']
      · rename_i hc
        have hlen : (bs.map (·.2)).length + 1 ≤ x.length := by
          have := hb.length_le
          simp at this ⊢; omega
        refine Ret.bind (groupsSizeMaybePush_ok hn
          ((hr.pushed hp (by omega)).mono (by omega))) ?_
        intro g' hg'
        refine Ret.ok ⟨bs ++ [(k, n)], by simp, ?_, ?_⟩
        · rw [ht]
          refine hb.append (Blocks.const _ _ (n := 1) (by simp)) ?_
          intro a ha b hb'
          simp at hb'
          subst hb'
          obtain ⟨c, hc', rfl⟩ := hb.mem.1 ha
          rcases List.mem_append.1 hc' with h | h
          · have := (List.pairwise_append.1 hb.lt).2.2 c h (k, n) (by simp)
            show c.1 < x[i]
            simp at this
            omega
          · simp at h; subst h
            show k < x[i]
            omega
        · have := hp.trans hg'
          simpa using this
  · rintro ⟨k, n, g⟩ ⟨bs, hn, hb, hp⟩
    dsimp only at hn hb hp ⊢
    have hlen : (bs.map (·.2)).length + 1 ≤ x.length := by
      have := hb.length_le
      simp at this ⊢; omega
    refine (groupsSizeMaybePush_ok hn ((hr.pushed hp (by omega)).mono (by omega))).mono ?_
    intro g' hg'
    refine ⟨bs ++ [(k, n)], hb, ?_⟩
    have := hp.trans hg'
    simpa using this

/-- `orderInsertion` stably orders by the keys. -/
theorem orderInsertion_ok (key : Int → Nat) (w : List Int) (gi : GroupInfos)
    (hr : Room gi w.length) :
    Ret (orderInsertion (w.map key) w gi) (fun r => ∃ gs, Ordered (· < ·) key w r.2.1 gs ∧
      r.1 = r.2.1.map key ∧ Pushed gi gs r.2.2) := by
  unfold orderInsertion
  split
  · rename_i h
    have : w = [] := by simpa using h
    subst this
    exact Ret.ok ⟨[], Ordered.nil _ _, rfl, Pushed.refl gi⟩
  · rename_i h
    have hw : 0 < w.length := by simp at h; exact List.length_pos_iff.2 h
    have hz1 : (w.map (fun i => (key i, i))).map (·.1) = w.map key := by simp
    have hz2 : (w.map (fun i => (key i, i))).map (·.2) = w := by simp [Function.comp_def]
    have := insertionLoop_ok (fun a b : Nat × Int => a.1 ≤ b.1)
      (fun xe _ xc => .ok (decide (xe ≥ xc))) (w.map (fun i => (key i, i)))
      (by intro a _ b _; exact ⟨_, rfl, by simp⟩) (by intro a _ b _; omega)
      (by intro a _ b _ c _ h1 h2; omega)
    rw [hz1, hz2] at this
    refine Ret.bind this ?_
    rintro ⟨x, o⟩ ⟨z', hz', hp, hperm, hst⟩
    injection hz' with e1 e2
    have hx : x = o.map key := by
      rw [e1, e2, List.map_map]
      apply List.map_congr_left
      intro a ha
      obtain ⟨i, _, rfl⟩ := List.mem_map.1 (hperm.mem_iff.1 ha)
      rfl
    have hlen : o.length = w.length := by
      rw [e2]; simpa using hperm.length_eq
    have hsorted : (o.map key).Pairwise (· ≤ ·) := by
      rw [← hx, e1, List.pairwise_map]
      exact hp
    dsimp only
    rw [hx]
    refine Ret.bind (pushRuns_ok (o.map key) gi (by simp; omega) hsorted (by simpa [hlen] using hr))
      ?_
    rintro gi' ⟨bs, hb, hpush⟩
    refine Ret.ok ⟨bs.map (·.2), ⟨?_, bs, hb, rfl⟩, rfl, hpush⟩
    intro k
    have := hst (fun a => decide (a.1 = k)) (by
      intro a _ b _ h1 h2
      simp at h1 h2; omega)
    have h2 := congrArg (List.map (·.2)) this
    have hw' : (w.map (fun i => (key i, i))).filter (fun a => decide (a.1 = k)) =
        (w.filter (fun a => decide (key a = k))).map (fun i => (key i, i)) := by
      rw [List.filter_map]; rfl
    have hz'' : z' = o.map (fun i => (key i, i)) := by
      rw [e2, List.map_map]
      have : z'.map id = z'.map ((fun i => (key i, i)) ∘ fun x => x.2) := by
        apply List.map_congr_left
        intro a ha
        obtain ⟨i, _, rfl⟩ := List.mem_map.1 (hperm.mem_iff.1 ha)
        rfl
      simpa using this
    have ho' : (o.map (fun i => (key i, i))).filter (fun a => decide (a.1 = k)) =
        (o.filter (fun a => decide (key a = k))).map (fun i => (key i, i)) := by
      rw [List.filter_map]; rfl
    rw [hw', hz'', ho', List.map_map, List.map_map] at h2
    simpa [Function.comp_def] using h2

end Vctrs
