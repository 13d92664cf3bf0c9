import Verif.Lemmas.OrderRadix
import Verif.Lemmas.Compare
import Verif.Model.OrderChr

/-!
# Sorting unique strings
-/

namespace Vctrs

open Spec (BytesLt)

/-- A byte string without NUL. -/
def IsBytes (s : List Char) : Prop := ∀ c ∈ s, 0 < c.toNat ∧ c.toNat < 256

/-- The byte at a position, 0 from the end on. -/
def byteAt (s : List Char) (i : Nat) : Nat :=
  match s[i]? with
  | some c => c.toNat
  | none => 0

theorem byteAt_nil (i : Nat) : byteAt [] i = 0 := rfl

theorem byteAt_zero (c : Char) (s : List Char) : byteAt (c :: s) 0 = c.toNat := rfl

theorem byteAt_succ (c : Char) (s : List Char) (i : Nat) :
    byteAt (c :: s) (i + 1) = byteAt s i := by simp [byteAt]

theorem byteAt_lt {s : List Char} (h : IsBytes s) (i : Nat) : byteAt s i < 256 := by
  unfold byteAt
  split
  · rename_i c hc; exact (h c (List.mem_of_getElem? hc)).2
  · omega

theorem byteAt_pos {s : List Char} (h : IsBytes s) (i : Nat) : 0 < byteAt s i ↔ i < s.length := by
  unfold byteAt
  split
  · rename_i c hc
    have := (List.getElem?_eq_some_iff.1 hc).1
    have := (h c (List.mem_of_getElem? hc)).1
    omega
  · rename_i hc
    have := List.getElem?_eq_none_iff.1 hc
    omega

theorem IsBytes.tail {c : Char} {s : List Char} (h : IsBytes (c :: s)) : IsBytes s :=
  fun d hd => h d (by simp [hd])

theorem IsBytes.drop {s : List Char} (h : IsBytes s) (n : Nat) : IsBytes (s.drop n) :=
  fun d hd => h d (List.mem_of_mem_drop hd)

theorem char_toNat_inj {c d : Char} (h : c.toNat = d.toNat) : c = d :=
  Char.toNat_inj.1 h

theorem bytesLt_iff : {s t : List Char} → IsBytes s → IsBytes t →
    (BytesLt s t ↔ ∃ i, (∀ j < i, byteAt s j = byteAt t j) ∧ byteAt s i < byteAt t i)
  | [], [], _, _ => by simp [BytesLt, byteAt]
  | [], d :: t, _, ht => by
      simp only [BytesLt, ne_eq, reduceCtorEq, not_false_eq_true, true_iff]
      exact ⟨0, by simp, by rw [byteAt_nil, byteAt_zero]; exact (ht d (by simp)).1⟩
  | c :: s, [], _, _ => by
      simp [BytesLt, byteAt_nil]
  | c :: s, d :: t, hs, ht => by
      rw [BytesLt, bytesLt_iff hs.tail ht.tail]
      constructor
      · rintro (h | ⟨rfl, i, h1, h2⟩)
        · exact ⟨0, by simp, h⟩
        · refine ⟨i + 1, ?_, by rwa [byteAt_succ, byteAt_succ]⟩
          intro j hj
          cases j with
          | zero => rfl
          | succ j => rw [byteAt_succ, byteAt_succ]; exact h1 j (by omega)
      · rintro ⟨i, h1, h2⟩
        cases i with
        | zero => exact Or.inl h2
        | succ i =>
          refine Or.inr ⟨char_toNat_inj (h1 0 (by omega)), i, ?_, by rwa [byteAt_succ, byteAt_succ] at h2⟩
          intro j hj
          have := h1 (j + 1) (by omega)
          rwa [byteAt_succ, byteAt_succ] at this

theorem eq_of_byteAt : {s t : List Char} → IsBytes s → IsBytes t →
    (∀ i, byteAt s i = byteAt t i) → s = t
  | [], [], _, _, _ => rfl
  | [], d :: t, _, ht, h => by
      have := h 0
      rw [byteAt_nil, byteAt_zero] at this
      have := (ht d (by simp)).1
      omega
  | c :: s, [], hs, _, h => by
      have := h 0
      rw [byteAt_nil, byteAt_zero] at this
      have := (hs c (by simp)).1
      omega
  | c :: s, d :: t, hs, ht, h => by
      rw [char_toNat_inj (h 0), eq_of_byteAt hs.tail ht.tail (fun i => by
        have := h (i + 1); rwa [byteAt_succ, byteAt_succ] at this)]

theorem bytesLt_trans : {s t u : List Char} → BytesLt s t → BytesLt t u → BytesLt s u
  | [], _, [], h1, h2 => by
      rename_i t
      cases t <;> simp [BytesLt] at h1 h2
  | [], _, _ :: _, _, _ => by simp [BytesLt]
  | _ :: _, [], _, h1, _ => by simp [BytesLt] at h1
  | _ :: _, _ :: _, [], _, h2 => by simp [BytesLt] at h2
  | c :: s, d :: t, e :: u, h1, h2 => by
      rw [BytesLt] at h1 h2 ⊢
      rcases h1 with h1 | ⟨rfl, h1⟩ <;> rcases h2 with h2 | ⟨rfl, h2⟩
      · left; omega
      · left; exact h1
      · left; exact h2
      · right; exact ⟨rfl, bytesLt_trans h1 h2⟩

theorem bytesLt_tri (s t : List Char) : BytesLt s t ∨ s = t ∨ BytesLt t s := by
  obtain ⟨h1, h2, h3⟩ := strcmp_spec s t
  rw [← h1, ← h2, ← h3]
  omega

instance bytesLtDec (s t : List Char) : Decidable (BytesLt s t) :=
  decidable_of_iff _ (strcmp_spec s t).1

/-- The strings agree on their first bytes. -/
def StrAgree (pass : Nat) (v : List (List Char)) : Prop :=
  ∀ s ∈ v, ∀ t ∈ v, ∀ i, i < pass → byteAt s i = byteAt t i

theorem StrAgree.all_eq {maxSize : Nat} {v : List (List Char)} (hb : ∀ s ∈ v, IsBytes s)
    (hm : ∀ s ∈ v, s.length ≤ maxSize) (h : StrAgree maxSize v) : ∀ s ∈ v, ∀ t ∈ v, s = t := by
  intro s hs t ht
  refine eq_of_byteAt (hb s hs) (hb t ht) ?_
  intro i
  by_cases hi : i < maxSize
  · exact h s hs t ht i hi
  · have h1 := (byteAt_pos (hb s hs) i).1.mt (by have := hm s hs; omega)
    have h2 := (byteAt_pos (hb t ht) i).1.mt (by have := hm t ht; omega)
    omega

theorem nodup_length_le_one {α : Type} {v : List α} (hn : v.Nodup) (h : ∀ s ∈ v, ∀ t ∈ v, s = t) :
    v.length ≤ 1 := by
  match v, hn, h with
  | [], _, _ => simp
  | [a], _, _ => simp
  | a :: b :: v, hn, h =>
    have := h a (by simp) b (by simp)
    subst this
    simp at hn

theorem strcmp_ge_iff (s t : List Char) : strcmp s t ≥ 0 ↔ ¬ BytesLt s t := by
  rw [← (strcmp_spec s t).1]; omega

theorem bytesLt_drop {s t : List Char} (hs : IsBytes s) (ht : IsBytes t) {n : Nat}
    (h : ∀ i, i < n → byteAt s i = byteAt t i) (hl : n ≤ s.length) (hlt : n ≤ t.length) :
    BytesLt (s.drop n) (t.drop n) ↔ BytesLt s t := by
  induction n generalizing s t with
  | zero => simp
  | succ n ih =>
    cases s with
    | nil => simp at hl
    | cons c s =>
      cases t with
      | nil => simp at hlt
      | cons d t =>
        have h0 := char_toNat_inj (h 0 (by omega))
        subst h0
        simp only [List.drop_succ_cons]
        rw [ih hs.tail ht.tail (fun i hi => by
          have := h (i + 1) (by omega); rwa [byteAt_succ, byteAt_succ] at this)
          (by simpa using hl) (by simpa using hlt)]
        simp [BytesLt]

theorem chrStrGe_ok {s t : List Char} (hs : IsBytes s) (ht : IsBytes t) {pass : Nat}
    (h : ∀ i, i < pass → byteAt s i = byteAt t i) :
    ∃ g, chrStrGe pass (some s) s.length (some t) = .ok g ∧ (g = true ↔ ¬ BytesLt s t) := by
  unfold chrStrGe
  split
  · exact ⟨_, rfl, by rw [decide_eq_true_iff]; exact strcmp_ge_iff s t⟩
  · rename_i hp
    dsimp only
    split
    · rename_i hlt
      refine ⟨true, rfl, ?_⟩
      simp only [true_iff]
      have h1 := (byteAt_pos hs (pass - 1)).1.mt (by omega)
      have h2 := h (pass - 1) (by omega)
      rw [bytesLt_iff hs ht]
      rintro ⟨i, h3, h4⟩
      have h5 : ¬ i < pass := fun hi => by have := h i hi; omega
      have h6 := (byteAt_pos ht (pass - 1)).2.mt (by omega)
      have h7 := (byteAt_pos ht i).1 (by omega)
      omega
    · rename_i hge
      have h1 := (byteAt_pos hs (pass - 1)).2 (by omega)
      rw [h (pass - 1) (by omega)] at h1
      have h2 := (byteAt_pos ht _).1 h1
      have e1 : charFrom (charOf (some s)) (pass - 1) = .ok (s.drop (pass - 1)) :=
        if_pos (show pass - 1 ≤ s.length by omega)
      have e2 : charFrom (charOf (some t)) (pass - 1) = .ok (t.drop (pass - 1)) :=
        if_pos (show pass - 1 ≤ t.length by omega)
      refine ⟨decide (strcmp (s.drop (pass - 1)) (t.drop (pass - 1)) ≥ 0), by rw [e1, e2]; rfl, ?_⟩
      rw [decide_eq_true_iff, strcmp_ge_iff, bytesLt_drop hs ht (fun i hi => h i (by omega))
        (by omega) (by omega)]

/-- What sorting does to unique strings. -/
def StrSorted (v : List (List Char)) (r : List Name × List Nat) : Prop :=
  ∃ v' : List (List Char), r = (v'.map some, v'.map List.length) ∧ v'.Perm v ∧
    v'.Pairwise BytesLt

theorem map_pair_fst {v : List (List Char)} :
    (v.map (fun s => ((some s : Name), s.length))).map (·.1) = v.map some := by simp

theorem map_pair_snd {v : List (List Char)} :
    (v.map (fun s => ((some s : Name), s.length))).map (·.2) = v.map List.length := by simp

theorem exists_map_of_mem {α β : Type} {f : α → β} {v : List α} : (z : List β) →
    (∀ b ∈ z, b ∈ v.map f) → ∃ v' : List α, z = v'.map f
  | [], _ => ⟨[], rfl⟩
  | b :: z, h => by
      obtain ⟨a, _, rfl⟩ := List.mem_map.1 (h b (by simp))
      obtain ⟨v', rfl⟩ := exists_map_of_mem z (fun b hb => h b (by simp [hb]))
      exact ⟨a :: v', rfl⟩

theorem chrOrderInsertion_ok {v : List (List Char)} {pass : Nat} (hb : ∀ s ∈ v, IsBytes s)
    (hn : v.Nodup) (hag : StrAgree pass v) :
    Ret (chrOrderInsertion pass (v.map some) (v.map List.length)) (StrSorted v) := by
  unfold chrOrderInsertion
  split
  · rename_i h
    have : v = [] := by simpa using h
    subst this
    exact Ret.ok ⟨[], rfl, List.Perm.refl _, List.Pairwise.nil⟩
  · have H := insertionLoop_ok (fun a b : Name × Nat => ¬ BytesLt (charOf b.1) (charOf a.1))
      (chrStrGe pass) (v.map (fun s => ((some s : Name), s.length))) (by
        intro a ha b hb'
        obtain ⟨s, hs, rfl⟩ := List.mem_map.1 ha
        obtain ⟨t, ht, rfl⟩ := List.mem_map.1 hb'
        exact chrStrGe_ok (hb s hs) (hb t ht) (hag s hs t ht)) (by
        intro a _ b _
        by_contra hc
        push Not at hc
        exact bytesLt_irrefl _ (bytesLt_trans hc.1 hc.2)) (by
        intro a _ b _ c _ h1 h2 h3
        rcases bytesLt_tri (charOf b.1) (charOf c.1) with h4 | h4 | h4
        · exact h1 (bytesLt_trans h4 h3)
        · rw [h4] at h1; exact h1 h3
        · exact h2 h4)
    rw [map_pair_fst, map_pair_snd] at H
    refine H.mono ?_
    rintro r ⟨z', rfl, hp, hperm, _⟩
    obtain ⟨v', rfl⟩ := exists_map_of_mem (f := fun s : List Char => ((some s : Name), s.length))
      (v := v) z' (fun b hb => hperm.mem_iff.1 hb)
    have hv : v'.Perm v := (List.map_perm_map_iff (f := fun s : List Char => ((some s : Name), s.length))
      (by intro a b h; simpa using congrArg Prod.fst h)).1 hperm
    refine ⟨v', by rw [map_pair_fst, map_pair_snd], hv, ?_⟩
    have hn' : v'.Nodup := hv.nodup_iff.2 hn
    rw [List.pairwise_map] at hp
    refine hp.imp₂ ?_ hn'
    intro a b h1 h2
    rcases bytesLt_tri a b with h | h | h
    · exact h
    · exact absurd h h2
    · exact absurd h h1

theorem chrByte_ok {s : List Char} (hs : IsBytes s) (pass : Nat) :
    chrByte pass (some s) s.length = .ok (byteAt s pass) := by
  unfold chrByte byteAt
  change (if pass < s.length then (if pass = s.length then Except.ok 0 else
    (do let c ← rd s pass; Except.ok (c.toNat % 256) : C Nat)) else Except.ok 0) = _
  split
  · rename_i h
    rw [if_neg (by omega), rd_ok h, ok_bind, List.getElem?_eq_getElem h]
    have := hs s[pass] (List.getElem_mem h)
    simp only [Nat.mod_eq_of_lt this.2]
  · rename_i h
    rw [List.getElem?_eq_none (by omega)]

theorem chrHistogram_ok {pass cap : Nat} {v : List (List Char)} (hb : ∀ s ∈ v, IsBytes s)
    (hw : 0 < v.length) (hcap : v.length ≤ cap) :
    Ret (chrHistogram cap pass (v.map some) (v.map List.length)) (fun r =>
      (∃ a ∈ v, r.1 = byteAt a pass) ∧
      (∀ (i : Nat) (a : List Char), v[i]? = some a → r.2.1[i]? = some (some (byteAt a pass))) ∧
      Cnt (List.replicate 256 0) 0 256 (fun b => (inBucket (byteAt · pass) v b).length) r.2.2) := by
  unfold chrHistogram
  rw [List.length_map]
  refine (Ret.forN (fun i (s : Nat × List (Option Nat) × List Nat) =>
    (0 < i → ∃ a ∈ v, s.1 = byteAt a pass) ∧
    s.2.1.length = cap ∧
    (∀ (j : Nat) (a : List Char), j < i → v[j]? = some a →
      s.2.1[j]? = some (some (byteAt a pass))) ∧
    Cnt (List.replicate 256 0) 0 256 (cntUpTo (byteAt · pass) v i) s.2.2) ?_ ?_).mono ?_
  · refine ⟨fun h => by omega, by simp [alloc], fun j a hj => by omega, ?_⟩
    refine (Cnt.base ?_ (by rw [List.length_replicate])).congr (fun b _ => by
      simp only [cntUpTo, inBucket, List.take_zero, List.filter_nil, List.length_nil])
    intro p _ hp
    rw [List.getElem?_replicate, if_pos (by rw [List.length_replicate] at hp; exact hp)]
  · rintro i ⟨byte, bytes, c⟩ hi ⟨h1, h2, h3, h4⟩
    dsimp only at h1 h2 h3 h4 ⊢
    have hmem : v[i] ∈ v := List.getElem_mem hi
    have hvi : v[i]? = some v[i] := List.getElem?_eq_getElem hi
    have hlt := byteAt_lt (hb _ hmem) pass
    refine Ret.bind_eq (rd_of_getElem? (by rw [List.getElem?_map, hvi]; rfl)) ?_
    refine Ret.bind_eq (rd_of_getElem? (by rw [List.getElem?_map, hvi]; rfl)) ?_
    refine Ret.bind_eq (chrByte_ok (hb _ hmem) pass) ?_
    refine Ret.bind_eq (wr_ok (by omega)) ?_
    have hr := h4.rd hlt
    have hw' := h4.wr hlt (cntUpTo (byteAt · pass) v i (byteAt v[i] pass) + 1)
    rw [Nat.zero_add] at hr hw'
    refine Ret.bind_eq hr ?_
    refine Ret.bind_eq hw'.1 ?_
    refine Ret.ok ⟨fun _ => ⟨v[i], hmem, rfl⟩, by simpa using h2, ?_, ?_⟩
    · intro j a hj hja
      dsimp only
      rw [getElem?_set' (by omega)]
      split
      · rename_i hji
        subst hji
        rw [hvi] at hja
        cases hja
        rfl
      · exact h3 j a (by omega) hja
    · refine hw'.2.congr ?_
      intro b _
      rw [cntUpTo_succ hvi]
      by_cases hbb : b = byteAt v[i] pass
      · rw [if_pos hbb, if_pos hbb.symm, hbb]
      · rw [if_neg hbb, if_neg (fun h => hbb h.symm), Nat.add_zero]
  · rintro ⟨byte, bytes, c⟩ ⟨h1, h2, h3, h4⟩
    refine ⟨h1 hw, fun i a hia => h3 i a ((List.getElem?_eq_some_iff.1 hia).1) hia, ?_⟩
    exact h4.congr (fun b _ => cntUpTo_len _ _ _)

theorem StrAgree.step {pass : Nat} {v : List (List Char)} (h : StrAgree pass v)
    (h2 : ∀ s ∈ v, ∀ t ∈ v, byteAt s pass = byteAt t pass) : StrAgree (pass + 1) v := by
  intro s hs t ht i hi
  by_cases hip : i = pass
  · subst hip; exact h2 s hs t ht
  · exact h s hs t ht i (by omega)

theorem chrGroups_ok {pass maxSize : Nat} {v : List (List Char)} (hb : ∀ s ∈ v, IsBytes s)
    (hn : v.Nodup) (hm : ∀ s ∈ v, s.length ≤ maxSize) (hag : StrAgree pass v)
    (rec : List Name → List Nat → C (List Name × List Nat))
    (hrec : ∀ u : List (List Char), pass + 1 ≠ maxSize → (∀ s ∈ u, s ∈ v) →
      u.length ≤ v.length → u.Nodup → StrAgree (pass + 1) u →
      Ret (rec (u.map some) (u.map List.length)) (StrSorted u))
    {counts : List Nat}
    (hc : Cnt (List.replicate 256 0) 0 256 (fun b =>
      if (inBucket (byteAt · pass) v b).length = 0 then 0
      else (byBuckets (byteAt · pass) v (List.range (b + 1))).length) counts) :
    Ret (forBrk 256 (chrGroup (pass + 1) maxSize v.length counts rec)
      ⟨(byBuckets (byteAt · pass) v (List.range 256)).map some,
        (byBuckets (byteAt · pass) v (List.range 256)).map List.length, 0, 0⟩)
      (fun r => StrSorted v (r.x, r.sizes)) := by
  set bk : List Char → Nat := (byteAt · pass) with hbk
  have hperm : (byBuckets bk v (List.range 256)).Perm v :=
    byBuckets_perm List.nodup_range (fun a ha => by simpa using byteAt_lt (hb a ha) pass)
  have hmemr : ∀ bs : List Nat, ∀ a ∈ byBuckets bk v bs, a ∈ v ∧ bk a ∈ bs := by
    intro bs a ha
    obtain ⟨b, hb, ha⟩ := List.mem_flatMap.1 ha
    obtain ⟨h1, h2⟩ := List.mem_filter.1 ha
    simp at h2
    exact ⟨h1, h2 ▸ hb⟩
  have hlenw : (byBuckets bk v (List.range 256)).length = v.length := hperm.length_eq
  have hfinal : ∀ (D : List (List Char)) (r : List Name × List Nat),
      D.Perm (byBuckets bk v (List.range 256)) → D.Pairwise BytesLt →
      r.1 = D.map some → r.2 = D.map List.length → StrSorted v r := by
    rintro D ⟨r1, r2⟩ h1 h2 h3 h4
    dsimp only at h3 h4
    subst h3 h4
    exact ⟨D, rfl, h1.trans hperm, h2⟩
  refine Ret.forBrk (fun i (s : ChrLoop) => ∃ D,
      s.x = (D ++ byBuckets bk v (List.range' i (256 - i))).map some ∧
      s.sizes = (D ++ byBuckets bk v (List.range' i (256 - i))).map List.length ∧
      D.Perm (byBuckets bk v (List.range i)) ∧ D.Pairwise BytesLt ∧
      s.off = (byBuckets bk v (List.range i)).length ∧ s.last = s.off) _ ?_ ?_ ?_
  · refine ⟨[], ?_, ?_, by simp [byBuckets], List.Pairwise.nil, by simp [byBuckets], rfl⟩
    · rw [List.nil_append, List.range_eq_range']
    · rw [List.nil_append, List.range_eq_range']
  · rintro i ⟨x, sz, so, sl⟩ hi ⟨D, hx, hsz, hpD, hs, hoff, hlast⟩
    dsimp only at hx hsz hoff hlast
    subst hlast
    have hDl : D.length = (byBuckets bk v (List.range i)).length := hpD.length_eq
    have hsplit := byBuckets_range_split bk v (i := i) (n := 256) (by omega)
    have hlen2 : (byBuckets bk v (List.range' i (256 - i))).length + sl = v.length := by
      have := congrArg List.length hsplit
      rw [List.length_append] at this
      omega
    unfold chrGroup
    dsimp only
    split
    · rename_i hge
      have hnil : byBuckets bk v (List.range' i (256 - i)) = [] := by
        rw [← List.length_eq_zero_iff]; omega
      refine Ret.ok (hfinal D _ ?_ hs ?_ ?_)
      · rw [hsplit, hnil, List.append_nil]; exact hpD
      · dsimp only; rw [hx, hnil, List.append_nil]
      · dsimp only; rw [hsz, hnil, List.append_nil]
    · rename_i hlt
      have hrd := hc.rd hi
      rw [Nat.zero_add] at hrd
      refine Ret.bind_eq hrd ?_
      have hr' : List.range' i (256 - i) = i :: List.range' (i + 1) (256 - (i + 1)) := by
        rw [show 256 - i = (256 - (i + 1)) + 1 by omega, List.range'_succ]
      have hrs : byBuckets bk v (List.range (i + 1)) =
          byBuckets bk v (List.range i) ++ inBucket bk v i := by
        rw [List.range_succ, byBuckets_append]
        simp [byBuckets]
      have hrest : byBuckets bk v (List.range' i (256 - i)) =
          inBucket bk v i ++ byBuckets bk v (List.range' (i + 1) (256 - (i + 1))) := by
        rw [hr', byBuckets_cons]
      by_cases h0 : (inBucket bk v i).length = 0
      · have hnil : inBucket bk v i = [] := List.length_eq_zero_iff.1 h0
        rw [if_pos h0, if_pos rfl]
        refine Ret.ok ⟨D, ?_, ?_, ?_, hs, ?_, rfl⟩
        · dsimp only; rw [hx, hrest, hnil, List.nil_append]
        · dsimp only; rw [hsz, hrest, hnil, List.nil_append]
        · rw [hrs, hnil, List.append_nil]; exact hpD
        · dsimp only; rw [hrs, hnil, List.append_nil]; exact hoff
      · rw [if_neg h0]
        have hcl : (byBuckets bk v (List.range (i + 1))).length =
            sl + (inBucket bk v i).length := by
          rw [hrs, List.length_append, hoff]
        rw [if_neg (by omega)]
        rw [hcl, Nat.add_sub_cancel_left]
        have hmem : ∀ a ∈ inBucket bk v i, a ∈ v ∧ bk a = i := by
          intro a ha
          obtain ⟨h1, h2⟩ := List.mem_filter.1 ha
          exact ⟨h1, by simpa using h2⟩
        have hsep : ∀ a ∈ byBuckets bk v (List.range i), ∀ b ∈ inBucket bk v i, BytesLt a b := by
          intro a ha b hb'
          obtain ⟨h1, h2⟩ := hmemr _ a ha
          obtain ⟨h3, h4⟩ := hmem b hb'
          simp at h2
          rw [bytesLt_iff (hb a h1) (hb b h3)]
          exact ⟨pass, fun j hj => hag a h1 b h3 j hj, by
            have : bk a < bk b := by omega
            exact this⟩
        have hnB : (inBucket bk v i).Nodup := hn.filter _
        have hagB : StrAgree (pass + 1) (inBucket bk v i) :=
          StrAgree.step (fun s hs t ht => hag s (hmem s hs).1 t (hmem t ht).1) (fun s hs t ht => by
            have h1 := (hmem s hs).2
            have h2 := (hmem t ht).2
            exact h1.trans h2.symm)
        have one : (inBucket bk v i).length ≤ 1 →
            ∃ E, x = (E ++ byBuckets bk v (List.range' (i + 1) (256 - (i + 1)))).map some ∧
            sz = (E ++ byBuckets bk v (List.range' (i + 1) (256 - (i + 1)))).map List.length ∧
            E.Perm (byBuckets bk v (List.range (i + 1))) ∧ E.Pairwise BytesLt := by
          intro h1
          refine ⟨D ++ inBucket bk v i, ?_, ?_, ?_, ?_⟩
          · rw [hx, hrest, List.append_assoc]
          · rw [hsz, hrest, List.append_assoc]
          · rw [hrs]; exact hpD.append_right _
          · rw [List.pairwise_append]
            refine ⟨hs, ?_, fun a ha b hb' => hsep a (hpD.mem_iff.1 ha) b hb'⟩
            obtain ⟨c, hc⟩ := List.length_eq_one_iff.1 (by omega : (inBucket bk v i).length = 1)
            rw [hc]
            exact List.pairwise_singleton _ _
        by_cases h1 : (inBucket bk v i).length = 1
        · rw [if_pos h1, h1]
          obtain ⟨E, e1, e2, e3, e4⟩ := one (by omega)
          exact Ret.ok ⟨E, e1, e2, e3, e4, by dsimp only, rfl⟩
        · rw [if_neg h1]
          by_cases hM : pass + 1 = maxSize
          · exfalso
            rw [hM] at hagB
            have := nodup_length_le_one hnB (hagB.all_eq (fun s hs => hb s (hmem s hs).1)
              (fun s hs => hm s (hmem s hs).1))
            omega
          · rw [if_neg hM]
            have hwx : window x sl (inBucket bk v i).length = .ok ((inBucket bk v i).map some) := by
              rw [hx, hrest, ← List.append_assoc, List.map_append, List.map_append]
              exact window_mid (by rw [List.length_map]; omega) (by simp)
            have hwo : window sz sl (inBucket bk v i).length =
                .ok ((inBucket bk v i).map List.length) := by
              rw [hsz, hrest, ← List.append_assoc, List.map_append, List.map_append]
              exact window_mid (by rw [List.length_map]; omega) (by simp)
            refine Ret.bind_eq hwx ?_
            refine Ret.bind_eq hwo ?_
            refine Ret.bind (hrec (inBucket bk v i) hM (fun a ha => (hmem a ha).1)
              (List.length_filter_le _ _) hnB hagB) ?_
            rintro ⟨rx, rz⟩ ⟨v', hv', hpv, hsv⟩
            injection hv' with e1 e2
            subst e1 e2
            dsimp only
            have hvl := hpv.length_eq
            refine Ret.ok ⟨D ++ v', ?_, ?_, ?_, ?_, ?_, rfl⟩
            · dsimp only
              rw [hx, hrest, ← List.append_assoc, List.map_append, List.map_append,
                putBack_mid (by rw [List.length_map]; omega)
                  (by rw [List.length_map, List.length_map]; exact hvl),
                List.map_append, List.map_append]
            · dsimp only
              rw [hsz, hrest, ← List.append_assoc, List.map_append, List.map_append,
                putBack_mid (by rw [List.length_map]; omega)
                  (by rw [List.length_map, List.length_map]; exact hvl),
                List.map_append, List.map_append]
            · rw [hrs]; exact hpD.append hpv
            · rw [List.pairwise_append]
              exact ⟨hs, hsv, fun a ha b hb' => hsep a (hpD.mem_iff.1 ha) b (hpv.mem_iff.1 hb')⟩
            · exact rfl
  · rintro ⟨x, sz, so, sl⟩ ⟨D, hx, hsz, hpD, hs, hoff, hlast⟩
    have hnil : byBuckets bk v (List.range' 256 (256 - 256)) = [] := rfl
    rw [hnil, List.append_nil] at hx hsz
    exact hfinal D _ hpD hs hx hsz

/-- The recursion sorts unique strings. -/
theorem chrRadixRecurse_ok (cap maxSize : Nat) : ∀ (fuel pass : Nat) (v : List (List Char)),
    maxSize < fuel + pass → pass ≤ maxSize → v.length ≤ cap → (∀ s ∈ v, IsBytes s) → v.Nodup →
    (∀ s ∈ v, s.length ≤ maxSize) → StrAgree pass v →
    Ret (chrRadixRecurse cap maxSize fuel pass (v.map some) (v.map List.length))
      (StrSorted v) := by
  intro fuel
  induction fuel with
  | zero => intro pass v h1 h2; omega
  | succ fuel ih =>
    intro pass v hfuel hpass hcap hb hn hm hag
    unfold chrRadixRecurse
    dsimp only
    rw [List.length_map]
    split
    · exact chrOrderInsertion_ok hb hn hag
    · rename_i hsize
      have hw : 0 < v.length := by unfold orderInsertionBoundary at hsize; omega
      have hlt : pass < maxSize := by
        by_contra hc
        have : pass = maxSize := by omega
        subst this
        have := nodup_length_le_one hn (hag.all_eq hb hm)
        unfold orderInsertionBoundary at hsize; omega
      refine Ret.bind (chrHistogram_ok (pass := pass) hb hw hcap) ?_
      rintro ⟨byte, bytes, counts⟩ ⟨⟨a0, ha0, hbyte⟩, hbytes, hcnt⟩
      dsimp only at hbyte hbytes hcnt ⊢
      have hb256 : byte < 256 := by rw [hbyte]; exact byteAt_lt (hb a0 ha0) pass
      have hrd := hcnt.rd hb256
      rw [Nat.zero_add] at hrd
      refine Ret.bind_eq hrd ?_
      by_cases hall : (inBucket (byteAt · pass) v byte).length = v.length
      · rw [if_pos hall]
        have hmem : ∀ a ∈ v, byteAt a pass = byte := by
          intro a ha
          have := List.length_filter_eq_length_iff.1 hall a ha
          simpa using this
        have hag' : StrAgree (pass + 1) v := hag.step (fun s hs t ht => by rw [hmem s hs, hmem t ht])
        split
        · rename_i hne
          exact ih (pass + 1) v (by omega) (by omega) hcap hb hn hm hag'
        · rename_i heq
          have heq' : pass + 1 = maxSize := by by_contra h; exact heq h
          rw [heq'] at hag'
          have := nodup_length_le_one hn (hag'.all_eq hb hm)
          unfold orderInsertionBoundary at hsize; omega
      · rw [if_neg hall]
        refine Ret.bind (accumulateCounts_ok (byteAt · pass) v hcnt) ?_
        rintro ⟨counts', cum⟩ hacc
        dsimp only at hacc ⊢
        have hin : ∀ b, inBucket (fun a : Name × Nat => byteAt (charOf a.1) pass)
            (v.map (fun s => ((some s : Name), s.length))) b =
            (inBucket (byteAt · pass) v b).map (fun s => ((some s : Name), s.length)) := by
          intro b
          unfold inBucket
          rw [List.filter_map]
          rfl
        have hst : ∀ bs b, startOf (fun a : Name × Nat => byteAt (charOf a.1) pass)
            (v.map (fun s => ((some s : Name), s.length))) bs b = startOf (byteAt · pass) v bs b := by
          intro bs b
          induction bs with
          | nil => rfl
          | cons c bs ihb => rw [startOf, startOf, ihb, hin, List.length_map]
        have hbyB : byBuckets (fun a : Name × Nat => byteAt (charOf a.1) pass)
            (v.map (fun s => ((some s : Name), s.length))) (List.range 256) =
            (byBuckets (byteAt · pass) v (List.range 256)).map
              (fun s => ((some s : Name), s.length)) := by
          unfold byBuckets
          rw [List.map_flatMap]
          congr 1
          funext b
          exact hin b
        have hlt256 : ∀ a ∈ v.map (fun s => ((some s : Name), s.length)),
            byteAt (charOf a.1) pass < 256 := by
          intro a ha
          obtain ⟨s, hs, rfl⟩ := List.mem_map.1 ha
          exact byteAt_lt (hb s hs) pass
        have hplace := placeByCounts_ok (fun a : Name × Nat => byteAt (charOf a.1) pass)
          (v.map (fun s => ((some s : Name), s.length))) (List.range 256) List.nodup_range
          (fun a ha => by simpa using hlt256 a ha) (N := 256)
          hlt256 (cap := cap) (off := 0) (by simpa using hcap)
          (bytes := bytes) (by
            intro i a hia
            rw [List.getElem?_map] at hia
            obtain ⟨c, hc, rfl⟩ := Option.map_eq_some_iff.1 hia
            exact hbytes i c hc) hacc (by
            intro a ha
            obtain ⟨c, hc, rfl⟩ := List.mem_map.1 ha
            rw [hst]
            refine if_neg ?_
            rw [List.length_eq_zero_iff]
            unfold inBucket
            rw [List.filter_eq_nil_iff]
            intro h
            exact h c hc (by simp [charOf]))
        rw [map_pair_fst, map_pair_snd, hbyB, map_pair_fst, map_pair_snd] at hplace
        refine Ret.bind hplace ?_
        rintro ⟨x, o, counts''⟩ ⟨hx, ho, hc⟩
        dsimp only at hx ho hc ⊢
        subst hx ho
        refine Ret.bind (chrGroups_ok hb hn hm hag _ ?_ ?_) ?_
        · intro u hM hu hul hun hau
          exact ih (pass + 1) u (by omega) (by omega) (by omega) (fun s hs => hb s (hu s hs)) hun
            (fun s hs => hm s (hu s hs)) hau
        · refine hc.congr ?_
          intro b hb
          rw [hin, List.length_map]
          by_cases h0 : (inBucket (byteAt · pass) v b).length = 0
          · rw [if_pos h0, if_pos h0, h0]
          · rw [if_neg h0, if_neg h0, List.range_succ (n := b), byBuckets_append, List.length_append]
            have hsp : List.range 256 = List.range b ++ b :: (List.range' (b + 1) (255 - b)) := by
              rw [List.range_eq_range', List.range_eq_range', ← List.range'_succ]
              have := List.range'_append (s := 0) (m := b) (n := 255 - b + 1) (step := 1)
              rw [show 0 + 1 * b = b by omega, show b + (255 - b + 1) = 256 by omega] at this
              exact this.symm
            rw [hsp, startOf_eq (by simp)]
            simp [byBuckets]
        · intro r hr
          exact Ret.ok hr

theorem chrOrderRadix_ok {cap maxSize : Nat} {v : List (List Char)} (hcap : v.length ≤ cap)
    (hb : ∀ s ∈ v, IsBytes s) (hn : v.Nodup) (hm : ∀ s ∈ v, s.length ≤ maxSize) :
    Ret (chrOrderRadix cap maxSize (v.map some) (v.map List.length)) (StrSorted v) :=
  chrRadixRecurse_ok cap maxSize _ 0 v (by omega) (by omega) hcap hb hn hm
    (fun s _ t _ i hi => by omega)

end Vctrs
