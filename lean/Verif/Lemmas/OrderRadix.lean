import Verif.Lemmas.OrderPlace

/-!
# Radix sort
-/

namespace Vctrs

/-! ## Bytes of keys -/

theorem extractByte_eq (k shift : Nat) : extractByte k shift = k / 2 ^ shift % 256 := by
  unfold extractByte
  rw [Nat.shiftRight_eq_div_pow]
  exact Nat.and_two_pow_sub_one_eq_mod _ 8

/-- The part of the key before byte `pass`. -/
def keyPrefix (M : Nat) (key : Int → Nat) (pass : Nat) (i : Int) : Nat :=
  key i / 256 ^ (M - pass)

/-- The byte of the key looked at in a pass. -/
def keyByte (M : Nat) (key : Int → Nat) (pass : Nat) (i : Int) : Nat :=
  extractByte (key i) (passShift M pass)

theorem keyByte_lt (M : Nat) (key : Int → Nat) (pass : Nat) (i : Int) :
    keyByte M key pass i < 256 := by
  unfold keyByte
  rw [extractByte_eq]
  exact Nat.mod_lt _ (by omega)

theorem keyPrefix_succ {M : Nat} {key : Int → Nat} {pass : Nat} {i : Int} (h : pass < M) :
    keyPrefix M key (pass + 1) i = keyPrefix M key pass i * 256 + keyByte M key pass i := by
  unfold keyPrefix keyByte passShift
  rw [extractByte_eq, show M - 1 - pass = M - (pass + 1) by omega,
    show M - pass = M - (pass + 1) + 1 by omega, Nat.pow_succ, ← Nat.div_div_eq_div_mul,
    Nat.mul_comm _ 8, Nat.pow_mul, show (2 : Nat) ^ 8 = 256 from rfl]
  omega

theorem keyPrefix_last (M : Nat) (key : Int → Nat) (i : Int) : keyPrefix M key M i = key i := by
  unfold keyPrefix; simp

/-- Elements that agree on a prefix of the key. -/
def Agree (M : Nat) (key : Int → Nat) (pass : Nat) (w : List Int) : Prop :=
  ∀ a ∈ w, ∀ b ∈ w, keyPrefix M key pass a = keyPrefix M key pass b

/-- What `p_skips` says about the elements. -/
def SkipsOk (M : Nat) (key : Int → Nat) (skips : List Bool) (w : List Int) : Prop :=
  skips.length = M ∧ ∀ p, skips[p]? = some true → ∀ a ∈ w, ∀ b ∈ w,
    keyByte M key p a = keyByte M key p b

theorem SkipsOk.sub {M : Nat} {key : Int → Nat} {skips : List Bool} {w v : List Int}
    (h : SkipsOk M key skips w) (hv : ∀ a ∈ v, a ∈ w) : SkipsOk M key skips v :=
  ⟨h.1, fun p hp a ha b hb => h.2 p hp a (hv a ha) b (hv b hb)⟩

theorem Agree.step {M : Nat} {key : Int → Nat} {pass : Nat} {w : List Int} (h : Agree M key pass w)
    (hp : pass < M) (hb : ∀ a ∈ w, ∀ b ∈ w, keyByte M key pass a = keyByte M key pass b) :
    Agree M key (pass + 1) w := by
  intro a ha b hb'
  rw [keyPrefix_succ hp, keyPrefix_succ hp, h a ha b hb', hb a ha b hb']

theorem Agree.skip {M : Nat} {key : Int → Nat} {skips : List Bool} {w : List Int}
    (hs : SkipsOk M key skips w) : ∀ (d pass : Nat), Agree M key pass w → pass + d ≤ M →
      (∀ p, pass ≤ p → p < pass + d → skips[p]? = some true) → Agree M key (pass + d) w := by
  intro d
  induction d with
  | zero => intro pass h _ _; exact h
  | succ d ih =>
    intro pass h hM hp
    have := ih (pass + 1) (h.step (by omega) (hs.2 pass (hp pass (by omega) (by omega))))
      (by omega) (fun p h1 h2 => hp p (by omega) (by omega))
    rwa [show pass + 1 + d = pass + (d + 1) by omega] at this

theorem Agree.last {M : Nat} {key : Int → Nat} {w : List Int} (h : Agree M key M w) :
    ∀ a ∈ w, ∀ b ∈ w, key a = key b := by
  intro a ha b hb
  have := h a ha b hb
  rwa [keyPrefix_last, keyPrefix_last] at this

theorem Agree.lt {M : Nat} {key : Int → Nat} {pass : Nat} {w : List Int} (h : Agree M key pass w)
    (hp : pass < M) {a b : Int} (ha : a ∈ w) (hb : b ∈ w)
    (hlt : keyByte M key pass a < keyByte M key pass b) : key a < key b := by
  have h1 := keyPrefix_succ (M := M) (key := key) (i := a) hp
  have h2 := keyPrefix_succ (M := M) (key := key) (i := b) hp
  have h3 := h a ha b hb
  by_contra hle
  have : keyPrefix M key (pass + 1) b ≤ keyPrefix M key (pass + 1) a :=
    Nat.div_le_div_right (by omega)
  omega

theorem skipWhile_ok (M : Nat) (skips : List Bool) (hs : skips.length = M) :
    ∀ (fuel pass : Nat), M < fuel + pass → pass ≤ M →
      Ret (skipWhile M skips fuel pass) (fun np => pass ≤ np ∧ np ≤ M ∧
        ∀ p, pass ≤ p → p < np → skips[p]? = some true) := by
  intro fuel
  induction fuel with
  | zero => intro pass h1 h2; omega
  | succ fuel ih =>
    intro pass h1 h2
    unfold skipWhile
    split
    · rename_i hlt
      refine Ret.bind_eq (rd_ok (by omega)) ?_
      split
      · rename_i ht
        refine (ih (pass + 1) (by omega) (by omega)).mono ?_
        rintro np ⟨h3, h4, h5⟩
        refine ⟨by omega, h4, ?_⟩
        intro p hp1 hp2
        by_cases hpp : p = pass
        · subst hpp; rw [List.getElem?_eq_getElem (by omega), ht]
        · exact h5 p (by omega) hp2
      · exact Ret.ok ⟨Nat.le_refl _, h2, fun p _ _ => by omega⟩
    · exact Ret.ok ⟨Nat.le_refl _, h2, fun p _ _ => by omega⟩

theorem skipsElt_ok (M : Nat) (bytes : List Nat) (hb : bytes.length = M) (elt : Nat)
    (skips : List Bool) (hs : skips.length = M) :
    Ret (skipsElt M bytes elt skips) (fun r => r.1.length = M ∧
      (∀ p, r.1[p]? = some true → skips[p]? = some true ∧
        bytes[p]? = some (extractByte elt (passShift M p))) ∧
      (r.2 = 0 → ∀ p, p < M → r.1[p]? = some false)) := by
  unfold skipsElt
  refine (Ret.forN (fun i (s : List Bool × Int) => s.1.length = M ∧
    (∀ p, i ≤ p → s.1[p]? = skips[p]?) ∧
    (∀ p, p < i → s.1[p]? = some true → skips[p]? = some true ∧
        bytes[p]? = some (extractByte elt (passShift M p))) ∧
    (M : Int) - i ≤ s.2 ∧ (s.2 = (M : Int) - i → ∀ p, p < i → s.1[p]? = some false))
    ⟨hs, fun _ _ => rfl, fun p hp => by omega, by simp, fun _ p hp => by omega⟩ ?_).mono ?_
  · rintro i ⟨sk, n⟩ hi ⟨h1, h2, h3, h4, h5⟩
    dsimp only at h1 h2 h3 h4 h5 ⊢
    have hil : i < sk.length := by omega
    refine Ret.bind_eq (rd_ok hil) ?_
    have hsi : skips[i]? = some sk[i] := by
      rw [← h2 i (Nat.le_refl _), List.getElem?_eq_getElem hil]
    split
    · rename_i ht
      refine Ret.bind_eq (rd_ok (by omega)) ?_
      refine Ret.bind_eq (wr_ok hil) (Ret.ok ⟨by simpa using h1, ?_, ?_, ?_, ?_⟩)
      · intro p hp
        dsimp only
        rw [getElem?_set' hil, if_neg (by omega)]
        exact h2 p (by omega)
      · intro p hp
        dsimp only
        rw [getElem?_set' hil]
        split
        · rename_i hpi
          subst hpi
          intro hq
          simp at hq
          exact ⟨by rw [hsi, ht], by rw [← hq, List.getElem?_eq_getElem]⟩
        · exact h3 p (by omega)
      · dsimp only; omega
      · intro hn; dsimp only at hn; omega
    · rename_i ht
      refine Ret.ok ⟨h1, fun p hp => h2 p (by omega), ?_, ?_, ?_⟩
      · intro p hp hq
        by_cases hpi : p = i
        · subst hpi
          dsimp only at hq
          rw [List.getElem?_eq_getElem hil] at hq
          exact absurd (Option.some.inj hq) ht
        · exact h3 p (by omega) hq
      · dsimp only; omega
      · intro hn p hp
        dsimp only at hn ⊢
        by_cases hpi : p = i
        · subst hpi
          rw [List.getElem?_eq_getElem hil]
          simpa using ht
        · exact h5 (by omega) p (by omega)
  · rintro ⟨sk, n⟩ ⟨h1, h2, h3, h4, h5⟩
    refine ⟨h1, ?_, ?_⟩
    · intro p hp
      have : p < M := by
        have := (List.getElem?_eq_some_iff.1 hp).1
        dsimp only at this h1
        omega
      exact h3 p this hp
    · intro hn
      dsimp only at hn h5 ⊢
      exact h5 (by omega)

theorem computeSkips_ok (M : Nat) (key : Int → Nat) (w : List Int) (hw : 0 < w.length) :
    Ret (computeSkips M (w.map key)) (fun r => SkipsOk M key r.1 w ∧ r.2 ≤ M ∧
      ∀ p, p < r.2 → r.1[p]? = some true) := by
  unfold computeSkips
  refine Ret.bind_eq (rd_ok (by simpa using hw)) ?_
  rw [List.getElem_map]
  have hbytes : Ret (forN M (fun pass (b : List (Option Nat)) =>
      wr b pass (some (extractByte (key w[0]) (passShift M pass)))) (alloc Nat M))
      (fun b => Filled (fun p v => v = keyByte M key p w[0]) M M b) := by
    refine Ret.forN (fun i b => Filled (fun p v => v = keyByte M key p w[0]) M i b)
      (Filled.start _ _) ?_
    intro i b hi hF
    obtain ⟨h1, h2⟩ := hF.step (r := keyByte M key i w[0]) hi rfl
    exact ⟨_, h1, h2⟩
  refine Ret.bind hbytes ?_
  intro b hb
  refine Ret.bind hb.done_of ?_
  rintro bytes ⟨hbl, hbv⟩
  refine Ret.bind (P := fun sk : List Bool => sk.length = M ∧ ∀ p, sk[p]? = some true →
      ∀ a ∈ w, keyByte M key p a = keyByte M key p w[0]) ?_ ?_
  · refine forBrkFrom_inv (fun i (sk : List Bool) => sk.length = M ∧ ∀ p, sk[p]? = some true →
      ∀ a ∈ w.take i, keyByte M key p a = keyByte M key p w[0]) _ _ _ _ ?_ ?_ ?_
    · refine ⟨by simp, ?_⟩
      intro p _ a ha
      cases w with
      | nil => simp at hw
      | cons c w => simp at ha; simp [ha]
    · intro i sk hi1 hi2 ⟨hl, hsk⟩
      have hiw : i < w.length := by simp at hi2; omega
      have ht : w.take (i + 1) = w.take i ++ [w[i]] := by
        rw [List.take_succ, List.getElem?_eq_getElem hiw]; rfl
      rw [rd_ok (by simpa using hiw), ok_bind, List.getElem_map]
      obtain ⟨⟨sk', n⟩, hr, h1, h2, h3⟩ := skipsElt_ok M bytes hbl (key w[i]) sk hl
      rw [hr, ok_bind]
      dsimp only at h1 h2 h3 ⊢
      split
      · rename_i hn
        refine Or.inr ⟨_, rfl, h1, ?_⟩
        intro p hp
        have hpM : p < M := by have := (List.getElem?_eq_some_iff.1 hp).1; omega
        rw [h3 hn p hpM] at hp
        cases hp
      · refine Or.inl ⟨_, rfl, h1, ?_⟩
        intro p hp a ha
        obtain ⟨hp1, hp2⟩ := h2 p hp
        rw [ht] at ha
        rcases List.mem_append.1 ha with ha | ha
        · exact hsk p hp1 a ha
        · simp at ha
          subst ha
          have hpM : p < M := by have := (List.getElem?_eq_some_iff.1 hp).1; omega
          obtain ⟨r, hr1, hr2⟩ := hbv p hpM
          rw [hr1] at hp2
          rw [← hr2]
          exact (Option.some.inj hp2).symm
    · intro sk ⟨hl, hsk⟩
      refine ⟨hl, ?_⟩
      intro p hp a ha
      refine hsk p hp a ?_
      rw [List.length_map, show 1 + (w.length - 1) = w.length by omega, List.take_length]
      exact ha
  · rintro sk ⟨hl, hsk⟩
    refine Ret.bind (skipWhile_ok M sk hl (M + 1) 0 (by omega) (by omega)) ?_
    rintro np ⟨_, h2, h3⟩
    refine Ret.ok ⟨⟨hl, ?_⟩, h2, fun p hp => h3 p (by omega) hp⟩
    intro p hp a ha b hb
    rw [hsk p hp a ha, hsk p hp b hb]

/-! ## One pass -/

theorem radixHistogram_ok {M : Nat} {key : Int → Nat} {pass cap off : Nat} {w : List Int}
    {base : List Nat} (hw : 0 < w.length) (hcap : w.length ≤ cap) (hz : ZeroFrom base off)
    (hl : off + 256 ≤ base.length) :
    Ret (radixHistogram cap off (passShift M pass) (w.map key) base) (fun r =>
      (∃ a ∈ w, r.1 = keyByte M key pass a) ∧
      (∀ (i : Nat) (a : Int), w[i]? = some a → r.2.1[i]? = some (some (keyByte M key pass a))) ∧
      Cnt base off 256 (fun b => (inBucket (keyByte M key pass) w b).length) r.2.2) := by
  unfold radixHistogram
  rw [List.length_map]
  refine (Ret.forN (fun i (s : Nat × List (Option Nat) × List Nat) =>
    (0 < i → ∃ a ∈ w, s.1 = keyByte M key pass a) ∧
    s.2.1.length = cap ∧
    (∀ (j : Nat) (a : Int), j < i → w[j]? = some a → s.2.1[j]? = some (some (keyByte M key pass a))) ∧
    Cnt base off 256 (cntUpTo (keyByte M key pass) w i) s.2.2) ?_ ?_).mono ?_
  · refine ⟨fun h => by omega, by simp, fun j a hj => by omega, ?_⟩
    exact (Cnt.base hz hl).congr (fun b _ => by simp [cntUpTo, inBucket])
  · rintro i ⟨y, bytes, c⟩ hi ⟨_, h2, h3, h4⟩
    dsimp only at h2 h3 h4
    have hb := keyByte_lt M key pass w[i]
    have hwi : w[i]? = some w[i] := List.getElem?_eq_getElem hi
    refine Ret.bind_eq (rd_ok (by simpa using hi)) ?_
    rw [List.getElem_map]
    show Ret ((wr bytes i (some (keyByte M key pass w[i]))) >>= fun bytes => do
      let n ← rd c (off + keyByte M key pass w[i])
      let c ← wr c (off + keyByte M key pass w[i]) (n + 1)
      .ok (keyByte M key pass w[i], bytes, c)) _
    refine Ret.bind_eq (wr_ok (by omega)) ?_
    refine Ret.bind_eq (h4.rd hb) ?_
    have hwr := h4.wr hb (cntUpTo (keyByte M key pass) w i (keyByte M key pass w[i]) + 1)
    refine Ret.bind_eq hwr.1 (Ret.ok ⟨?_, ?_, ?_, ?_⟩)
    · intro _
      exact ⟨w[i], List.getElem_mem hi, rfl⟩
    · simpa using h2
    · intro j a hj hja
      dsimp only
      rw [getElem?_set' (by omega)]
      split
      · rename_i hji; subst hji; rw [hwi] at hja; cases hja; rfl
      · exact h3 j a (by omega) hja
    · refine hwr.2.congr ?_
      intro b _
      rw [cntUpTo_succ hwi]
      by_cases hb : b = keyByte M key pass w[i]
      · subst hb; simp
      · rw [if_neg hb, if_neg (fun h => hb h.symm)]; omega
  · rintro ⟨y, bytes, c⟩ ⟨h1, h2, h3, h4⟩
    refine ⟨h1 hw, ?_, h4.congr (fun b _ => cntUpTo_len _ _ _)⟩
    intro i a hi
    exact h3 i a (List.getElem?_eq_some_iff.1 hi).1 hi

theorem ite_lt_succ {α : Type} {b i : Nat} (h : b ≠ i) (x y : α) :
    (if b < i then x else y) = if b < i + 1 then x else y := by
  by_cases hlt : b < i
  · rw [if_pos hlt, if_pos (by omega)]
  · rw [if_neg hlt, if_neg (by omega)]

theorem accumulateCounts_ok {γ : Type} (bucket : γ → Nat) (w : List γ) {off : Nat}
    {base counts : List Nat}
    (hc : Cnt base off 256 (fun b => (inBucket bucket w b).length) counts) :
    Ret (accumulateCounts off counts) (fun r => Cnt base off 256 (fun b =>
      if (inBucket bucket w b).length = 0 then 0
      else startOf bucket w (List.range 256) b) r.1) := by
  unfold accumulateCounts
  refine (Ret.forN (fun i (s : List Nat × Nat) => Cnt base off 256 (fun b =>
      if b < i then (if (inBucket bucket w b).length = 0 then 0
      else startOf bucket w (List.range 256) b) else (inBucket bucket w b).length) s.1 ∧
      s.2 = (byBuckets bucket w (List.range i)).length) ?_ ?_).mono ?_
  · exact ⟨hc.congr (fun b _ => by simp), by simp [byBuckets]⟩
  · rintro i ⟨c, n⟩ hi ⟨h1, h2⟩
    dsimp only at h1 h2 ⊢
    refine Ret.bind_eq (h1.rd hi) ?_
    have hsucc : (byBuckets bucket w (List.range (i + 1))).length =
        n + (inBucket bucket w i).length := by
      rw [List.range_succ, byBuckets_append, List.length_append, h2]
      simp [byBuckets]
    simp only [Nat.lt_irrefl, ite_false]
    split
    · rename_i h0
      refine Ret.ok ⟨h1.congr ?_, by dsimp only; omega⟩
      intro b hb
      by_cases hbi : b = i
      · subst hbi; simp [h0]
      · exact ite_lt_succ hbi _ _
    · rename_i h0
      have hwr := h1.wr hi n
      refine Ret.bind_eq hwr.1 (Ret.ok ⟨hwr.2.congr ?_, by dsimp only; omega⟩)
      intro b hb
      by_cases hbi : b = i
      · subst hbi
        rw [if_pos rfl, if_pos (by omega), if_neg h0, h2]
        have hsp : List.range 256 = List.range b ++ b :: (List.range' (b + 1) (255 - b)) := by
          rw [List.range_eq_range', List.range_eq_range', ← List.range'_succ,
            show b = 0 + 1 * b by omega]
          rw [show 0 + 1 * b = b by omega]
          have := List.range'_append (s := 0) (m := b) (n := 255 - b + 1) (step := 1)
          rw [show 0 + 1 * b = b by omega, show b + (255 - b + 1) = 256 by omega] at this
          exact this.symm
        rw [hsp, startOf_eq (by simp)]
      · rw [if_neg hbi]
        exact ite_lt_succ hbi _ _
  · rintro ⟨c, n⟩ ⟨h1, _⟩
    exact h1.congr (fun b hb => by rw [if_pos hb])

theorem window_mid {α : Type} {A B D : List α} {off n : Nat} (ho : off = A.length)
    (hn : n = B.length) : window (A ++ B ++ D) off n = .ok B := by
  subst ho hn
  unfold window
  rw [if_pos (by simp)]
  rw [List.append_assoc, List.drop_left, List.take_left]

theorem putBack_mid {α : Type} {A B B' D : List α} {off : Nat} (ho : off = A.length)
    (hn : B'.length = B.length) : putBack (A ++ B ++ D) off B' = A ++ B' ++ D := by
  subst ho
  unfold putBack
  rw [List.append_assoc A B D, List.take_left, ← List.drop_drop, List.drop_left, hn,
    List.drop_left]

/-- What the recursion does to a window. -/
def RadixSpec (key : Int → Nat) (w : List Int) (base : List Nat) (gi : GroupInfos)
    (r : RadixState) : Prop :=
  ∃ gs, Ordered (· < ·) key w r.o gs ∧ r.x = r.o.map key ∧ r.counts = base ∧ Pushed gi gs r.gi

theorem byBuckets_range_split {γ : Type} (bucket : γ → Nat) (w : List γ) {i n : Nat} (hi : i ≤ n) :
    byBuckets bucket w (List.range n) =
      byBuckets bucket w (List.range i) ++ byBuckets bucket w (List.range' i (n - i)) := by
  rw [← byBuckets_append]
  congr 1
  rw [List.range_eq_range', List.range_eq_range']
  have := List.range'_append (s := 0) (m := i) (n := n - i) (step := 1)
  rw [show 0 + 1 * i = i by omega, show i + (n - i) = n by omega] at this
  exact this.symm

theorem radixGroups_ok {M : Nat} {key : Int → Nat} {pass nextPass off : Nat} {w : List Int}
    {base : List Nat} {gi : GroupInfos} (hpass : pass < M) (hag : Agree M key pass w)
    (hnext : ∀ b, ∀ v : List Int, (∀ a ∈ v, a ∈ w ∧ keyByte M key pass a = b) →
      Agree M key nextPass v)
    (hz : ZeroFrom base off) (hroom : Room gi w.length)
    (rec : RadixState → C RadixState)
    (hrec : ∀ (v : List Int) (cs : List Nat) (g : GroupInfos), nextPass ≠ M →
      (∀ a ∈ v, a ∈ w) → v.length ≤ w.length → Agree M key nextPass v → cs.length = base.length →
      ZeroFrom cs (off + 256) → Room g v.length →
      Ret (rec ⟨v.map key, v, cs, g⟩) (RadixSpec key v cs g))
    {counts : List Nat}
    (hc : Cnt base off 256 (fun b => if (inBucket (keyByte M key pass) w b).length = 0 then 0
      else (byBuckets (keyByte M key pass) w (List.range (b + 1))).length) counts) :
    Ret (forBrk 256 (radixGroup M nextPass w.length off rec)
      ⟨⟨(byBuckets (keyByte M key pass) w (List.range 256)).map key,
        byBuckets (keyByte M key pass) w (List.range 256), counts, gi⟩, 0, 0⟩)
      (fun r => RadixSpec key w base gi r.toRadixState) := by
  set bk := keyByte M key pass with hbk
  have hperm : (byBuckets bk w (List.range 256)).Perm w :=
    byBuckets_perm List.nodup_range (fun a _ => by simpa using keyByte_lt M key pass a)
  have hmemr : ∀ bs : List Nat, ∀ a ∈ byBuckets bk w bs, a ∈ w ∧ bk a ∈ bs := by
    intro bs a ha
    obtain ⟨b, hb, ha⟩ := List.mem_flatMap.1 ha
    obtain ⟨h1, h2⟩ := List.mem_filter.1 ha
    simp at h2
    exact ⟨h1, h2 ▸ hb⟩
  have hlenw : (byBuckets bk w (List.range 256)).length = w.length := hperm.length_eq
  -- the final result
  have hfinal : ∀ (D : List Int) (gs : List Nat) (r : RadixState),
      Ordered (· < ·) key (byBuckets bk w (List.range 256)) D gs → r.o = D → r.x = D.map key →
      r.counts = base → Pushed gi gs r.gi → RadixSpec key w base gi r := by
    intro D gs r h1 h2 h3 h4 h5
    subst h2
    refine ⟨gs, h1.congr_left ?_, h3, h4, h5⟩
    intro k
    exact byBuckets_filter List.nodup_range (fun a _ => by simpa using keyByte_lt M key pass a)
      (by intro a _ b _ h; simp [hbk, keyByte, h]) k
  refine Ret.forBrk (fun i (s : RadixLoop) => ∃ D gs,
      s.o = D ++ byBuckets bk w (List.range' i (256 - i)) ∧ s.x = s.o.map key ∧
      Ordered (· < ·) key (byBuckets bk w (List.range i)) D gs ∧ Pushed gi gs s.gi ∧
      s.off = (byBuckets bk w (List.range i)).length ∧ s.last = s.off ∧
      Cnt base off 256 (fun b => if b < i then 0 else
        if (inBucket bk w b).length = 0 then 0
        else (byBuckets bk w (List.range (b + 1))).length) s.counts) _ ?_ ?_ ?_
  · refine ⟨[], [], ?_, rfl, ?_, Pushed.refl gi, by simp [byBuckets], rfl, ?_⟩
    · rw [List.nil_append, List.range_eq_range']
    · exact Ordered.nil _ _
    · exact hc.congr (fun b _ => by simp)
  · rintro i ⟨⟨x, o, c, g⟩, so, sl⟩ hi ⟨D, gs, ho, hx, hord, hpu, hoff, hlast, hcnt⟩
    dsimp only at ho hx hpu hoff hlast hcnt
    subst hlast
    have hDl : D.length = (byBuckets bk w (List.range i)).length := hord.length
    have hsplit := byBuckets_range_split bk w (i := i) (n := 256) (by omega)
    have hlen2 : (byBuckets bk w (List.range' i (256 - i))).length + sl = w.length := by
      have := congrArg List.length hsplit
      rw [List.length_append] at this
      omega
    unfold radixGroup
    dsimp only
    split
    · rename_i hge
      have hnil : byBuckets bk w (List.range' i (256 - i)) = [] := by
        rw [← List.length_eq_zero_iff]; omega
      refine Ret.ok (hfinal D gs _ ?_ ?_ ?_ ?_ hpu)
      · rw [hsplit, hnil, List.append_nil]; exact hord
      · show o = D
        rw [ho, hnil, List.append_nil]
      · show x = D.map key
        rw [hx, ho, hnil, List.append_nil]
      · refine hcnt.eq_base hz ?_
        intro b hb
        split
        · rfl
        · rename_i hbi
          rw [if_pos]
          have : inBucket bk w b = [] := by
            unfold byBuckets at hnil
            rw [List.flatMap_eq_nil_iff] at hnil
            exact hnil b (by rw [List.mem_range'_1]; omega)
          rw [this]; rfl
    · rename_i hlt
      refine Ret.bind_eq (hcnt.rd hi) ?_
      simp only [Nat.lt_irrefl, ite_false]
      have hr' : List.range' i (256 - i) = i :: List.range' (i + 1) (256 - (i + 1)) := by
        rw [show 256 - i = (256 - (i + 1)) + 1 by omega, List.range'_succ]
      have hrs : byBuckets bk w (List.range (i + 1)) =
          byBuckets bk w (List.range i) ++ inBucket bk w i := by
        rw [List.range_succ, byBuckets_append]
        simp [byBuckets]
      have hrest : byBuckets bk w (List.range' i (256 - i)) =
          inBucket bk w i ++ byBuckets bk w (List.range' (i + 1) (256 - (i + 1))) := by
        rw [hr', byBuckets_cons]
      by_cases h0 : (inBucket bk w i).length = 0
      · have hnil : inBucket bk w i = [] := List.length_eq_zero_iff.1 h0
        rw [if_pos h0, if_pos rfl]
        refine Ret.ok ⟨D, gs, ?_, hx, ?_, hpu, ?_, rfl, ?_⟩
        · dsimp only; rw [ho, hrest, hnil, List.nil_append]
        · rw [hrs, hnil, List.append_nil]; exact hord
        · dsimp only; rw [hrs, hnil, List.append_nil]; exact hoff
        · refine hcnt.congr ?_
          intro b hb
          by_cases hbi : b = i
          · subst hbi; simp [h0]
          · exact ite_lt_succ hbi _ _
      · rw [if_neg h0]
        have hcl : (byBuckets bk w (List.range (i + 1))).length =
            sl + (inBucket bk w i).length := by
          rw [hrs, List.length_append, hoff]
        rw [if_neg (by omega)]
        have hwr := hcnt.wr hi 0
        refine Ret.bind_eq hwr.1 ?_
        have hcnt' : Cnt base off 256 (fun b => if b < i + 1 then 0 else
            if (inBucket bk w b).length = 0 then 0
            else (byBuckets bk w (List.range (b + 1))).length) (c.set (off + i) 0) := by
          refine hwr.2.congr ?_
          intro b hb
          by_cases hbi : b = i
          · subst hbi; rw [if_pos rfl, if_pos (by omega)]
          · rw [if_neg hbi]
            exact ite_lt_succ hbi _ _
        rw [hcl, Nat.add_sub_cancel_left]
        have hmem : ∀ a ∈ inBucket bk w i, a ∈ w ∧ bk a = i := by
          intro a ha
          obtain ⟨h1, h2⟩ := List.mem_filter.1 ha
          exact ⟨h1, by simpa using h2⟩
        have hsep : ∀ a ∈ byBuckets bk w (List.range i), ∀ b ∈ inBucket bk w i,
            key a < key b := by
          intro a ha b hb
          obtain ⟨h1, h2⟩ := hmemr _ a ha
          obtain ⟨h3, h4⟩ := hmem b hb
          simp at h2
          exact hag.lt hpass h1 h3 (by rw [← hbk, h4]; exact h2)
        have hgl : gs.length ≤ sl := by
          have := hord.gs_length; omega
        have hroomg : Room g (inBucket bk w i).length := by
          refine (hroom.pushed hpu (by omega)).mono ?_
          rw [hrest, List.length_append] at hlen2
          omega
        have hroom1 : Room g 1 := hroomg.mono (by omega)
        -- tied elements
        have tied : (∀ a ∈ inBucket bk w i, ∀ b ∈ inBucket bk w i, key a = key b) →
            Ret (do
              let gi ← groupsSizeMaybePush (inBucket bk w i).length g
              (.ok (Ctl.next (⟨⟨x, o, c.set (off + i) 0, gi⟩, sl + (inBucket bk w i).length,
                sl + (inBucket bk w i).length⟩ : RadixLoop)) : C (Ctl RadixLoop)))
              (fun r => match r with
                | .next s' => ∃ D gs,
                  s'.o = D ++ byBuckets bk w (List.range' (i + 1) (256 - (i + 1))) ∧
                  s'.x = s'.o.map key ∧
                  Ordered (· < ·) key (byBuckets bk w (List.range (i + 1))) D gs ∧
                  Pushed gi gs s'.gi ∧
                  s'.off = sl + (inBucket bk w i).length ∧ s'.last = s'.off ∧
                  Cnt base off 256 (fun b => if b < i + 1 then 0 else
                    if (inBucket bk w b).length = 0 then 0
                    else (byBuckets bk w (List.range (b + 1))).length) s'.counts
                | .brk s' => RadixSpec key w base gi s'.toRadixState) := by
          intro ht
          refine Ret.bind (groupsSizeMaybePush_ok (by omega) hroom1) ?_
          intro g' hg'
          obtain ⟨a0, ha0⟩ : ∃ a0, a0 ∈ inBucket bk w i := by
            obtain ⟨a0, ha0⟩ := List.exists_mem_of_length_pos (by omega : 0 < (inBucket bk w i).length)
            exact ⟨a0, ha0⟩
          refine Ret.ok ⟨D ++ inBucket bk w i, gs ++ [(inBucket bk w i).length], ?_, hx, ?_,
            hpu.trans hg', rfl, rfl, hcnt'⟩
          · dsimp only; rw [ho, hrest, List.append_assoc]
          · rw [hrs]
            exact hord.append (Ordered.const _ (fun a ha => ht a ha a0 ha0) (by omega)) hsep
        by_cases h1 : (inBucket bk w i).length = 1
        · rw [if_pos h1]
          have := tied (by
            intro a ha b hb
            obtain ⟨c0, hc0⟩ := List.length_eq_one_iff.1 h1
            rw [hc0] at ha hb
            simp at ha hb
            rw [ha, hb])
          rw [h1] at this ⊢
          exact this.mono (fun r hr => by cases r <;> exact hr)
        · rw [if_neg h1]
          by_cases hM : nextPass = M
          · rw [if_pos hM]
            refine (tied ?_).mono (fun r hr => by cases r <;> exact hr)
            have := hnext i (inBucket bk w i) hmem
            rw [hM] at this
            exact this.last
          · rw [if_neg hM]
            have hwx : window x sl (inBucket bk w i).length = .ok ((inBucket bk w i).map key) := by
              rw [hx, ho, hrest, ← List.append_assoc, List.map_append, List.map_append]
              exact window_mid (by rw [List.length_map]; omega) (by simp)
            have hwo : window o sl (inBucket bk w i).length = .ok (inBucket bk w i) := by
              rw [ho, hrest, ← List.append_assoc]
              exact window_mid (by omega) rfl
            refine Ret.bind_eq hwx ?_
            refine Ret.bind_eq hwo ?_
            refine Ret.bind (hrec (inBucket bk w i) _ g hM (fun a ha => (hmem a ha).1)
              (List.length_filter_le _ _) (hnext i _ hmem) hcnt'.len (hcnt'.zeroFrom hz (Nat.le_refl _)) hroomg) ?_
            rintro ⟨rx, ro, rc, rg⟩ ⟨gs', ho', hx', hc', hp'⟩
            dsimp only at ho' hx' hc' hp' ⊢
            have hrol := ho'.length
            refine Ret.ok ⟨D ++ ro, gs ++ gs', ?_, ?_, ?_, hpu.trans hp', ?_, rfl, ?_⟩
            · dsimp only
              rw [ho, hrest, ← List.append_assoc, putBack_mid (by omega) hrol]
            · dsimp only
              rw [hx, ho, hrest, ← List.append_assoc, putBack_mid (by omega) hrol,
                List.map_append, List.map_append, hx', putBack_mid (by rw [List.length_map]; omega)
                  (by rw [List.length_map, List.length_map]; exact hrol),
                List.map_append, List.map_append]
            · rw [hrs]
              exact hord.append ho' hsep
            · rfl
            · dsimp only
              rw [hc']
              exact hcnt'
  · rintro ⟨⟨x, o, c, g⟩, so, sl⟩ ⟨D, gs, ho, hx, hord, hpu, hoff, hlast, hcnt⟩
    have hn : byBuckets bk w (List.range' 256 (256 - 256)) = [] := rfl
    rw [hn, List.append_nil] at ho
    refine hfinal D gs _ hord ho ?_ ?_ hpu
    · dsimp only at ho hx ⊢; rw [hx, ho]
    · exact hcnt.eq_base hz (fun b hb => by rw [if_pos hb])

/-- The recursion stably orders its window by the keys. -/
theorem radixRecurse_ok (M cap : Nat) (key : Int → Nat) (skips : List Bool) :
    ∀ (fuel pass off : Nat) (w : List Int) (base : List Nat) (gi : GroupInfos),
      M < fuel + pass → pass < M → w.length ≤ cap → SkipsOk M key skips w → Agree M key pass w →
      off + 256 * (M - pass) ≤ base.length → ZeroFrom base off → Room gi w.length →
      Ret (radixRecurse M cap skips fuel pass off ⟨w.map key, w, base, gi⟩)
        (RadixSpec key w base gi) := by
  intro fuel
  induction fuel with
  | zero => intro pass off w base gi h1 h2; omega
  | succ fuel ih =>
    intro pass off w base gi hfuel hpass hcap hsk hag hbl hz hroom
    unfold radixRecurse
    dsimp only
    rw [List.length_map]
    split
    · refine Ret.bind (orderInsertion_ok key w gi hroom) ?_
      rintro ⟨x, o, g⟩ ⟨gs, h1, h2, h3⟩
      exact Ret.ok ⟨gs, h1, h2, rfl, h3⟩
    · rename_i hsize
      have hw : 0 < w.length := by unfold orderInsertionBoundary at hsize; omega
      refine Ret.bind (skipWhile_ok M skips hsk.1 (M + 1) (pass + 1) (by omega) (by omega)) ?_
      rintro np ⟨hnp1, hnp2, hnp3⟩
      have hmul : 256 * (M - pass) = 256 * (np - pass) + 256 * (M - np) := by
        rw [← Nat.mul_add]; congr 1; omega
      have hmul1 : 256 ≤ 256 * (np - pass) := by
        have : 256 * 1 ≤ 256 * (np - pass) := Nat.mul_le_mul_left _ (by omega)
        omega
      refine Ret.bind (radixHistogram_ok (M := M) (key := key) (pass := pass) hw hcap hz
        (by omega)) ?_
      rintro ⟨byte, bytes, counts⟩ ⟨⟨a0, ha0, hbyte⟩, hbytes, hcnt⟩
      dsimp only at hbyte hbytes hcnt ⊢
      have hb256 : byte < 256 := by rw [hbyte]; exact keyByte_lt M key pass a0
      -- agreement after this pass
      have hnext : ∀ b, ∀ v : List Int, (∀ a ∈ v, a ∈ w ∧ keyByte M key pass a = b) →
          Agree M key np v := by
        intro b v hv
        have h1 : Agree M key (pass + 1) v := by
          refine Agree.step (fun a ha c hc => hag a (hv a ha).1 c (hv c hc).1) hpass ?_
          intro a ha c hc
          rw [(hv a ha).2, (hv c hc).2]
        have := Agree.skip (hsk.sub (fun a ha => (hv a ha).1)) (np - (pass + 1)) (pass + 1) h1
          (by omega) (fun p hp1 hp2 => hnp3 p hp1 (by omega))
        rwa [show pass + 1 + (np - (pass + 1)) = np by omega] at this
      refine Ret.bind_eq (hcnt.rd hb256) ?_
      by_cases hall : (inBucket (keyByte M key pass) w byte).length = w.length
      · rw [if_pos hall]
        have hmem : ∀ a ∈ w, a ∈ w ∧ keyByte M key pass a = byte := by
          intro a ha
          refine ⟨ha, ?_⟩
          have := List.length_filter_eq_length_iff.1 hall a ha
          simpa using this
        have hwr := hcnt.wr hb256 0
        have hbase : counts.set (off + byte) 0 = base := by
          refine hwr.2.eq_base hz ?_
          intro b hb
          split
          · rfl
          · rename_i hne
            rw [List.length_eq_zero_iff]
            unfold inBucket
            rw [List.filter_eq_nil_iff]
            intro a ha h
            simp at h
            exact hne (h ▸ (hmem a ha).2)
        refine Ret.bind_eq hwr.1 ?_
        rw [hbase]
        have hag' := hnext byte w hmem
        by_cases hM : np = M
        · rw [if_pos hM]
          refine Ret.bind (groupsSizeMaybePush_ok hw (hroom.mono hw)) ?_
          intro g' hg'
          rw [hM] at hag'
          exact Ret.ok ⟨[w.length], Ordered.const _ (fun a ha => hag'.last a ha a0 ha0) hw, rfl,
            rfl, hg'⟩
        · rw [if_neg hM]
          refine ih np _ w base gi (by omega) (by omega) hcap hsk hag' (by omega) ?_ hroom
          intro p hp hl
          exact hz p (by omega) hl
      · rw [if_neg hall]
        refine Ret.bind (accumulateCounts_ok (keyByte M key pass) w hcnt) ?_
        rintro ⟨counts', cum⟩ hacc
        dsimp only at hacc ⊢
        have hz1 : (w.map (fun i => (key i, i))).map (·.1) = w.map key := by simp
        have hz2 : (w.map (fun i => (key i, i))).map (·.2) = w := by simp [Function.comp_def]
        have hin : ∀ b, inBucket (fun a : Nat × Int => keyByte M key pass a.2)
            (w.map (fun i => (key i, i))) b =
            (inBucket (keyByte M key pass) w b).map (fun i => (key i, i)) := by
          intro b
          unfold inBucket
          rw [List.filter_map]
          rfl
        have hst : ∀ bs b, startOf (fun a : Nat × Int => keyByte M key pass a.2)
            (w.map (fun i => (key i, i))) bs b = startOf (keyByte M key pass) w bs b := by
          intro bs b
          induction bs with
          | nil => rfl
          | cons c bs ihb => rw [startOf, startOf, ihb, hin, List.length_map]
        have hbyB : byBuckets (fun a : Nat × Int => keyByte M key pass a.2)
            (w.map (fun i => (key i, i))) (List.range 256) =
            (byBuckets (keyByte M key pass) w (List.range 256)).map (fun i => (key i, i)) := by
          unfold byBuckets
          rw [List.map_flatMap]
          congr 1
          funext b
          exact hin b
        have hplace := placeByCounts_ok (fun a : Nat × Int => keyByte M key pass a.2)
          (w.map (fun i => (key i, i))) (List.range 256) List.nodup_range
          (fun a _ => by simpa using keyByte_lt M key pass a.2) (N := 256)
          (fun a _ => keyByte_lt M key pass a.2) (cap := cap) (off := off) (by simpa using hcap)
          (bytes := bytes) (by
            intro i a hia
            rw [List.getElem?_map] at hia
            obtain ⟨c, hc, rfl⟩ := Option.map_eq_some_iff.1 hia
            exact hbytes i c hc) hacc (by
            intro a ha
            obtain ⟨c, hc, rfl⟩ := List.mem_map.1 ha
            rw [hst, if_neg]
            rw [List.length_eq_zero_iff]
            unfold inBucket
            rw [List.filter_eq_nil_iff]
            intro h
            exact h c hc (by simp))
        rw [hz1, hz2, hbyB] at hplace
        refine Ret.bind hplace ?_
        rintro ⟨x, o, counts''⟩ ⟨hx, ho, hc⟩
        dsimp only at hx ho hc ⊢
        rw [List.map_map] at hx ho
        have hx' : x = (byBuckets (keyByte M key pass) w (List.range 256)).map key := hx
        have ho' : o = byBuckets (keyByte M key pass) w (List.range 256) := by
          rw [ho]
          simp [Function.comp_def]
        subst hx' ho'
        refine Ret.bind (radixGroups_ok hpass hag hnext hz hroom _ ?_ ?_) ?_
        · intro v cs g hM hv hvl hagv hcl hzc hrv
          refine ih np _ v cs g (by omega) (by omega) (by omega) (hsk.sub hv) hagv (by omega) ?_ hrv
          intro p hp hl
          exact hzc p (by omega) hl
        · refine hc.congr ?_
          intro b hb
          rw [hin, List.length_map]
          by_cases h0 : (inBucket (keyByte M key pass) w b).length = 0
          · rw [if_pos h0, if_pos h0, h0]
          · rw [if_neg h0, if_neg h0, List.range_succ (n := b), byBuckets_append, List.length_append]
            have hsp : List.range 256 = List.range b ++ b :: (List.range' (b + 1) (255 - b)) := by
              rw [List.range_eq_range', List.range_eq_range', ← List.range'_succ]
              have := List.range'_append (s := 0) (m := b) (n := 255 - b + 1) (step := 1)
              rw [show 0 + 1 * b = b by omega, show b + (255 - b + 1) = 256 by omega] at this
              exact this.symm
            rw [hsp, startOf_eq (by simp)]
            simp [byBuckets]
        · intro r hr
          exact Ret.ok hr

/-- `orderRadix` stably orders by the keys. -/
theorem orderRadix_ok (M cap countsLen : Nat) (key : Int → Nat) (w : List Int) (gi : GroupInfos)
    (hM : ∀ a ∈ w, key a < 256 ^ M) (hcap : w.length ≤ cap) (hcl : M * 256 ≤ countsLen)
    (hw : 0 < w.length) (hroom : Room gi w.length) :
    Ret (orderRadix M cap countsLen (w.map key) w gi) (fun r => ∃ gs,
      Ordered (· < ·) key w r.2.1 gs ∧ r.1 = r.2.1.map key ∧ Pushed gi gs r.2.2) := by
  unfold orderRadix
  refine Ret.bind (computeSkips_ok M key w hw) ?_
  rintro ⟨skips, pass⟩ ⟨h1, h2, h3⟩
  dsimp only at h1 h2 h3 ⊢
  have h0 : Agree M key 0 w := by
    intro a ha b hb
    unfold keyPrefix
    rw [Nat.div_eq_of_lt (by simpa using hM a ha), Nat.div_eq_of_lt (by simpa using hM b hb)]
  have hag : Agree M key pass w := by
    have := Agree.skip h1 pass 0 h0 (by omega) (fun p _ hp => h3 p (by omega))
    rwa [Nat.zero_add] at this
  obtain ⟨a0, ha0⟩ := List.exists_mem_of_length_pos hw
  split
  · rename_i hpM
    rw [hpM] at hag
    rw [List.length_map]
    refine Ret.bind (groupsSizeMaybePush_ok hw (hroom.mono hw)) ?_
    intro g' hg'
    exact Ret.ok ⟨[w.length], Ordered.const _ (fun a ha => hag.last a ha a0 ha0) hw, rfl, hg'⟩
  · rename_i hpM
    refine Ret.bind (radixRecurse_ok M cap key skips (M + 1) pass 0 w
      (List.replicate countsLen 0) gi (by omega) (by omega) hcap h1 hag ?_ ?_ hroom) ?_
    · rw [List.length_replicate]
      have : 256 * (M - pass) ≤ 256 * M := Nat.mul_le_mul_left _ (by omega)
      omega
    · intro p _ hp
      simp at hp
      simp [hp]
    · rintro ⟨x, o, c, g⟩ ⟨gs, g1, g2, _, g4⟩
      exact Ret.ok ⟨gs, g1, g2, g4⟩

end Vctrs
