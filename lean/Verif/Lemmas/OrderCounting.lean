import Verif.Lemmas.OrderInt
import Verif.Lemmas.OrderRadix

/-!
# Counting sort of integers
-/

namespace Vctrs

/-! ## Range -/

/-- What `int_compute_range` finds. -/
def RangeOf (x : List Int) (r : Int × Nat) : Prop :=
  ((∀ v ∈ x, v = naInt) ∧ r.2 = 4294967295) ∨
  (r.1 ≠ naInt ∧ Spec.IsInt r.1 ∧ ∀ v ∈ x, v ≠ naInt → r.1 ≤ v ∧ v - r.1 < r.2)

theorem intComputeRange_ok {x : List Int} (hx : ∀ v ∈ x, Spec.IsInt v) :
    Ret (intComputeRange x) (RangeOf x) := by
  unfold intComputeRange
  dsimp only
  refine Ret.bind (P := fun s : Nat × Int => s.1 ≤ x.length ∧
      ((s.2 = naInt ∧ ∀ v ∈ x, v = naInt) ∨
       (s.2 ≠ naInt ∧ s.2 ∈ x ∧ ∀ v ∈ x.take s.1, v ≠ naInt → v = s.2))) ?_ ?_
  · refine Ret.forBrk (fun i (s : Nat × Int) => s = (i, naInt) ∧ ∀ v ∈ x.take i, v = naInt) _
      ⟨rfl, by simp⟩ ?_ ?_
    · rintro i s hi ⟨rfl, h⟩
      refine Ret.bind_eq (rd_ok hi) ?_
      have ht : ∀ v, v ∈ x.take (i + 1) → v ∈ x.take i ∨ v = x[i] := by
        intro v hv
        rw [List.take_succ_eq_append_getElem hi, List.mem_append] at hv
        simpa using hv
      split
      · rename_i hna
        refine Ret.ok ⟨rfl, ?_⟩
        intro v hv
        rcases ht v hv with h' | h'
        · exact h v h'
        · rw [h', hna]
      · rename_i hna
        refine Ret.ok ⟨by dsimp only; omega, Or.inr ⟨hna, List.getElem_mem hi, ?_⟩⟩
        intro v hv hvna
        rcases ht v hv with h' | h'
        · exact absurd (h v h') hvna
        · exact h'
    · rintro s ⟨rfl, h⟩
      rw [List.take_length] at h
      exact ⟨Nat.le_refl _, Or.inl ⟨rfl, h⟩⟩
  · rintro ⟨i, xm⟩ ⟨hi, h⟩
    dsimp only at hi h ⊢
    split
    · rename_i hxm
      refine Ret.ok (Or.inl ⟨?_, rfl⟩)
      rcases h with h | h
      · exact h.2
      · exact absurd hxm h.1
    · rename_i hxm
      have h2 : xm ∈ x ∧ ∀ v ∈ x.take i, v ≠ naInt → v = xm := by
        rcases h with h | h
        · exact absurd h.1 hxm
        · exact h.2
      refine Ret.bind (P := fun s : Int × Int => s.1 ≠ naInt ∧ s.2 ≠ naInt ∧ s.1 ∈ x ∧ s.2 ∈ x ∧
          s.1 ≤ s.2 ∧ ∀ v ∈ x, v ≠ naInt → s.1 ≤ v ∧ v ≤ s.2) ?_ ?_
      · refine (Ret.forFrom (fun j (s : Int × Int) => s.1 ≠ naInt ∧ s.2 ≠ naInt ∧ s.1 ∈ x ∧
          s.2 ∈ x ∧ s.1 ≤ s.2 ∧ ∀ v ∈ x.take j, v ≠ naInt → s.1 ≤ v ∧ v ≤ s.2) ?_ ?_).mono ?_
        · refine ⟨hxm, hxm, h2.1, h2.1, Int.le_refl _, ?_⟩
          intro v hv hvna
          have := h2.2 v hv hvna
          subst this
          exact ⟨Int.le_refl _, Int.le_refl _⟩
        · rintro j ⟨lo, hi'⟩ hj1 hj2 ⟨q1, q2, q3, q4, q5, q6⟩
          dsimp only at q1 q2 q3 q4 q5 q6 ⊢
          have hj : j < x.length := by omega
          refine Ret.bind_eq (rd_ok hj) ?_
          have hmem : x[j] ∈ x := List.getElem_mem hj
          have ht : ∀ v, v ∈ x.take (j + 1) → v ∈ x.take j ∨ v = x[j] := by
            intro v hv
            rw [List.take_succ_eq_append_getElem hj, List.mem_append] at hv
            simpa using hv
          generalize x[j] = e at *
          split
          · rename_i hna
            refine Ret.ok ⟨q1, q2, q3, q4, q5, ?_⟩
            intro v hv hvna
            rcases ht v hv with h' | h'
            · exact q6 v h' hvna
            · exact absurd (h'.trans hna) hvna
          · rename_i hna
            split
            · refine Ret.ok ⟨q1, hna, q3, hmem, by dsimp only; omega, ?_⟩
              intro v hv hvna
              dsimp only
              rcases ht v hv with h' | h'
              · have := q6 v h' hvna; omega
              · omega
            · split
              · refine Ret.ok ⟨hna, q2, hmem, q4, by dsimp only; omega, ?_⟩
                intro v hv hvna
                dsimp only
                rcases ht v hv with h' | h'
                · have := q6 v h' hvna; omega
                · omega
              · refine Ret.ok ⟨q1, q2, q3, q4, q5, ?_⟩
                intro v hv hvna
                dsimp only
                rcases ht v hv with h' | h'
                · exact q6 v h' hvna
                · omega
        · rintro s hs
          rw [show i + (x.length - i) = x.length by omega, List.take_length] at hs
          exact hs
      · rintro ⟨lo, hi'⟩ ⟨q1, q2, q3, q4, q5, q6⟩
        dsimp only at q1 q2 q3 q4 q5 q6 ⊢
        refine Ret.ok (Or.inr ⟨q1, hx lo q3, ?_⟩)
        intro v hv hvna
        have := q6 v hv hvna
        obtain ⟨a1, a2⟩ := hx lo q3
        obtain ⟨b1, b2⟩ := hx hi' q4
        dsimp only
        simp only [naInt, intMax] at *
        rw [toU32_nonneg (by omega) (by omega)]
        omega

/-! ## Buckets -/

/-- The bucket of an integer. -/
def cBucket (xMin : Int) (range : Nat) (v : Int) : Nat :=
  if v = naInt then range else (v - xMin).toNat

theorem countingBucket_ok {xMin : Int} {range : Nat} {v : Int} (hm : Spec.IsInt xMin)
    (hr : range ≤ 100000) (hv : v ≠ naInt → xMin ≤ v ∧ v - xMin < range) :
    countingBucket xMin range v = .ok (cBucket xMin range v) := by
  unfold countingBucket cBucket
  split
  · rfl
  · rename_i h
    obtain ⟨h1, h2⟩ := hv h
    rw [chkIntNa_ok (by simp only [naInt]; omega) (by simp only [intMax]; omega), ok_bind,
      toU32_nonneg (by omega) (by omega)]

theorem cBucket_le {xMin : Int} {range : Nat} {v : Int}
    (hv : v ≠ naInt → xMin ≤ v ∧ v - xMin < range) : cBucket xMin range v < range + 1 := by
  unfold cBucket
  split
  · omega
  · rename_i h
    have := hv h
    omega

/-- In which order the buckets are visited. -/
def cVisit (range : Nat) (decreasing naLast : Bool) : List Nat :=
  (if naLast then [] else [range]) ++
    (if decreasing then (List.range range).reverse else List.range range) ++
    (if naLast then [range] else [])

theorem cVisit_nodup (range : Nat) (decreasing naLast : Bool) :
    (cVisit range decreasing naLast).Nodup := by
  have h1 : (if decreasing then (List.range range).reverse else List.range range).Nodup := by
    cases decreasing
    · exact List.nodup_range
    · exact (List.reverse_perm _).nodup_iff.2 List.nodup_range
  have h2 : range ∉ (if decreasing then (List.range range).reverse else List.range range) := by
    cases decreasing <;> simp
  unfold cVisit
  cases naLast with
  | true =>
    simp only [if_true, List.nil_append]
    rw [List.nodup_append]
    refine ⟨h1, by simp, ?_⟩
    intro a ha b hb hab
    rw [List.mem_singleton] at hb
    subst hb hab
    exact h2 ha
  | false =>
    simp only [if_false, Bool.false_eq_true, List.append_nil, List.singleton_append]
    exact List.nodup_cons.2 ⟨h2, h1⟩

theorem cVisit_mem {range : Nat} {decreasing naLast : Bool} {b : Nat} :
    b ∈ cVisit range decreasing naLast ↔ b < range + 1 := by
  cases decreasing <;> cases naLast <;> simp [cVisit] <;> omega

/-- Buckets visited one after the other have increasing keys. -/
theorem cVisit_key {xMin : Int} {range : Nat} (decreasing naLast : Bool) {vs : List Int}
    (hi : ∀ v ∈ vs, Spec.IsInt v)
    (hv : ∀ v ∈ vs, v ≠ naInt → xMin ≤ v ∧ v - xMin < range) :
    (cVisit range decreasing naLast).Pairwise (fun b c => ∀ v ∈ vs, ∀ u ∈ vs,
      cBucket xMin range v = b → cBucket xMin range u = c →
      intKey decreasing naLast v < intKey decreasing naLast u) := by
  have hval : ∀ v ∈ vs, ∀ b, cBucket xMin range v = b → b < range →
      v ≠ naInt ∧ v = xMin + b := by
    intro v hv' b h hb
    unfold cBucket at h
    split at h
    · omega
    · rename_i hna
      have := hv v hv' hna
      exact ⟨hna, by omega⟩
  have hna : ∀ v ∈ vs, cBucket xMin range v = range → v = naInt := by
    intro v hv' h
    unfold cBucket at h
    split at h
    · assumption
    · rename_i hna
      have := hv v hv' hna
      omega
  have hkna : ∀ v, v = naInt → intKey decreasing naLast v = if naLast then 4294967295 else 0 := by
    intro v h; unfold intKey; rw [if_pos h]
  have hkv : ∀ v ∈ vs, v ≠ naInt → (naLast = false → 0 < intKey decreasing naLast v) ∧
      (naLast = true → intKey decreasing naLast v < 4294967295) := by
    intro v hv' h
    obtain ⟨h1, h2⟩ := hi v hv'
    unfold intKey
    rw [if_neg h]
    simp only [naInt, intMax] at h h1 h2
    cases decreasing <;> cases naLast <;>
      simp only [if_true, if_false, Bool.false_eq_true] <;> constructor <;> intro hq <;>
      first | omega | cases hq
  have hlt : ∀ v ∈ vs, ∀ u ∈ vs, v ≠ naInt → u ≠ naInt →
      (if decreasing then u < v else v < u) →
      intKey decreasing naLast v < intKey decreasing naLast u := by
    intro v hv' u hu' h1 h2 h
    obtain ⟨p1, p2⟩ := hi v hv'
    obtain ⟨p3, p4⟩ := hi u hu'
    unfold intKey
    rw [if_neg h1, if_neg h2]
    simp only [naInt, intMax] at *
    cases decreasing <;> cases naLast <;>
      simp only [if_true, if_false, Bool.false_eq_true] at h ⊢ <;> omega
  have hmid : (if decreasing then (List.range range).reverse else List.range range).Pairwise
      (fun b c => ∀ v ∈ vs, ∀ u ∈ vs, cBucket xMin range v = b → cBucket xMin range u = c →
      intKey decreasing naLast v < intKey decreasing naLast u) := by
    cases decreasing with
    | true =>
      simp only [if_true]
      rw [List.pairwise_reverse]
      have hlt' := List.pairwise_lt_range (n := range)
      refine hlt'.imp_of_mem ?_
      intro b c hb hc hbc v hv' u hu' e1 e2
      obtain ⟨q1, q2⟩ := hval v hv' c e1 (List.mem_range.1 hc)
      obtain ⟨q3, q4⟩ := hval u hu' b e2 (List.mem_range.1 hb)
      exact hlt v hv' u hu' q1 q3 (by simp only [if_true]; omega)
    | false =>
      simp only [if_false, Bool.false_eq_true]
      have hlt' := List.pairwise_lt_range (n := range)
      refine hlt'.imp_of_mem ?_
      intro b c hb hc hbc v hv' u hu' e1 e2
      obtain ⟨q1, q2⟩ := hval v hv' b e1 (List.mem_range.1 hb)
      obtain ⟨q3, q4⟩ := hval u hu' c e2 (List.mem_range.1 hc)
      exact hlt v hv' u hu' q1 q3 (by simp only [if_false, Bool.false_eq_true]; omega)
  have hmm : ∀ b, b ∈ (if decreasing then (List.range range).reverse else List.range range) →
      b < range := by
    intro b hb
    cases decreasing <;> simpa using hb
  unfold cVisit
  cases naLast with
  | true =>
    simp only [if_true, List.nil_append]
    rw [List.pairwise_append]
    refine ⟨hmid, List.pairwise_singleton _ _, ?_⟩
    intro b hb c hc v hv' u hu' e1 e2
    rw [List.mem_singleton] at hc
    subst hc
    rw [hkna u (hna u hu' e2)]
    exact (hkv v hv' (hval v hv' b e1 (hmm b hb)).1).2 rfl
  | false =>
    simp only [if_false, Bool.false_eq_true, List.append_nil]
    rw [List.singleton_append, List.pairwise_cons]
    refine ⟨?_, hmid⟩
    intro c hc v hv' u hu' e1 e2
    rw [hkna v (hna v hv' e1)]
    exact (hkv u hu' (hval u hu' c e2 (hmm c hc)).1).1 rfl

/-! ## Histogram -/

section
variable {γ : Type}

/-- Elements ordered by buckets of constant and increasing keys. -/
theorem Ordered.byBuckets {bucket : γ → Nat} {key : γ → Nat} {w : List γ} {bs : List Nat}
    (hn : bs.Nodup) (hb : ∀ a ∈ w, bucket a ∈ bs)
    (hk : ∀ a ∈ w, ∀ b ∈ w, key a = key b ↔ bucket a = bucket b)
    (hp : bs.Pairwise (fun b c => ∀ x ∈ w, ∀ y ∈ w, bucket x = b → bucket y = c → key x < key y)) :
    Ordered (· < ·) key w (byBuckets bucket w bs)
      ((bs.map (fun b => (inBucket bucket w b).length)).filter (fun n => decide (n ≠ 0))) := by
  have hmem : ∀ {b x}, x ∈ inBucket bucket w b → x ∈ w ∧ bucket x = b := by
    intro b x hx
    have := List.mem_filter.1 hx
    exact ⟨this.1, by simpa using this.2⟩
  refine Ordered.congr_left (w := Vctrs.byBuckets bucket w bs) ?_
    (fun k => byBuckets_filter hn hb (fun a ha b hb' h => (hk a ha b hb').1 h) k)
  clear hb hn
  induction bs with
  | nil => exact Ordered.nil _ _
  | cons b bs ih =>
    rw [List.pairwise_cons] at hp
    rw [byBuckets_cons, List.map_cons, List.filter_cons]
    have ih' := ih hp.2
    by_cases h0 : (inBucket bucket w b).length = 0
    · rw [List.length_eq_zero_iff.1 h0]
      simpa using ih'
    · rw [if_pos (by simpa using h0)]
      obtain ⟨a, ha⟩ := List.exists_mem_of_length_pos (Nat.pos_of_ne_zero h0)
      have := Ordered.const (· < ·) (key := key) (w := inBucket bucket w b) (k := key a)
        (by
          intro x hx
          obtain ⟨h1, h2⟩ := hmem hx
          obtain ⟨h3, h4⟩ := hmem ha
          exact (hk x h1 a h3).2 (h2.trans h4.symm)) (Nat.pos_of_ne_zero h0)
      have h := this.append ih' (by
        intro x hx y hy
        obtain ⟨c, hc, hy⟩ := List.mem_flatMap.1 hy
        obtain ⟨h1, h2⟩ := hmem hx
        obtain ⟨h3, h4⟩ := hmem hy
        exact hp.1 c hc x h1 y h3 h2 h4)
      simpa using h

end

section
variable {xMin : Int} {range : Nat} {val : Int → Int} {w : List Int}

theorem countingHistogram_ok (hm : Spec.IsInt xMin) (hr : range ≤ 100000)
    (hv : ∀ a ∈ w, val a ≠ naInt → xMin ≤ val a ∧ val a - xMin < range) {base : List Nat}
    (hz : ZeroFrom base 0) (hl : range + 1 ≤ base.length) :
    Ret (countingHistogram (w.map val) xMin range base) (fun r =>
      r.2 = (inBucket (fun a => cBucket xMin range (val a)) w range).length ∧
      Cnt base 0 (range + 1)
        (fun b => (inBucket (fun a => cBucket xMin range (val a)) w b).length) r.1) := by
  unfold countingHistogram
  rw [List.length_map]
  refine Ret.bind (P := fun s : List Nat × Nat =>
      s.2 = (inBucket (fun a => cBucket xMin range (val a)) w range).length ∧
      Cnt base 0 (range + 1) (fun b => if b = range then 0 else
        (inBucket (fun a => cBucket xMin range (val a)) w b).length) s.1) ?_ ?_
  · refine (Ret.forN (fun i (s : List Nat × Nat) =>
      s.2 = cntUpTo (fun a => cBucket xMin range (val a)) w i range ∧
      Cnt base 0 (range + 1) (fun b => if b = range then 0 else
        cntUpTo (fun a => cBucket xMin range (val a)) w i b) s.1) ?_ ?_).mono ?_
    · refine ⟨by simp [cntUpTo, inBucket], ?_⟩
      exact (Cnt.base hz (by omega)).congr (fun b _ => by simp [cntUpTo, inBucket])
    · rintro i ⟨c, n⟩ hi ⟨h1, h2⟩
      dsimp only at h1 h2 ⊢
      have hwi : w[i]? = some w[i] := List.getElem?_eq_getElem hi
      have hwm : w[i] ∈ w := List.getElem_mem hi
      generalize w[i] = a at hwi hwm
      refine Ret.bind_eq (rd_of_getElem? (a := val a) (by simp [hwi])) ?_
      split
      · rename_i hna
        have hb : cBucket xMin range (val a) = range := by unfold cBucket; rw [if_pos hna]
        refine Ret.ok ⟨?_, h2.congr ?_⟩
        · rw [cntUpTo_succ hwi, if_pos hb, h1]
        · intro b _
          split
          · rfl
          · rename_i hbr
            rw [cntUpTo_succ hwi, if_neg (by omega)]
            omega
      · rename_i hna
        have hb : cBucket xMin range (val a) < range := by
          unfold cBucket; rw [if_neg hna]
          have := hv a hwm hna
          omega
        refine Ret.bind_eq (countingBucket_ok hm hr (hv a hwm)) ?_
        generalize hbk : cBucket xMin range (val a) = bk at hb
        have hrd := h2.rd (b := bk) (by omega)
        rw [Nat.zero_add, if_neg (by omega)] at hrd
        refine Ret.bind_eq hrd ?_
        have hwr := h2.wr (b := bk) (by omega)
          (cntUpTo (fun a => cBucket xMin range (val a)) w i bk + 1)
        rw [Nat.zero_add] at hwr
        refine Ret.bind_eq hwr.1 (Ret.ok ⟨?_, hwr.2.congr ?_⟩)
        · dsimp only
          rw [cntUpTo_succ hwi, if_neg (by omega), h1]
          rfl
        · intro b _
          rw [cntUpTo_succ hwi]
          by_cases hbb : b = bk
          · subst hbb
            rw [if_pos rfl, if_neg (by omega), if_pos hbk]
          · rw [if_neg hbb, if_neg (show ¬ cBucket xMin range (val a) = b by omega)]
            rfl
    · rintro s ⟨h1, h2⟩
      rw [cntUpTo_len] at h1
      exact ⟨h1, h2.congr (fun b _ => by rw [cntUpTo_len])⟩
  · rintro ⟨c, n⟩ ⟨h1, h2⟩
    dsimp only at h1 h2 ⊢
    have hwr := h2.wr (b := range) (by omega) n
    rw [Nat.zero_add] at hwr
    refine Ret.bind_eq hwr.1 (Ret.ok ⟨h1, hwr.2.congr ?_⟩)
    intro b _
    by_cases hb : b = range
    · subst hb; rw [if_pos rfl, h1]
    · rw [if_neg hb, if_neg hb]

end

/-! ## Accumulation -/

section
variable {γ : Type}

/-- The state of the accumulation after the buckets `p` out of `bs`. -/
structure CountingInv (bucket : γ → Nat) (w : List γ) (base : List Nat) (N : Nat) (bs : List Nat)
    (gi : GroupInfos) (p : List Nat) (s : CountingState) : Prop where
  cnt : Cnt base 0 N (fun b => if b ∈ p ∧ (inBucket bucket w b).length ≠ 0
    then startOf bucket w bs b else (inBucket bucket w b).length) s.counts
  cum : s.cumulative = (byBuckets bucket w p).length
  push : Pushed gi ((p.map (fun b => (inBucket bucket w b).length)).filter
    (fun n => decide (n ≠ 0))) s.gi

theorem CountingInv.skip {bucket : γ → Nat} {w : List γ} {base : List Nat} {N : Nat}
    {bs : List Nat} {gi : GroupInfos} {p : List Nat} {s : CountingState}
    (h : CountingInv bucket w base N bs gi p s) {b : Nat} (hb : (inBucket bucket w b).length = 0) :
    CountingInv bucket w base N bs gi (p ++ [b]) s := by
  refine ⟨h.cnt.congr ?_, ?_, ?_⟩
  · intro c _
    by_cases hcb : c = b
    · subst hcb; simp [hb]
    · simp [hcb]
  · rw [h.cum, byBuckets_append, List.length_append]
    simp [byBuckets, List.length_eq_zero_iff.1 hb]
  · have := h.push
    rw [List.map_append, List.filter_append]
    simpa [hb] using this

theorem filter_length_le_byBuckets (bucket : γ → Nat) (w : List γ) (p : List Nat) :
    ((p.map (fun b => (inBucket bucket w b).length)).filter (fun n => decide (n ≠ 0))).length ≤
      (byBuckets bucket w p).length := by
  induction p with
  | nil => simp
  | cons b p ih =>
    rw [byBuckets_cons, List.length_append, List.map_cons, List.filter_cons]
    split
    · rename_i h
      have : (inBucket bucket w b).length ≠ 0 := by simpa using h
      rw [List.length_cons]
      omega
    · omega

theorem CountingInv.start {bucket : γ → Nat} {w : List γ} {base : List Nat} {N : Nat}
    {bs : List Nat} {gi : GroupInfos} {p : List Nat} {s : CountingState}
    (h : CountingInv bucket w base N bs gi p s) {b : Nat} {r : List Nat} (hbs : bs = p ++ b :: r)
    (hn : bs.Nodup) (hmem : ∀ a ∈ w, bucket a ∈ bs) (hbN : b < N) (hr : Room gi w.length)
    (hb : (inBucket bucket w b).length ≠ 0) :
    Ret (countingStart (b : Int) (inBucket bucket w b).length s)
      (CountingInv bucket w base N bs gi (p ++ [b])) := by
  have hbp : b ∉ p := by
    intro hbp
    rw [hbs, List.nodup_append] at hn
    exact hn.2.2 b hbp b (by simp) rfl
  have hlen : (byBuckets bucket w p).length + (inBucket bucket w b).length ≤ w.length := by
    rw [← (byBuckets_perm hn hmem).length_eq, hbs, byBuckets_append, byBuckets_cons]
    simp only [List.length_append]
    omega
  unfold countingStart
  have hwr := h.cnt.wr hbN s.cumulative
  rw [Nat.zero_add] at hwr
  have hwrI : wrI s.counts (b : Int) s.cumulative = .ok (s.counts.set b s.cumulative) := by
    unfold wrI
    rw [if_neg (by omega)]
    exact hwr.1
  refine Ret.bind_eq hwrI ?_
  have hroom : Room s.gi 1 := by
    have := hr.pushed h.push (Nat.le_trans (filter_length_le_byBuckets bucket w p) (by omega))
    refine this.mono ?_
    have := filter_length_le_byBuckets bucket w p
    omega
  refine Ret.bind (groupsSizeMaybePush_ok (Nat.pos_of_ne_zero hb) hroom) ?_
  intro gi' hp
  refine Ret.ok ⟨hwr.2.congr ?_, ?_, ?_⟩
  · intro c hc
    by_cases hcb : c = b
    · subst hcb
      rw [if_pos rfl, if_pos ⟨by simp, hb⟩, h.cum, hbs, startOf_eq hbp]
    · rw [if_neg hcb]
      simp [hcb]
  · dsimp only
    rw [byBuckets_append, List.length_append, h.cum]
    simp [byBuckets]
  · dsimp only
    rw [List.map_append, List.filter_append]
    have : ([b].map (fun b => (inBucket bucket w b).length)).filter (fun n => decide (n ≠ 0)) =
        [(inBucket bucket w b).length] := by
      simp [hb]
    rw [this]
    exact h.push.trans hp

theorem countingAccumulate_ok {bucket : γ → Nat} {w : List γ} {base : List Nat} {range : Nat}
    {decreasing naLast : Bool} {gi : GroupInfos} {counts : List Nat} {naCount : Nat}
    (hc : Cnt base 0 (range + 1) (fun b => (inBucket bucket w b).length) counts)
    (hna : naCount = (inBucket bucket w range).length)
    (hb : ∀ a ∈ w, bucket a < range + 1) (hr : Room gi w.length) :
    Ret (countingAccumulate range decreasing naLast naCount counts gi)
      (CountingInv bucket w base (range + 1) (cVisit range decreasing naLast) gi
        (cVisit range decreasing naLast)) := by
  have hn := cVisit_nodup range decreasing naLast
  have hmem : ∀ a ∈ w, bucket a ∈ cVisit range decreasing naLast :=
    fun a ha => cVisit_mem.2 (hb a ha)
  have hstart0 : CountingInv bucket w base (range + 1) (cVisit range decreasing naLast) gi []
      ⟨counts, 0, gi⟩ :=
    ⟨hc.congr (fun b _ => by simp), by simp [byBuckets], by simpa using Pushed.refl gi⟩
  -- the three parts
  generalize hpre : (if naLast then ([] : List Nat) else [range]) = pre
  generalize hmid : (if decreasing then (List.range range).reverse else List.range range) = mid
  generalize hpost : (if naLast then [range] else ([] : List Nat)) = post
  have hbs : cVisit range decreasing naLast = pre ++ mid ++ post := by
    unfold cVisit; rw [hpre, hmid, hpost]
  have hmlen : mid.length = range := by rw [← hmid]; cases decreasing <;> simp
  have hmget : ∀ i, i < range → mid[i]? = some (if decreasing then range - 1 - i else i) := by
    intro i hi
    rw [← hmid]
    cases decreasing with
    | true =>
      simp only [if_true]
      rw [List.getElem?_reverse (by simpa using hi), List.length_range, List.getElem?_range]
      omega
    | false => simp [hi]
  unfold countingAccumulate
  dsimp only
  refine Ret.bind (P := CountingInv bucket w base (range + 1) (cVisit range decreasing naLast) gi
    pre) ?_ ?_
  · rw [← hpre]
    cases naLast with
    | true => simpa using Ret.ok hstart0
    | false =>
      simp only [Bool.not_false, Bool.true_and, if_false, Bool.false_eq_true]
      by_cases h0 : naCount = 0
      · rw [if_neg (by simpa using h0)]
        exact Ret.ok (hstart0.skip (b := range) (by omega))
      · rw [if_pos (by simpa using h0), hna]
        refine hstart0.start (r := mid ++ post) ?_ hn hmem (by omega) hr (by omega)
        rw [hbs, ← hpre]
        simp
  · intro s hs
    refine Ret.bind (P := fun t : CountingState × Int => CountingInv bucket w base (range + 1)
      (cVisit range decreasing naLast) gi (pre ++ mid) t.1) ?_ ?_
    · refine (Ret.forN (fun i (t : CountingState × Int) => CountingInv bucket w base (range + 1)
        (cVisit range decreasing naLast) gi (pre ++ mid.take i) t.1 ∧
        t.2 = if decreasing then (range : Int) - 1 - i else i) ?_ ?_).mono ?_
      · refine ⟨by simpa using hs, ?_⟩
        cases decreasing <;> simp
      · rintro i ⟨s, j⟩ hi ⟨h1, h2⟩
        dsimp only at h1 h2 ⊢
        have hget := hmget i hi
        generalize hjn : (if decreasing then range - 1 - i else i) = jn at hget
        have hj : j = (jn : Int) := by
          rw [h2, ← hjn]
          cases decreasing
          · simp
          · simp only [if_true]; omega
        have hjr : jn < range := by
          rw [← hjn]; cases decreasing <;> simp only [if_true, if_false, Bool.false_eq_true] <;> omega
        have him : i < mid.length := by omega
        have hmi : mid[i] = jn := (List.getElem?_eq_some_iff.1 hget).2
        have htake : pre ++ mid.take (i + 1) = pre ++ mid.take i ++ [jn] := by
          rw [List.take_succ_eq_append_getElem him, hmi, List.append_assoc]
        have hsplit : cVisit range decreasing naLast =
            (pre ++ mid.take i) ++ jn :: (mid.drop (i + 1) ++ post) := by
          rw [hbs]
          have := List.drop_eq_getElem_cons him
          rw [hmi] at this
          rw [← List.cons_append, ← this]
          simp
          rw [← List.append_assoc (mid.take i), List.take_append_drop]
        have hnm : jn ∉ pre ++ mid.take i := by
          intro hx
          rw [hsplit, List.nodup_append] at hn
          exact hn.2.2 jn hx jn (by simp) rfl
        have hrd := h1.cnt.rd (b := jn) (by omega)
        rw [Nat.zero_add, if_neg (fun h => hnm h.1)] at hrd
        have hrdI : rdI s.counts j = .ok (inBucket bucket w jn).length := by
          unfold rdI
          rw [hj, if_neg (by omega)]
          exact hrd
        refine Ret.bind_eq hrdI ?_
        have hj' : j + (if decreasing then -1 else 1) =
            if decreasing then (range : Int) - 1 - (i + 1 : Nat) else (i + 1 : Nat) := by
          rw [h2]; cases decreasing <;> simp only [if_true, if_false, Bool.false_eq_true] <;> omega
        split
        · rename_i h0
          refine Ret.ok ⟨?_, hj'⟩
          rw [htake]
          exact h1.skip h0
        · rename_i h0
          rw [hj]
          refine Ret.bind (h1.start hsplit hn hmem (by omega) hr h0) ?_
          intro s' hs'
          refine Ret.ok ⟨?_, by rw [← hj]; exact hj'⟩
          rw [htake]
          exact hs'
      · rintro t ⟨h1, _⟩
        rw [List.take_of_length_le (by omega)] at h1
        exact h1
    · rintro ⟨s, j⟩ hs
      dsimp only at hs ⊢
      rw [← hpost] at hbs
      cases naLast with
      | false =>
        simp only [Bool.false_and, Bool.false_eq_true, if_false] at hbs ⊢
        refine Ret.ok ?_
        rw [List.append_nil] at hbs
        rw [← hbs] at hs
        exact hs
      | true =>
        simp only [Bool.true_and, if_true] at hbs ⊢
        rw [hbs] at hs hn hmem ⊢
        by_cases h0 : naCount = 0
        · rw [if_neg (by simpa using h0)]
          exact Ret.ok (hs.skip (b := range) (by omega))
        · rw [if_pos (by simpa using h0), hna]
          exact hs.start (r := []) rfl hn hmem (by omega) hr (by omega)

end

/-! ## Placement -/

theorem countingPlace_ok {xMin : Int} {range : Nat} {val : Int → Int} {w : List Int}
    (hm : Spec.IsInt xMin) (hr : range ≤ 100000)
    (hv : ∀ a ∈ w, val a ≠ naInt → xMin ≤ val a ∧ val a - xMin < range) {bs : List Nat}
    (hn : bs.Nodup) (hb : ∀ a ∈ w, cBucket xMin range (val a) ∈ bs) {cap : Nat}
    (hcap : w.length ≤ cap) {base counts : List Nat} {f : Nat → Nat}
    (hc : Cnt base 0 (range + 1) f counts)
    (hf : ∀ a ∈ w, f (cBucket xMin range (val a)) =
      startOf (fun a => cBucket xMin range (val a)) w bs (cBucket xMin range (val a)))
    {get : Nat → C Int} (hget : ∀ (i : Nat) (a : Int), w[i]? = some a → get i = .ok a) :
    Ret (countingPlace (w.map val) xMin range cap get counts) (fun r =>
      copyBack r.1 w.length = .ok (byBuckets (fun a => cBucket xMin range (val a)) w bs) ∧
      ∃ f', Cnt base 0 (range + 1) f' r.2) := by
  generalize hbk : (fun a => cBucket xMin range (val a)) = bucket at hf ⊢
  have hbk' : ∀ a, cBucket xMin range (val a) = bucket a := fun a => congrFun hbk a
  simp only [hbk'] at hb hf
  have hN : ∀ a ∈ w, bucket a < range + 1 := by
    intro a ha; rw [← hbk']; exact cBucket_le (hv a ha)
  have hlen : (byBuckets bucket w bs).length = w.length := (byBuckets_perm hn hb).length_eq
  unfold countingPlace
  rw [List.length_map]
  refine (Ret.forN (fun i (s : List (Option Int) × List Nat) =>
    (byBuckets bucket w bs).length ≤ s.1.length ∧
    (∀ p, (∃ j a, j < i ∧ w[j]? = some a ∧ p = placeLoc bucket w bs j a) →
      p < (byBuckets bucket w bs).length → s.1[p]? = some (byBuckets bucket w bs)[p]?) ∧
    Cnt base 0 (range + 1) (fun b => f b + cntUpTo bucket w i b) s.2) ?_ ?_).mono ?_
  · refine ⟨by simp; omega, ?_, hc.congr (fun b _ => by simp [cntUpTo, inBucket])⟩
    rintro p ⟨j, a, hj, _⟩; omega
  · rintro i ⟨out, c⟩ hi ⟨h1, h2, h3⟩
    dsimp only at h1 h2 h3 ⊢
    obtain ⟨a, ha⟩ : ∃ a, w[i]? = some a := ⟨w[i], List.getElem?_eq_getElem hi⟩
    have ham : a ∈ w := List.mem_of_getElem? ha
    have hF := byBuckets_placeLoc ha (hb a ham)
    have hloc : f (bucket a) + cntUpTo bucket w i (bucket a) = placeLoc bucket w bs i a := by
      rw [hf a ham]; rfl
    refine Ret.bind_eq (rd_of_getElem? (a := val a) (by simp [ha])) ?_
    refine Ret.bind_eq (countingBucket_ok hm hr (hv a ham)) ?_
    rw [hbk']
    have hrd := h3.rd (hN a ham)
    rw [Nat.zero_add] at hrd
    refine Ret.bind_eq hrd ?_
    have hw := h3.wr (hN a ham) (f (bucket a) + cntUpTo bucket w i (bucket a) + 1)
    rw [Nat.zero_add] at hw
    refine Ret.bind_eq hw.1 ?_
    refine Ret.bind_eq (hget i a ha) ?_
    have s1 := aux_step (v := a) h1 h2 (loc := placeLoc bucket w bs i a) hF
    rw [hloc] at hw ⊢
    refine Ret.bind_eq s1.1 (Ret.ok ⟨s1.2.1, ?_, ?_⟩)
    · rintro p ⟨j, b, hj, hjb, rfl⟩ hp
      refine s1.2.2 _ ?_ hp
      by_cases hji : j = i
      · subst hji; rw [ha] at hjb; cases hjb; exact Or.inr rfl
      · exact Or.inl ⟨j, b, by omega, hjb, rfl⟩
    · refine hw.2.congr ?_
      intro b _
      rw [cntUpTo_succ ha]
      by_cases hba : b = bucket a
      · subst hba; simp [← hloc]; omega
      · rw [if_neg hba, if_neg (fun h => hba h.symm)]; omega
  · rintro ⟨out, c⟩ ⟨h1, h2, h3⟩
    refine ⟨?_, _, h3⟩
    have := initd_take_of_cover (F := byBuckets bucket w bs) (aux := out) h1 (by
      intro p hp
      obtain ⟨i, a, hia, he⟩ := byBuckets_placeLoc_cover hn hp
      exact h2 p ⟨i, a, (List.getElem?_eq_some_iff.1 hia).1, hia, he⟩ hp)
    rwa [hlen] at this

/-- The static counts between calls. -/
def StaticOk (c : List Nat) : Prop := c = List.replicate 100001 0

theorem memset0_ok {base : List Nat} (hs : StaticOk base) {N : Nat} (hN : N ≤ 100001)
    {f : Nat → Nat} {c : List Nat} (hc : Cnt base 0 N f c) : memset0 c N = .ok base := by
  have hl : base.length = 100001 := by rw [hs]; exact List.length_replicate
  unfold memset0
  rw [if_pos (by rw [hc.len]; omega)]
  congr 1
  apply List.ext_getElem?
  intro p
  by_cases hp : p < N
  · rw [List.getElem?_append_left (by simpa using hp), hs, List.getElem?_replicate,
      List.getElem?_replicate, if_pos hp, if_pos (by omega)]
  · rw [List.getElem?_append_right (by simp; omega), List.getElem?_drop, List.length_replicate,
      show N + (p - N) = p by omega, hc.outside p (by omega)]

theorem intOrderCounting_ok {xMin : Int} {range : Nat} {val : Int → Int} {w : List Int}
    (decreasing naLast : Bool)
    (hm : Spec.IsInt xMin) (hr : range < 100000) (hi : ∀ a ∈ w, Spec.IsInt (val a))
    (hv : ∀ a ∈ w, val a ≠ naInt → xMin ≤ val a ∧ val a - xMin < range) {cap : Nat}
    (hcap : w.length ≤ cap) {base : List Nat} (hs : StaticOk base) (gi : GroupInfos)
    (hroom : Room gi w.length) {o : Option (List Int)}
    (ho : o = some w ∨ (o = none ∧ w = oneTo w.length)) :
    Ret (intOrderCounting cap (w.map val) xMin range decreasing naLast o base gi) (fun r =>
      r.2.1 = base ∧ ∃ gs, Ordered (· < ·) (fun a => intKey decreasing naLast (val a)) w r.1 gs ∧
        Pushed gi gs r.2.2) := by
  have hl : base.length = 100001 := by rw [hs]; exact List.length_replicate
  have hz : ZeroFrom base 0 := by
    intro p _ hp
    rw [hl] at hp
    rw [hs, List.getElem?_replicate, if_pos hp]
  have hbw : ∀ a ∈ w, cBucket xMin range (val a) < range + 1 := fun a ha => cBucket_le (hv a ha)
  unfold intOrderCounting
  dsimp only
  rw [if_neg (by simp only [countingRangeBoundary]; omega)]
  refine Ret.bind (countingHistogram_ok hm (by omega) hv hz (by omega)) ?_
  rintro ⟨counts, naCount⟩ ⟨h1, h2⟩
  dsimp only at h1 h2 ⊢
  refine Ret.bind (countingAccumulate_ok (decreasing := decreasing) (naLast := naLast) h2 h1 hbw
    hroom) ?_
  intro s hci
  have hf : ∀ a ∈ w, (if cBucket xMin range (val a) ∈ cVisit range decreasing naLast ∧
      (inBucket (fun a => cBucket xMin range (val a)) w (cBucket xMin range (val a))).length ≠ 0
      then startOf (fun a => cBucket xMin range (val a)) w (cVisit range decreasing naLast)
        (cBucket xMin range (val a))
      else (inBucket (fun a => cBucket xMin range (val a)) w (cBucket xMin range (val a))).length) =
      startOf (fun a => cBucket xMin range (val a)) w (cVisit range decreasing naLast)
        (cBucket xMin range (val a)) := by
    intro a ha
    rw [if_pos]
    refine ⟨cVisit_mem.2 (hbw a ha), ?_⟩
    have : a ∈ inBucket (fun a => cBucket xMin range (val a)) w (cBucket xMin range (val a)) :=
      List.mem_filter.2 ⟨ha, by simp⟩
    exact Nat.pos_iff_ne_zero.1 (List.length_pos_of_mem this)
  have hplace : ∀ get : Nat → C Int, (∀ (i : Nat) (a : Int), w[i]? = some a → get i = .ok a) →
      Ret (do
        let (out, counts) ← countingPlace (w.map val) xMin range cap get s.counts
        let out ← copyBack out (w.map val).length
        let counts ← memset0 counts (range + 1)
        .ok (out, counts, s.gi)) (fun r => r.2.1 = base ∧ ∃ gs,
          Ordered (· < ·) (fun a => intKey decreasing naLast (val a)) w r.1 gs ∧
          Pushed gi gs r.2.2) := by
    intro get hget
    refine Ret.bind (countingPlace_ok hm (by omega) hv (cVisit_nodup range decreasing naLast)
      (fun a ha => cVisit_mem.2 (hbw a ha)) hcap hci.cnt hf hget) ?_
    rintro ⟨out, c⟩ ⟨q1, f', q2⟩
    dsimp only at q1 q2 ⊢
    rw [List.length_map]
    refine Ret.bind_eq q1 ?_
    refine Ret.bind_eq (memset0_ok hs (by omega) q2) (Ret.ok ⟨rfl, _, ?_, hci.push⟩)
    have hkb : ∀ a ∈ w, ∀ b ∈ w, intKey decreasing naLast (val a) = intKey decreasing naLast (val b) ↔
        cBucket xMin range (val a) = cBucket xMin range (val b) := by
      intro a ha b hb
      obtain ⟨a1, a2⟩ := hi a ha
      obtain ⟨b1, b2⟩ := hi b hb
      have va := hv a ha
      have vb := hv b hb
      have hna : intKey decreasing naLast (val a) = intKey decreasing naLast (val b) ↔
          val a = val b := by
        have := (intCmp_key (decreasing := decreasing) (naLast := naLast) (x := [val a, val b])
          (by
            intro v hv'
            simp only [List.mem_cons, List.not_mem_nil, or_false] at hv'
            rcases hv' with rfl | rfl
            · exact hi a ha
            · exact hi b hb) (val a) (by simp) (val b) (by simp)).2
        rw [← this]
        unfold intCmp
        dsimp only
        by_cases ea : val a = naInt
        · by_cases eb : val b = naInt
          · rw [if_pos ea, if_pos eb, ea, eb]; simp
          · rw [if_pos ea, if_neg eb]
            cases naLast <;> simp only [if_true, if_false, Bool.false_eq_true] <;>
              constructor <;> intro h <;> omega
        · by_cases eb : val b = naInt
          · rw [if_neg ea, if_pos eb]
            cases naLast <;> simp only [if_true, if_false, Bool.false_eq_true] <;>
              constructor <;> intro h <;> omega
          · rw [if_neg ea, if_neg eb]
            rcases Int.lt_trichotomy (val a) (val b) with hab | hab | hab
            · rw [if_neg (by omega), if_pos hab]
              cases decreasing <;> simp only [if_true, if_false, Bool.false_eq_true] <;>
                constructor <;> intro h <;> omega
            · rw [hab]; simp
            · rw [if_pos hab, if_neg (by omega)]
              cases decreasing <;> simp only [if_true, if_false, Bool.false_eq_true] <;>
                constructor <;> intro h <;> omega
      rw [hna]
      constructor
      · intro h; rw [h]
      · intro h
        unfold cBucket at h
        by_cases ea : val a = naInt
        · by_cases eb : val b = naInt
          · rw [ea, eb]
          · rw [if_pos ea, if_neg eb] at h
            have := vb eb
            omega
        · by_cases eb : val b = naInt
          · rw [if_neg ea, if_pos eb] at h
            have := va ea
            omega
          · rw [if_neg ea, if_neg eb] at h
            have := va ea
            have := vb eb
            omega
    refine Ordered.byBuckets (cVisit_nodup range decreasing naLast)
      (fun a ha => cVisit_mem.2 (hbw a ha)) hkb ?_
    have := cVisit_key (xMin := xMin) (range := range) decreasing naLast (vs := w.map val)
      (by intro v hv'; obtain ⟨a, ha, rfl⟩ := List.mem_map.1 hv'; exact hi a ha)
      (by intro v hv'; obtain ⟨a, ha, rfl⟩ := List.mem_map.1 hv'; exact hv a ha)
    refine this.imp ?_
    intro b c h x hx y hy e1 e2
    exact h _ (List.mem_map_of_mem hx) _ (List.mem_map_of_mem hy) e1 e2
  rcases ho with rfl | ⟨rfl, hw⟩
  · exact hplace (fun i => rd w i) (fun i a h => rd_of_getElem? h)
  · refine hplace (fun i => .ok ((i : Int) + 1)) ?_
    intro i a h
    have hi' : i < w.length := (List.getElem?_eq_some_iff.1 h).1
    rw [hw, oneTo_getElem? hi'] at h
    cases h
    rfl

end Vctrs
