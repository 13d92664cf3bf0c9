import Verif.Lemmas.OrderInsert
import Mathlib.Data.List.Induction

/-!
# Placing elements by counts of buckets
-/

namespace Vctrs

variable {γ α β : Type}

/-- The elements in a bucket, in order. -/
def inBucket (bucket : γ → Nat) (w : List γ) (b : Nat) : List γ :=
  w.filter (fun a => decide (bucket a = b))

/-- The elements of the buckets `bs`, one bucket after the other. -/
def byBuckets (bucket : γ → Nat) (w : List γ) (bs : List Nat) : List γ :=
  bs.flatMap (inBucket bucket w)

/-- Where a bucket starts. -/
def startOf (bucket : γ → Nat) (w : List γ) : List Nat → Nat → Nat
  | [], _ => 0
  | c :: bs, b => if c = b then 0 else (inBucket bucket w c).length + startOf bucket w bs b

theorem byBuckets_append (bucket : γ → Nat) (w : List γ) (a b : List Nat) :
    byBuckets bucket w (a ++ b) = byBuckets bucket w a ++ byBuckets bucket w b :=
  List.flatMap_append

theorem byBuckets_cons (bucket : γ → Nat) (w : List γ) (b : Nat) (bs : List Nat) :
    byBuckets bucket w (b :: bs) = inBucket bucket w b ++ byBuckets bucket w bs := rfl

theorem startOf_eq {bucket : γ → Nat} {w : List γ} {p : List Nat} {b : Nat} {r : List Nat}
    (h : b ∉ p) : startOf bucket w (p ++ b :: r) b = (byBuckets bucket w p).length := by
  induction p with
  | nil => simp [startOf, byBuckets]
  | cons c p ih =>
    have hcb : c ≠ b := by intro h'; exact h (by simp [h'])
    rw [List.cons_append, startOf, if_neg hcb, ih (fun h' => h (by simp [h'])), byBuckets_cons,
      List.length_append]

theorem byBuckets_getElem {bucket : γ → Nat} {w : List γ} {bs : List Nat} {b j : Nat}
    (hb : b ∈ bs) (hj : j < (inBucket bucket w b).length) :
    (byBuckets bucket w bs)[startOf bucket w bs b + j]? = (inBucket bucket w b)[j]? := by
  induction bs with
  | nil => simp at hb
  | cons c bs ih =>
    rw [byBuckets_cons, startOf]
    split
    · rename_i h
      subst h
      rw [Nat.zero_add, List.getElem?_append_left hj]
    · rename_i h
      have hb' : b ∈ bs := by
        rcases List.mem_cons.1 hb with h' | h'
        · exact absurd h'.symm h
        · exact h'
      rw [List.getElem?_append_right (by omega), Nat.add_assoc, Nat.add_sub_cancel_left]
      exact ih hb'

theorem byBuckets_cover {bucket : γ → Nat} {w : List γ} {bs : List Nat} (hn : bs.Nodup) {p : Nat}
    (hp : p < (byBuckets bucket w bs).length) :
    ∃ b ∈ bs, ∃ j, j < (inBucket bucket w b).length ∧ p = startOf bucket w bs b + j := by
  induction bs generalizing p with
  | nil => simp [byBuckets] at hp
  | cons c bs ih =>
    rw [byBuckets_cons, List.length_append] at hp
    by_cases h : p < (inBucket bucket w c).length
    · exact ⟨c, by simp, p, h, by simp [startOf]⟩
    · obtain ⟨b, hb, j, hj, he⟩ := ih (List.nodup_cons.1 hn).2
        (p := p - (inBucket bucket w c).length) (by omega)
      refine ⟨b, by simp [hb], j, hj, ?_⟩
      have hcb : c ≠ b := by rintro rfl; exact (List.nodup_cons.1 hn).1 hb
      rw [startOf, if_neg hcb]
      omega

/-- Number of elements of a bucket among the first `i`. -/
def cntUpTo (bucket : γ → Nat) (w : List γ) (i b : Nat) : Nat :=
  (inBucket bucket (w.take i) b).length

theorem cntUpTo_succ {bucket : γ → Nat} {w : List γ} {i b : Nat} {a : γ} (h : w[i]? = some a) :
    cntUpTo bucket w (i + 1) b = cntUpTo bucket w i b + (if bucket a = b then 1 else 0) := by
  unfold cntUpTo inBucket
  rw [List.take_succ, h]
  simp only [Option.toList, List.filter_append, List.length_append, List.filter_cons,
    List.filter_nil]
  by_cases hb : bucket a = b <;> simp [hb]

theorem cntUpTo_len (bucket : γ → Nat) (w : List γ) (b : Nat) :
    cntUpTo bucket w w.length b = (inBucket bucket w b).length := by
  unfold cntUpTo; rw [List.take_length]

theorem inBucket_getElem {bucket : γ → Nat} {w : List γ} {i : Nat} {a : γ} (h : w[i]? = some a) :
    (inBucket bucket w (bucket a))[cntUpTo bucket w i (bucket a)]? = some a := by
  have hi : i < w.length := (List.getElem?_eq_some_iff.1 h).1
  have hw : w = w.take i ++ a :: w.drop (i + 1) := by
    have := List.drop_eq_getElem_cons hi
    rw [(List.getElem?_eq_some_iff.1 h).2] at this
    rw [← this, List.take_append_drop]
  have : inBucket bucket w (bucket a) = inBucket bucket (w.take i) (bucket a) ++
      a :: inBucket bucket (w.drop (i + 1)) (bucket a) := by
    unfold inBucket
    conv_lhs => rw [hw]
    rw [List.filter_append, List.filter_cons]
    simp
  rw [this]
  unfold cntUpTo
  simp

theorem inBucket_cover {bucket : γ → Nat} {w : List γ} {b j : Nat}
    (hj : j < (inBucket bucket w b).length) :
    ∃ i a, w[i]? = some a ∧ bucket a = b ∧ cntUpTo bucket w i b = j := by
  induction w using List.reverseRecOn with
  | nil => simp [inBucket] at hj
  | append_singleton w c ih =>
    have hlift : ∀ i a, w[i]? = some a → bucket a = b → cntUpTo bucket w i b = j →
        ∃ i a, (w ++ [c])[i]? = some a ∧ bucket a = b ∧ cntUpTo bucket (w ++ [c]) i b = j := by
      intro i a h1 h2 h3
      have hi : i < w.length := (List.getElem?_eq_some_iff.1 h1).1
      refine ⟨i, a, by rw [List.getElem?_append_left hi]; exact h1, h2, ?_⟩
      rw [← h3]
      unfold cntUpTo
      rw [List.take_append_of_le_length (by omega)]
    by_cases hjw : j < (inBucket bucket w b).length
    · obtain ⟨i, a, h1, h2, h3⟩ := ih hjw
      exact hlift i a h1 h2 h3
    · have hsplit : inBucket bucket (w ++ [c]) b = inBucket bucket w b ++ inBucket bucket [c] b := by
        unfold inBucket; rw [List.filter_append]
      rw [hsplit, List.length_append] at hj
      have hc : bucket c = b := by
        by_contra hne
        simp [inBucket, hne] at hj
        simp [inBucket] at hjw
        omega
      refine ⟨w.length, c, by simp, hc, ?_⟩
      have : (inBucket bucket [c] b).length ≤ 1 := by
        unfold inBucket
        exact List.length_filter_le _ _
      unfold cntUpTo
      rw [List.take_append_of_le_length (Nat.le_refl _), List.take_length]
      omega

/-- Where element `i` goes. -/
def placeLoc (bucket : γ → Nat) (w : List γ) (bs : List Nat) (i : Nat) (a : γ) : Nat :=
  startOf bucket w bs (bucket a) + cntUpTo bucket w i (bucket a)

theorem byBuckets_placeLoc {bucket : γ → Nat} {w : List γ} {bs : List Nat} {i : Nat} {a : γ}
    (h : w[i]? = some a) (hb : bucket a ∈ bs) :
    (byBuckets bucket w bs)[placeLoc bucket w bs i a]? = some a := by
  have := inBucket_getElem (bucket := bucket) h
  unfold placeLoc
  rw [byBuckets_getElem hb (List.getElem?_eq_some_iff.1 this).1, this]

theorem byBuckets_placeLoc_cover {bucket : γ → Nat} {w : List γ} {bs : List Nat} (hn : bs.Nodup)
    {p : Nat} (hp : p < (byBuckets bucket w bs).length) :
    ∃ i a, w[i]? = some a ∧ p = placeLoc bucket w bs i a := by
  obtain ⟨b, _, j, hj, he⟩ := byBuckets_cover hn hp
  obtain ⟨i, a, h1, h2, h3⟩ := inBucket_cover hj
  refine ⟨i, a, h1, ?_⟩
  unfold placeLoc
  rw [h2, h3, he]

/-- Buckets keep the elements, up to order. -/
theorem byBuckets_perm {bucket : γ → Nat} {w : List γ} {bs : List Nat} (hn : bs.Nodup)
    (hb : ∀ a ∈ w, bucket a ∈ bs) : (byBuckets bucket w bs).Perm w := by
  classical
  rw [List.perm_iff_count]
  intro a
  by_cases ha : a ∈ w
  · have hba := hb a ha
    clear hb
    induction bs with
    | nil => simp at hba
    | cons c bs ih =>
      rw [byBuckets_cons, List.count_append]
      have hc := List.nodup_cons.1 hn
      by_cases hac : bucket a = c
      · subst hac
        have h1 : (inBucket bucket w (bucket a)).count a = w.count a := by
          unfold inBucket
          rw [List.count_filter (by simp)]
        have h2 : (byBuckets bucket w bs).count a = 0 := by
          rw [List.count_eq_zero]
          intro hm
          obtain ⟨d, hd, hm⟩ := List.mem_flatMap.1 hm
          have : bucket a = d := by
            have := (List.mem_filter.1 hm).2
            simpa using this
          exact hc.1 (this ▸ hd)
        omega
      · have h1 : (inBucket bucket w c).count a = 0 := by
          rw [List.count_eq_zero]
          intro hm
          have := (List.mem_filter.1 hm).2
          simp at this
          exact hac this
        rw [h1, ih hc.2 (by
          rcases List.mem_cons.1 hba with h | h
          · exact absurd h hac
          · exact h)]
        omega
  · rw [List.count_eq_zero.2 ha, List.count_eq_zero]
    intro hm
    obtain ⟨d, hd, hm⟩ := List.mem_flatMap.1 hm
    exact ha (List.mem_filter.1 hm).1

/-- If the key determines the bucket, buckets keep the order of ties. -/
theorem byBuckets_filter {κ : Type} [DecidableEq κ] {bucket : γ → Nat} {key : γ → κ} {w : List γ}
    {bs : List Nat} (hn : bs.Nodup) (hb : ∀ a ∈ w, bucket a ∈ bs)
    (hk : ∀ a ∈ w, ∀ b ∈ w, key a = key b → bucket a = bucket b) (k : κ) :
    (byBuckets bucket w bs).filter (fun a => decide (key a = k)) =
      w.filter (fun a => decide (key a = k)) := by
  by_cases h : ∃ a ∈ w, key a = k
  · obtain ⟨a, ha, rfl⟩ := h
    have hba := hb a ha
    have hcase : ∀ c, (inBucket bucket w c).filter (fun x => decide (key x = key a)) =
        if c = bucket a then w.filter (fun x => decide (key x = key a)) else [] := by
      intro c
      unfold inBucket
      rw [List.filter_filter]
      split
      · rename_i hc
        apply List.filter_congr
        intro x hx
        by_cases hxa : key x = key a
        · have := hk x hx a ha hxa
          simp [hxa, hc, this]
        · simp [hxa]
      · rename_i hc
        rw [List.filter_eq_nil_iff]
        intro x hx hx'
        simp at hx'
        exact hc (hx'.2 ▸ (hk x hx a ha hx'.1))
    unfold byBuckets
    rw [List.filter_flatMap]
    clear hb
    induction bs with
    | nil => simp at hba
    | cons c bs ih =>
      have hc := List.nodup_cons.1 hn
      rw [List.flatMap_cons, hcase]
      by_cases hac : c = bucket a
      · rw [if_pos hac]
        have : bs.flatMap (fun x => (inBucket bucket w x).filter (fun x => decide (key x = key a))) = [] := by
          rw [List.flatMap_eq_nil_iff]
          intro d hd
          rw [hcase, if_neg]
          rintro rfl
          exact hc.1 (hac ▸ hd)
        rw [this, List.append_nil]
      · rw [if_neg hac, List.nil_append]
        refine ih hc.2 ?_
        rcases List.mem_cons.1 hba with h | h
        · exact absurd h.symm hac
        · exact h
  · have e1 : ∀ v : List γ, (∀ b ∈ v, b ∈ w) → v.filter (fun b => decide (key b = k)) = [] := by
      intro v hv
      rw [List.filter_eq_nil_iff]
      intro b hb hkb
      exact h ⟨b, hv b hb, by simpa using hkb⟩
    rw [e1 _ (fun b hb' => (byBuckets_perm hn hb).mem_iff.1 hb'), e1 _ (fun _ h => h)]

/-! ## Counts -/

/-- `c` is `base` except that the `N` elements from `off` on are given by `f`. -/
structure Cnt (base : List Nat) (off N : Nat) (f : Nat → Nat) (c : List Nat) : Prop where
  len : c.length = base.length
  inside : ∀ b, b < N → c[off + b]? = some (f b)
  outside : ∀ p, p < off ∨ off + N ≤ p → c[p]? = base[p]?

theorem Cnt.rd {base : List Nat} {off N : Nat} {f : Nat → Nat} {c : List Nat}
    (h : Cnt base off N f c) {b : Nat} (hb : b < N) : Vctrs.rd c (off + b) = .ok (f b) :=
  rd_of_getElem? (h.inside b hb)

theorem Cnt.wr {base : List Nat} {off N : Nat} {f : Nat → Nat} {c : List Nat}
    (h : Cnt base off N f c) {b : Nat} (hb : b < N) (v : Nat) :
    Vctrs.wr c (off + b) v = .ok (c.set (off + b) v) ∧
      Cnt base off N (fun x => if x = b then v else f x) (c.set (off + b) v) := by
  have hl : off + b < c.length := (List.getElem?_eq_some_iff.1 (h.inside b hb)).1
  refine ⟨wr_ok hl, by simpa using h.len, ?_, ?_⟩
  · intro x hx
    rw [getElem?_set' hl]
    by_cases hxb : x = b
    · subst hxb; simp
    · rw [if_neg (by omega), if_neg hxb, h.inside x hx]
  · intro p hp
    rw [getElem?_set' hl, if_neg (by omega), h.outside p hp]

theorem Cnt.congr {base : List Nat} {off N : Nat} {f g : Nat → Nat} {c : List Nat}
    (h : Cnt base off N f c) (hfg : ∀ b, b < N → f b = g b) : Cnt base off N g c :=
  ⟨h.len, fun b hb => by rw [h.inside b hb, hfg b hb], h.outside⟩

/-- Zero from `off` on. -/
def ZeroFrom (base : List Nat) (off : Nat) : Prop := ∀ p, off ≤ p → p < base.length →
  base[p]? = some 0

theorem Cnt.base {base : List Nat} {off N : Nat} (h : ZeroFrom base off)
    (hl : off + N ≤ base.length) : Cnt base off N (fun _ => 0) base :=
  ⟨rfl, fun b hb => h _ (by omega) (by omega), fun _ _ => rfl⟩

theorem Cnt.eq_base {base : List Nat} {off N : Nat} {f : Nat → Nat} {c : List Nat}
    (h : Cnt base off N f c) (hz : ZeroFrom base off) (hf : ∀ b, b < N → f b = 0) : c = base := by
  apply List.ext_getElem?
  intro p
  by_cases hp : off ≤ p ∧ p < off + N
  · have := h.inside (p - off) (by omega)
    rw [show off + (p - off) = p by omega, hf _ (by omega)] at this
    have hl := (List.getElem?_eq_some_iff.1 this).1
    rw [h.len] at hl
    rw [this, hz p hp.1 hl]
  · exact h.outside p (by omega)

/-- `c` still is zero after what was counted, and as long as `base`. -/
theorem Cnt.zeroFrom {base : List Nat} {off N : Nat} {f : Nat → Nat} {c : List Nat}
    (h : Cnt base off N f c) (hz : ZeroFrom base off) {off' : Nat} (ho : off + N ≤ off') :
    ZeroFrom c off' := by
  intro p hp hl
  rw [h.outside p (by omega)]
  rw [h.len] at hl
  exact hz p (by omega) hl

theorem initd_take_of_cover {F : List α} {aux : List (Option α)} (hl : F.length ≤ aux.length)
    (h : ∀ p, p < F.length → aux[p]? = some F[p]?) :
    copyBack aux F.length = .ok F := by
  unfold copyBack
  rw [if_pos hl]
  apply initd_ok (by simp; omega)
  intro i hi
  rw [List.getElem?_take_of_lt hi, h i hi, List.getElem?_eq_getElem hi]

/-- A write to the place where an element belongs. -/
theorem aux_step {F : List α} {aux : List (Option α)} {loc : Nat} {v : α}
    {Done : Nat → Prop} (hl : F.length ≤ aux.length)
    (hd : ∀ p, Done p → p < F.length → aux[p]? = some F[p]?) (hv : F[loc]? = some v) :
    wr aux loc (some v) = .ok (aux.set loc (some v)) ∧
      F.length ≤ (aux.set loc (some v)).length ∧
      ∀ p, (Done p ∨ p = loc) → p < F.length → (aux.set loc (some v))[p]? = some F[p]? := by
  have hlt := (List.getElem?_eq_some_iff.1 hv).1
  refine ⟨wr_ok (by omega), by simpa using hl, ?_⟩
  intro p hp hpl
  rw [getElem?_set' (by omega)]
  split
  · rename_i h; subst h; rw [hv]
  · rename_i h
    rcases hp with hp | hp
    · exact hd p hp hpl
    · exact absurd hp h

theorem placeByCounts_ok (bucket : α × β → Nat) (z : List (α × β)) (bs : List Nat) (hn : bs.Nodup)
    (hb : ∀ a ∈ z, bucket a ∈ bs) {N : Nat} (hN : ∀ a ∈ z, bucket a < N) {cap off : Nat}
    (hcap : z.length ≤ cap) {bytes : List (Option Nat)}
    (hbytes : ∀ (i : Nat) (a : α × β), z[i]? = some a → bytes[i]? = some (some (bucket a)))
    {base counts : List Nat} {f : Nat → Nat} (hc : Cnt base off N f counts)
    (hf : ∀ a ∈ z, f (bucket a) = startOf bucket z bs (bucket a)) :
    Ret (placeByCounts cap off bytes (z.map (·.1)) (z.map (·.2)) counts) (fun r =>
      r.1 = (byBuckets bucket z bs).map (·.1) ∧ r.2.1 = (byBuckets bucket z bs).map (·.2) ∧
      Cnt base off N (fun b => f b + (inBucket bucket z b).length) r.2.2) := by
  have hlen : (byBuckets bucket z bs).length = z.length := (byBuckets_perm hn hb).length_eq
  unfold placeByCounts
  rw [List.length_map]
  refine Ret.bind (P := fun s : List (Option α) × List (Option β) × List Nat =>
      (byBuckets bucket z bs).length ≤ s.1.length ∧
      (byBuckets bucket z bs).length ≤ s.2.1.length ∧
      (∀ p, p < (byBuckets bucket z bs).length →
        s.1[p]? = some ((byBuckets bucket z bs).map (·.1))[p]? ∧
        s.2.1[p]? = some ((byBuckets bucket z bs).map (·.2))[p]?) ∧
      Cnt base off N (fun b => f b + (inBucket bucket z b).length) s.2.2) ?_ ?_
  · have H := Ret.forN (f := fun i (s : List (Option α) × List (Option β) × List Nat) => do
        let byte ← rdU bytes i
        let loc ← rd s.2.2 (off + byte)
        let c ← wr s.2.2 (off + byte) (loc + 1)
        let oe ← rd (z.map (·.2)) i
        let oAux ← wr s.2.1 loc (some oe)
        let xe ← rd (z.map (·.1)) i
        let xAux ← wr s.1 loc (some xe)
        .ok (xAux, oAux, c)) (n := z.length) (s := (alloc α cap, alloc β cap, counts))
      (fun i s => ((byBuckets bucket z bs).map (·.1)).length ≤ s.1.length ∧
        ((byBuckets bucket z bs).map (·.2)).length ≤ s.2.1.length ∧
        (∀ p, (∃ j a, j < i ∧ z[j]? = some a ∧ p = placeLoc bucket z bs j a) →
          p < ((byBuckets bucket z bs).map (·.1)).length →
          s.1[p]? = some ((byBuckets bucket z bs).map (·.1))[p]?) ∧
        (∀ p, (∃ j a, j < i ∧ z[j]? = some a ∧ p = placeLoc bucket z bs j a) →
          p < ((byBuckets bucket z bs).map (·.2)).length →
          s.2.1[p]? = some ((byBuckets bucket z bs).map (·.2))[p]?) ∧
        Cnt base off N (fun b => f b + cntUpTo bucket z i b) s.2.2) ?_ ?_
    · refine H.mono ?_
      rintro s ⟨h1, h2, h3, h4, h5⟩
      simp only [List.length_map] at h1 h2 h3 h4
      refine ⟨h1, h2, ?_, h5.congr (fun b _ => by rw [cntUpTo_len])⟩
      intro p hp
      obtain ⟨i, a, hi, he⟩ := byBuckets_placeLoc_cover hn hp
      have hiz : i < z.length := (List.getElem?_eq_some_iff.1 hi).1
      exact ⟨h3 p ⟨i, a, hiz, hi, he⟩ hp, h4 p ⟨i, a, hiz, hi, he⟩ hp⟩
    · refine ⟨by simp; omega, by simp; omega, ?_, ?_, ?_⟩
      · rintro p ⟨j, a, hj, _⟩; omega
      · rintro p ⟨j, a, hj, _⟩; omega
      · exact hc.congr (fun b _ => by simp [cntUpTo, inBucket])
    · rintro i ⟨xa, oa, c⟩ hi ⟨h1, h2, h3, h4, h5⟩
      obtain ⟨a, ha⟩ : ∃ a, z[i]? = some a := ⟨z[i], List.getElem?_eq_getElem hi⟩
      have ham : a ∈ z := List.mem_of_getElem? ha
      have hbN := hN a ham
      have hF := byBuckets_placeLoc ha (hb a ham)
      have hloc : f (bucket a) + cntUpTo bucket z i (bucket a) = placeLoc bucket z bs i a := by
        rw [hf a ham]; rfl
      refine Ret.bind_eq (rdU_ok (hbytes i a ha)) ?_
      refine Ret.bind_eq (h5.rd hbN) ?_
      have hw := h5.wr hbN (f (bucket a) + cntUpTo bucket z i (bucket a) + 1)
      refine Ret.bind_eq hw.1 ?_
      refine Ret.bind_eq (rd_of_getElem? (a := a.2) (by simp [ha])) ?_
      have s2 := aux_step (v := a.2) h2 h4 (loc := placeLoc bucket z bs i a) (by simp [hF])
      rw [hloc] at hw ⊢
      refine Ret.bind_eq s2.1 ?_
      refine Ret.bind_eq (rd_of_getElem? (a := a.1) (by simp [ha])) ?_
      have s1 := aux_step (v := a.1) h1 h3 (loc := placeLoc bucket z bs i a) (by simp [hF])
      refine Ret.bind_eq s1.1 ?_
      refine Ret.ok ⟨s1.2.1, s2.2.1, ?_, ?_, ?_⟩
      · rintro p ⟨j, b, hj, hjb, rfl⟩ hp
        refine s1.2.2 _ ?_ hp
        by_cases hji : j = i
        · subst hji; rw [ha] at hjb; cases hjb; exact Or.inr rfl
        · exact Or.inl ⟨j, b, by omega, hjb, rfl⟩
      · rintro p ⟨j, b, hj, hjb, rfl⟩ hp
        refine s2.2.2 _ ?_ hp
        by_cases hji : j = i
        · subst hji; rw [ha] at hjb; cases hjb; exact Or.inr rfl
        · exact Or.inl ⟨j, b, by omega, hjb, rfl⟩
      · refine hw.2.congr ?_
        intro b _
        rw [cntUpTo_succ ha]
        by_cases hba : b = bucket a
        · subst hba; simp [← hloc]; omega
        · rw [if_neg hba, if_neg (fun h => hba h.symm)]; omega
  · rintro ⟨xa, oa, c⟩ ⟨h1, h2, h3, h4⟩
    have e1 : copyBack oa z.length = .ok ((byBuckets bucket z bs).map (·.2)) := by
      have := initd_take_of_cover (F := (byBuckets bucket z bs).map (·.2)) (aux := oa)
        (by simpa using h2) (fun p hp => (h3 p (by simpa using hp)).2)
      rwa [List.length_map, hlen] at this
    have e2 : copyBack xa z.length = .ok ((byBuckets bucket z bs).map (·.1)) := by
      have := initd_take_of_cover (F := (byBuckets bucket z bs).map (·.1)) (aux := xa)
        (by simpa using h1) (fun p hp => (h3 p (by simpa using hp)).1)
      rwa [List.length_map, hlen] at this
    refine Ret.bind_eq e1 ?_
    refine Ret.bind_eq e2 ?_
    exact Ret.ok ⟨rfl, rfl, h4⟩

end Vctrs
