import Verif.Lemmas.GroupLoc
import Verif.Model.Runs

namespace Vctrs

open Spec

variable {α : Type}

/-- Position visited in iteration `i`. -/
def pos (which : RunBound) (n i : Nat) : Nat :=
  match which with
  | .start => i
  | .end => n - 1 - i

/-- Value of `loc` before iteration `i`. -/
def posI (which : RunBound) (n i : Nat) : Int :=
  match which with
  | .start => i
  | .end => (n : Int) - 1 - i

theorem posI_succ (which : RunBound) (n i : Nat) :
    posI which n i + iterStep which = posI which n (i + 1) := by
  cases which <;> simp [posI, iterStep]; omega

theorem posI_zero (which : RunBound) (n : Nat) : posI which n 0 = iterLoc n which := by
  cases which <;> simp [posI, iterLoc]

theorem posI_toNat (which : RunBound) {n i : Nat} (h : i < n) :
    0 ≤ posI which n i ∧ (posI which n i).toNat = pos which n i := by
  cases which <;> simp [posI, pos] <;> omega

theorem pos_lt (which : RunBound) {n i : Nat} (h : i < n) : pos which n i < n := by
  cases which <;> simp [pos] <;> omega

theorem pos_pos (which : RunBound) {n i : Nat} (h : i < n) : pos which n (pos which n i) = i := by
  cases which <;> simp [pos]; omega

theorem pos_inj (which : RunBound) {n i j : Nat} (hi : i < n) (hj : j < n)
    (h : pos which n i = pos which n j) : i = j := by
  cases which <;> simp [pos] at h <;> omega

theorem rdI_posI {β : Type} {l : List β} {which : RunBound} {n i : Nat} (h : i < n)
    (hl : n ≤ l.length) : rdI l (posI which n i) = .ok (l[pos which n i]'(by
      have := pos_lt which h; omega)) := by
  have := pos_lt which h
  refine rdI_ok (posI_toNat which h).1 ?_
  rw [(posI_toNat which h).2]
  exact List.getElem?_eq_getElem _

theorem wrI_posI {β : Type} {l : List β} {which : RunBound} {n i : Nat} {b : β} (h : i < n)
    (hl : n ≤ l.length) : wrI l (posI which n i) b = .ok (l.set (pos which n i) b) := by
  have := pos_lt which h
  have h2 := wrI_ok (l := l) (a := b) (posI_toNat which h).1 (by
    rw [(posI_toNat which h).2]; omega)
  rw [(posI_toNat which h).2] at h2
  exact h2

/-- Do the elements at the two positions differ (or is there none)? -/
def adjNe (eq : α → α → Bool) (x : List α) (p q : Nat) : Bool :=
  match x[p]?, x[q]? with
  | some a, some b => !eq a b
  | _, _ => true

/-- Run bounds, in the argument order of the code. -/
def bnd (eq : α → α → Bool) (x : List α) (which : RunBound) (i : Nat) : Bool :=
  match which with
  | .start => if i = 0 then true else adjNe eq x i (i - 1)
  | .end => adjNe eq x i (i + 1)

theorem bnd_first (eq : α → α → Bool) (x : List α) (which : RunBound) (h : 0 < x.length) :
    bnd eq x which (pos which x.length 0) = true := by
  cases which with
  | start => simp [bnd, pos]
  | «end» =>
    have : x[x.length - 1 + 1]? = none := List.getElem?_eq_none (by omega)
    simp only [bnd, pos, adjNe, Nat.sub_zero, this]
    split <;> first | rfl | simp_all

theorem bnd_next (eq : α → α → Bool) (x : List α) (which : RunBound) {i : Nat} (h1 : 1 ≤ i)
    (h : i < x.length) :
    bnd eq x which (pos which x.length i) =
      !eq (x[pos which x.length i]'(pos_lt which h))
        (x[pos which x.length (i - 1)]'(pos_lt which (by omega))) := by
  cases which with
  | start =>
    have h3 : x[i - 1]? = some x[i - 1] := List.getElem?_eq_getElem (by omega)
    simp only [bnd, pos, if_neg (show ¬ i = 0 by omega), adjNe, h3, List.getElem?_eq_getElem h]
  | «end» =>
    have e : x.length - 1 - i + 1 = x.length - 1 - (i - 1) := by omega
    have h3 : x[x.length - 1 - i]? = some x[x.length - 1 - i] := List.getElem?_eq_getElem (by omega)
    have h4 : x[x.length - 1 - (i - 1)]? = some x[x.length - 1 - (i - 1)] :=
      List.getElem?_eq_getElem (by omega)
    simp only [bnd, pos, adjNe, e, h3, h4]

/-- All positions visited before iteration `i` hold the values `q`. -/
structure Visited {β : Type} (which : RunBound) (q : Nat → β) (n i : Nat) (l : List (Option β)) :
    Prop where
  len : l.length = n
  val : ∀ j, j < i → l[pos which n j]? = some (some (q (pos which n j)))

theorem Visited.step {β : Type} {which : RunBound} {q : Nat → β} {n i : Nat} {l : List (Option β)}
    (h : Visited which q n i l) (hi : i < n) {b : β} (hb : b = q (pos which n i)) :
    wrI l (posI which n i) (some b) = .ok (l.set (pos which n i) (some b)) ∧
      Visited which q n (i + 1) (l.set (pos which n i) (some b)) := by
  refine ⟨wrI_posI hi (by rw [h.len]), by simpa using h.len, ?_⟩
  intro j hj
  rw [getElem?_set' (by rw [h.len]; exact pos_lt which hi)]
  by_cases hji : pos which n j = pos which n i
  · rw [if_pos hji, hji, hb]
  · rw [if_neg hji]
    apply h.val
    rcases Nat.lt_or_eq_of_le (Nat.le_of_lt_succ hj) with h' | h'
    · exact h'
    · subst h'; exact absurd rfl hji

theorem Visited.all {β : Type} {which : RunBound} {q : Nat → β} {n : Nat} {l : List (Option β)}
    (h : Visited which q n n l) {p : Nat} (hp : p < n) : l[p]? = some (some (q p)) := by
  have := h.val (pos which n p) (pos_lt which hp)
  rwa [pos_pos which hp] at this

theorem Visited.done {β : Type} {which : RunBound} {q : Nat → β} {n : Nat} {l : List (Option β)}
    (h : Visited which q n n l) : initd l = .ok ((List.range n).map q) :=
  initd_fn q h.len (fun _ hp => h.all hp)

theorem Visited.start {β : Type} (which : RunBound) (q : Nat → β) (n : Nat) :
    Visited which q n 0 (alloc β n) := ⟨by simp, by intro j hj; omega⟩

theorem detectBoundsBool_ok (eq : α → α → Bool) (x : List α) (which : RunBound) :
    detectBoundsBool eq x which = .ok ((List.range x.length).map (bnd eq x which)) := by
  suffices h : Ret (detectBoundsBool eq x which)
      (fun r => r = (List.range x.length).map (bnd eq x which)) by
    obtain ⟨r, hr, rfl⟩ := h; exact hr
  unfold detectBoundsBool
  by_cases h0 : x.length = 0
  · simp only [h0, if_true]
    exact ⟨[], rfl, rfl⟩
  · simp only [if_neg h0, ← posI_zero]
    have hpos : 0 < x.length := by omega
    obtain ⟨hw, hV⟩ := (Visited.start which (bnd eq x which) x.length).step hpos
      (b := true) (bnd_first eq x which hpos).symm
    refine Ret.bind_eq (rdI_posI hpos (Nat.le_refl _)) (Ret.bind_eq hw ?_)
    refine Ret.bind (Ret.forFrom (fun i (s : List (Option Bool) × α × Int) =>
      Visited which (bnd eq x which) x.length i s.1 ∧
      x[pos which x.length (i - 1)]? = some s.2.1 ∧ s.2.2 = posI which x.length i)
      ⟨hV, ?_, posI_succ _ _ _⟩ ?_) ?_
    · simp only [Nat.sub_self]
      exact List.getElem?_eq_getElem _
    · rintro i ⟨vOut, ref, loc⟩ h1 hi ⟨hV, href, rfl⟩
      simp only at hV href ⊢
      have hi' : i < x.length := by omega
      obtain ⟨hw, hV'⟩ := hV.step hi' (b := !eq (x[pos which x.length i]'(pos_lt which hi')) ref) (by
        rw [bnd_next eq x which h1 hi']
        congr 2
        have := List.getElem?_eq_getElem (pos_lt which (show i - 1 < x.length by omega))
        rw [href] at this
        exact Option.some.inj this)
      refine Ret.bind_eq (rdI_posI hi' (Nat.le_refl _)) (Ret.bind_eq hw (Ret.ok ⟨hV', ?_, posI_succ _ _ _⟩))
      simp only [Nat.add_sub_cancel]
      exact List.getElem?_eq_getElem _
    · rintro ⟨vOut, ref, loc⟩ ⟨hV, _, _⟩
      have e : 1 + (x.length - 1) = x.length := by omega
      rw [e] at hV
      exact ⟨_, hV.done, rfl⟩

/-- Row-wise equality of a data frame given by its columns: rows `i` and `j` agree in every
column. -/
def rowEq (cols : List ((α → α → Bool) × List α)) (i j : Nat) : Bool :=
  Spec.sameRow cols i j

/-- Run continuation after processing the first `k` columns. -/
def dfCont (cols : List ((α → α → Bool) × List α)) (which : RunBound) (n p : Nat) : Bool :=
  match which with
  | .start => if p = 0 then false else rowEq cols (p - 1) p
  | .end => if p + 1 = n then false else rowEq cols (p + 1) p

theorem dfCont_first (cols : List ((α → α → Bool) × List α)) (which : RunBound) {n : Nat}
    (h : 0 < n) : dfCont cols which n (pos which n 0) = false := by
  cases which with
  | start => simp [dfCont, pos]
  | «end» => simp [dfCont, pos]; omega

theorem dfCont_next (cols : List ((α → α → Bool) × List α)) (which : RunBound) {n i : Nat}
    (h1 : 1 ≤ i) (h : i < n) :
    dfCont cols which n (pos which n i) = rowEq cols (pos which n (i - 1)) (pos which n i) := by
  cases which with
  | start =>
    have h0 : pos .start n i ≠ 0 := by show i ≠ 0; omega
    unfold dfCont
    simp only [if_neg h0]
    rfl
  | «end» =>
    have e : n - 1 - i + 1 = n - 1 - (i - 1) := by omega
    simp only [dfCont, pos, e]
    rw [if_neg (by omega)]

theorem colDetect_ok (eq : α → α → Bool) (x : List α) (which : RunBound) {n : Nat} (hn : 0 < n)
    (hx : x.length = n) (cols : List ((α → α → Bool) × List α)) {vOut : List (Option Bool)}
    (hl : vOut.length = n)
    (hv : ∀ p, p < n → vOut[p]? = some (some (dfCont cols which n p))) :
    Ret (colDetectBoundsBool eq x n which vOut) (fun v => v.length = n ∧
      ∀ p, p < n → v[p]? = some (some (dfCont (cols ++ [(eq, x)]) which n p))) := by
  have hrow : ∀ i j, rowEq (cols ++ [(eq, x)]) i j = (rowEq cols i j && (match x[i]?, x[j]? with
      | some a, some b => eq a b
      | _, _ => false)) := by
    intro i j
    unfold rowEq sameRow
    rw [List.all_append]
    simp only [List.all_cons, List.all_nil, Bool.and_true]
    rfl
  unfold colDetectBoundsBool
  simp only [← posI_zero]
  refine Ret.bind_eq (rdI_posI hn (by omega)) ?_
  refine Ret.bind (Ret.forFrom (fun i (s : List (Option Bool) × α × Int) =>
    s.1.length = n ∧
    (∀ j, j < i → s.1[pos which n j]? = some (some (dfCont (cols ++ [(eq, x)]) which n (pos which n j)))) ∧
    (∀ j, i ≤ j → j < n → s.1[pos which n j]? = some (some (dfCont cols which n (pos which n j)))) ∧
    x[pos which n (i - 1)]? = some s.2.1 ∧ s.2.2 = posI which n i)
    ⟨hl, ?_, ?_, ?_, posI_succ _ _ _⟩ ?_) ?_
  · intro j hj
    have : j = 0 := by omega
    subst this
    simp only
    rw [hv _ (pos_lt which hn), dfCont_first _ _ hn, dfCont_first _ _ hn]
  · intro j hj hjn
    exact hv _ (pos_lt which hjn)
  · simp only [Nat.sub_self]
    exact List.getElem?_eq_getElem _
  · rintro i ⟨v, ref, loc⟩ h1 hi ⟨hvl, hv1, hv2, href, rfl⟩
    simp only at hvl hv1 hv2 href ⊢
    have hi' : i < n := by omega
    have hpi := pos_lt which hi'
    refine Ret.bind_eq (rdI_posI hi' (by omega)) ?_
    refine Ret.bind_eq (a := dfCont cols which n (pos which n i)) ?_ ?_
    · rw [if_neg (by have := (posI_toNat which hi').1; omega), (posI_toNat which hi').2]
      exact rdU_ok (hv2 i (Nat.le_refl _) hi')
    · refine Ret.bind_eq (wrI_posI hi' (by omega)) (Ret.ok ⟨by simpa using hvl, ?_, ?_, ?_, posI_succ _ _ _⟩)
      · intro j hj
        simp only
        rw [getElem?_set' (by omega)]
        by_cases hji : pos which n j = pos which n i
        · rw [if_pos hji, hji, dfCont_next _ _ h1 hi', dfCont_next _ _ h1 hi', hrow, href,
            List.getElem?_eq_getElem (by omega)]
        · rw [if_neg hji]
          apply hv1
          rcases Nat.lt_or_eq_of_le (Nat.le_of_lt_succ hj) with h' | h'
          · exact h'
          · subst h'; exact absurd rfl hji
      · intro j hj hjn
        simp only
        rw [getElem?_set' (by omega), if_neg]
        · exact hv2 j (by omega) hjn
        · intro h
          have := pos_inj which hjn hi' h
          omega
      · simp only [Nat.add_sub_cancel]
        exact List.getElem?_eq_getElem _
  · rintro ⟨v, ref, loc⟩ ⟨hvl, hv1, _⟩
    have e : 1 + (n - 1) = n := by omega
    rw [e] at hv1
    refine Ret.ok ⟨hvl, ?_⟩
    intro p hp
    have := hv1 (pos which n p) (pos_lt which hp)
    rwa [pos_pos which hp] at this

theorem dfDetect_ok (cols : List ((α → α → Bool) × List α)) (n : Nat) (which : RunBound)
    (hc : ∀ c ∈ cols, c.2.length = n) :
    dfDetectBoundsBool cols n which =
      .ok ((List.range n).map (fun p => !dfCont cols which n p)) := by
  suffices h : Ret (dfDetectBoundsBool cols n which)
      (fun r => r = (List.range n).map (fun p => !dfCont cols which n p)) by
    obtain ⟨r, hr, rfl⟩ := h; exact hr
  unfold dfDetectBoundsBool
  by_cases h0 : n = 0
  · subst h0
    exact ⟨[], rfl, rfl⟩
  · simp only [if_neg h0, ← posI_zero]
    have hpos : 0 < n := by omega
    obtain ⟨hw, hV⟩ := (Visited.start which (dfCont ([] : List ((α → α → Bool) × List α)) which n) n).step hpos
      (b := false) (dfCont_first _ which hpos).symm
    refine Ret.bind_eq hw ?_
    refine Ret.bind (Ret.forFrom (fun i (s : List (Option Bool) × Int) =>
      Visited which (dfCont ([] : List ((α → α → Bool) × List α)) which n) n i s.1 ∧
        s.2 = posI which n i) ⟨hV, posI_succ _ _ _⟩ ?_) ?_
    · rintro i ⟨v, loc⟩ h1 hi ⟨hV, rfl⟩
      simp only at hV ⊢
      have hi' : i < n := by omega
      obtain ⟨hw, hV'⟩ := hV.step hi' (b := true) (by
        rw [dfCont_next _ _ h1 hi']; rfl)
      exact Ret.bind_eq hw (Ret.ok ⟨hV', posI_succ _ _ _⟩)
    · rintro ⟨v, loc⟩ ⟨hV, _⟩
      have e : 1 + (n - 1) = n := by omega
      rw [e] at hV
      simp only at hV ⊢
      refine Ret.bind (Ret.forN (fun k (v : List (Option Bool)) => v.length = n ∧
        ∀ p, p < n → v[p]? = some (some (dfCont (cols.take k) which n p)))
        ⟨hV.len, fun p hp => by simpa using hV.all hp⟩ ?_) ?_
      · rintro k v hk ⟨hl, hv⟩
        refine Ret.bind_eq (rd_ok hk) ?_
        have := colDetect_ok cols[k].1 cols[k].2 which hpos (hc _ (List.getElem_mem hk))
          (cols.take k) hl hv
        rw [List.take_add_one, List.getElem?_eq_getElem hk]
        exact this
      · rintro v ⟨hl, hv⟩
        simp only [List.take_length] at hv
        refine Ret.bind (Ret.forN (fun i (v : List (Option Bool)) => v.length = n ∧
          (∀ p, p < i → v[p]? = some (some (!dfCont cols which n p))) ∧
          (∀ p, i ≤ p → p < n → v[p]? = some (some (dfCont cols which n p))))
          ⟨hl, by intro p hp; omega, fun p _ hp => hv p hp⟩ ?_) ?_
        · rintro i v hi ⟨hl, hv1, hv2⟩
          refine Ret.bind_eq (rdU_ok (hv2 i (Nat.le_refl _) hi)) ⟨_, wr_ok (by omega),
            by simpa using hl, ?_, ?_⟩
          · intro p hp
            rw [getElem?_set' (by omega)]
            by_cases hpi : p = i
            · rw [if_pos hpi, hpi]
            · rw [if_neg hpi]; exact hv1 p (by omega)
          · intro p hp hpn
            rw [getElem?_set' (by omega), if_neg (by omega)]
            exact hv2 p (by omega) hpn
        · rintro v ⟨hl, hv1, _⟩
          exact ⟨_, initd_fn _ hl hv1, rfl⟩

/-! ## Functions of the boolean vector -/

theorem detectRunBounds_ok (w : List Bool) : detectRunBounds w = .ok w := by
  suffices h : Ret (detectRunBounds w) (fun r => r = w) by
    obtain ⟨r, hr, rfl⟩ := h; exact hr
  refine Ret.bind (Ret.forN (fun i l => Filled (fun j b => w[j]? = some b) w.length i l)
    (Filled.start _ _) ?_) ?_
  · rintro i l hi hF
    obtain ⟨hw, hF'⟩ := hF.step (r := w[i]) hi (List.getElem?_eq_getElem hi)
    exact Ret.bind_eq (rd_ok hi) ⟨_, hw, hF'⟩
  · intro l hF
    refine ⟨w, initd_ok hF.len ?_, rfl⟩
    intro i hi
    obtain ⟨r, h1, h2⟩ := hF.val i hi
    rw [h1]
    rw [List.getElem?_eq_getElem hi] at h2
    rw [Option.some.inj h2]

/-- Value of the buffer at `i` as a predicate. -/
def wq (w : List Bool) (i : Nat) : Bool :=
  match w[i]? with
  | some b => b
  | none => false

theorem wq_of {w : List Bool} {i : Nat} (h : i < w.length) : w[i]? = some (wq w i) := by
  simp [wq, List.getElem?_eq_getElem h]

theorem countW_ok (w : List Bool) :
    forN w.length (fun i n => do
      let b ← rd w i
      .ok (n + b.toNat)) 0 = (.ok ((List.range w.length).countP (wq w)) : C Nat) := by
  suffices hs : Ret (forN w.length (fun i n => do
      let b ← rd w i
      .ok (n + b.toNat)) 0) (fun k => k = (List.range w.length).countP (wq w)) by
    obtain ⟨k, hk, rfl⟩ := hs; exact hk
  refine Ret.forN (fun i k => k = (List.range i).countP (wq w)) (by simp) ?_
  rintro i k hi rfl
  refine Ret.bind_eq (rd_of_getElem? (wq_of hi)) (Ret.ok ?_)
  rw [countP_range_succ]
  cases wq w i <;> rfl

theorem identifyRuns_ok (w : List Bool) :
    identifyRuns w = .ok ((List.range w.length).map (fun i => (List.range (i + 1)).countP (wq w)),
      (List.range w.length).countP (wq w)) := by
  suffices h : Ret (identifyRuns w) (fun r => r =
      ((List.range w.length).map (fun i => (List.range (i + 1)).countP (wq w)),
      (List.range w.length).countP (wq w))) by
    obtain ⟨r, hr, rfl⟩ := h; exact hr
  refine Ret.bind (Ret.forN (fun i (s : List (Option Nat) × Nat) =>
    Filled (fun j r => r = (List.range (j + 1)).countP (wq w)) w.length i s.1 ∧
    s.2 = (List.range i).countP (wq w)) ⟨Filled.start _ _, by simp⟩ ?_) ?_
  · rintro i ⟨l, n⟩ hi ⟨hF, rfl⟩
    simp only at hF ⊢
    have e : (List.range i).countP (wq w) + (wq w i).toNat = (List.range (i + 1)).countP (wq w) := by
      rw [countP_range_succ]; cases wq w i <;> rfl
    obtain ⟨hw, hF'⟩ := hF.step (r := (List.range i).countP (wq w) + (wq w i).toNat) hi e
    exact Ret.bind_eq (rd_of_getElem? (wq_of hi)) (Ret.bind_eq hw (Ret.ok ⟨hF', e⟩))
  · rintro ⟨l, n⟩ ⟨hF, rfl⟩
    refine Ret.bind_eq (initd_fn (fun i => (List.range (i + 1)).countP (wq w)) hF.len ?_) (Ret.ok rfl)
    intro i hi
    obtain ⟨r, h1, h2⟩ := hF.val i hi
    rw [h1, h2]

/-- Sum of the first `k` sizes. -/
def cumSize (L : List Nat) (k : Nat) : Nat := (L.take k).sum

theorem cumSize_append {L : List Nat} {k c : Nat} (h : k ≤ L.length) :
    cumSize (L ++ [c]) k = cumSize L k := by
  unfold cumSize; rw [List.take_append_of_le_length h]

theorem runSizes_ok (w : List Bool) (hlast : ∀ i, i + 1 = w.length → wq w i = true) :
    Ret (runSizes w) (fun L => L.length = ((List.range w.length).filter (wq w)).length ∧
      (∀ c ∈ L, 0 < c) ∧ L.sum = w.length ∧
      ∀ (k e : Nat), ((List.range w.length).filter (wq w))[k]? = some e →
        cumSize L (k + 1) = e + 1) := by
  refine Ret.bind_eq (countW_ok w) ?_
  have hlt : ∀ i, i < w.length →
      (List.range i).countP (wq w) < (List.range w.length).countP (wq w) := by
    intro i hi
    have h1 := countP_range_mono (wq w) (show i ≤ w.length - 1 by omega)
    have h2 := countP_range_succ (wq w) (w.length - 1)
    rw [if_pos (hlast _ (by omega)), show w.length - 1 + 1 = w.length by omega] at h2
    omega
  refine Ret.bind (Ret.forN (fun i (s : List (Option Nat) × Nat × Nat) =>
    s.1.length = (List.range w.length).countP (wq w) ∧
    s.2.1 = (List.range i).countP (wq w) ∧
    ∃ L : List Nat, L.length = s.2.1 ∧ (∀ (k : Nat) c, L[k]? = some c → s.1[k]? = some (some c)) ∧
      (∀ c ∈ L, 0 < c) ∧ s.2.2 + L.sum = i + 1 ∧ 0 < s.2.2 ∧
      (0 < i → wq w (i - 1) = true → L.sum = i) ∧
      ∀ (k e : Nat), ((List.range i).filter (wq w))[k]? = some e → cumSize L (k + 1) = e + 1)
    ⟨by simp, by simp, [], by simp⟩ ?_) ?_
  · rintro i ⟨out, j, count⟩ hi ⟨hl, hj, L, hL1, hL2, hL3, hL4, hL4', hL5, hL6⟩
    simp only at hl hj hL1 hL2 hL3 hL4 hL4' hL5 hL6 ⊢
    have hjlt : j < out.length := by rw [hl, hj]; exact hlt i hi
    refine Ret.bind_eq (rd_of_getElem? (wq_of hi)) (Ret.bind_eq (wr_ok hjlt) (Ret.ok ?_))
    refine ⟨by simpa using hl, ?_, ?_⟩
    · simp only; rw [countP_range_succ, hj]; cases wq w i <;> rfl
    · cases hb : wq w i with
      | false =>
        refine ⟨L, by simpa using hL1, ?_, hL3, by simp; omega, by simp, ?_, ?_⟩
        · intro k c hk
          simp only
          have := (List.getElem?_eq_some_iff.1 hk).1
          rw [getElem?_set' hjlt, if_neg (by omega)]
          exact hL2 k c hk
        · intro _ h; simp [hb] at h
        · intro k e hk
          rw [filter_range_succ, hb] at hk
          simp only [Bool.false_eq_true, if_false, List.append_nil] at hk
          exact hL6 k e hk
      | true =>
        refine ⟨L ++ [count], by simp [hL1], ?_, ?_, by simp; omega, by simp, ?_, ?_⟩
        · intro k c hk
          simp only
          rw [getElem?_set' hjlt]
          by_cases hkj : k = j
          · rw [if_pos hkj]
            subst hkj
            rw [← hL1] at hk
            simp at hk
            rw [hk]
          · rw [if_neg hkj]
            apply hL2
            have := (List.getElem?_eq_some_iff.1 hk).1
            simp at this
            rwa [List.getElem?_append_left (by omega)] at hk
        · intro c hc
          rcases List.mem_append.1 hc with h | h
          · exact hL3 c h
          · simp at h; omega
        · intro _ _; simp; omega
        · intro k e hk
          rw [filter_range_succ, hb] at hk
          simp only [if_true] at hk
          have hlen : ((List.range i).filter (wq w)).length = L.length := by
            rw [← List.countP_eq_length_filter, hL1, hj]
          have hkl := (List.getElem?_eq_some_iff.1 hk).1
          simp at hkl
          by_cases hkL : k < L.length
          · rw [cumSize_append (by omega)]
            rw [List.getElem?_append_left (by omega)] at hk
            exact hL6 k e hk
          · have hkeq : k = L.length := by omega
            rw [List.getElem?_append_right (by omega), hlen, hkeq] at hk
            simp at hk
            subst hk
            unfold cumSize
            rw [hkeq, List.take_of_length_le (by simp)]
            simp
            omega
  · rintro ⟨out, j, count⟩ ⟨hl, hj, L, hL1, hL2, hL3, hL4, hL4', hL5, hL6⟩
    simp only at hl hj hL1 hL2 hL3 hL4 hL4' hL5 hL6 ⊢
    refine ⟨L, initd_ok (by omega) (fun i hi => hL2 i _ (List.getElem?_eq_getElem hi)), ?_, hL3, ?_, hL6⟩
    · rw [hL1, hj, List.countP_eq_length_filter]
    · by_cases h0 : w.length = 0
      · have : L = [] := by
          apply List.length_eq_zero_iff.1
          rw [hL1, hj, h0]; rfl
        rw [this, h0]; rfl
      · exact hL5 (by omega) (hlast _ (by omega))

/-! ### vec_locate_run_bounds -/

/-- Number of bounds among the positions visited before iteration `i`. -/
def vcnt (w : List Bool) (which : RunBound) (i : Nat) : Nat :=
  (List.range i).countP (fun j => wq w (pos which w.length j))

theorem range_map_rev (n : Nat) : (List.range n).map (fun i => n - 1 - i) = (List.range n).reverse := by
  apply List.ext_getElem (by simp)
  intro i h1 h2
  simp

theorem vis_filter (w : List Bool) (which : RunBound) :
    (((List.range w.length).filter (fun j => wq w (pos which w.length j))).map
      (pos which w.length)) =
    match which with
    | .start => (List.range w.length).filter (wq w)
    | .end => ((List.range w.length).filter (wq w)).reverse := by
  cases which with
  | start => unfold pos; simp
  | «end» =>
    unfold pos
    rw [← List.filter_reverse, ← range_map_rev, List.filter_map]
    rfl

theorem vcnt_all (w : List Bool) (which : RunBound) :
    vcnt w which w.length = (List.range w.length).countP (wq w) := by
  have := congrArg List.length (vis_filter w which)
  unfold vcnt
  rw [List.countP_eq_length_filter, List.countP_eq_length_filter]
  cases which <;> simpa using this

theorem vcnt_succ (w : List Bool) (which : RunBound) (i : Nat) :
    vcnt w which (i + 1) = vcnt w which i + (wq w (pos which w.length i)).toNat := by
  unfold vcnt
  rw [countP_range_succ]
  cases wq w (pos which w.length i) <;> rfl

theorem vcnt_mono (w : List Bool) (which : RunBound) {i k : Nat} (h : i ≤ k) :
    vcnt w which i ≤ vcnt w which k := countP_range_mono _ h

/-- Loop invariant of `vec_locate_run_bounds`. -/
structure LocInv (w : List Bool) (which : RunBound) (i : Nat)
    (s : List (Option Nat) × Int × Int) : Prop where
  len : s.1.length = (List.range w.length).countP (wq w)
  j : s.2.1 = posI which ((List.range w.length).countP (wq w)) (vcnt w which i)
  loc : s.2.2 = posI which w.length i
  val : ∀ (k t : Nat), ((List.range i).filter (fun j => wq w (pos which w.length j)))[k]? = some t →
    s.1[pos which ((List.range w.length).countP (wq w)) k]? = some (some (pos which w.length t + 1))

theorem locate_step {w : List Bool} {which : RunBound} {i : Nat} {s : List (Option Nat) × Int × Int}
    (h : LocInv w which i s) (hi : i < w.length)
    (hlt : vcnt w which i < (List.range w.length).countP (wq w)) :
    Ret (do
      let (out, j, loc) := s
      let out ← wrI out j (some (loc + 1).toNat)
      let b ← rdI w loc
      (.ok (out, j + iterStep which * (b.toNat : Int), loc + iterStep which) : C _))
      (LocInv w which (i + 1)) := by
  obtain ⟨out, j, loc⟩ := s
  obtain ⟨hl, hj, hloc, hv⟩ := h
  simp only at hl hj hloc hv ⊢
  subst hj hloc
  have hp := posI_toNat which hi
  have e : (posI which w.length i + 1).toNat = pos which w.length i + 1 := by omega
  have hb : rdI w (posI which w.length i) = .ok (wq w (pos which w.length i)) := by
    refine rdI_ok hp.1 ?_
    rw [hp.2]
    exact wq_of (pos_lt which hi)
  refine Ret.bind_eq (wrI_posI hlt (by omega)) (Ret.bind_eq hb (Ret.ok ⟨by simpa using hl, ?_,
    posI_succ _ _ _, ?_⟩))
  · simp only
    rw [vcnt_succ]
    cases hw : wq w (pos which w.length i) with
    | false => simp
    | true => simp [posI_succ]
  · intro k t hk
    simp only
    rw [filter_range_succ] at hk
    have hlen : ((List.range i).filter (fun j => wq w (pos which w.length j))).length = vcnt w which i := by
      unfold vcnt; rw [List.countP_eq_length_filter]
    rw [getElem?_set' (by rw [hl]; exact pos_lt which hlt), e]
    by_cases hkc : k < vcnt w which i
    · rw [List.getElem?_append_left (by omega)] at hk
      rw [if_neg]
      · exact hv k t hk
      · intro h
        have := pos_inj which (by omega) hlt h
        omega
    · rw [List.getElem?_append_right (by omega), hlen] at hk
      cases hw : wq w (pos which w.length i) with
      | false => simp [hw] at hk
      | true =>
        simp only [hw, if_true] at hk
        have hkl := (List.getElem?_eq_some_iff.1 hk).1
        simp at hkl
        have hkeq : k = vcnt w which i := by omega
        subst hkeq
        simp at hk
        rw [if_pos rfl, hk]

theorem LocInv.finish {w : List Bool} {which : RunBound} {s : List (Option Nat) × Int × Int}
    (h : LocInv w which w.length s) :
    Ret (initd s.1) (fun r => r = ((List.range w.length).filter (wq w)).map (· + 1)) := by
  obtain ⟨out, j, loc⟩ := s
  obtain ⟨hl, hj, hloc, hv⟩ := h
  simp only at hl hj hloc hv ⊢
  refine ⟨_, initd_ok (by simpa [List.countP_eq_length_filter] using hl) ?_, rfl⟩
  intro k hk
  simp only [List.length_map] at hk
  have hT : ((List.range w.length).filter (wq w)).length = (List.range w.length).countP (wq w) :=
    (List.countP_eq_length_filter ..).symm
  -- iteration number of the bound written to cell `k`
  have hVlen : ((List.range w.length).filter (fun j => wq w (pos which w.length j))).length =
      (List.range w.length).countP (wq w) := by
    rw [← vcnt_all w which]; unfold vcnt; rw [List.countP_eq_length_filter]
  have hk' : pos which ((List.range w.length).countP (wq w)) k <
      ((List.range w.length).filter (fun j => wq w (pos which w.length j))).length := by
    rw [hVlen]; exact pos_lt which (by omega)
  have := hv _ _ (List.getElem?_eq_getElem hk')
  rw [pos_pos which (by omega)] at this
  rw [this]
  congr 2
  simp only [List.getElem_map, Nat.add_right_cancel_iff]
  have hvf := vis_filter w which
  have h2 := congrArg (fun l => l[pos which ((List.range w.length).countP (wq w)) k]?) hvf
  simp only [List.getElem?_map, List.getElem?_eq_getElem hk', Option.map_some] at h2
  cases which with
  | start =>
    exact Option.some.inj (h2.trans (List.getElem?_eq_getElem (by simp only [pos]; omega)))
  | «end» =>
    simp only at h2
    rw [List.getElem?_reverse (by simp only [pos]; omega), List.getElem?_eq_getElem (by
      simp only [pos]; omega)] at h2
    rw [Option.some.inj h2]
    congr 1
    simp only [pos]
    omega

theorem locate_ok (w : List Bool) (which : RunBound)
    (h : ∀ i, i + 1 = w.length → wq w (pos which w.length i) = true) :
    locateRunBounds w which = .ok (((List.range w.length).filter (wq w)).map (· + 1)) := by
  suffices hs : Ret (locateRunBounds w which)
      (fun r => r = ((List.range w.length).filter (wq w)).map (· + 1)) by
    obtain ⟨r, hr, rfl⟩ := hs; exact hr
  refine Ret.bind_eq (countW_ok w) ?_
  refine Ret.bind (Ret.forN (LocInv w which) ⟨by simp, ?_, ?_, by simp⟩ ?_) ?_
  · simp only [vcnt, List.range_zero, List.countP_nil, posI_zero]
  · exact (posI_zero _ _).symm
  · intro i s hi hI
    refine locate_step hI hi ?_
    rw [← vcnt_all w which]
    have h1 := vcnt_mono w which (show i ≤ w.length - 1 by omega)
    have h2 := vcnt_succ w which (w.length - 1)
    rw [h _ (by omega), show w.length - 1 + 1 = w.length by omega] at h2
    simp at h2
    omega
  · rintro ⟨out, j, loc⟩ h
    exact h.finish

theorem wrSlack_eq {l : List (Option Nat)} {j : Int} {v : Option Nat} (h0 : 0 ≤ j)
    (h1 : j < l.length) : wrSlack l j v = wrI l j v := by
  unfold wrSlack; rw [if_neg (by omega)]

/-- The invariant and the step also hold when the writes next to the buffer are lost. -/
theorem locate_step_slack {w : List Bool} {which : RunBound} {i : Nat}
    {s : List (Option Nat) × Int × Int} (h : LocInv w which i s) (hi : i < w.length) :
    Ret (do
      let (out, j, loc) := s
      let out ← wrSlack out j (some (loc + 1).toNat)
      let b ← rdI w loc
      (.ok (out, j + iterStep which * (b.toNat : Int), loc + iterStep which) : C _))
      (LocInv w which (i + 1)) := by
  by_cases hlt : vcnt w which i < (List.range w.length).countP (wq w)
  · have hs := locate_step h hi hlt
    obtain ⟨out, j, loc⟩ := s
    obtain ⟨hl, hj, hloc, hv⟩ := h
    simp only at hl hj hloc hv hs ⊢
    have hp := posI_toNat which hlt
    have hp2 := pos_lt which hlt
    rw [wrSlack_eq (by omega) (by omega)]
    exact hs
  · obtain ⟨out, j, loc⟩ := s
    obtain ⟨hl, hj, hloc, hv⟩ := h
    simp only at hl hj hloc hv ⊢
    have hle := vcnt_mono w which (show i + 1 ≤ w.length by omega)
    have hsucc := vcnt_succ w which i
    rw [vcnt_all] at hle
    have hq : wq w (pos which w.length i) = false := by
      cases hw : wq w (pos which w.length i) with
      | false => rfl
      | true => rw [hw] at hsucc; simp at hsucc; omega
    have hmono := vcnt_mono w which (show i ≤ w.length by omega)
    rw [vcnt_all] at hmono
    have hvc : vcnt w which i = (List.range w.length).countP (wq w) := by omega
    have hj' : j = -1 ∨ j = out.length := by
      rw [hj, hvc, hl]
      cases which with
      | start => right; simp only [posI]
      | «end» => left; simp only [posI]; omega
    have hp := posI_toNat which hi
    have hb : rdI w loc = .ok false := by
      rw [hloc, ← hq]
      refine rdI_ok hp.1 ?_
      rw [hp.2]
      exact wq_of (pos_lt which hi)
    have hws : wrSlack out j (some (loc + 1).toNat) = .ok out := by
      unfold wrSlack; rw [if_pos hj']
    refine Ret.bind_eq hws (Ret.bind_eq hb (Ret.ok ⟨hl, ?_, ?_, ?_⟩))
    · simp only
      rw [hsucc, hq, hj]; simp
    · simp only; rw [hloc]; exact posI_succ _ _ _
    · intro k t hk
      rw [filter_range_succ, hq] at hk
      simp at hk
      exact hv k t (by simpa using hk)

theorem locate_slack_ok (w : List Bool) (which : RunBound) :
    locateRunBoundsW wrSlack w which = .ok (((List.range w.length).filter (wq w)).map (· + 1)) := by
  suffices hs : Ret (locateRunBoundsW wrSlack w which)
      (fun r => r = ((List.range w.length).filter (wq w)).map (· + 1)) by
    obtain ⟨r, hr, rfl⟩ := hs; exact hr
  refine Ret.bind_eq (countW_ok w) ?_
  refine Ret.bind (Ret.forN (LocInv w which) ⟨by simp, ?_, ?_, by simp⟩ ?_) ?_
  · simp only [vcnt, List.range_zero, List.countP_nil, posI_zero]
  · exact (posI_zero _ _).symm
  · intro i s hi hI
    exact locate_step_slack hI hi
  · rintro ⟨out, j, loc⟩ h
    exact h.finish

theorem locate_ub (w : List Bool) (which : RunBound) {i0 : Nat} (h0 : i0 + 1 = w.length)
    (h : wq w (pos which w.length i0) = false) : locateRunBounds w which = .error .ub := by
  refine bind_eq_of (countW_ok w) ?_
  have hex : ∃ i, vcnt w which i = (List.range w.length).countP (wq w) := by
    refine ⟨w.length, vcnt_all w which⟩
  have hk := Nat.find_spec hex
  have hmin := fun i => Nat.find_min (H := hex) (m := i)
  have hki0 : Nat.find hex ≤ i0 := by
    apply Nat.find_min'
    rw [← vcnt_all w which, ← h0, vcnt_succ, h]
    simp
  refine bind_err_of (forN_err (k := Nat.find hex) (e := .ub) (LocInv w which) (by omega)
    ⟨by simp, ?_, ?_, by simp⟩ ?_ ?_)
  · simp only [vcnt, List.range_zero, List.countP_nil, posI_zero]
  · exact (posI_zero _ _).symm
  · intro i s hi hI
    refine locate_step hI (by omega) ?_
    have h1 := vcnt_mono w which (show i ≤ w.length by omega)
    rw [vcnt_all] at h1
    have := hmin i hi
    omega
  · rintro ⟨out, j, loc⟩ ⟨hl, hj, hloc, hv⟩
    simp only at hl hj hloc hv ⊢
    rw [hk] at hj
    rw [hj]
    have : wrI out (posI which ((List.range w.length).countP (wq w))
        ((List.range w.length).countP (wq w))) (some (loc + 1).toNat) = .error .ub := by
      cases which with
      | start => exact wrI_oob (by simp only [posI]; omega)
      | «end» => exact wrI_neg (by simp only [posI]; omega)
    rw [this]
    rfl

end Vctrs
