import Verif.Lemmas.Array

namespace Vctrs

open Spec

variable {α : Type}

/-- The locations (1-based, `naInt` for missing) a subscript stands for, in order. -/
def subscriptAt : Subscript → Nat → Option Int
  | .rep i n, j => if (j : Int) < n then some i else none
  | .seq start n step, j => if (j : Int) < n then some (start + 1 + j * step) else none
  | .locs l, j => l[j]?

/-- A subscript as produced by vctrs for a vector of size `d`: every location is missing or in
`1..d`; compact subscripts are well formed even when empty. -/
def SubscriptOk (d : Nat) : Subscript → Prop
  | .rep i n => 0 ≤ n ∧ (i = naInt ∨ (1 ≤ i ∧ i ≤ (d : Int)))
  | .seq start n step => 0 ≤ n ∧ (step = 1 ∨ step = -1) ∧ 0 ≤ start ∧ start ≤ (d : Int) ∧
      ∀ j : Nat, (j : Int) < n → 0 ≤ start + j * step ∧ start + j * step < (d : Int)
  | .locs l => ∀ v ∈ l, v = naInt ∨ (1 ≤ v ∧ v ≤ (d : Int))

/-- Position `p` (0-based) is last written by element `i` among the first `t` locations. -/
def LastAt (loc : Nat → Option Int) (t p i : Nat) : Prop :=
  i < t ∧ loc i = some ((p : Int) + 1) ∧ ∀ i', i < i' → i' < t → loc i' ≠ some ((p : Int) + 1)

/-- State of position `q` of `out` (row `p`) after `t` locations, `val i` being the `i`-th value. -/
def Written (x : List α) (loc : Nat → Option Int) (val : Nat → Option α) (t p q : Nat) (out : List α) : Prop :=
  (∀ i, LastAt loc t p i → out[q]? = val i) ∧
  ((∀ i, i < t → loc i ≠ some ((p : Int) + 1)) → out[q]? = x[q]?)

theorem written_zero (x : List α) (loc : Nat → Option Int) (val : Nat → Option α) (p q : Nat) :
    Written x loc val 0 p q x := ⟨fun i h => by have := h.1; omega, fun _ => rfl⟩

/-- A location other than `p + 1` leaves the position alone. -/
theorem written_skip {x out out' : List α} {loc : Nat → Option Int} {val : Nat → Option α} {t p q : Nat}
    (h : Written x loc val t p q out) (hne : loc t ≠ some ((p : Int) + 1)) (heq : out'[q]? = out[q]?) :
    Written x loc val (t + 1) p q out' := by
  refine ⟨fun i hi => ?_, fun hi => ?_⟩
  · rw [heq]
    obtain ⟨h1, h2, h3⟩ := hi
    refine h.1 i ⟨?_, h2, fun i' h4 h5 => h3 i' h4 (by omega)⟩
    by_contra hc
    have : i = t := by omega
    subst this
    exact hne h2
  · rw [heq]
    exact h.2 (fun i hlt => hi i (by omega))

/-- The location `p + 1` overwrites it. -/
theorem written_hit {x out : List α} {loc : Nat → Option Int} {val : Nat → Option α} {t p q : Nat}
    (heq : loc t = some ((p : Int) + 1)) (hv : out[q]? = val t) :
    Written x loc val (t + 1) p q out := by
  refine ⟨fun i hi => ?_, fun hi => ?_⟩
  · obtain ⟨h1, h2, h3⟩ := hi
    have : i = t := by
      by_contra hc
      exact h3 t (by omega) (by omega) heq
    rw [hv, this]
  · exact absurd heq (hi t (by omega))

theorem assignIndex_ok {x : List α} {index : List Int} {value : List α} (hlen : value.length = index.length)
    (hidx : ∀ v ∈ index, v = naInt ∨ (1 ≤ v ∧ v ≤ (x.length : Int))) :
    Ret (assignIndex x index value) (fun out => out.length = x.length ∧
      ∀ p, p < x.length → Written x (fun i => index[i]?) (fun i => value[i]?) index.length p p out) := by
  unfold assignIndex
  rw [if_neg (by omega)]
  refine Ret.forN (fun t (out : List α) => out.length = x.length ∧
    ∀ p, p < x.length → Written x (fun i => index[i]?) (fun i => value[i]?) t p p out)
    ⟨rfl, fun p _ => written_zero _ _ _ _ _⟩ ?_
  rintro t out ht ⟨h1, h2⟩
  have hvt := List.getElem?_eq_getElem ht
  refine Ret.bind_eq (rd_of_getElem? hvt) ?_
  by_cases hna : index[t] = naInt
  · rw [if_neg (by simp [hna])]
    refine Ret.ok ⟨h1, fun p hp => written_skip (h2 p hp) ?_ rfl⟩
    simp only [hvt, hna, naInt]
    intro h; injection h; omega
  · rw [if_pos hna]
    have hr : 1 ≤ index[t] ∧ index[t] ≤ (x.length : Int) := by
      rcases hidx _ (List.getElem_mem ht) with h | h
      · exact absurd h hna
      · exact h
    refine Ret.bind_eq (rd_ok (by omega : t < value.length)) ?_
    have hlt : (index[t] - 1).toNat < out.length := by omega
    refine Ret.of_eq (wrI_ok (by omega) hlt) ⟨by simpa using h1, fun p hp => ?_⟩
    by_cases hp' : index[t] = (p : Int) + 1
    · refine written_hit (by simp only [hvt, hp']) ?_
      rw [getElem?_set' hlt, if_pos (by omega), List.getElem?_eq_getElem]
    · refine written_skip (h2 p hp) (by simp only [hvt]; intro h; injection h; omega) ?_
      rw [getElem?_set' hlt, if_neg (by omega)]

theorem assignCompact_ok {x : List α} {start step : Int} {n : Nat} {value : List α} (hlen : value.length = n)
    (hidx : ∀ j : Nat, j < n → 0 ≤ start + j * step ∧ start + j * step < (x.length : Int)) :
    Ret (assignCompact x start n step value) (fun out => out.length = x.length ∧
      ∀ p, p < x.length → Written x (fun j => if (j : Int) < n then some (start + 1 + j * step) else none)
        (fun i => value[i]?) n p p out) := by
  unfold assignCompact
  rw [if_neg (by omega)]
  simp only [Int.toNat_natCast]
  refine Ret.bind (Ret.forN (fun t (s : List α × Int) => s.1.length = x.length ∧ s.2 = start + t * step ∧
    ∀ p, p < x.length → Written x (fun j => if (j : Int) < n then some (start + 1 + j * step) else none)
      (fun i => value[i]?) t p p s.1)
    ⟨rfl, by simp, fun p _ => written_zero _ _ _ _ _⟩ ?_) ?_
  · rintro t ⟨out, loc⟩ ht ⟨h1, rfl, h2⟩
    simp only at h1 h2 ⊢
    have hr := hidx t ht
    refine Ret.bind_eq (rd_ok (by omega : t < value.length)) ?_
    have hlt : (start + t * step).toNat < out.length := by omega
    refine Ret.bind_eq (wrI_ok (by omega) hlt) (Ret.ok ⟨by simpa using h1, by push_cast; rw [Int.add_mul]; omega, fun p hp => ?_⟩)
    by_cases hp' : start + t * step = (p : Int)
    · refine written_hit ?_ ?_
      · rw [if_pos (by omega)]; congr 1; omega
      · rw [getElem?_set' hlt, if_pos (by omega), List.getElem?_eq_getElem]
    · refine written_skip (h2 p hp) ?_ ?_
      · rw [if_pos (by omega)]; intro h; injection h; omega
      · rw [getElem?_set' hlt, if_neg (by omega)]
  · rintro ⟨out, loc⟩ ⟨h1, _, h2⟩
    exact Ret.ok ⟨h1, h2⟩

/-- State of the whole array in column `c` after `t` of its `m` locations. -/
def ArrWritten (d P : Nat) (x : List α) (loc : Nat → Option Int) (value : List α) (m c t : Nat) (out : List α) : Prop :=
  out.length = x.length ∧ ∀ c', c' < P → ∀ p, p < d →
    Written x loc (fun i => value[m * c' + i]?) (if c' < c then m else if c' = c then t else 0) p (d * c' + p) out

theorem arrWritten_start (d P : Nat) (x : List α) (loc : Nat → Option Int) (value : List α) (m : Nat) :
    ArrWritten d P x loc value m 0 0 x := by
  refine ⟨rfl, fun c' _ p _ => ?_⟩
  rw [if_neg (Nat.not_lt_zero c')]
  split <;> exact written_zero _ _ _ _ _

theorem arrWritten_next {d P : Nat} {x : List α} {loc : Nat → Option Int} {value : List α} {m c : Nat}
    {out : List α} (h : ArrWritten d P x loc value m c m out) : ArrWritten d P x loc value m (c + 1) 0 out := by
  refine ⟨h.1, fun c' hc' p hp => ?_⟩
  have := h.2 c' hc' p hp
  rcases Nat.lt_trichotomy c' c with h1 | h1 | h1
  · rw [if_pos h1] at this; rw [if_pos (by omega)]; exact this
  · rw [if_neg (by omega), if_pos h1] at this; rw [if_pos (by omega)]; exact this
  · rw [if_neg (by omega), if_neg (by omega)] at this
    rw [if_neg (by omega)]; split <;> exact this

theorem arrWritten_skip {d P : Nat} {x : List α} {loc : Nat → Option Int} {value : List α} {m c t : Nat}
    {out : List α} (h : ArrWritten d P x loc value m c t out)
    (hne : ∀ p : Nat, p < d → loc t ≠ some ((p : Int) + 1)) : ArrWritten d P x loc value m c (t + 1) out := by
  refine ⟨h.1, fun c' hc' p hp => ?_⟩
  have := h.2 c' hc' p hp
  rcases Nat.lt_trichotomy c' c with h1 | h1 | h1
  · rw [if_pos h1] at this ⊢; exact this
  · rw [if_neg (by omega), if_pos h1] at this ⊢
    exact written_skip this (hne p hp) rfl
  · rw [if_neg (by omega), if_neg (by omega)] at this ⊢; exact this

theorem arrWritten_hit {d P : Nat} {x : List α} {loc : Nat → Option Int} {value : List α} {m c t r : Nat}
    {out : List α} (h : ArrWritten d P x loc value m c t out) (hr : r < d) (hlt : d * c + r < x.length)
    (heq : loc t = some ((r : Int) + 1)) {v : α} (hv : value[m * c + t]? = some v) :
    ArrWritten d P x loc value m c (t + 1) (out.set (d * c + r) v) := by
  refine ⟨by simpa using h.1, fun c' hc' p hp => ?_⟩
  have := h.2 c' hc' p hp
  have hlt' : d * c + r < out.length := by rw [h.1]; exact hlt
  have hdist : ∀ {a b : Nat}, a < b → d * a + d ≤ d * b := by
    intro a b hab; rw [← Nat.mul_succ]; exact Nat.mul_le_mul_left _ hab
  have hcopy : ∀ {T : Nat}, c' ≠ c → Written x loc (fun i => value[m * c' + i]?) T p (d * c' + p) out →
      Written x loc (fun i => value[m * c' + i]?) T p (d * c' + p) (out.set (d * c + r) v) := by
    intro T hne hw
    have e : (out.set (d * c + r) v)[d * c' + p]? = out[d * c' + p]? := by
      rw [getElem?_set' hlt', if_neg]
      rcases Nat.lt_or_gt_of_ne hne with h1 | h1
      · have := hdist h1; omega
      · have := hdist h1; omega
    exact ⟨fun i hi => by rw [e]; exact hw.1 i hi, fun hi => by rw [e]; exact hw.2 hi⟩
  rcases Nat.lt_trichotomy c' c with h1 | h1 | h1
  · rw [if_pos h1] at this ⊢; exact hcopy (by omega) this
  · rw [if_neg (by omega), if_pos h1] at this ⊢
    subst h1
    by_cases hpr : p = r
    · subst hpr
      exact written_hit heq (by rw [getElem?_set' hlt', if_pos rfl, hv])
    · refine written_skip this ?_ ?_
      · rw [heq]; intro h; injection h; omega
      · rw [getElem?_set' hlt', if_neg (by omega)]
  · rw [if_neg (by omega), if_neg (by omega)] at this ⊢; exact hcopy (by omega) this

theorem assignShapedIndex_ok {d : Nat} {ds : List Nat} (h : DimOk d ds) {x : List α}
    (hx : x.length = d * ds.prod) {index : List Int} (hd : d ≤ intMax)
    (hidx : ∀ v ∈ index, v = naInt ∨ (1 ≤ v ∧ v ≤ (d : Int))) {value : List α}
    (hval : value.length = index.length * ds.prod) :
    Ret (assignShapedIndex (d :: ds) x index value)
      (fun out => ArrWritten d ds.prod x (fun i => index[i]?) value index.length ds.prod 0 out) := by
  obtain ⟨steps, hsteps, hsl, hsv⟩ := vecSteps_ok hd hidx
  have key := forShape_ok (s := (x, 0)) h
    (body := fun loc (s : List α × Nat) => do
      let (s, _) ← forN index.length (fun j (s : (List α × Nat) × Int) => do
        let ((out, k), loc) := s
        let step ← rd steps j
        if step = naInt then .ok ((out, k + 1), loc)
        else do
          let loc ← chkInt (loc + step)
          let v ← rd value k
          let out ← wrI out loc v
          .ok ((out, k + 1), loc)) (s, (loc : Int))
      .ok s)
    (fun c s => s.2 = index.length * c ∧ ArrWritten d ds.prod x (fun i => index[i]?) value index.length c 0 s.1)
    ⟨by simp, arrWritten_start _ _ _ _ _ _⟩ ?_
  · obtain ⟨s, hs, h1, h2⟩ := key
    unfold assignShapedIndex
    cases hinfo : newStridesInfo (d :: ds) with
    | error e => rw [hinfo] at hs; cases hs
    | ok info =>
      rw [hinfo] at hs
      simp only [ok_bind] at hs
      simp only [ok_bind, hsteps]
      exact Ret.bind_eq hs (Ret.ok h2)
  · rintro c ⟨out, k⟩ hc ⟨h1, h2⟩
    simp only at h1 h2 ⊢
    subst h1
    refine Ret.bind (Ret.forN (fun j (s : (List α × Nat) × Int) =>
      s.1.2 = index.length * c + j ∧
      ArrWritten d ds.prod x (fun i => index[i]?) value index.length c j s.1.1 ∧
      s.2 = ((d * c : Nat) : Int) + (prevLoc index j - 1)) ⟨rfl, h2, by simp [prevLoc]⟩ ?_) ?_
    · rintro j ⟨⟨out, k⟩, loc⟩ hj ⟨h1, h2, h3⟩
      simp only at h1 h2 h3 ⊢
      subst h1
      have hvj := List.getElem?_eq_getElem hj
      obtain ⟨hst, hne⟩ := hsv j _ hvj
      refine Ret.bind_eq (rd_of_getElem? hst) ?_
      by_cases hna : index[j] = naInt
      · rw [if_pos hna, if_pos rfl]
        refine Ret.ok ⟨by simp only; omega, arrWritten_skip h2 ?_, ?_⟩
        · intro p _; simp only [hvj, hna, naInt]; intro h; injection h; omega
        · simp only [prevLoc, hvj, if_pos hna, h3]
      · rw [if_neg hna, if_neg (hne hna)]
        have hr : 1 ≤ index[j] ∧ index[j] ≤ (d : Int) := by
          rcases hidx _ (List.getElem_mem hj) with h | h
          · exact absurd h hna
          · exact h
        have hlt : d * c + (index[j] - 1).toNat < x.length := by
          rw [hx]; exact col_lt hc (by omega)
        have htot : x.length ≤ intMax := by rw [hx]; exact h.total
        have hloc : loc + (index[j] - prevLoc index j) = ((d * c + (index[j] - 1).toNat : Nat) : Int) := by
          rw [h3]; push_cast; omega
        rw [hloc]
        refine Ret.bind_eq (chkInt_ok (by omega) (by simp only [naInt]; omega)) ?_
        have hk : index.length * c + j < value.length := by rw [hval]; exact col_lt hc hj
        refine Ret.bind_eq (rd_ok hk) ?_
        refine Ret.bind_eq (wrI_ok (by omega) (by rw [Int.toNat_natCast, h2.1]; exact hlt)) ?_
        rw [Int.toNat_natCast]
        refine Ret.ok ⟨by simp only; omega, ?_, ?_⟩
        · exact arrWritten_hit h2 (by omega) hlt (by simp only [hvj]; congr 1; omega)
            (List.getElem?_eq_getElem hk)
        · simp only [prevLoc, hvj, if_neg hna]
          push_cast; omega
    · rintro ⟨⟨out, k⟩, loc⟩ ⟨h1, h2, h3⟩
      exact Ret.ok ⟨h1, arrWritten_next h2⟩

theorem assignShapedSeq_ok {d : Nat} {ds : List Nat} (h : DimOk d ds) {x : List α}
    (hx : x.length = d * ds.prod) {start step : Int} {n : Nat} (hs : step = 1 ∨ step = -1)
    (h0 : 0 ≤ start) (hd : start ≤ d)
    (hidx : ∀ j : Nat, j < n → 0 ≤ start + j * step ∧ start + j * step < (d : Int)) {value : List α}
    (hval : value.length = n * ds.prod) :
    Ret (assignShapedSeq (d :: ds) x start n step value)
      (fun out => ArrWritten d ds.prod x (fun j => if (j : Int) < n then some (start + 1 + j * step) else none)
        value n ds.prod 0 out) := by
  have key := forShape_ok (s := (x, 0)) h
    (body := fun loc (s : List α × Nat) => do
      let loc ← chkInt (loc + start)
      let (s, _) ← forN n (fun _ (s : (List α × Nat) × Int) => do
        let ((out, k), loc) := s
        let v ← rd value k
        let out ← wrI out loc v
        let loc ← chkInt (loc + step)
        .ok ((out, k + 1), loc)) (s, loc)
      .ok s)
    (fun c s => s.2 = n * c ∧ ArrWritten d ds.prod x
      (fun j => if (j : Int) < n then some (start + 1 + j * step) else none) value n c 0 s.1)
    ⟨by simp, arrWritten_start _ _ _ _ _ _⟩ ?_
  · obtain ⟨s, hs, h1, h2⟩ := key
    unfold assignShapedSeq
    cases hinfo : newStridesInfo (d :: ds) with
    | error e => rw [hinfo] at hs; cases hs
    | ok info =>
      rw [hinfo] at hs
      simp only [ok_bind] at hs
      simp only [ok_bind, Int.toNat_natCast]
      exact Ret.bind_eq hs (Ret.ok h2)
  · rintro c ⟨out, k⟩ hc ⟨h1, h2⟩
    simp only at h1 h2 ⊢
    subst h1
    have htot : x.length ≤ intMax := by rw [hx]; exact h.total
    have hcd : d * c + d ≤ x.length := by
      rw [hx, ← Nat.mul_succ]; exact Nat.mul_le_mul_left _ hc
    refine Ret.bind_eq (chkInt_ok (by omega) (by simp only [naInt]; omega)) ?_
    refine Ret.bind (Ret.forN (fun j (s : (List α × Nat) × Int) =>
      s.1.2 = n * c + j ∧
      ArrWritten d ds.prod x (fun j => if (j : Int) < n then some (start + 1 + j * step) else none) value n c j s.1.1 ∧
      s.2 = ((d * c : Nat) : Int) + (start + j * step)) ⟨rfl, h2, by simp⟩ ?_) ?_
    · rintro j ⟨⟨out, k⟩, loc⟩ hj ⟨h1, h2, h3⟩
      simp only at h1 h2 h3 ⊢
      subst h1
      have hr := hidx j hj
      have hloc : loc = ((d * c + (start + j * step).toNat : Nat) : Int) := by
        rw [h3]; push_cast; omega
      have hlt : d * c + (start + j * step).toNat < x.length := by
        rw [hx]; exact col_lt hc (by omega)
      rw [hloc]
      have hk : n * c + j < value.length := by rw [hval]; exact col_lt hc hj
      refine Ret.bind_eq (rd_ok hk) ?_
      refine Ret.bind_eq (wrI_ok (by omega) (by rw [Int.toNat_natCast, h2.1]; exact hlt)) ?_
      refine Ret.bind_eq (chkInt_ok (by omega) (by simp only [naInt]; omega)) ?_
      rw [Int.toNat_natCast]
      refine Ret.ok ⟨by simp only; omega, ?_, ?_⟩
      · exact arrWritten_hit h2 (by omega) hlt (by rw [if_pos (by omega)]; congr 1; omega)
          (List.getElem?_eq_getElem hk)
      · push_cast
        rw [Int.add_mul, Int.one_mul]
        omega
    · rintro ⟨⟨out, k⟩, loc⟩ ⟨h1, h2, h3⟩
      exact Ret.ok ⟨h1, arrWritten_next h2⟩

/-- Slicing a bare vector. -/
theorem sliceBase_ok (na : α) {x : List α} {s : Subscript} (hs : SubscriptOk x.length s) :
    Ret (sliceBase na x s) (fun out => out.length = (subscriptSize s).toNat ∧
      ∀ i, i < (subscriptSize s).toNat → ∃ loc, subscriptAt s i = some loc ∧
        out[i]? = if loc = naInt then some na else x[(loc - 1).toNat]?) := by
  have fin : ∀ {n : Nat} {buf : List (Option α)} {loc : Nat → Int},
      Filled (fun j v => some v = if loc j = naInt then some na else x[(loc j - 1).toNat]?) n n buf →
      (∀ j, j < n → subscriptAt s j = some (loc j)) →
      Ret (initd buf) (fun out => out.length = n ∧ ∀ i, i < n → ∃ loc, subscriptAt s i = some loc ∧
        out[i]? = if loc = naInt then some na else x[(loc - 1).toNat]?) := by
    intro n buf loc hF hl
    refine hF.done_of.mono ?_
    rintro out ⟨h1, h2⟩
    refine ⟨h1, fun i hi => ?_⟩
    obtain ⟨v, hv, h3⟩ := h2 i hi
    exact ⟨loc i, hl i hi, by rw [hv, h3]⟩
  cases s with
  | rep i n =>
    obtain ⟨h0, h1⟩ := hs
    obtain ⟨m, rfl⟩ := Int.eq_ofNat_of_zero_le h0
    simp only [sliceBase, sliceCompactRep]
    rw [if_neg (by omega)]
    have hread : ∃ v, (if i = naInt then .ok na else rdI x (i - 1) : C α) = .ok v ∧
        some v = if i = naInt then some na else x[(i - 1).toNat]? := by
      by_cases hna : i = naInt
      · exact ⟨na, by rw [if_pos hna], by rw [if_pos hna]⟩
      · have hr : 1 ≤ i ∧ i ≤ (x.length : Int) := by
          rcases h1 with h | h
          · exact absurd h hna
          · exact h
        have hlt : (i - 1).toNat < x.length := by omega
        exact ⟨x[(i - 1).toNat], by rw [if_neg hna]; exact rdI_ok (by omega) (List.getElem?_eq_getElem hlt),
          by rw [if_neg hna, List.getElem?_eq_getElem hlt]⟩
    obtain ⟨v, hv, hv'⟩ := hread
    refine Ret.bind_eq hv ?_
    refine Ret.bind (Ret.forN (fun t buf => Filled (fun _ v => some v = if i = naInt then some na
      else x[(i - 1).toNat]?) m t buf) (Filled.start _ _) ?_) ?_
    · intro t buf ht hF
      obtain ⟨hw, hF'⟩ := hF.step (r := v) ht hv'
      exact Ret.of_eq hw hF'
    · intro buf hF
      refine fin (n := m) (loc := fun _ => i) hF ?_
      intro j hj
      exact if_pos (by omega)
  | seq start n step =>
    obtain ⟨h0, h1, h2, h3, h4⟩ := hs
    obtain ⟨m, rfl⟩ := Int.eq_ofNat_of_zero_le h0
    simp only [sliceBase, sliceCompactSeq]
    rw [if_neg (by omega)]
    refine Ret.bind (Ret.forN (fun t (st : List (Option α) × Int) => st.2 = start + t * step ∧
      Filled (fun j v => some v = if start + 1 + j * step = naInt then some na
        else x[(start + 1 + j * step - 1).toNat]?) m t st.1) ⟨by simp, Filled.start _ _⟩ ?_) ?_
    · rintro t ⟨buf, loc⟩ ht ⟨rfl, hF⟩
      simp only at hF ⊢
      have hr := h4 t (by simp at ht; omega)
      have hlt : (start + t * step).toNat < x.length := by omega
      refine Ret.bind_eq (rdI_ok (by omega) (List.getElem?_eq_getElem hlt)) ?_
      obtain ⟨hw, hF'⟩ := hF.step (r := x[(start + t * step).toNat]) (by simpa using ht) (by
        rw [if_neg (by simp only [naInt]; omega),
          show (start + 1 + t * step - 1).toNat = (start + t * step).toNat by omega,
          List.getElem?_eq_getElem hlt])
      refine Ret.bind_eq hw (Ret.ok ⟨?_, hF'⟩)
      push_cast; rw [Int.add_mul]; omega
    · rintro ⟨buf, loc⟩ ⟨_, hF⟩
      refine fin (n := m) (loc := fun j => start + 1 + j * step) hF ?_
      intro j hj
      exact if_pos (by omega)
  | locs l =>
    simp only [sliceBase, sliceSubscript]
    refine Ret.bind (Ret.forN (fun t buf => Filled (fun j v => some v =
      if (l[j]?.getD 0) = naInt then some na else x[((l[j]?.getD 0) - 1).toNat]?) l.length t buf)
      (Filled.start _ _) ?_) ?_
    · intro t buf ht hF
      have hvt := List.getElem?_eq_getElem ht
      refine Ret.bind_eq (rd_of_getElem? hvt) ?_
      have hread : ∃ v, (if l[t] = naInt then .ok na else rdI x (l[t] - 1) : C α) = .ok v ∧
          some v = if l[t] = naInt then some na else x[(l[t] - 1).toNat]? := by
        by_cases hna : l[t] = naInt
        · exact ⟨na, by rw [if_pos hna], by rw [if_pos hna]⟩
        · have hr : 1 ≤ l[t] ∧ l[t] ≤ (x.length : Int) := by
            rcases hs _ (List.getElem_mem ht) with h | h
            · exact absurd h hna
            · exact h
          have hlt : (l[t] - 1).toNat < x.length := by omega
          exact ⟨x[(l[t] - 1).toNat], by rw [if_neg hna]; exact rdI_ok (by omega) (List.getElem?_eq_getElem hlt),
            by rw [if_neg hna, List.getElem?_eq_getElem hlt]⟩
      obtain ⟨v, hv, hv'⟩ := hread
      refine Ret.bind_eq hv ?_
      obtain ⟨hw, hF'⟩ := hF.step (r := v) ht (by rw [hvt]; exact hv')
      exact Ret.of_eq hw hF'
    · intro buf hF
      refine fin (loc := fun j => l[j]?.getD 0) hF ?_
      intro j hj
      simp only [subscriptAt]
      rw [List.getElem?_eq_getElem hj]; rfl

end Vctrs
