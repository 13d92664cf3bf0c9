import Verif.Lemmas.Runs
import Verif.Model.Rep

namespace Vctrs

open Spec

variable {α : Type}

/-- The first `P.length` cells of the buffer `v` hold `P`. -/
structure Wrote {β : Type} (P : List β) (N : Nat) (v : List (Option β)) : Prop where
  len : v.length = N
  val : ∀ (j : Nat) a, P[j]? = some a → v[j]? = some (some a)

theorem Wrote.start {β : Type} (N : Nat) : Wrote (β := β) [] N (alloc β N) := ⟨by simp, by simp⟩

theorem Wrote.step {β : Type} {P : List β} {N : Nat} {v : List (Option β)} (h : Wrote P N v) (a : β)
    {k : Nat} (hk : k = P.length) (hlt : k < N) :
    wr v k (some a) = .ok (v.set k (some a)) ∧ Wrote (P ++ [a]) N (v.set k (some a)) := by
  subst hk
  refine ⟨wr_ok (by rw [h.len]; exact hlt), by simpa using h.len, ?_⟩
  intro j b hj
  rw [getElem?_set' (by rw [h.len]; exact hlt)]
  by_cases hjk : j = P.length
  · subst hjk; simp at hj; simp [hj]
  · rw [if_neg hjk]
    have := (List.getElem?_eq_some_iff.1 hj).1
    simp at this
    exact h.val j b (by rwa [List.getElem?_append_left (by omega)] at hj)

theorem Wrote.done {β : Type} {P : List β} {N : Nat} {v : List (Option β)} (h : Wrote P N v)
    (hN : P.length = N) : initd v = .ok P :=
  initd_ok (by rw [h.len, hN]) (fun i hi => h.val i _ (List.getElem?_eq_getElem hi))

theorem writeRun_ok {P : List Nat} {N : Nat} {v : List (Option Nat)} (h : Wrote P N v) {k : Nat}
    (hk : k = P.length) (i reps : Nat) (hlt : k + reps ≤ N) :
    Ret (writeRun v k i reps) (fun r => r.2 = k + reps ∧ Wrote (P ++ List.replicate reps i) N r.1) := by
  refine Ret.mono (Ret.forN (fun m (s : List (Option Nat) × Nat) =>
    s.2 = k + m ∧ Wrote (P ++ List.replicate m i) N s.1) ⟨rfl, by simpa using h⟩ ?_) ?_
  · rintro m ⟨v, k'⟩ hm ⟨rfl, hW⟩
    simp only at hW ⊢
    obtain ⟨hw, hW'⟩ := hW.step i (k := k + m) (by simp [hk]) (by omega)
    refine Ret.bind_eq hw (Ret.ok ⟨by omega, ?_⟩)
    rwa [List.append_assoc, ← List.replicate_succ'] at hW'
  · intro r hr; exact hr

theorem checkRepTimes_ok {t : Int} (h0 : 0 ≤ t) (h1 : t ≤ (intMax : Int)) : checkRepTimes t = .ok () := by
  unfold checkRepTimes timesIsOob
  rw [if_neg (by omega)]
  simp only [decide_eq_true_eq]
  rw [if_neg (by omega)]

theorem checkRepTimes_neg {t : Int} (h0 : t < 0) : checkRepTimes t = .error .abort := by
  unfold checkRepTimes
  rw [if_pos h0]
  split <;> rfl

theorem sliceLoc_succ (x : List α) (l : Nat) (ls : List Nat) :
    sliceLoc x ((l + 1) :: ls) = (do
      let a ← rd x l
      let r ← sliceLoc x ls
      .ok (a :: r)) := by
  simp only [sliceLoc]
  rw [if_neg (Nat.succ_ne_zero l)]
  rfl

theorem sliceLoc_append (x : List α) {l1 l2 : List Nat} {r1 r2 : List α}
    (h1 : sliceLoc x l1 = .ok r1) (h2 : sliceLoc x l2 = .ok r2) :
    sliceLoc x (l1 ++ l2) = .ok (r1 ++ r2) := by
  induction l1 generalizing r1 with
  | nil => simp only [sliceLoc] at h1; cases h1; simpa using h2
  | cons l l1 ih =>
    cases l with
    | zero => simp [sliceLoc] at h1
    | succ l =>
      rw [sliceLoc_succ] at h1
      cases hr : rd x l with
      | error e => rw [hr] at h1; cases h1
      | ok a =>
        rw [hr] at h1
        cases hs : sliceLoc x l1 with
        | error e => rw [hs] at h1; cases h1
        | ok r =>
          rw [hs] at h1
          cases h1
          simp only [List.cons_append, sliceLoc_succ, hr, ih hs, ok_bind]

theorem sliceLoc_flatten (x : List α) :
    ∀ (L : List (List Nat)) (R : List (List α)), L.length = R.length →
      (∀ (i : Nat) l r, L[i]? = some l → R[i]? = some r → sliceLoc x l = .ok r) →
      sliceLoc x L.flatten = .ok R.flatten := by
  intro L
  induction L with
  | nil => intro R h _; cases R with
    | nil => rfl
    | cons => simp at h
  | cons l L ih =>
    intro R h hall
    cases R with
    | nil => simp at h
    | cons r R =>
      simp only [List.flatten_cons]
      refine sliceLoc_append x (hall 0 l r rfl rfl) (ih R (by simpa using h) ?_)
      intro i l r hl hr
      exact hall (i + 1) l r (by simpa using hl) (by simpa using hr)

theorem sliceLoc_replicate {x : List α} {i : Nat} {a : α} (h : x[i]? = some a) (t : Nat) :
    sliceLoc x (List.replicate t (i + 1)) = .ok (List.replicate t a) := by
  induction t with
  | zero => rfl
  | succ t ih =>
    simp only [List.replicate_succ, sliceLoc_succ, rd_of_getElem? h, ih, ok_bind]

theorem sliceLoc_all (x : List α) : sliceLoc x (List.range' 1 x.length) = .ok x := by
  have : List.range' 1 x.length = (List.range x.length).map (· + 1) := by
    apply List.ext_getElem (by simp)
    intro i h1 h2
    simp [Nat.add_comm]
  rw [this]
  apply sliceLoc_ok
  apply List.ext_getElem (by simp)
  intro i h1 h2
  simp at h1
  simp [h1]

/-! ### vec_rep -/

theorem vecRep_ok (x : List α) {t : Nat} (hx : x.length ≤ intMax) (ht : t ≤ intMax)
    (h : x.length * t ≤ intMax) :
    vecRep x (t : Int) = .ok (List.replicate t x).flatten := by
  suffices hs : Ret (vecRep x (t : Int)) (fun r => r = (List.replicate t x).flatten) by
    obtain ⟨r, hr, rfl⟩ := hs; exact hr
  refine Ret.bind_eq (checkRepTimes_ok (by omega) (by omega)) ?_
  by_cases h1 : t = 1
  · subst h1
    simp only [Int.cast_ofNat_Int, if_true]
    exact Ret.ok (by simp)
  · rw [if_neg (by omega)]
    simp only [Int.toNat_natCast]
    by_cases hn : x.length = 1
    · obtain ⟨a, rfl⟩ := List.length_eq_one_iff.1 hn
      simp only [List.length_singleton, if_true]
      refine Ret.bind_eq (show rd [a] 0 = .ok a from rfl) (Ret.ok ?_)
      clear h1 h ht hx hn
      induction t with
      | zero => rfl
      | succ t ih => rw [List.replicate_succ, List.replicate_succ, List.flatten_cons, ← ih]; rfl
    · rw [if_neg hn]
      have hm : multiplyWouldOverflow x.length t = false := by
        unfold multiplyWouldOverflow; simpa using h
      simp only [hm, Bool.false_eq_true, if_false]
      have hlen : ∀ i, (List.replicate i (List.range' 1 x.length)).flatten.length = i * x.length := by
        intro i; simp
      refine Ret.bind (Ret.forN (fun i (s : List (Option Nat) × Nat) =>
        s.2 = i * x.length ∧
        Wrote (List.replicate i (List.range' 1 x.length)).flatten (x.length * t) s.1)
        ⟨by simp, by simpa using Wrote.start _⟩ ?_) ?_
      · rintro i ⟨v, k⟩ hi ⟨rfl, hW⟩
        simp only at hW ⊢
        have hb : (i + 1) * x.length ≤ x.length * t := by
          rw [Nat.mul_comm]; exact Nat.mul_le_mul_left _ hi
        rw [Nat.succ_mul] at hb
        refine Ret.mono (Ret.forFrom (fun j (s : List (Option Nat) × Nat) =>
          s.2 = i * x.length + (j - 1) ∧
          Wrote ((List.replicate i (List.range' 1 x.length)).flatten ++ List.range' 1 (j - 1))
            (x.length * t) s.1) ⟨by simp, by simpa using hW⟩ ?_) ?_
        · rintro j ⟨v, k⟩ hj1 hj2 ⟨rfl, hW⟩
          simp only at hW ⊢
          obtain ⟨hw, hW'⟩ := hW.step j (k := i * x.length + (j - 1)) (by simp) (by omega)
          refine Ret.bind_eq hw (Ret.ok ⟨by simp only; omega, ?_⟩)
          have e : List.range' 1 (j - 1) ++ [j] = List.range' 1 (j + 1 - 1) := by
            obtain ⟨m, rfl⟩ : ∃ m, j = m + 1 := ⟨j - 1, by omega⟩
            rw [show m + 1 + 1 - 1 = m + 1 by omega, show m + 1 - 1 = m by omega,
              List.range'_concat]
            simp [Nat.add_comm]
          rwa [List.append_assoc, e] at hW'
        · rintro ⟨v, k⟩ ⟨hk, hW⟩
          simp only at hk hW ⊢
          refine ⟨by rw [hk, Nat.succ_mul]; omega, ?_⟩
          rw [show 1 + x.length - 1 = x.length by omega] at hW
          rw [List.replicate_succ', List.flatten_append]
          simpa using hW
      · rintro ⟨v, k⟩ ⟨_, hW⟩
        simp only at hW ⊢
        refine Ret.bind_eq (hW.done (by rw [hlen, Nat.mul_comm])) ?_
        refine Ret.of_eq (sliceLoc_flatten x _ (List.replicate t x) (by simp) ?_) rfl
        intro i l r hl hr
        have h1 := List.mem_of_getElem? hl
        have h2 := List.mem_of_getElem? hr
        rw [(List.mem_replicate.1 h1).2, (List.mem_replicate.1 h2).2]
        exact sliceLoc_all x

theorem vecRep_neg (x : List α) {t : Int} (h : t < 0) : vecRep x t = .error .abort :=
  bind_err_of (checkRepTimes_neg h)

theorem vecRep_big (x : List α) {t : Nat} (hx : x.length ≤ intMax) (ht : t ≤ intMax)
    (h : x.length * t > intMax) : vecRep x (t : Int) = .error .abort := by
  refine bind_eq_of (checkRepTimes_ok (by omega) (by omega)) ?_
  have h1 : t ≠ 1 := by rintro rfl; omega
  have hn : x.length ≠ 1 := by intro hn; rw [hn] at h; omega
  rw [if_neg (by omega)]
  simp only [Int.toNat_natCast]
  rw [if_neg hn]
  have hm : multiplyWouldOverflow x.length t = true := by
    unfold multiplyWouldOverflow; simpa using h
  simp only [hm, if_true]

/-! ### vec_rep_each -/

/-- The subscript written by the loops of `vec_rep_each`: `i` repeated `f i` times. -/
def eachSub (f : Nat → Nat) (n : Nat) : List Nat :=
  ((List.range' 1 n).map (fun j => List.replicate (f j) j)).flatten

theorem eachSub_succ (f : Nat → Nat) (n : Nat) :
    eachSub f (n + 1) = eachSub f n ++ List.replicate (f (n + 1)) (n + 1) := by
  unfold eachSub
  rw [List.range'_concat]
  simp [Nat.add_comm]

theorem eachSub_length_mono (f : Nat → Nat) {m n : Nat} (h : m ≤ n) :
    (eachSub f m).length ≤ (eachSub f n).length := by
  induction n with
  | zero => rw [Nat.le_zero.1 h]
  | succ n ih =>
    rcases Nat.lt_or_ge m (n + 1) with h' | h'
    · rw [eachSub_succ, List.length_append]
      have := ih (by omega)
      omega
    · have e : m = n + 1 := by omega
      rw [e]

theorem eachLoop_ok {n N : Nat} (f : Nat → Nat) (hN : (eachSub f n).length = N)
    (body : Nat → List (Option Nat) × Nat → C (List (Option Nat) × Nat))
    (hbody : ∀ i s, 1 ≤ i → i < 1 + n → body i s = writeRun s.1 s.2 i (f i)) :
    Ret (forFrom body 1 n (alloc Nat N, 0)) (fun s => initd s.1 = .ok (eachSub f n)) := by
  refine Ret.mono (Ret.forFrom (fun i (s : List (Option Nat) × Nat) =>
    s.2 = (eachSub f (i - 1)).length ∧ Wrote (eachSub f (i - 1)) N s.1)
    ⟨rfl, Wrote.start _⟩ ?_) ?_
  · rintro i ⟨v, k⟩ h1 h2 ⟨rfl, hW⟩
    simp only at hW ⊢
    rw [hbody i _ h1 h2]
    have e : eachSub f (i + 1 - 1) = eachSub f (i - 1) ++ List.replicate (f i) i := by
      obtain ⟨m, rfl⟩ : ∃ m, i = m + 1 := ⟨i - 1, by omega⟩
      exact eachSub_succ f m
    have hle := eachSub_length_mono f (show i + 1 - 1 ≤ n by omega)
    rw [e, List.length_append, List.length_replicate] at hle
    refine Ret.mono (writeRun_ok hW rfl i (f i) (by omega)) ?_
    rintro ⟨v, k⟩ ⟨hk, hW⟩
    rw [e]
    exact ⟨by simpa using hk, hW⟩
  · rintro ⟨v, k⟩ ⟨_, hW⟩
    rw [show 1 + n - 1 = n by omega] at hW
    exact hW.done hN

theorem slice_eachSub (x : List α) (f : Nat → Nat) (ts : List Int) (hl : ts.length = x.length)
    (hf : ∀ (i : Nat) t, ts[i]? = some t → f (i + 1) = t.toNat) :
    sliceLoc x (eachSub f x.length) =
      .ok (List.zipWith (fun (t : Int) a => List.replicate t.toNat a) ts x).flatten := by
  refine sliceLoc_flatten x _ _ (by simp [hl]) ?_
  intro i l r h1 h2
  have hi := (List.getElem?_eq_some_iff.1 h1).1
  simp at hi
  have hti : i < ts.length := by omega
  simp [hi] at h1
  simp [List.getElem?_zipWith, List.getElem?_eq_getElem hti, hi] at h2
  subst h1 h2
  rw [show 1 + i = i + 1 by omega, hf i _ (List.getElem?_eq_getElem hti)]
  exact sliceLoc_replicate (List.getElem?_eq_getElem hi) _

theorem eachSub_length (f : Nat → Nat) :
    ∀ (ts : List Int), (∀ (i : Nat) t, ts[i]? = some t → f (i + 1) = t.toNat) →
      (eachSub f ts.length).length = (ts.map Int.toNat).sum := by
  intro ts
  induction ts using List.reverseRecOn with
  | nil => intro _; rfl
  | append_singleton ts t ih =>
    intro h
    rw [List.length_append, List.length_singleton, eachSub_succ, List.length_append,
      List.length_replicate, ih (fun i t' ht' => h i t' (by
        rw [List.getElem?_append_left (List.getElem?_eq_some_iff.1 ht').1]; exact ht')),
      h ts.length t (by simp)]
    simp

theorem vecRepEachUniform_ok (x : List α) {t : Nat} (ht : t ≤ intMax) (h : x.length * t ≤ intMax) :
    vecRepEachUniform x (t : Int) = .ok (x.map (List.replicate t)).flatten := by
  suffices hs : Ret (vecRepEachUniform x (t : Int)) (fun r => r = (x.map (List.replicate t)).flatten) by
    obtain ⟨r, hr, rfl⟩ := hs; exact hr
  refine Ret.bind_eq (checkRepTimes_ok (by omega) (by omega)) ?_
  simp only [Int.toNat_natCast]
  have hm : multiplyWouldOverflow x.length t = false := by
    unfold multiplyWouldOverflow; simpa using h
  simp only [hm, Bool.false_eq_true, if_false]
  have hlen := eachSub_length (fun _ => t) (List.replicate x.length (t : Int)) (by
    intro i t' h'
    rw [(List.mem_replicate.1 (List.mem_of_getElem? h')).2]; simp)
  simp at hlen
  refine Ret.bind (eachLoop_ok (fun _ => t) hlen _ (fun _ _ _ _ => rfl)) ?_
  rintro ⟨v, k⟩ hv
  refine Ret.bind_eq hv ?_
  refine Ret.of_eq (slice_eachSub x _ (List.replicate x.length (t : Int)) (by simp) ?_) ?_
  · intro i t' h'
    rw [(List.mem_replicate.1 (List.mem_of_getElem? h')).2]; simp
  · congr 1
    apply List.ext_getElem (by simp)
    intro i h1 h2
    simp

theorem vecRepEachUniform_big (x : List α) {t : Nat} (ht : t ≤ intMax) (h : x.length * t > intMax) :
    vecRepEachUniform x (t : Int) = .error .abort := by
  refine bind_eq_of (checkRepTimes_ok (by omega) (by omega)) ?_
  simp only [Int.toNat_natCast]
  have hm : multiplyWouldOverflow x.length t = true := by
    unfold multiplyWouldOverflow; simpa using h
  simp only [hm, if_true]

theorem timesLoop_ok (times : List Int) (h0 : ∀ t ∈ times, 0 ≤ t ∧ t ≤ (intMax : Int))
    (h : (times.map Int.toNat).sum ≤ intMax) :
    forN times.length (fun i size => do
      let t ← rd times i
      checkRepTimes t
      if plusWouldOverflow size t.toNat then (.error .abort : C Nat)
      else .ok (size + t.toNat)) 0 = .ok (times.map Int.toNat).sum := by
  suffices hs : Ret (forN times.length (fun i size => do
      let t ← rd times i
      checkRepTimes t
      if plusWouldOverflow size t.toNat then (.error .abort : C Nat)
      else .ok (size + t.toNat)) 0) (fun r => r = (times.map Int.toNat).sum) by
    obtain ⟨r, hr, rfl⟩ := hs; exact hr
  have htake : ∀ i (hi : i < times.length), ((times.take (i + 1)).map Int.toNat).sum =
      ((times.take i).map Int.toNat).sum + times[i].toNat := by
    intro i hi
    rw [List.take_add_one, List.getElem?_eq_getElem hi, List.map_append, List.sum_append]
    rfl
  have hle : ∀ i, ((times.take i).map Int.toNat).sum ≤ (times.map Int.toNat).sum := by
    intro i
    conv_rhs => rw [← List.take_append_drop i times, List.map_append, List.sum_append]
    exact Nat.le_add_right _ _
  refine Ret.mono (Ret.forN (fun i size => size = ((times.take i).map Int.toNat).sum) (by simp) ?_) ?_
  · rintro i size hi rfl
    have hm := h0 _ (List.getElem_mem hi)
    refine Ret.bind_eq (rd_ok hi) (Ret.bind_eq (checkRepTimes_ok hm.1 hm.2) ?_)
    have := hle (i + 1)
    rw [htake i hi] at this
    have hp : plusWouldOverflow ((times.take i).map Int.toNat).sum times[i].toNat = false := by
      unfold plusWouldOverflow
      rw [decide_eq_false_iff_not]
      omega
    simp only [hp, Bool.false_eq_true, if_false]
    exact Ret.ok (htake i hi).symm
  · rintro r rfl
    simp

theorem timesLoop_abort (times : List Int) (h0 : ∀ t ∈ times, t ≤ (intMax : Int))
    (h : (∃ t ∈ times, t < 0) ∨ (times.map Int.toNat).sum > intMax) :
    forN times.length (fun i size => do
      let t ← rd times i
      checkRepTimes t
      if plusWouldOverflow size t.toNat then (.error .abort : C Nat)
      else .ok (size + t.toNat)) 0 = .error .abort := by
  -- first bad position
  let bad : Nat → Prop := fun i => ∃ t, times[i]? = some t ∧
    (t < 0 ∨ ((times.take (i + 1)).map Int.toNat).sum > intMax)
  have htake : ∀ i (hi : i < times.length), ((times.take (i + 1)).map Int.toNat).sum =
      ((times.take i).map Int.toNat).sum + times[i].toNat := by
    intro i hi
    rw [List.take_add_one, List.getElem?_eq_getElem hi, List.map_append, List.sum_append]
    rfl
  have hex : ∃ i, bad i := by
    rcases h with ⟨t, ht, hneg⟩ | h
    · obtain ⟨i, hi, rfl⟩ := List.getElem_of_mem ht
      exact ⟨i, _, List.getElem?_eq_getElem hi, Or.inl hneg⟩
    · have hne : times ≠ [] := by rintro rfl; simp at h
      have hpos : 0 < times.length := List.length_pos_iff.2 hne
      refine ⟨times.length - 1, _, List.getElem?_eq_getElem (by omega), Or.inr ?_⟩
      rw [show times.length - 1 + 1 = times.length by omega, List.take_length]
      exact h
  classical
  obtain ⟨t, ht, hbad⟩ := Nat.find_spec hex
  have hk := (List.getElem?_eq_some_iff.1 ht).1
  have hmin := fun i => Nat.find_min (H := hex) (m := i)
  refine forN_err (k := Nat.find hex)
    (fun i size => size = ((times.take i).map Int.toNat).sum) hk (by simp) ?_ ?_
  · rintro i size hi rfl
    have hi' : i < times.length := by omega
    have hg := hmin i hi
    have hg1 : ¬ (times[i] < 0 ∨ ((times.take (i + 1)).map Int.toNat).sum > intMax) :=
      fun hc => hg ⟨_, List.getElem?_eq_getElem hi', hc⟩
    have hm := h0 _ (List.getElem_mem hi')
    refine Ret.bind_eq (rd_ok hi') (Ret.bind_eq (checkRepTimes_ok (by omega) hm) ?_)
    have ht := htake i hi'
    have hp : plusWouldOverflow ((times.take i).map Int.toNat).sum times[i].toNat = false := by
      unfold plusWouldOverflow
      rw [decide_eq_false_iff_not]
      omega
    simp only [hp, Bool.false_eq_true, if_false]
    exact Ret.ok (htake i hi').symm
  · rintro size rfl
    refine bind_eq_of (rd_of_getElem? ht) ?_
    by_cases hneg : t < 0
    · exact bind_err_of (checkRepTimes_neg hneg)
    · have hm := h0 _ (List.mem_of_getElem? ht)
      refine bind_eq_of (checkRepTimes_ok (by omega) hm) ?_
      rcases hbad with hc | hc
      · exact absurd hc hneg
      · rw [htake _ hk] at hc
        have e : times[Nat.find hex] = t := by
          rw [List.getElem?_eq_getElem hk] at ht; exact Option.some.inj ht
        have hp : plusWouldOverflow ((times.take (Nat.find hex)).map Int.toNat).sum t.toNat = true := by
          unfold plusWouldOverflow
          rw [decide_eq_true_iff]
          rw [e] at hc
          omega
        simp only [hp, if_true]

theorem vecRepEachImpl_ok (x : List α) (times : List Int) (hl : times.length = x.length)
    (h0 : ∀ t ∈ times, 0 ≤ t ∧ t ≤ (intMax : Int)) (h : (times.map Int.toNat).sum ≤ intMax) :
    vecRepEachImpl x times =
      .ok (List.zipWith (fun (t : Int) a => List.replicate t.toNat a) times x).flatten := by
  suffices hs : Ret (vecRepEachImpl x times) (fun r =>
      r = (List.zipWith (fun (t : Int) a => List.replicate t.toNat a) times x).flatten) by
    obtain ⟨r, hr, rfl⟩ := hs; exact hr
  unfold vecRepEachImpl
  simp only [hl, ne_eq, not_true_eq_false, if_false]
  rw [← hl]
  refine Ret.bind_eq (timesLoop_ok times h0 h) ?_
  let f : Nat → Nat := fun j => ((times[j - 1]?).getD 0).toNat
  have hf : ∀ (i : Nat) t, times[i]? = some t → f (i + 1) = t.toNat := by
    intro i t ht; simp [f, ht]
  refine Ret.bind (eachLoop_ok f (eachSub_length f times hf) _ ?_) ?_
  · intro i s h1 h2
    have hi : i - 1 < times.length := by omega
    refine bind_eq_of (rd_ok hi) ?_
    simp [f, hi]
  · rintro ⟨v, k⟩ hv
    refine Ret.bind_eq hv ?_
    rw [hl]
    exact Ret.of_eq (slice_eachSub x f times hl hf) rfl

theorem vecRepEachImpl_abort (x : List α) (times : List Int) (h0 : ∀ t ∈ times, t ≤ (intMax : Int))
    (h : times.length ≠ x.length ∨ (∃ t ∈ times, t < 0) ∨ (times.map Int.toNat).sum > intMax) :
    vecRepEachImpl x times = .error .abort := by
  unfold vecRepEachImpl
  by_cases hl : x.length = times.length
  · simp only [hl, ne_eq, not_true_eq_false, if_false]
    exact bind_err_of (timesLoop_abort times h0 (by
      rcases h with h | h
      · exact absurd hl.symm h
      · exact h))
  · simp only [ne_eq, hl, not_false_eq_true, if_true]

end Vctrs
