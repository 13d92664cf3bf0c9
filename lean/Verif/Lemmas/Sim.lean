import Verif.Lemmas.Subscript
import Verif.Model.SubscriptNames

/-!
# Two programs in step

`Sim c d R`: the programs `c` and `d` both return, with results related by `R`, or both fail with the same error.
-/

namespace Vctrs

open Spec

/-- Both return related results or both fail with the same error. -/
def Sim {α β : Type} (c : C α) (d : C β) (R : α → β → Prop) : Prop :=
  (∃ a b, c = .ok a ∧ d = .ok b ∧ R a b) ∨ ∃ e, c = .error e ∧ d = .error e

theorem Sim.ok {α β : Type} {a : α} {b : β} {R : α → β → Prop} (h : R a b) : Sim (.ok a) (.ok b) R :=
  .inl ⟨a, b, rfl, rfl, h⟩

theorem Sim.err {α β : Type} {e : Err} {R : α → β → Prop} : Sim (α := α) (β := β) (.error e) (.error e) R :=
  .inr ⟨e, rfl, rfl⟩

theorem Sim.same {α : Type} (c : C α) : Sim c c (fun a b => a = b) := by
  cases c with
  | ok a => exact Sim.ok rfl
  | error e => exact Sim.err

theorem Sim.mono {α β : Type} {c : C α} {d : C β} {R S : α → β → Prop} (h : Sim c d R)
    (hi : ∀ a b, c = .ok a → R a b → S a b) : Sim c d S := by
  rcases h with ⟨a, b, h1, h2, h3⟩ | h
  · exact .inl ⟨a, b, h1, h2, hi a b h1 h3⟩
  · exact .inr h

theorem Sim.bind {α β γ δ : Type} {c : C α} {d : C β} {R : α → β → Prop} {f : α → C γ} {g : β → C δ}
    {S : γ → δ → Prop} (h : Sim c d R) (hf : ∀ a b, R a b → Sim (f a) (g b) S) : Sim (c >>= f) (d >>= g) S := by
  rcases h with ⟨a, b, rfl, rfl, h3⟩ | ⟨e, rfl, rfl⟩
  · exact hf a b h3
  · exact Sim.err

theorem Sim.forN {σ τ : Type} {n : Nat} {f : Nat → σ → C σ} {g : Nat → τ → C τ} {s : σ} {t : τ}
    (I : Nat → σ → τ → Prop) (h0 : I 0 s t)
    (hs : ∀ k s t, k < n → I k s t → Sim (f k s) (g k t) (I (k + 1))) : Sim (forN n f s) (forN n g t) (I n) := by
  have key : ∀ (rem i : Nat) s t, i + rem = n → I i s t → Sim (forFrom f i rem s) (forFrom g i rem t) (I n) := by
    intro rem
    induction rem with
    | zero =>
      intro i s t hi h
      obtain rfl : i = n := by omega
      exact Sim.ok h
    | succ r ih =>
      intro i s t hi h
      exact Sim.bind (hs i s t (by omega) h) (fun a b hab => ih (i + 1) a b (by omega) hab)
  exact key n 0 s t (by omega) h0

/-- What is kept of the names `nms` where `p` keeps the locations `l`. -/
def keepNms (p : Int → Bool) (l : List Int) (nms : List Name) : List Name :=
  ((l.zip nms).filter (fun q => p q.1)).map Prod.snd

theorem zip_take_succ {l : List Int} {nms : List Name} {k : Nat} (hk : k < l.length) (hl : nms.length = l.length)
    (p : Int → Bool) :
    ((l.take (k + 1)).zip (nms.take (k + 1))).filter (fun q => p q.1) =
      ((l.take k).zip (nms.take k)).filter (fun q => p q.1) ++ (if p l[k] then [(l[k], nms[k])] else []) := by
  have e1 : l.take (k + 1) = l.take k ++ [l[k]] := by simp
  have e2 : nms.take (k + 1) = nms.take k ++ [nms[k]] := by simp
  rw [e1, e2, List.zip_append (by simp; omega), List.filter_append]
  congr 1
  by_cases h : p l[k] = true <;> simp [h]

theorem zip_filter_fst {l : List Int} {nms : List Name} (hl : nms.length = l.length) (p : Int → Bool) :
    ((l.zip nms).filter (fun q => p q.1)).map Prod.fst = l.filter p := by
  have : ((l.zip nms).map Prod.fst).filter p = ((l.zip nms).filter (fun q => p q.1)).map Prod.fst := by
    rw [List.filter_map]; rfl
  rw [← this, List.map_fst_zip (by omega)]

theorem keepNms_length {l : List Int} {nms : List Name} (hl : nms.length = l.length) (p : Int → Bool) :
    (keepNms p l nms).length = (l.filter p).length := by
  rw [← zip_filter_fst hl p, keepNms, List.length_map, List.length_map]

theorem keepNms_keepNms {l : List Int} {nms : List Name} (hl : nms.length = l.length) (p q : Int → Bool) :
    keepNms q (l.filter p) (keepNms p l nms) = keepNms (fun v => p v && q v) l nms := by
  have h : (l.filter p).zip (keepNms p l nms) = (l.zip nms).filter (fun r => p r.1) := by
    rw [← zip_filter_fst hl p, keepNms]
    exact (List.zip_of_prod rfl rfl).symm
  unfold keepNms
  rw [show ((l.zip nms).filter (fun q => p q.1)).map Prod.snd = keepNms p l nms from rfl, h, List.filter_filter]
  congr 2
  funext r
  rw [Bool.and_comm]

theorem keepNms_all {l : List Int} {nms : List Name} (hl : nms.length = l.length) {p : Int → Bool}
    (h : ∀ v ∈ l, p v = true) : keepNms p l nms = nms := by
  unfold keepNms
  rw [List.filter_eq_self.2 (fun q hq => h _ (List.of_mem_zip hq).1), List.map_snd_zip (by omega)]

theorem keepNms_congr {l : List Int} {nms : List Name} {p q : Int → Bool} (h : ∀ v ∈ l, p v = q v) :
    keepNms p l nms = keepNms q l nms := by
  unfold keepNms
  congr 1
  exact List.filter_congr (fun r hr => h _ (List.of_mem_zip hr).1)

/-- The states of the two filter loops, with and without names. -/
def FiltInv (p : Int → Bool) (l : List Int) (nms : List Name) (N k : Nat) (out : List (Option Int)) (j : Nat)
    (outN : List (Option Name)) : Prop :=
  j = ((l.take k).filter p).length ∧ Wrote ((l.take k).filter p) N out ∧
    Wrote (keepNms p (l.take k) (nms.take k)) N outN

theorem FiltInv.start (p : Int → Bool) (l : List Int) (nms : List Name) (N : Nat) :
    FiltInv p l nms N 0 (alloc Int N) 0 (alloc Name N) :=
  ⟨by simp, by simpa using Wrote.start N, by simpa [keepNms] using Wrote.start N⟩

theorem wr_full {α : Type} {l : List α} {i : Nat} {v : α} (h : ¬ i < l.length) : wr l i v = .error .ub := by
  unfold wr
  rw [if_neg h]

theorem FiltInv.skip {p : Int → Bool} {l : List Int} {nms : List Name} {N k : Nat} {out : List (Option Int)} {j : Nat}
    {outN : List (Option Name)} (hl : nms.length = l.length) (hk : k < l.length) (hp : p l[k] = false)
    (h : FiltInv p l nms N k out j outN) : FiltInv p l nms N (k + 1) out j outN := by
  obtain ⟨h1, h2, h3⟩ := h
  have e := filter_take_succ p hk
  rw [hp] at e
  simp only [Bool.false_eq_true, if_false, List.append_nil] at e
  have e2 : keepNms p (l.take (k + 1)) (nms.take (k + 1)) = keepNms p (l.take k) (nms.take k) := by
    unfold keepNms
    rw [zip_take_succ hk hl, hp]; simp
  exact ⟨by rw [e]; exact h1, by rw [e]; exact h2, by rw [e2]; exact h3⟩

theorem FiltInv.keep {p : Int → Bool} {l : List Int} {nms : List Name} {N k : Nat} {out : List (Option Int)} {j : Nat}
    {outN : List (Option Name)} (hl : nms.length = l.length) (hk : k < l.length) (hp : p l[k] = true)
    (h : FiltInv p l nms N k out j outN) :
    Sim (wr out j (some l[k])) (do
      let o ← wr out j (some l[k])
      let outN ← (do
        let nm ← rd nms k
        wr outN j (some nm))
      .ok (o, outN)) (fun o r => r.1 = o ∧ FiltInv p l nms N (k + 1) o (j + 1) r.2) := by
  obtain ⟨h1, h2, h3⟩ := h
  by_cases hj : j < N
  · have e := filter_take_succ p hk
    rw [hp] at e
    simp only [if_true] at e
    have e2 : keepNms p (l.take (k + 1)) (nms.take (k + 1)) = keepNms p (l.take k) (nms.take k) ++ [nms[k]] := by
      unfold keepNms
      rw [zip_take_succ hk hl, hp]; simp
    obtain ⟨w1, W1⟩ := h2.step l[k] h1 hj
    obtain ⟨w2, W2⟩ := h3.step nms[k] (k := j) (by rw [keepNms_length (by simp; omega)]; exact h1) hj
    rw [w1]
    simp only [ok_bind]
    rw [rd_ok (by omega : k < nms.length)]
    simp only [ok_bind]
    rw [w2]
    refine Sim.ok ⟨rfl, ?_, ?_, ?_⟩
    · rw [e, h1]; simp
    · rw [e]; exact W1
    · rw [e2]; exact W2
  · rw [wr_full (by rw [h2.len]; exact hj)]
    exact Sim.err

theorem FiltInv.finish {p : Int → Bool} {l : List Int} {nms : List Name} {N : Nat} {out : List (Option Int)} {j : Nat}
    {outN : List (Option Name)} (hl : nms.length = l.length) (h : FiltInv p l nms N l.length out j outN)
    (hN : (l.filter p).length = N) : initd out = .ok (l.filter p) ∧ initd outN = .ok (keepNms p l nms) := by
  obtain ⟨h1, h2, h3⟩ := h
  rw [List.take_length] at h2 h3
  rw [List.take_of_length_le (by omega)] at h3
  exact ⟨h2.done hN, h3.done (by rw [keepNms_length hl]; exact hN)⟩

theorem intFilter_sim {l : List Int} {nms : List Name} {value : Int} {k : Nat} (hl : nms.length = l.length)
    (hk : (l.filter (fun v => decide (v ≠ value))).length + k = l.length) :
    intFilter l (some nms) k value =
      .ok (l.filter (fun v => decide (v ≠ value)), some (keepNms (fun v => decide (v ≠ value)) l nms)) := by
  suffices h : Ret (intFilter l (some nms) k value) (fun r => r =
      (l.filter (fun v => decide (v ≠ value)), some (keepNms (fun v => decide (v ≠ value)) l nms))) by
    obtain ⟨r, hr, rfl⟩ := h; exact hr
  unfold intFilter
  rw [if_neg (by omega)]
  simp only
  rw [show l.length - k = (l.filter (fun v => decide (v ≠ value))).length by omega]
  refine Ret.bind (Ret.forN (fun i (s : List (Option Int) × List (Option Name) × Nat) =>
    FiltInv (fun v => decide (v ≠ value)) l nms (l.filter (fun v => decide (v ≠ value))).length i s.1 s.2.2 s.2.1)
    (FiltInv.start _ _ _ _) ?_) ?_
  · rintro i ⟨out, outN, j⟩ hi h
    simp only at h ⊢
    refine Ret.bind_eq (rd_ok hi) ?_
    by_cases hv : l[i] = value
    · rw [if_neg (by simpa using hv)]
      exact Ret.ok (FiltInv.skip hl hi (by simpa using hv) h)
    · rw [if_pos hv]
      have hj : j < (l.filter (fun v => decide (v ≠ value))).length := by
        rw [h.1]; exact filter_take_lt hi (by simpa using hv)
      rcases FiltInv.keep hl hi (by simpa using hv) h with ⟨a, b, h1, h2, h3, h4⟩ | ⟨e, h1, h2⟩
      · rw [h1] at h2 ⊢
        simp only [ok_bind] at h2 ⊢
        rw [rd_ok (by omega : i < nms.length)] at h2 ⊢
        simp only [ok_bind] at h2 ⊢
        cases hw : wr outN j (some nms[i]) with
        | error e => rw [hw] at h2; cases h2
        | ok o =>
          rw [hw] at h2
          cases h2
          exact Ret.ok h4
      · rw [wr_ok (by rw [h.2.1.len]; exact hj)] at h1
        cases h1
  · rintro ⟨out, outN, j⟩ h
    simp only at h ⊢
    obtain ⟨h1, h2⟩ := h.finish hl rfl
    refine Ret.bind_eq h1 (Ret.bind_eq h2 (Ret.ok rfl))

theorem intFilterOob_sim {l : List Int} {nms : List Name} {n k : Nat} (hl : nms.length = l.length)
    (hk : (l.filter (fun v => !isOob n v)).length + k = l.length) :
    Sim (intFilterOob l n k) (intFilterOobN l (some nms) n k)
      (fun out r => r = (out, some (keepNms (fun v => !isOob n v) l nms))) := by
  unfold intFilterOob intFilterOobN
  rw [if_neg (by omega), if_neg (by omega)]
  simp only
  rw [show l.length - k = (l.filter (fun v => !isOob n v)).length by omega]
  refine Sim.bind (Sim.forN (fun i (s : List (Option Int) × Nat) (t : List (Option Int) × List (Option Name) × Nat) =>
    t.1 = s.1 ∧ t.2.2 = s.2 ∧
    FiltInv (fun v => !isOob n v) l nms (l.filter (fun v => !isOob n v)).length i s.1 s.2 t.2.1)
    ⟨rfl, rfl, FiltInv.start _ _ _ _⟩ ?_) ?_
  · rintro i ⟨out, j⟩ ⟨out', outN, j'⟩ hi ⟨h1, h2, h⟩
    simp only at h1 h2 h ⊢
    subst h1 h2
    rw [rd_ok hi]
    simp only [ok_bind]
    by_cases hna : l[i] = naInt
    · rw [show cAbs l[i] = .error .ub from if_pos hna]
      exact Sim.err
    rw [show cAbs l[i] = .ok (l[i].natAbs : Int) from if_neg hna]
    simp only [ok_bind]
    by_cases hv : l[i].natAbs ≤ n
    · have hp : (!isOob n l[i]) = true := by simp [isOob]; exact Or.inr hv
      rw [if_pos (Or.inl (by omega)), if_pos (Or.inl (by omega))]
      rcases FiltInv.keep hl hi hp h with ⟨a, b, h1, h2, h3, h4⟩ | ⟨e, h1, h2⟩
      · rw [h1] at h2 ⊢
        simp only [ok_bind] at h2 ⊢
        rw [rd_ok (by omega : i < nms.length)] at h2 ⊢
        simp only [ok_bind] at h2 ⊢
        cases hw : wr outN j' (some nms[i]) with
        | error e => rw [hw] at h2; cases h2
        | ok o =>
          rw [hw] at h2
          cases h2
          exact Sim.ok ⟨rfl, rfl, h4⟩
      · rw [h1]
        exact Sim.err
    · have hp : (!isOob n l[i]) = false := by simp [isOob, hna]; omega
      have hc : ¬ ((l[i].natAbs : Int) ≤ (n : Int) ∨ l[i] = naInt) := by
        rintro (h | h)
        · omega
        · exact hna h
      rw [if_neg hc, if_neg hc]
      exact Sim.ok ⟨rfl, rfl, FiltInv.skip hl hi hp h⟩
  · rintro ⟨out, j⟩ ⟨out', outN, j'⟩ ⟨h1, h2, h⟩
    simp only at h1 h2 h ⊢
    subst h1 h2
    obtain ⟨h3, h4⟩ := h.finish hl rfl
    rw [h3, h4]
    exact Sim.ok rfl

theorem intFilter_stepN {l : List Int} {nms : List Name} (hl : nms.length = l.length) {value : Int} {b : Bool} :
    (if l.countP (fun e => decide (e = value) && b) > 0 then
        intFilter l (some nms) (l.countP (fun e => decide (e = value) && b)) value
      else .ok (l, some nms) : C (List Int × Option (List Name))) =
    .ok (l.filter (fun e => !(decide (e = value) && b)),
      some (keepNms (fun e => !(decide (e = value) && b)) l nms)) := by
  by_cases h : l.countP (fun e => decide (e = value) && b) > 0
  · rw [if_pos h]
    have hb : b = true := by
      by_contra hb
      have : b = false := by simpa using hb
      subst this; simp at h
    subst hb
    simp only [Bool.and_true] at h ⊢
    rw [intFilter_sim hl (filter_add_countP (fun e => by simp))]
    have e : (fun e => !decide (e = value)) = fun v => decide (v ≠ value) := by
      funext v; simp
    rw [e]
  · rw [if_neg h, filter_countP_zero h, keepNms_all hl]
    intro v hv
    have h0 : l.countP (fun e => decide (e = value) && b) = 0 := by omega
    rw [Bool.not_eq_true']
    exact Bool.not_eq_true _ ▸ List.countP_eq_zero.1 h0 v hv

theorem keepLoc_keepNms {n : Nat} {opts : LocOpts} {l : List Int} {nms : List Name} (hl : nms.length = l.length)
    {p q : Int → Bool} (hp : p = fun e => !(decide (e = naInt) && decide (opts.missing = .remove)))
    (hq : q = fun e => !(decide (e = 0) && decide (opts.zero = .remove))) {r : Int → Bool}
    (hr : ∀ v ∈ l, r v = !(isOob n v && decide (opts.oob = .remove))) :
    keepNms r ((l.filter p).filter q) (keepNms q (l.filter p) (keepNms p l nms)) = keepNms (keepLoc n opts) l nms := by
  rw [keepNms_keepNms (by rw [keepNms_length hl]), keepNms_keepNms hl]
  refine keepNms_congr (fun v hv => ?_)
  rw [hp, hq, hr v hv]
  unfold keepLoc
  simp only [Bool.decide_and]
  cases decide (v = naInt) && decide (opts.missing = .remove) <;>
    cases decide (v = 0) && decide (opts.zero = .remove) <;>
    cases isOob n v && decide (opts.oob = .remove) <;> rfl

/-- Names do not change the locations of `int_as_location()` and follow them. -/
theorem intAsLocationN_sim {l : List Int} {nms : List Name} (hl : nms.length = l.length) {n : Nat} {opts : LocOpts}
    (h2 : ∀ e ∈ l, ¬ ElemInv opts e) :
    Sim (intAsLocation l n opts) (intAsLocationN l (some nms) n opts)
      (fun out r => r = (out, some (keepNms (keepLoc n opts) l nms))) := by
  classical
  by_cases herr : ∃ e ∈ l, ElemErr n opts e
  · rw [intAsLocation_err herr h2]
    unfold intAsLocationN
    rw [intScan_err herr h2]
    exact Sim.err
  have h1 : ∀ e ∈ l, ¬ ElemErr n opts e := fun e he h => herr ⟨e, he, h⟩
  rw [intAsLocation_tail h1 h2]
  unfold intAsLocationN
  rw [intScan_ok h1 h2]
  simp only [ok_bind, Bool.false_eq_true, if_false, Bool.decide_and]
  rw [intFilter_stepN hl]
  simp only [ok_bind]
  have hz : l.countP (fun e => decide (e = 0) && decide (opts.zero = .remove)) =
      (l.filter (fun e => !(decide (e = naInt) && decide (opts.missing = .remove)))).countP
        (fun e => decide (e = 0) && decide (opts.zero = .remove)) := by
    rw [List.countP_filter]
    refine List.countP_congr (fun e _ => ?_)
    by_cases h : e = 0
    · subst h; simp [naInt]
    · simp [h]
  rw [hz, intFilter_stepN (by rw [keepNms_length hl])]
  simp only [ok_bind]
  generalize hp : (fun (e : Int) => !(decide (e = naInt) && decide (opts.missing = .remove))) = p
  generalize hq : (fun (e : Int) => !(decide (e = 0) && decide (opts.zero = .remove))) = q
  have hlen : (keepNms q (l.filter p) (keepNms p l nms)).length = ((l.filter p).filter q).length := by
    rw [keepNms_length (by rw [keepNms_length hl])]
  have hcnt : ((l.filter p).filter q).countP (isOob n) = l.countP (isOob n) := by
    rw [← hp, ← hq, List.countP_filter, List.countP_filter]
    refine List.countP_congr (fun e _ => ?_)
    by_cases hna : e = naInt
    · simp [hna, isOob]
    · by_cases h0 : e = 0
      · subst h0; simp [isOob]
      · simp [hna, h0]
  by_cases hpos : l.countP (isOob n) > 0
  · rw [if_pos hpos, if_pos hpos]
    cases ho : opts.oob with
    | error => exact Sim.err
    | extend =>
      refine Sim.bind (Sim.same _) (fun _ _ _ => Sim.ok ?_)
      rw [← keepLoc_keepNms (n := n) (opts := opts) hl hp.symm hq.symm (r := fun _ => true) (by simp [ho]),
        keepNms_all hlen (by simp)]
    | remove =>
      refine Sim.mono (intFilterOob_sim hlen ?_) (fun out r _ h => ?_)
      · rw [← hcnt]
        exact filter_add_countP (fun e => rfl)
      · rw [h, keepLoc_keepNms (n := n) (opts := opts) hl hp.symm hq.symm (by simp [ho])]
  · rw [if_neg hpos, if_neg hpos]
    refine Sim.ok ?_
    have h0 : l.countP (isOob n) = 0 := by omega
    rw [← keepLoc_keepNms (n := n) (opts := opts) hl hp.symm hq.symm (r := fun _ => true)
      (fun v hv => by simp [List.countP_eq_zero.1 h0 v hv]), keepNms_all hlen (by simp)]

end Vctrs
