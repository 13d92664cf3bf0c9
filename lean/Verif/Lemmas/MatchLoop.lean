import Verif.Lemmas.MatchRounds
import Verif.Lemmas.MatchLocs

/-!
# The expansion of the compact matches of all needles
-/

namespace Vctrs

open Spec

theorem forFrom_add {S : Type} (f : Nat → S → C S) : ∀ (a b i : Nat) (s : S),
    forFrom f i (a + b) s = (forFrom f i a s >>= fun s => forFrom f (i + a) b s) := by
  intro a
  induction a with
  | zero => intro b i s; rw [Nat.zero_add]; rfl
  | succ a ih =>
    intro b i s
    rw [show a + 1 + b = (a + b) + 1 by omega]
    show (f i s >>= fun s => forFrom f (i + 1) (a + b) s) = ((f i s >>= fun s => forFrom f (i + 1) a s) >>= _)
    rw [bind_assoc]
    congr 1
    funext s'
    rw [ih, show i + 1 + a = i + (a + 1) by omega]

theorem forN_add {S : Type} (f : Nat → S → C S) (a b : Nat) (s : S) :
    forN (a + b) f s = (forN a f s >>= fun s => forFrom f a b s) := by
  unfold forN
  rw [forFrom_add, Nat.zero_add]

/-- Where the compact matches of a needle start. -/
def needleOff {α : Type} (Es : Nat → List α) (i : Nat) : Nat := ((List.range i).flatMap Es).length

theorem needleOff_succ {α : Type} (Es : Nat → List α) (i : Nat) :
    needleOff Es (i + 1) = needleOff Es i + (Es i).length := by
  unfold needleOff
  rw [List.range_succ, List.flatMap_append, List.length_append, List.flatMap_singleton]

theorem needleOff_mono {α : Type} (Es : Nat → List α) {i j : Nat} (h : i ≤ j) :
    needleOff Es i ≤ needleOff Es j := by
  induction h with
  | refl => exact Nat.le_refl _
  | step _ ih => rw [needleOff_succ]; omega

theorem flatMap_get {α : Type} {Es : Nat → List α} {n i j : Nat} {x : α} (hi : i < n)
    (hx : (Es i)[j]? = some x) : ((List.range n).flatMap Es)[needleOff Es i + j]? = some x := by
  have hj : j < (Es i).length := (List.getElem?_eq_some_iff.1 hx).1
  obtain ⟨d, rfl⟩ : ∃ d, n = (i + 1) + d := ⟨n - (i + 1), by omega⟩
  rw [List.range_add, List.flatMap_append, List.getElem?_append_left, List.range_succ,
    List.flatMap_append, List.getElem?_append_right, List.flatMap_singleton]
  · unfold needleOff
    rw [Nat.add_sub_cancel_left]
    exact hx
  · unfold needleOff; omega
  · show needleOff Es i + j < needleOff Es (i + 1)
    rw [needleOff_succ]
    omega

theorem needlePairs_succ (inc : MIncomplete) (nm : MUnmatched) (outs : Nat → Outcome) (i : Nat) :
    needlePairs inc nm outs (i + 1) = needlePairs inc nm outs i ++ pairsAt inc nm i (outs i) := by
  unfold needlePairs
  rw [List.range_succ, List.flatMap_append, List.flatMap_singleton]
  rfl

theorem allFound_succ (outs : Nat → Outcome) (i : Nat) :
    allFound outs (i + 1) = allFound outs i ++ (outs i).found := by
  unfold allFound
  rw [List.range_succ, List.flatMap_append, List.flatMap_singleton]

/-- Some needle of the first `i` has several matches. -/
def severalB (outs : Nat → Outcome) (i : Nat) : Bool :=
  (List.range i).any (fun j => decide (1 < (outs j).found.length))

theorem severalB_succ (outs : Nat → Outcome) (i : Nat) :
    severalB outs (i + 1) = (severalB outs i || decide (1 < (outs i).found.length)) := by
  unfold severalB
  rw [List.range_succ, List.any_append]
  simp

theorem severalB_iff {outs : Nat → Outcome} {n : Nat} : severalB outs n = true ↔ SeveralMatches outs n := by
  unfold severalB SeveralMatches
  simp

/-- The loop over the compact matches, needle by needle. -/
theorem expandLoop_ok {e : XEnv} {cap m N n : Nat} {s : XState} {g : Int → Nat}
    {Es : Nat → List (Int × Int)} {outs : Nat → Outcome}
    (hskip : e.skip = true → e.multiple = .any)
    (hinc : ∀ i, i < n → e.incomplete ≠ .compare ∧ e.incomplete ≠ .exact ∨ outs i ≠ .incomplete)
    (h : XInv e cap m [] [] false s)
    (hp : s.previous = naInt) (hov : s.overall = naInt)
    (ho : ∀ k : Int, 0 ≤ k → k < m → rdI e.oHaystack k = .ok ((g k : Int) + 1) ∧ g k < m)
    (hE : ∀ i, i < n → OutIs e.multiple m g (Es i) (outs i))
    (hread : ∀ i, i < n → ∀ (j : Nat) (x : Int × Int) (s : XState), (Es i)[j]? = some x →
      expandRound e N (needleOff Es i + j) s = roundBody e N (needleOff Es i + j) i x s ∧
        (0 ≤ x.1 → expandFiltered e x.1 i = .ok true))
    (hend : e.skip = false → ∀ i, i < n → ∀ j, j < (Es i).length →
      (if needleOff Es i + j = N - 1 then .ok true
      else do
        let k ← rd e.oLocs (needleOff Es i + j + 1)
        let next ← rdI e.locs (k - 1)
        .ok (decide ((i : Int) ≠ next)) : C Bool) = .ok (decide (j + 1 = (Es i).length)))
    (hc : ∀ i, i < n → (needlePairs e.incomplete e.noMatch outs i).length +
      max 1 (outs i).found.length ≤ cap) :
    ∀ i, i ≤ n → RetOr (forN (needleOff Es i) (expandRound e N) s) (fun s' =>
        XInv e cap m (needlePairs e.incomplete e.noMatch outs i) (allFound outs i)
          (checksNeedles e.multiple && severalB outs i) s' ∧
        PrevOk i s'.previous ∧ s'.overall = naInt ∧
        ∀ j, j < i → ¬ (e.incomplete = .error ∧ outs j = .incomplete) ∧
          ¬ (e.noMatch = .error ∧ outs j = .unmatched))
      (Fails (∃ j, j < i ∧ NeedleFails e (allFound outs j) (outs j))) := by
  intro i
  induction i with
  | zero =>
    intro _
    refine RetOr.ok ⟨?_, .inl hp, hov, fun j hj => by omega⟩
    simpa [needlePairs, allFound, severalB] using h
  | succ i ih =>
    intro hi
    rw [needleOff_succ, forN_add]
    refine RetOr.bind ((ih (by omega)).weaken ?_) ?_
    · rintro ⟨j, h1, h2⟩
      exact ⟨j, by omega, h2⟩
    · rintro s' ⟨h1, h2, h3, h4⟩
      refine ((needle_ok hskip (hinc i hi) h1 h2 h3 ho (hE i hi) (hread i hi)
        (fun hs => hend hs i hi) (hc i hi)).weaken ?_).mono ?_
      · exact fun h => ⟨i, by omega, h⟩
      · rintro s'' ⟨a, b, c, d, f⟩
        refine ⟨?_, b, c, ?_⟩
        · rw [needlePairs_succ, allFound_succ, severalB_succ]
          rw [Bool.and_or_distrib_left]
          exact a
        · intro j hj
          rcases Nat.lt_or_ge j i with h' | h'
          · exact h4 j h'
          · have : j = i := by omega
            subst this
            exact ⟨d, f⟩

/-! ## Reading the compact matches -/

theorem byNeedle_get {a : AState} {n i j : Nat} {x : Int × Int} (hi : i < n)
    (hx : (ents a i)[j]? = some x) : (byNeedle a n)[needleOff (ents a) i + j]? = some (i, x) := by
  unfold byNeedle
  have := flatMap_get (Es := fun i => (ents a i).map (fun x => (i, x))) (n := n) (j := j)
    (x := (i, x)) hi (by rw [List.getElem?_map, hx]; rfl)
  have e : needleOff (fun i => (ents a i).map (fun x => (i, x))) i = needleOff (ents a) i := by
    unfold needleOff
    rw [List.length_flatMap, List.length_flatMap]
    simp
  rw [e] at this
  exact this

theorem byNeedle_length (a : AState) (n : Nat) : (byNeedle a n).length = needleOff (ents a) n := by
  unfold byNeedle needleOff
  rw [List.length_flatMap, List.length_flatMap]
  simp

/-- The arrays of the compact matches as the expansion reads them. -/
structure XReads (e : XEnv) (a : AState) (n : Nat) : Prop where
  first : e.first = (recorded a n).map (fun x => x.2.1)
  size : e.skip = false → e.size = (recorded a n).map (fun x => x.2.2)
  locs : e.skip = false → e.locs = (recorded a n).map (fun x => (x.1 : Int))
  oLocs : e.skip = false → ∃ p : List Nat, e.oLocs = p.map (fun (k : Nat) => (k : Int) + 1) ∧
    p.map (fun k => (recorded a n)[k]?) = (byNeedle a n).map some
  skip : e.skip = true → a.ex = [] ∧ ∀ i, i < n → (a.pr i).2 = 1
  filter : e.hasFilter = true → ∀ i, i < n → ents a i = [a.pr i] ∧
    (0 ≤ (a.pr i).1 → e.filterLoc[i]? = some (some (a.pr i).1))

theorem XReads.at {e : XEnv} {a : AState} {n : Nat} (h : XReads e a n) (hs : e.skip = false)
    {t i : Nat} {x : Int × Int} (ht : (byNeedle a n)[t]? = some (i, x)) :
    ∃ k : Nat, rd e.oLocs t = .ok ((k : Int) + 1) ∧ rdI e.first (k : Int) = .ok x.1 ∧
      rdI e.size (k : Int) = .ok x.2 ∧ rdI e.locs (k : Int) = .ok (i : Int) := by
  obtain ⟨p, h1, h2⟩ := h.oLocs hs
  have h3 := congrArg (fun l => l[t]?) h2
  simp only [List.getElem?_map, ht, Option.map_some] at h3
  obtain ⟨k, hk, hk'⟩ := Option.map_eq_some_iff.1 h3
  refine ⟨k, rd_of_getElem? ?_, rdI_get ?_, rdI_get ?_, rdI_get ?_⟩
  · rw [h1, List.getElem?_map, hk]
    rfl
  · rw [h.first, List.getElem?_map, hk']
    rfl
  · rw [h.size hs, List.getElem?_map, hk']
    rfl
  · rw [h.locs hs, List.getElem?_map, hk']
    rfl

theorem needleOff_one {a : AState} (h : a.ex = []) (i : Nat) : needleOff (ents a) i = i := by
  unfold needleOff
  rw [List.length_flatMap]
  have : (List.range i).map (fun j => (ents a j).length) = (List.range i).map (fun _ => 1) := by
    apply List.map_congr_left
    intro j _
    unfold ents
    rw [h]
    rfl
  rw [this]
  simp

theorem XReads.round {e : XEnv} {a : AState} {n : Nat} (h : XReads e a n) {i j N : Nat}
    {x : Int × Int} {s : XState} (hi : i < n) (hx : (ents a i)[j]? = some x) :
    expandRound e N (needleOff (ents a) i + j) s =
      roundBody e N (needleOff (ents a) i + j) i x s ∧
        (0 ≤ x.1 → expandFiltered e x.1 i = .ok true) := by
  constructor
  · unfold expandRound roundBody
    cases hs : e.skip with
    | false =>
      obtain ⟨k, h1, h2, h3, h4⟩ := h.at hs (byNeedle_get hi hx)
      rw [if_neg (by simp), h1, ok_bind, ok_bind, nat_succ_pred, h2, ok_bind,
        if_neg (by simp), h3, ok_bind, if_neg (by simp), h4, ok_bind]
      rfl
    | true =>
      obtain ⟨s1, s2⟩ := h.skip hs
      have he : ents a i = [a.pr i] := by
        unfold ents
        rw [s1]
        rfl
      rw [he] at hx
      have hj : j = 0 := by
        have := (List.getElem?_eq_some_iff.1 hx).1
        simp only [List.length_cons, List.length_nil] at this
        omega
      subst hj
      simp only [List.getElem?_cons_zero, Option.some.injEq] at hx
      subst hx
      rw [needleOff_one s1, Nat.add_zero, if_pos rfl, ok_bind]
      have hf : rdI e.first (i : Int) = .ok (a.pr i).1 := by
        refine rdI_get ?_
        rw [h.first]
        unfold recorded
        rw [s1, List.append_nil, List.map_map, List.getElem?_map, List.getElem?_range hi]
        rfl
      rw [hf, ok_bind, if_pos rfl, ok_bind, if_pos rfl, ok_bind, s2 i hi]
      rfl
  · intro h0
    unfold expandFiltered
    cases hf : e.hasFilter with
    | false => rw [if_neg (by simp)]
    | true =>
      obtain ⟨f1, f2⟩ := h.filter hf i hi
      rw [f1] at hx
      have hj : j = 0 := by
        have := (List.getElem?_eq_some_iff.1 hx).1
        simp only [List.length_cons, List.length_nil] at this
        omega
      subst hj
      simp only [List.getElem?_cons_zero, Option.some.injEq] at hx
      subst hx
      rw [if_pos rfl, if_neg (by omega), Int.toNat_natCast, rdU_ok (f2 h0), ok_bind, if_pos rfl]

theorem XReads.atEnd {e : XEnv} {a : AState} {n : Nat} (h : XReads e a n) (hs : e.skip = false)
    {i j : Nat} (hi : i < n) (hj : j < (ents a i).length) :
    (if needleOff (ents a) i + j = needleOff (ents a) n - 1 then .ok true
      else do
        let k ← rd e.oLocs (needleOff (ents a) i + j + 1)
        let next ← rdI e.locs (k - 1)
        .ok (decide ((i : Int) ≠ next)) : C Bool) = .ok (decide (j + 1 = (ents a i).length)) := by
  have hsucc := needleOff_succ (ents a) i
  by_cases ht : needleOff (ents a) i + j = needleOff (ents a) n - 1
  · rw [if_pos ht]
    have := needleOff_mono (ents a) (show i + 1 ≤ n by omega)
    rw [decide_eq_true (by omega)]
  · rw [if_neg ht]
    by_cases hl : j + 1 = (ents a i).length
    · have hi' : i + 1 < n := by
        rcases Nat.lt_or_ge (i + 1) n with h' | h'
        · exact h'
        · have : i + 1 = n := by omega
          subst this
          omega
      have hx : (ents a (i + 1))[0]? = some (a.pr (i + 1)) := rfl
      obtain ⟨k, h1, h2, h3, h4⟩ := h.at hs (byNeedle_get hi' hx)
      rw [Nat.add_zero, hsucc, ← hl] at h1
      rw [Nat.add_assoc, h1, ok_bind, nat_succ_pred, h4, ok_bind, decide_eq_true hl,
        decide_eq_true (by omega)]
    · have hx : (ents a i)[j + 1]? = some ((ents a i)[j + 1]'(by omega)) :=
        List.getElem?_eq_getElem (by omega)
      obtain ⟨k, h1, h2, h3, h4⟩ := h.at hs (byNeedle_get hi hx)
      rw [Nat.add_assoc, h1, ok_bind, nat_succ_pred, h4, ok_bind, decide_eq_false hl,
        decide_eq_false (by omega)]

end Vctrs
