import Verif.Lemmas.MatchColumn
import Verif.Lemmas.IntervalKey

/-!
# What the recursion records for each needle
-/

namespace Vctrs

/-- Ranks at the sorted locations of needles (`N`) and haystack (`H`), the ranks of
complete values of a column, the locations of the sorted needles, the options. -/
structure MView where
  n : Nat
  m : Nat
  nc : Nat
  N : Nat → Int → Int
  H : Nat → Int → Int
  K : Nat → Int → Bool
  P : Int → Nat
  op : Nat → MOp
  fl : Nat → MFilter

/-- The arguments of the recursion are those of the view. -/
structure EnvOk (e : MEnv) (V : MView) : Prop where
  cols : e.needles.length = V.nc
  ops : ∀ c, c < V.nc → e.ops[c]? = some (V.op c)
  filters : ∀ c, c < V.nc → e.filters[c]? = some (V.fl c)
  needles : ∀ c, c < V.nc → ∃ v, e.needles[c]? = some v ∧ OrdVals v e.oNeedles (V.N c) 0 (V.n - 1)
  needlesComplete : ∀ c, c < V.nc → ∃ v, e.needlesComplete[c]? = some v ∧
    OrdVals v e.oNeedles (fun i => V.K c (V.N c i)) 0 (V.n - 1)
  haystack : ∀ c, c < V.nc → ∃ v, e.haystack[c]? = some v ∧
    OrdVals v e.oHaystack (V.H c) 0 (V.m - 1)
  haystackComplete : ∀ c, c < V.nc → ∃ v, e.haystackComplete[c]? = some v ∧
    OrdVals v e.oHaystack (fun i => V.K c (V.H c i)) 0 (V.m - 1)
  upward : ∀ c, c < V.nc → Upward (V.op c) (V.K c)
  loc : ∀ i : Nat, i < V.n → e.oNeedles[i]? = some ((V.P i : Int) + 1) ∧ V.P i < V.n
  inj : ∀ i j : Int, 0 ≤ i → i < V.n → 0 ≤ j → j < V.n → V.P i = V.P j → i = j

/-- The compact matches: the first one of each needle, and those that were appended. -/
structure AState where
  pr : Nat → Int × Int
  ex : List (Nat × Int × Int)

/-- The compact matches of a needle. -/
def ents (a : AState) (i : Nat) : List (Int × Int) :=
  a.pr i :: (a.ex.filter (fun x => x.1 == i)).map (·.2)

/-- The arrays hold the compact matches. -/
structure Abs (e : MEnv) (n : Nat) (s : MState) (a : AState) : Prop where
  first : s.first = (List.range n).map (fun i => (a.pr i).1) ++ a.ex.map (·.2.1)
  size : e.multiple ≠ .any → s.size = (List.range n).map (fun i => (a.pr i).2) ++ a.ex.map (·.2.2)
  locs : e.multiple ≠ .any →
    s.locs = (List.range n).map (fun (i : Nat) => (i : Int)) ++ a.ex.map (fun x => (x.1 : Int))
  any : e.multiple = .any → a.ex = []
  filterLoc : s.filterLoc.length = n
  filter : e.anyFilters = true → e.multiple ≠ .any → ∀ i, i < n → 0 ≤ (a.pr i).1 →
    s.filterLoc[i]? = some (some (a.pr i).1)
  lt : ∀ x ∈ a.ex, x.1 < n

/-- What happens to a needle: nothing, it is marked as incomplete, or matches are recorded. -/
inductive Touch where
  | none | inc | hit (l u : Int)

/-- Its effect on the compact matches of the needle. -/
def applyTouch (any : Bool) : Touch → List (Int × Int) → List (Int × Int)
  | _, [] => []
  | .none, p :: r => p :: r
  | .inc, (_, z) :: r => (-1, z) :: r
  | .hit l u, (f, z) :: r =>
    if f = naInt then (l, if any then z else u - l + 1) :: r
    else if any then (f, z) :: r
    else (f, z) :: r ++ [(l, u - l + 1)]

theorem applyTouch_none {any : Bool} {l : List (Int × Int)} : applyTouch any .none l = l := by
  cases l <;> rfl

theorem applyTouch_hit {any : Bool} {l u : Int} {p : Int × Int} {r : List (Int × Int)} :
    applyTouch any (.hit l u) (p :: r) =
      if p.1 = naInt then (l, if any then p.2 else u - l + 1) :: r
      else if any then p :: r else p :: r ++ [(l, u - l + 1)] := rfl

/-- The sorted needles in `R` are touched as `Q` says, the others are not. -/
structure Eff (e : MEnv) (V : MView) (a a' : AState) (R : Int → Prop) (Q : Int → Touch → Prop) :
    Prop where
  other : ∀ i : Nat, i < V.n → (∀ k, R k → V.P k ≠ i) → ents a' i = ents a i
  here : ∀ k, R k → ∃ t, Q k t ∧
    ents a' (V.P k) = applyTouch (decide (e.multiple = .any)) t (ents a (V.P k))

/-- The locations of the sorted needles from `x` to `y`. -/
def Between (x y : Int) (k : Int) : Prop := x ≤ k ∧ k ≤ y

theorem Eff.mono {e : MEnv} {V : MView} {a a' : AState} {R : Int → Prop}
    {Q Q' : Int → Touch → Prop} (h : Eff e V a a' R Q) (hq : ∀ k t, R k → Q k t → Q' k t) :
    Eff e V a a' R Q' :=
  ⟨h.other, fun k hk => by
    obtain ⟨t, h1, h2⟩ := h.here k hk
    exact ⟨t, hq k t hk h1, h2⟩⟩

theorem Eff.refl {e : MEnv} {V : MView} {a : AState} {R : Int → Prop}
    {Q : Int → Touch → Prop} (hq : ∀ k, R k → Q k .none) : Eff e V a a R Q :=
  ⟨fun _ _ _ => rfl, fun k hk => ⟨.none, hq k hk, applyTouch_none.symm⟩⟩

theorem Eff.empty {e : MEnv} {V : MView} {a : AState} {Q : Int → Touch → Prop} {x y : Int}
    (h : y < x) : Eff e V a a (Between x y) Q :=
  Eff.refl (fun k hk => by
    have := hk.1
    have := hk.2
    omega)

theorem Eff.trans {e : MEnv} {V : MView} (he : EnvOk e V) {a a' a'' : AState} {R R' S : Int → Prop}
    {Q : Int → Touch → Prop} (h : Eff e V a a' R Q) (h' : Eff e V a' a'' R' Q)
    (hR : ∀ k, R k → 0 ≤ k ∧ k < V.n) (hR' : ∀ k, R' k → 0 ≤ k ∧ k < V.n)
    (hd : ∀ k, R k → R' k → False) (hS : ∀ k, S k ↔ R k ∨ R' k) : Eff e V a a'' S Q := by
  have bound : ∀ k : Int, 0 ≤ k ∧ k < V.n → V.P k < V.n := by
    intro k hk
    have := (he.loc k.toNat (by omega)).2
    rw [show ((k.toNat : Nat) : Int) = k by omega] at this
    exact this
  refine ⟨fun i hi hn => ?_, fun k hk => ?_⟩
  · rw [h'.other i hi (fun k hk => hn k ((hS k).2 (.inr hk))),
      h.other i hi (fun k hk => hn k ((hS k).2 (.inl hk)))]
  · rcases (hS k).1 hk with hk | hk
    · obtain ⟨t, h1, h2⟩ := h.here k hk
      refine ⟨t, h1, ?_⟩
      rw [h'.other _ (bound k (hR k hk)) ?_, h2]
      intro j hj e'
      have := he.inj j k (hR' j hj).1 (hR' j hj).2 (hR k hk).1 (hR k hk).2 e'
      subst this
      exact hd _ hk hj
    · obtain ⟨t, h1, h2⟩ := h'.here k hk
      refine ⟨t, h1, ?_⟩
      rw [h2, h.other _ (bound k (hR' k hk)) ?_]
      intro j hj e'
      have := he.inj j k (hR j hj).1 (hR j hj).2 (hR' k hk).1 (hR' k hk).2 e'
      subst this
      exact hd _ hj hk

theorem ents_head {a a' : AState} {i : Nat} (h : ents a' i = ents a i) : a'.pr i = a.pr i := by
  unfold ents at h
  exact (List.cons.inj h).1

/-! ## Single steps -/

/-- Another first match for a needle. -/
def AState.upd (a : AState) (i : Nat) (v : Int × Int) : AState :=
  ⟨fun j => if j = i then v else a.pr j, a.ex⟩

/-- One more match for a needle. -/
def AState.push (a : AState) (i : Nat) (v : Int × Int) : AState := ⟨a.pr, a.ex ++ [(i, v)]⟩

theorem ents_upd_same {a : AState} {i : Nat} {v : Int × Int} :
    ents (a.upd i v) i = v :: (ents a i).tail := by
  simp [ents, AState.upd]

theorem ents_upd_ne {a : AState} {i j : Nat} {v : Int × Int} (h : j ≠ i) :
    ents (a.upd i v) j = ents a j := by
  simp [ents, AState.upd, h]

theorem ents_push_same {a : AState} {i : Nat} {v : Int × Int} :
    ents (a.push i v) i = ents a i ++ [v] := by
  simp [ents, AState.push, List.filter_append]

theorem ents_push_ne {a : AState} {i j : Nat} {v : Int × Int} (h : j ≠ i) :
    ents (a.push i v) j = ents a j := by
  have : (i == j) = false := by simpa using Ne.symm h
  simp [ents, AState.push, List.filter_append, this]

theorem map_range_set {α : Type} {n i : Nat} {f : Nat → α} {v : α} {r : List α} (hi : i < n) :
    ((List.range n).map f ++ r).set i v =
      (List.range n).map (fun j => if j = i then v else f j) ++ r := by
  rw [List.set_append, if_pos (by simpa using hi)]
  congr 1
  apply List.ext_getElem?
  intro j
  rw [getElem?_set' (by simpa using hi)]
  by_cases hj : j < n
  · simp only [List.getElem?_map, List.getElem?_range hj, Option.map_some]
    split <;> rfl
  · rw [if_neg (by omega)]
    simp [hj]

theorem upd_fst {a : AState} {i : Nat} {v : Int × Int} (n : Nat) :
    (List.range n).map (fun j => ((a.upd i v).pr j).1) =
      (List.range n).map (fun j => if j = i then v.1 else (a.pr j).1) := by
  apply List.map_congr_left
  intro j _
  unfold AState.upd
  dsimp only
  split <;> rfl

theorem upd_snd {a : AState} {i : Nat} {v : Int × Int} (n : Nat) :
    (List.range n).map (fun j => ((a.upd i v).pr j).2) =
      (List.range n).map (fun j => if j = i then v.2 else (a.pr j).2) := by
  apply List.map_congr_left
  intro j _
  unfold AState.upd
  dsimp only
  split <;> rfl

theorem Abs.first_get {e : MEnv} {n : Nat} {s : MState} {a : AState} (h : Abs e n s a) {i : Nat}
    (hi : i < n) : s.first[i]? = some (a.pr i).1 := by
  rw [h.first, List.getElem?_append_left (by simpa using hi)]
  simp [hi]

theorem wrI_nat {α : Type} {l : List α} {i : Nat} {v : α} (h : i < l.length) :
    wrI l (i : Int) v = .ok (l.set i v) := by
  rw [wrI_ok (by omega) (by simpa using h)]
  simp

theorem Abs.wr_first {e : MEnv} {n : Nat} {s : MState} {a : AState} (h : Abs e n s a) {i : Nat}
    (hi : i < n) (v : Int) :
    wrI s.first (i : Int) v = .ok ((List.range n).map (fun j => if j = i then v else (a.pr j).1) ++
      a.ex.map (·.2.1)) := by
  rw [wrI_nat (by rw [h.first]; simp; omega), h.first, map_range_set hi]

theorem Abs.wr_size {e : MEnv} {n : Nat} {s : MState} {a : AState} (h : Abs e n s a)
    (hm : e.multiple ≠ .any) {i : Nat} (hi : i < n) (v : Int) :
    wrI s.size (i : Int) v = .ok ((List.range n).map (fun j => if j = i then v else (a.pr j).2) ++
      a.ex.map (·.2.2)) := by
  rw [wrI_nat (by rw [h.size hm]; simp; omega), h.size hm, map_range_set hi]

/-- A needle is touched. -/
def Touched (e : MEnv) (n : Nat) (s : MState) (a : AState) (i : Nat) (t : Touch) : Prop :=
  ∃ a', Abs e n s a' ∧ (∀ j, j ≠ i → ents a' j = ents a j) ∧
    ents a' i = applyTouch (decide (e.multiple = .any)) t (ents a i)

theorem signal_ok {e : MEnv} {n : Nat} {s : MState} {a : AState} (h : Abs e n s a) {i : Nat}
    (hi : i < n) :
    Ret (do
      let f ← wrI s.first (i : Int) signalIncomplete
      .ok { s with first := f }) (fun s' => Touched e n s' a i .inc) := by
  rw [h.wr_first hi, ok_bind]
  refine Ret.ok ⟨a.upd i (-1, (a.pr i).2), ⟨?_, ?_, ?_, h.any, h.filterLoc, ?_, h.lt⟩,
    fun j hj => ents_upd_ne hj, ?_⟩
  · dsimp only
    rw [upd_fst]
    rfl
  · intro hm
    dsimp only
    rw [h.size hm, upd_snd]
    congr 1
    apply List.map_congr_left
    intro j _
    split
    · next e' => rw [e']
    · rfl
  · exact h.locs
  · intro hf hm j hj h0
    dsimp only
    unfold AState.upd at h0 ⊢
    dsimp only at h0 ⊢
    by_cases e' : j = i
    · rw [if_pos e'] at h0
      simp at h0
    · rw [if_neg e'] at h0 ⊢
      exact h.filter hf hm j hj h0
  · rw [ents_upd_same]
    rfl

theorem EnvOk.rd_loc {e : MEnv} {V : MView} (he : EnvOk e V) {i : Nat} (hi : i < V.n) :
    rd e.oNeedles i = .ok ((V.P i : Int) + 1) := rd_of_getElem? (he.loc i hi).1

theorem nat_succ_pred (k : Nat) : ((k : Int) + 1) - 1 = k := by omega

theorem signalOne_ok {e : MEnv} {V : MView} (he : EnvOk e V) {s : MState} {a : AState}
    (h : Abs e V.n s a) {i : Nat} (hi : i < V.n) :
    Ret (signalOne e i s) (fun s' => Touched e V.n s' a (V.P i) .inc) := by
  unfold signalOne
  rw [he.rd_loc hi, ok_bind, nat_succ_pred]
  exact signal_ok h (he.loc i hi).2

theorem Touched.none {e : MEnv} {n : Nat} {s : MState} {a : AState} (h : Abs e n s a) (i : Nat) :
    Touched e n s a i .none := ⟨a, h, fun _ _ => rfl, applyTouch_none.symm⟩

/-- Whether a needle is incomplete in a column from `c` on. -/
def Lacks (V : MView) (c : Nat) (i : Int) : Prop := ∃ d, c ≤ d ∧ d < V.nc ∧ V.K d (V.N d i) = false

theorem EnvOk.complete_at {e : MEnv} {V : MView} (he : EnvOk e V) {i c : Nat} (hi : i < V.n)
    (hc : c < V.nc) : ∃ v, e.needlesComplete[c]? = some v ∧
      rdI v (V.P i : Int) = .ok (V.K c (V.N c i)) := by
  obtain ⟨v, h1, h2⟩ := he.needlesComplete c hc
  refine ⟨v, h1, ?_⟩
  have := h2 i (by omega) (by omega)
  unfold orderedAt at this
  rw [rdI_get (he.loc i hi).1, ok_bind, nat_succ_pred] at this
  exact this

theorem signalFuture_ok {e : MEnv} {V : MView} (he : EnvOk e V) {s : MState} {a : AState}
    (h : Abs e V.n s a) {i : Nat} (hi : i < V.n) {col : Nat} (hc : col < V.nc) :
    Ret (signalFuture e col i s) (fun s' =>
      (Lacks V (col + 1) i → Touched e V.n s' a (V.P i) .inc) ∧
      (¬ Lacks V (col + 1) i → Touched e V.n s' a (V.P i) .none)) := by
  unfold signalFuture
  rw [he.rd_loc hi, ok_bind, he.cols]
  simp only [nat_succ_pred]
  have main : ∀ (r c : Nat), c + r = V.nc → Ret (forBrkFrom (fun j (s : MState) => do
      let complete ← rdI (← rd e.needlesComplete j) (V.P i : Int)
      if complete then .ok (.next s)
      else do
        let f ← wrI s.first (V.P i : Int) signalIncomplete
        .ok (.brk { s with first := f })) c r s) (fun s' =>
      (Lacks V c i → Touched e V.n s' a (V.P i) .inc) ∧
      (¬ Lacks V c i → Touched e V.n s' a (V.P i) .none)) := by
    intro r
    induction r with
    | zero =>
      intro c hc
      refine Ret.ok ⟨?_, fun _ => Touched.none h _⟩
      rintro ⟨d, h1, h2, _⟩
      omega
    | succ r ih =>
      intro c hc
      unfold forBrkFrom
      obtain ⟨v, h1, h2⟩ := he.complete_at hi (c := c) (by omega)
      rw [rd_of_getElem? h1, ok_bind, h2, ok_bind]
      by_cases hT : V.K c (V.N c i) = true
      · rw [if_pos hT, ok_bind]
        dsimp only
        refine (ih (c + 1) (by omega)).mono ?_
        rintro s' ⟨q1, q2⟩
        have : Lacks V c i ↔ Lacks V (c + 1) i := by
          constructor
          · rintro ⟨d, d1, d2, d3⟩
            refine ⟨d, ?_, d2, d3⟩
            rcases Nat.eq_or_lt_of_le d1 with e' | e'
            · subst e'; rw [hT] at d3; cases d3
            · exact e'
          · rintro ⟨d, d1, d2, d3⟩
            exact ⟨d, by omega, d2, d3⟩
        rw [this]
        exact ⟨q1, q2⟩
      · rw [if_neg hT]
        obtain ⟨s', h3, h4⟩ := signal_ok h (he.loc i hi).2
        rw [Abs.wr_first h (he.loc i hi).2, ok_bind] at h3 ⊢
        cases h3
        rw [ok_bind]
        refine Ret.ok ⟨fun _ => h4, fun hn => absurd ⟨c, Nat.le_refl _, by omega, by simpa using hT⟩ hn⟩
  exact main _ _ (by omega)

theorem recordOne_ok {e : MEnv} {V : MView} (he : EnvOk e V) {s : MState} {a : AState}
    (h : Abs e V.n s a) {i : Nat} (hi : i < V.n) {l u : Int} (hl : 0 ≤ l)
    (hf : e.anyFilters = true → (a.pr (V.P i)).1 = naInt) :
    Ret (recordOne e l u i s) (fun s' => Touched e V.n s' a (V.P i) (.hit l u)) := by
  have hP := (he.loc i hi).2
  unfold recordOne
  rw [he.rd_loc hi, ok_bind]
  dsimp only
  rw [nat_succ_pred, rdI_get (h.first_get hP), ok_bind]
  have hn : 0 ≤ l → l ≠ naInt := by unfold naInt; omega
  by_cases hm : e.multiple = .any
  · rw [hm]
    dsimp only
    unfold recordAny
    by_cases ht : (a.pr (V.P i)).1 = naInt
    · rw [if_pos ht, h.wr_first hP, ok_bind]
      refine Ret.ok ⟨a.upd (V.P i) (l, (a.pr (V.P i)).2), ⟨?_, fun h' => absurd hm h',
        fun h' => absurd hm h', h.any, h.filterLoc, fun _ h' => absurd hm h', h.lt⟩,
        fun j hj => ents_upd_ne hj, ?_⟩
      · dsimp only
        rw [upd_fst]
        rfl
      · rw [ents_upd_same, hm]
        unfold ents
        rw [applyTouch_hit, if_pos ht]
        rfl
    · have hfil : e.anyFilters = false := by
        cases h' : e.anyFilters
        · rfl
        · exact absurd (hf h') ht
      rw [if_neg ht, hfil, if_neg (by simp)]
      refine Ret.ok ⟨a, h, fun _ _ => rfl, ?_⟩
      rw [hm]
      unfold ents
      rw [applyTouch_hit, if_neg ht]
      rfl
  · split
    · next h' => exact absurd h' hm
    unfold recordAll
    dsimp only
    by_cases ht : (a.pr (V.P i)).1 = naInt
    · rw [if_pos ht, h.wr_first hP, ok_bind, h.wr_size hm hP, ok_bind]
      have ent : ents (a.upd (V.P i) (l, u - l + 1)) (V.P i) =
          applyTouch (decide (e.multiple = .any)) (.hit l u) (ents a (V.P i)) := by
        rw [ents_upd_same]
        unfold ents
        rw [applyTouch_hit, if_pos ht, if_neg (by simpa using hm)]
        rfl
      cases hfil : e.anyFilters with
      | false =>
        rw [if_neg (by simp)]
        refine Ret.ok ⟨a.upd (V.P i) (l, u - l + 1), ⟨?_, ?_, h.locs, h.any, h.filterLoc, ?_, h.lt⟩,
          fun j hj => ents_upd_ne hj, ent⟩
        · dsimp only
          rw [upd_fst]
          rfl
        · intro _
          dsimp only
          rw [upd_snd]
          rfl
        · intro h'
          rw [hfil] at h'
          cases h'
      | true =>
        rw [if_pos rfl, wrI_nat (by rw [h.filterLoc]; exact hP), ok_bind]
        refine Ret.ok ⟨a.upd (V.P i) (l, u - l + 1), ⟨?_, ?_, h.locs, h.any, ?_, ?_, h.lt⟩,
          fun j hj => ents_upd_ne hj, ent⟩
        · dsimp only
          rw [upd_fst]
          rfl
        · intro _
          dsimp only
          rw [upd_snd]
          rfl
        · dsimp only
          rw [List.length_set]
          exact h.filterLoc
        · intro _ _ j hj h0
          dsimp only
          rw [getElem?_set' (by rw [h.filterLoc]; exact hP)]
          unfold AState.upd at h0 ⊢
          dsimp only at h0 ⊢
          by_cases e' : j = V.P i
          · rw [if_pos e', if_pos e']
          · rw [if_neg e'] at h0
            rw [if_neg e', if_neg e']
            exact h.filter hfil hm j hj h0
    · have hfil : e.anyFilters = false := by
        cases h' : e.anyFilters
        · rfl
        · exact absurd (hf h') ht
      rw [if_neg ht, hfil, if_neg (by simp)]
      refine Ret.ok ⟨a.push (V.P i) (l, u - l + 1), ⟨?_, ?_, ?_, fun h' => absurd h' hm,
        h.filterLoc, ?_, ?_⟩, fun j hj => ents_push_ne hj, ?_⟩
      · show s.first ++ [l] = _
        rw [h.first]
        simp [AState.push]
      · intro _
        show s.size ++ [u - l + 1] = _
        rw [h.size hm]
        simp [AState.push]
      · intro _
        show s.locs ++ [(V.P i : Int)] = _
        rw [h.locs hm]
        simp [AState.push]
      · intro h'
        rw [hfil] at h'
        cases h'
      · intro x hx
        rcases List.mem_append.1 hx with hx | hx
        · exact h.lt x hx
        · rw [List.mem_singleton.1 hx]
          exact hP
      · rw [ents_push_same]
        unfold ents
        rw [applyTouch_hit, if_neg ht, if_neg (by simpa using hm)]

end Vctrs
