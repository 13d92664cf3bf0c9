import Verif.Lemmas.MatchState

/-!
# The recursion touches every needle once, with its matches
-/

namespace Vctrs

/-- Two sorted locations, from a column on: in the first columns joined by `==` the later ones only
count among equals. -/
def NestLe (op : Nat → MOp) (H : Nat → Int → Int) : Nat → Nat → Int → Int → Prop
  | 0, _, _, _ => True
  | d + 1, c, k, k' =>
    (op c = .eq ∧ H c k < H c k') ∨ (H c k ≤ H c k' ∧ NestLe op H d (c + 1) k k')

theorem NestLe.le {op : Nat → MOp} {H : Nat → Int → Int} {d c : Nat} {k k' : Int}
    (h : NestLe op H (d + 1) c k k') : H c k ≤ H c k' := by
  rcases h with ⟨_, h⟩ | ⟨h, _⟩
  · omega
  · exact h

theorem NestLe.next {op : Nat → MOp} {H : Nat → Int → Int} {d c : Nat} {k k' : Int}
    (h : NestLe op H (d + 1) c k k') (he : op c = .eq → H c k = H c k') :
    NestLe op H d (c + 1) k k' := by
  rcases h with ⟨h1, h⟩ | ⟨_, h⟩
  · have := he h1
    omega
  · exact h

/-- The haystack row at a sorted location satisfies the conditions from column `c` on. -/
def RowHit (V : MView) (inc : MIncomplete) (c : Nat) (i k : Int) : Prop :=
  ∀ d, c ≤ d → d < V.nc → CellHit (V.op d) inc (V.K d) (V.N d i) (V.H d k)

theorem rowHit_step {V : MView} {inc : MIncomplete} {c : Nat} {i k : Int} (hc : c < V.nc) :
    RowHit V inc c i k ↔
      CellHit (V.op c) inc (V.K c) (V.N c i) (V.H c k) ∧ RowHit V inc (c + 1) i k := by
  constructor
  · exact fun h => ⟨h c (Nat.le_refl _) hc, fun d h1 h2 => h d (by omega) h2⟩
  · rintro ⟨h1, h2⟩ d h3 h4
    rcases Nat.eq_or_lt_of_le h3 with e | e
    · subst e; exact h1
    · exact h2 d e h4

theorem rowHit_end {V : MView} {inc : MIncomplete} {c : Nat} {i k : Int} (hc : V.nc ≤ c) :
    RowHit V inc c i k := fun d h1 h2 => by omega

theorem lacks_step {V : MView} {c : Nat} {i : Int} (hc : c < V.nc) :
    Lacks V c i ↔ V.K c (V.N c i) = false ∨ Lacks V (c + 1) i := by
  constructor
  · rintro ⟨d, h1, h2, h3⟩
    rcases Nat.eq_or_lt_of_le h1 with e | e
    · subst e; exact .inl h3
    · exact .inr ⟨d, e, h2, h3⟩
  · rintro (h | ⟨d, h1, h2, h3⟩)
    · exact ⟨c, Nat.le_refl _, hc, h⟩
    · exact ⟨d, by omega, h2, h3⟩

theorem lacks_end {V : MView} {c : Nat} {i : Int} (hc : V.nc ≤ c) : ¬ Lacks V c i := by
  rintro ⟨d, h1, h2, _⟩
  omega

/-- A match, and none is better by the filter of the last column. -/
def BestHit (V : MView) (inc : MIncomplete) (c : Nat) (lo hi i k : Int) : Prop :=
  RowHit V inc c i k ∧ ∀ k', lo ≤ k' → k' ≤ hi → RowHit V inc c i k' →
    FilterLe (V.fl (V.nc - 1)) (V.H (V.nc - 1) k) (V.H (V.nc - 1) k')

/-- What happens to a needle from column `c` on, with the haystack from `lo` to `hi`. -/
structure TouchOk (V : MView) (inc : MIncomplete) (c : Nat) (lo hi : Int) (i : Int) (t : Touch) :
    Prop where
  signal : inc.signals = true → Lacks V c i → t = .none ∨ t = .inc
  flagged : inc.signals = true → Lacks V c i → (∀ d, c ≤ d → d < V.nc → V.op d ≠ .eq) → t = .inc
  hit : ¬ (inc.signals = true ∧ Lacks V c i) →
    (t = .none ∧ ∀ k, lo ≤ k → k ≤ hi → ¬ RowHit V inc c i k) ∨
    ∃ l u, t = .hit l u ∧ l ≤ u ∧ lo ≤ l ∧ u ≤ hi ∧
      ∀ k, lo ≤ k → k ≤ hi → (BestHit V inc c lo hi i k ↔ l ≤ k ∧ k ≤ u)

theorem TouchOk.widen {V : MView} {inc : MIncomplete} {c : Nat} {lo hi lo' hi' i : Int} {t : Touch}
    (h : TouchOk V inc c lo hi i t) (h1 : lo' ≤ lo) (h2 : hi ≤ hi')
    (h3 : ∀ k, lo' ≤ k → k ≤ hi' → RowHit V inc c i k → lo ≤ k ∧ k ≤ hi) :
    TouchOk V inc c lo' hi' i t := by
  refine ⟨h.signal, h.flagged, fun hs => ?_⟩
  rcases h.hit hs with ⟨e, hn⟩ | ⟨l, u, e, h4, h5, h6, h7⟩
  · refine .inl ⟨e, fun k hk hk' hr => ?_⟩
    have := h3 k hk hk' hr
    exact hn k this.1 this.2 hr
  · refine .inr ⟨l, u, e, h4, by omega, by omega, fun k hk hk' => ?_⟩
    constructor
    · rintro ⟨r1, r2⟩
      have := h3 k hk hk' r1
      exact (h7 k this.1 this.2).1 ⟨r1, fun k' a b => r2 k' (by omega) (by omega)⟩
    · intro hlu
      obtain ⟨r1, r2⟩ := (h7 k (by omega) (by omega)).2 hlu
      refine ⟨r1, fun k' a b r => ?_⟩
      have := h3 k' a b r
      exact r2 k' this.1 this.2 r

theorem touchOk_none {V : MView} {inc : MIncomplete} {c : Nat} {lo hi i : Int}
    (h : ∀ k, lo ≤ k → k ≤ hi → ¬ RowHit V inc c i k)
    (hs : inc.signals = true → Lacks V c i → ∃ d, c ≤ d ∧ d < V.nc ∧ V.op d = .eq) :
    TouchOk V inc c lo hi i .none := by
  refine ⟨fun _ _ => .inl rfl, fun h1 h2 h3 => ?_, fun _ => .inl ⟨rfl, h⟩⟩
  obtain ⟨d, d1, d2, d3⟩ := hs h1 h2
  exact absurd d3 (h3 d d1 d2)

theorem touchOk_inc {V : MView} {inc : MIncomplete} {c : Nat} {lo hi i : Int}
    (h1 : inc.signals = true) (h2 : Lacks V c i) : TouchOk V inc c lo hi i .inc :=
  ⟨fun _ _ => .inr rfl, fun _ _ _ => rfl, fun h => absurd ⟨h1, h2⟩ h⟩

/-- From one column to the one before. -/
theorem TouchOk.prev {V : MView} {inc : MIncomplete} {c : Nat} {lo hi l u i : Int} {t : Touch}
    (h : TouchOk V inc (c + 1) l u i t) (hc : c < V.nc)
    (hsp : Span (fun k => CellHit (V.op c) inc (V.K c) (V.N c i) (V.H c k)) lo hi l u)
    (hs : inc.signals = true → V.K c (V.N c i) = true) : TouchOk V inc c lo hi i t := by
  obtain ⟨s1, s2, s3, s4⟩ := hsp
  have hl : inc.signals = true → Lacks V c i → Lacks V (c + 1) i := by
    intro a b
    rcases (lacks_step hc).1 b with b | b
    · rw [hs a] at b; cases b
    · exact b
  refine ⟨fun a b => h.signal a (hl a b),
    fun a b d => h.flagged a (hl a b) (fun k k1 k2 => d k (by omega) k2), fun hn => ?_⟩
  have row : ∀ k, lo ≤ k → k ≤ hi → (RowHit V inc c i k ↔ (l ≤ k ∧ k ≤ u) ∧
      RowHit V inc (c + 1) i k) := by
    intro k hk hk'
    rw [rowHit_step hc, s4 k hk hk']
  rcases h.hit (fun a => hn ⟨a.1, (lacks_step hc).2 (.inr a.2)⟩) with
    ⟨e, hn⟩ | ⟨l', u', e, h4, h5, h6, h7⟩
  · refine .inl ⟨e, fun k hk hk' hr => ?_⟩
    have := (row k hk hk').1 hr
    exact hn k this.1.1 this.1.2 this.2
  · refine .inr ⟨l', u', e, h4, by omega, by omega, fun k hk hk' => ?_⟩
    constructor
    · rintro ⟨r1, r2⟩
      have := (row k hk hk').1 r1
      refine (h7 k this.1.1 this.1.2).1 ⟨this.2, fun k' a b r => r2 k' (by omega) (by omega) ?_⟩
      exact (row k' (by omega) (by omega)).2 ⟨⟨a, b⟩, r⟩
    · intro hlu
      obtain ⟨r1, r2⟩ := (h7 k (by omega) (by omega)).2 hlu
      refine ⟨(row k hk hk').2 ⟨⟨by omega, by omega⟩, r1⟩, fun k' a b r => ?_⟩
      have := (row k' a b).1 r
      exact r2 k' this.1.1 this.1.2 this.2

/-! ## Loops over needles -/

theorem Touched.eff {e : MEnv} {V : MView} {s : MState} {a : AState} {i : Int} {t : Touch}
    {Q : Int → Touch → Prop} (h : Touched e V.n s a (V.P i) t) (hq : Q i t) :
    ∃ a', Abs e V.n s a' ∧ Eff e V a a' (fun k => k = i) Q := by
  obtain ⟨a', h1, h2, h3⟩ := h
  refine ⟨a', h1, fun j _ hn => h2 j (Ne.symm (hn i rfl)), ?_⟩
  rintro k rfl
  exact ⟨t, hq, h3⟩

theorem forNeedles_ok {e : MEnv} {V : MView} (he : EnvOk e V) {s : MState} {a : AState}
    (h : Abs e V.n s a) {x y : Int} (h0 : 0 ≤ x) (hy : y < V.n) (hxy : x ≤ y + 1)
    {f : Nat → MState → C MState} {Q : Int → Touch → Prop}
    (hf : ∀ (i : Nat) s' a', x ≤ i → (i : Int) ≤ y → Abs e V.n s' a' →
      a'.pr (V.P i) = a.pr (V.P i) →
      Ret (f i s') (fun s'' => ∃ t, Q i t ∧ Touched e V.n s'' a' (V.P i) t)) :
    Ret (forNeedles x y f s) (fun s' => ∃ a', Abs e V.n s' a' ∧ Eff e V a a' (Between x y) Q) := by
  unfold forNeedles
  rw [if_neg (by omega)]
  have := Ret.forFrom (f := f) (i := x.toNat) (r := (y + 1 - x).toNat) (s := s)
    (fun j s' => ∃ a', Abs e V.n s' a' ∧ Eff e V a a' (Between x ((j : Int) - 1)) Q)
    ⟨a, h, Eff.empty (by omega)⟩ ?_
  · rw [show (((x.toNat + (y + 1 - x).toNat : Nat) : Int) - 1) = y by omega] at this
    exact this
  · rintro j s' hj hj' ⟨a', ha', eff⟩
    have hr : ∀ k, Between x ((j : Int) - 1) k → 0 ≤ k ∧ k < V.n := by
      rintro k ⟨k1, k2⟩
      omega
    have same : ents a' (V.P j) = ents a (V.P j) := by
      refine eff.other _ (he.loc j (by omega)).2 ?_
      rintro k hk e'
      have := he.inj k j (hr k hk).1 (hr k hk).2 (by omega) (by omega) e'
      have := hk.2
      omega
    refine (hf j s' a' (by omega) (by omega) ha' (ents_head same)).mono ?_
    rintro s'' ⟨t, q, ht⟩
    obtain ⟨a'', ha'', eff'⟩ := ht.eff q
    refine ⟨a'', ha'', eff.trans he eff' hr ?_ ?_ ?_⟩
    · rintro k rfl
      omega
    · rintro k hk rfl
      have := hk.2
      omega
    · intro k
      unfold Between
      omega

/-! ## The two sides -/

/-- The haystack bounds of a side contain all of its matches. -/
def HaySide (V : MView) (inc : MIncomplete) (c : Nat) (hl hu : Int) (x y : Int) :
    Option (Int × Int) → Prop
  | some b => x ≤ y ∧ hl ≤ b.1 ∧ b.2 ≤ hu ∧ b.1 ≤ b.2 + 1 ∧
      ∀ i, x ≤ i → i ≤ y → ∀ k, hl ≤ k → k ≤ hu → RowHit V inc c i k → b.1 ≤ k ∧ k ≤ b.2
  | none => y < x ∨ (V.op c = .eq ∧
      ∀ i, x ≤ i → i ≤ y → ∀ k, hl ≤ k → k ≤ hu → ¬ RowHit V inc c i k)

theorem side_ok {e : MEnv} {V : MView} {inc : MIncomplete} {c : Nat}
    (hc : c < V.nc) {hl hu x y : Int} {f : Int → Int → Int → Int → MState → C MState}
    {b : Option (Int × Int)} (hb : HaySide V inc c hl hu x y b) {s : MState} {a : AState} (h : Abs e V.n s a)
    (hf : ∀ p q, x ≤ y → hl ≤ p → q ≤ hu → p ≤ q + 1 → Ret (f x y p q s) (fun s' =>
      ∃ a', Abs e V.n s' a' ∧ Eff e V a a' (Between x y) (TouchOk V inc c p q))) :
    Ret (recurseSide f x y b s)
      (fun s' => ∃ a', Abs e V.n s' a' ∧ Eff e V a a' (Between x y) (TouchOk V inc c hl hu)) := by
  match b, hb with
  | some (p, q), hb =>
    obtain ⟨h1, h2, h3, h4, h5⟩ := hb
    refine (hf p q h1 h2 h3 h4).mono ?_
    rintro s' ⟨a', ha', eff⟩
    refine ⟨a', ha', eff.mono fun i t hi ht => ?_⟩
    exact ht.widen h2 h3 (h5 i hi.1 hi.2)
  | none, hb =>
    refine Ret.ok ⟨a, h, ?_⟩
    rcases hb with hb | ⟨h1, h2⟩
    · exact Eff.empty hb
    · refine Eff.refl fun i hi => touchOk_none (h2 i hi.1 hi.2) ?_
      intro _ _
      exact ⟨c, Nat.le_refl _, hc, h1⟩

theorem recurseSides_ok {e : MEnv} {V : MView} (he : EnvOk e V) {inc : MIncomplete} {c : Nat}
    (hc : c < V.nc) {hl hu nl nu dl du : Int} {f : Int → Int → Int → Int → MState → C MState}
    {lhs rhs : Option (Int × Int)} (hlhs : HaySide V inc c hl hu nl (dl - 1) lhs)
    (hrhs : HaySide V inc c hl hu (du + 1) nu rhs) (h0 : 0 ≤ nl) (hn : nu < V.n) (h1 : nl ≤ dl)
    (h2 : dl ≤ du) (h3 : du ≤ nu) {s : MState} {a a₀ : AState} (h : Abs e V.n s a)
    (eff : Eff e V a₀ a (Between dl du) (TouchOk V inc c hl hu))
    (hfil : e.anyFilters = true → ∀ i, Between nl nu i → (a₀.pr (V.P i)).1 = naInt)
    (hf : ∀ x y p q s a, nl ≤ x → y ≤ nu → x ≤ y → y - x < nu - nl → hl ≤ p → q ≤ hu → p ≤ q + 1 →
      Abs e V.n s a → (e.anyFilters = true → ∀ i, Between x y i → (a.pr (V.P i)).1 = naInt) →
      Ret (f x y p q s) (fun s' =>
        ∃ a', Abs e V.n s' a' ∧ Eff e V a a' (Between x y) (TouchOk V inc c p q))) :
    Ret (recurseSides f nl nu dl du lhs rhs s) (fun s' =>
      ∃ a', Abs e V.n s' a' ∧ Eff e V a₀ a' (Between nl nu) (TouchOk V inc c hl hu)) := by
  have bound : ∀ k : Int, 0 ≤ k → k < V.n → V.P k < V.n := by
    intro k hk hk'
    have := (he.loc k.toNat (by omega)).2
    rw [show ((k.toNat : Nat) : Int) = k by omega] at this
    exact this
  unfold recurseSides
  refine Ret.bind (side_ok (x := nl) (y := dl - 1) (b := lhs) (f := f)
    hc hlhs h ?_) ?_
  · intro p q h4 h5 h6 h7
    refine hf nl (dl - 1) p q s a (Int.le_refl _) (by omega) h4 (by omega) h5 h6 h7 h ?_
    intro hfl i hi
    have i1 := hi.1
    have i2 := hi.2
    rw [← hfil hfl i ⟨i1, by omega⟩, ents_head (eff.other _ (bound i (by omega) (by omega)) ?_)]
    rintro k hk e'
    have k1 := hk.1
    have k2 := hk.2
    have := he.inj k i (by omega) (by omega) (by omega) (by omega) e'
    omega
  · rintro s₁ ⟨a₁, ha₁, eff₁⟩
    have effL : Eff e V a₀ a₁ (Between nl du) (TouchOk V inc c hl hu) := by
      refine eff.trans he eff₁ ?_ ?_ ?_ ?_ <;> · intro k; unfold Between; omega
    refine (side_ok (x := du + 1) (y := nu) (b := rhs) (f := f)
      hc hrhs ha₁ ?_).mono ?_
    · intro p q h4 h5 h6 h7
      refine hf (du + 1) nu p q s₁ a₁ (by omega) (Int.le_refl _) h4 (by omega) h5 h6 h7 ha₁ ?_
      intro hfl i hi
      have i1 := hi.1
      have i2 := hi.2
      rw [← hfil hfl i ⟨by omega, i2⟩, ents_head (effL.other _ (bound i (by omega) (by omega)) ?_)]
      rintro k hk e'
      have k1 := hk.1
      have k2 := hk.2
      have := he.inj k i (by omega) (by omega) (by omega) (by omega) e'
      omega
    · rintro s₂ ⟨a₂, ha₂, eff₂⟩
      refine ⟨a₂, ha₂, effL.trans he eff₂ ?_ ?_ ?_ ?_⟩ <;> · intro k; unfold Between; omega

/-! ## The recursion -/

theorem fuel_next {d n f : Nat} {x y x' y' : Int} (h : (d + 1) * (n + 1) + (y - x + 1).toNat ≤ f + 1)
    (hx : x ≤ y) (h1 : 0 ≤ x') (h2 : y' < n) : d * (n + 1) + (y' - x' + 1).toNat ≤ f := by
  rw [Nat.add_mul] at h
  omega

theorem matchRecurse_ok {e : MEnv} {V : MView} (he : EnvOk e V)
    (hfl : ∀ c, c + 1 < V.nc → V.fl c = .all ∨ V.op c = .eq) :
    ∀ (fuel col : Nat) (nl nu hl hu : Int) (s : MState) (a : AState), col < V.nc → 0 ≤ nl → nl ≤ nu →
      nu < V.n → 0 ≤ hl → hu < V.m → hl ≤ hu + 1 →
      (∀ i i', nl ≤ i → i ≤ i' → i' ≤ nu → NestLe (fun _ => .eq) V.N (V.nc - col) col i i') →
      (∀ k k', hl ≤ k → k ≤ k' → k' ≤ hu → NestLe V.op V.H (V.nc - col) col k k') →
      Abs e V.n s a →
      (e.anyFilters = true → ∀ i, Between nl nu i → (a.pr (V.P i)).1 = naInt) →
      (V.nc - col - 1) * (V.n + 1) + (nu - nl + 1).toNat ≤ fuel →
      Ret (matchRecurse e fuel col nl nu hl hu s) (fun s' => ∃ a', Abs e V.n s' a' ∧
        Eff e V a a' (Between nl nu) (TouchOk V e.incomplete col hl hu)) := by
  intro fuel
  induction fuel with
  | zero => intro col nl nu hl hu s a _ _ _ _ _ _ _ _ _ _ _ hfu; omega
  | succ fuel ih =>
    intro col nl nu hl hu s a hc h0 hnlu hn hh0 hm hhlu hN hH ha hun hfu
    obtain ⟨d, hd⟩ : ∃ d, V.nc - col = d + 1 := ⟨V.nc - col - 1, by omega⟩
    rw [hd] at hN hH
    have mN : MonoOn (V.N col) nl nu := fun k k' h1 h2 h3 => (hN k k' h1 h2 h3).le
    have mH : MonoOn (V.H col) hl hu := fun k k' h1 h2 h3 => (hH k k' h1 h2 h3).le
    unfold matchRecurse
    obtain ⟨v, hv, ov⟩ := he.needles col hc
    obtain ⟨vc, hvc, ovc⟩ := he.needlesComplete col hc
    obtain ⟨w, hw, ow⟩ := he.haystack col hc
    obtain ⟨wc, hwc, owc⟩ := he.haystackComplete col hc
    rw [rd_of_getElem? (he.ops col hc), ok_bind, rd_of_getElem? (he.filters col hc), ok_bind,
      rd_of_getElem? hv, ok_bind, rd_of_getElem? hvc, ok_bind, rd_of_getElem? hw, ok_bind,
      rd_of_getElem? hwc, ok_bind]
    dsimp only
    obtain ⟨hmid1, hmid2⟩ := midpoint_le hnlu
    generalize midpoint nl nu = mid at hmid1 hmid2 ⊢
    rw [ov mid (by omega) (by omega), ok_bind, ovc mid (by omega) (by omega), ok_bind]
    dsimp only
    refine Ret.bind (locateLowerDuplicate_ok (ov.sub (by omega) (by omega))
      (mN.sub (Int.le_refl _) hmid2) hmid1 rfl) ?_
    rintro dl ⟨dl1, dl2, dl3⟩
    refine Ret.bind (locateUpperDuplicate_ok (ov.sub (by omega) (by omega))
      (mN.sub hmid1 (Int.le_refl _)) hmid2 rfl) ?_
    rintro du ⟨du1, du2, du3⟩
    have dup : ∀ i, dl ≤ i → i ≤ du → V.N col i = V.N col mid := by
      intro i h1 h2
      rcases (show i ≤ mid ∨ mid < i by omega) with h | h
      · exact (dl3 i (by omega) h).2 h1
      · exact (du3 i (by omega) (by omega)).2 h2
    have below : ∀ i, nl ≤ i → i ≤ dl - 1 → V.N col i < V.N col mid := by
      intro i h1 h2
      have := mN i mid h1 (by omega) hmid2
      have : ¬ V.N col i = V.N col mid := fun h => by
        have := (dl3 i h1 (by omega)).1 h
        omega
      omega
    have above : ∀ i, du + 1 ≤ i → i ≤ nu → V.N col mid < V.N col i := by
      intro i h1 h2
      have := mN mid i hmid1 (by omega) h2
      have : ¬ V.N col i = V.N col mid := fun h => by
        have := (du3 i (by omega) h2).1 h
        omega
      omega
    have sides : ∀ x y p q s a, nl ≤ x → y ≤ nu → x ≤ y → y - x < nu - nl → hl ≤ p → q ≤ hu →
        p ≤ q + 1 → Abs e V.n s a →
        (e.anyFilters = true → ∀ i, Between x y i → (a.pr (V.P i)).1 = naInt) →
        Ret (matchRecurse e fuel col x y p q s) (fun s' =>
          ∃ a', Abs e V.n s' a' ∧ Eff e V a a' (Between x y) (TouchOk V e.incomplete col p q)) := by
      intro x y p q s a h1 h2 h3 h4 h5 h6 h7 h8 h9
      refine ih col x y p q s a hc (by omega) h3 (by omega) (by omega) (by omega) h7 ?_ ?_ h8 h9 ?_
      · rw [hd]
        exact fun i i' a b c => hN i i' (by omega) b (by omega)
      · rw [hd]
        exact fun i i' a b c => hH i i' (by omega) b (by omega)
      · omega
    have full : ∀ x y, HaySide V e.incomplete col hl hu x y
        (if decide (x ≤ y) = true then some (hl, hu) else none) := by
      intro x y
      by_cases hxy : x ≤ y
      · rw [if_pos (by simpa using hxy)]
        exact ⟨hxy, Int.le_refl _, Int.le_refl _, hhlu, fun _ _ _ k h1 h2 _ => ⟨h1, h2⟩⟩
      · rw [if_neg (by simpa using hxy)]
        exact .inl (by omega)
    have doL : decide (dl > nl) = decide (nl ≤ dl - 1) := by
      congr 1
      exact propext ⟨fun _ => by omega, fun _ => by omega⟩
    have doR : decide (du < nu) = decide (du + 1 ≤ nu) := by
      congr 1
    by_cases hsig : V.K col (V.N col mid) = false ∧ e.incomplete.signals = true
    · rw [if_pos (by simp [hsig.1, hsig.2])]
      refine Ret.bind (forNeedles_ok he ha (x := dl) (y := du) (by omega) (by omega) (by omega)
        (Q := TouchOk V e.incomplete col hl hu) ?_) ?_
      · intro i s' a' h1 h2 ha' _
        refine (signalOne_ok he ha' (by omega)).mono fun s'' ht => ⟨.inc, ?_, ht⟩
        refine touchOk_inc hsig.2 ((lacks_step hc).2 (.inl ?_))
        rw [dup i h1 h2]
        exact hsig.1
      · rintro s₁ ⟨a₁, ha₁, eff₁⟩
        rw [doL, doR]
        exact recurseSides_ok he hc (full _ _) (full _ _) h0 hn (by omega) (by omega) (by omega) ha₁
          eff₁ hun sides
    · have hs : e.incomplete.signals = true → V.K col (V.N col mid) = true := by
        intro h
        have : ¬ V.K col (V.N col mid) = false := fun h' => hsig ⟨h', h⟩
        simpa using this
      rw [if_neg (by
        intro h
        rw [Bool.and_eq_true] at h
        exact hsig ⟨by simpa using h.1, h.2⟩)]
      have ow' := ow.sub hh0 (show hu ≤ (V.m : Int) - 1 by omega)
      have owc' := owc.sub hh0 (show hu ≤ (V.m : Int) - 1 by omega)
      refine Ret.bind (matchBounds_ok (inc := e.incomplete) (op := V.op col) (K := V.K col)
        (val := (V.N col mid)) (he.upward col hc) ow' owc' mH hhlu ?_) ?_
      · intro h
        cases h' : e.incomplete.signals with
        | false => rfl
        | true =>
          rw [hs h'] at h; cases h
      rintro ⟨l, u⟩ ⟨hsp, hbd⟩
      dsimp only at hsp hbd ⊢
      have hsp' : ∀ i, dl ≤ i → i ≤ du → Span (fun k =>
          CellHit (V.op col) e.incomplete (V.K col) (V.N col i) (V.H col k)) hl hu l u := by
        intro i h1 h2
        rw [dup i h1 h2]
        exact hsp
      have hs' : ∀ i, dl ≤ i → i ≤ du → e.incomplete.signals = true → V.K col (V.N col i) = true := by
        intro i h1 h2
        rw [dup i h1 h2]
        exact hs
      have hmore : decide (col < e.needles.length - 1) = decide (col + 1 < V.nc) := by
        rw [he.cols]
        congr 1
        exact propext ⟨fun _ => by omega, fun _ => by omega⟩
      rw [hmore]
      refine Ret.bind (P := fun r : (Int × Int) × MState => ∃ a₁, Abs e V.n r.2 a₁ ∧
        Eff e V a a₁ (Between dl du) (TouchOk V e.incomplete col hl hu) ∧
        (V.op col = .eq → Bounds (V.H col) (V.N col mid) hl hu r.1.1 r.1.2)) ?_ ?_
      · by_cases hlu : l ≤ u
        · rw [if_pos hlu]
          refine Ret.bind (filterBounds_ok (filter := V.fl col) (K := V.K col) (val := (V.N col mid)) ow' mH
            hsp hlu) ?_
          rintro ⟨l', u'⟩ ⟨f1, f2, f3, f4, f5⟩
          dsimp only at f1 f2 f3 f4 f5 ⊢
          have hb' : V.op col = .eq → Bounds (V.H col) (V.N col mid) hl hu l' u' := by
            intro h
            have := f4 (.inr h)
            cases this
            exact hbd h
          by_cases hmo : col + 1 < V.nc
          · rw [if_pos (by simpa using hmo)]
            have e' := f4 (hfl col hmo)
            cases e'
            refine Ret.bind (ih (col + 1) dl du l u s a hmo (by omega) (by omega) (by omega)
              (by omega) (by omega) (by omega) ?_ ?_ ha ?_ ?_) ?_
            · rw [show V.nc - (col + 1) = d by omega]
              intro i i' h1 h2 h3
              refine (hN i i' (by omega) h2 (by omega)).next fun _ => ?_
              rw [dup i h1 (by omega), dup i' (by omega) h3]
            · rw [show V.nc - (col + 1) = d by omega]
              intro k k' h1 h2 h3
              refine (hH k k' (by omega) h2 (by omega)).next fun hop => ?_
              have c1 := (hsp.iff k (by omega) (by omega)).2 ⟨h1, by omega⟩
              have c2 := (hsp.iff k' (by omega) (by omega)).2 ⟨by omega, h3⟩
              rw [hop] at c1 c2
              rw [c1.eq, c2.eq]
            · intro h i hi
              have i1 := hi.1
              have i2 := hi.2
              exact hun h i ⟨by omega, by omega⟩
            · obtain ⟨d', hd'⟩ : ∃ d', d = d' + 1 := ⟨d - 1, by omega⟩
              rw [hd, hd'] at hfu
              rw [show V.nc - (col + 1) - 1 = d' by omega]
              exact fuel_next hfu hnlu (by omega) (by omega)
            · rintro s₁ ⟨a₁, ha₁, eff₁⟩
              refine Ret.ok ⟨a₁, ha₁, eff₁.mono fun i t hi ht => ?_, hb'⟩
              exact ht.prev hc (hsp' i hi.1 hi.2) (hs' i hi.1 hi.2)
          · rw [if_neg (by simpa using hmo)]
            refine Ret.bind (forNeedles_ok he ha (x := dl) (y := du) (by omega) (by omega) (by omega)
              (Q := TouchOk V e.incomplete col hl hu) ?_) ?_
            · intro i s' a' h1 h2 ha' hpr
              refine (recordOne_ok he ha' (by omega) (l := l') (u := u') (by omega) ?_).mono
                fun s'' ht => ⟨.hit l' u', ?_, ht⟩
              · intro h
                rw [hpr]
                exact hun h i ⟨by omega, by omega⟩
              · have hlast : V.nc - 1 = col := by omega
                have row : ∀ k, RowHit V e.incomplete col i k ↔
                    CellHit (V.op col) e.incomplete (V.K col) (V.N col mid) (V.H col k) := by
                  intro k
                  rw [rowHit_step hc, dup i h1 h2]
                  exact ⟨fun h => h.1, fun h => ⟨h, rowHit_end (by omega)⟩⟩
                have nl : ¬ (e.incomplete.signals = true ∧ Lacks V col i) := by
                  rintro ⟨q1, q2⟩
                  rcases (lacks_step hc).1 q2 with q | q
                  · rw [hs' i h1 h2 q1] at q; cases q
                  · exact lacks_end (by omega) q
                refine ⟨fun q1 q2 => absurd ⟨q1, q2⟩ nl, fun q1 q2 => absurd ⟨q1, q2⟩ nl,
                  fun _ => .inr ⟨l', u', rfl, f3, f1, f2, fun k hk hk' => ?_⟩⟩
                rw [← f5 k hk hk']
                unfold BestHit
                rw [hlast, row]
                simp only [row]
            · rintro s₁ ⟨a₁, ha₁, eff₁⟩
              exact Ret.ok ⟨a₁, ha₁, eff₁, hb'⟩
        · rw [if_neg hlu]
          have nohit : ∀ i, dl ≤ i → i ≤ du → ∀ k, hl ≤ k → k ≤ hu →
              ¬ RowHit V e.incomplete col i k := by
            intro i h1 h2 k hk hk' hr
            have := ((hsp' i h1 h2).iff k hk hk').1 ((rowHit_step hc).1 hr).1
            omega
          by_cases hms : col + 1 < V.nc ∧ e.incomplete.signals = true
          · rw [if_pos (by simp [hms.1, hms.2])]
            refine Ret.bind (forNeedles_ok he ha (x := dl) (y := du) (by omega) (by omega) (by omega)
              (Q := TouchOk V e.incomplete col hl hu) ?_) ?_
            · intro i s' a' h1 h2 ha' _
              refine (signalFuture_ok he ha' (i := i) (by omega) hc).mono ?_
              rintro s'' ⟨q1, q2⟩
              by_cases hL : Lacks V (col + 1) i
              · exact ⟨.inc, touchOk_inc hms.2 ((lacks_step hc).2 (.inr hL)), q1 hL⟩
              · refine ⟨.none, touchOk_none (nohit i h1 h2) ?_, q2 hL⟩
                intro q3 q4
                rcases (lacks_step hc).1 q4 with q | q
                · rw [hs' i h1 h2 q3] at q; cases q
                · exact absurd q hL
            · rintro s₁ ⟨a₁, ha₁, eff₁⟩
              exact Ret.ok ⟨a₁, ha₁, eff₁, hbd⟩
          · rw [if_neg (by
              intro h
              rw [Bool.and_eq_true] at h
              exact hms ⟨by simpa using h.1, h.2⟩)]
            refine Ret.ok ⟨a, ha, Eff.refl fun i hi => touchOk_none (nohit i hi.1 hi.2) ?_, hbd⟩
            intro q1 q2
            exfalso
            rcases (lacks_step hc).1 q2 with q | q
            · rw [hs' i hi.1 hi.2 q1] at q; cases q
            · exact lacks_end (by
                have : ¬ col + 1 < V.nc := fun h => hms ⟨h, q1⟩
                omega) q
      · rintro ⟨⟨l', u'⟩, s₁⟩ ⟨a₁, ha₁, eff₁, hb'⟩
        dsimp only at ha₁ hb' ⊢
        rw [doL, doR]
        have sideL : HaySide V e.incomplete col hl hu nl (dl - 1)
              (sideBounds (V.op col) (decide (nl ≤ dl - 1)) (decide (du + 1 ≤ nu)) l' u' hl hu).1 ∧
            HaySide V e.incomplete col hl hu (du + 1) nu
              (sideBounds (V.op col) (decide (nl ≤ dl - 1)) (decide (du + 1 ≤ nu)) l' u' hl hu).2 := by
          by_cases hop : V.op col = .eq
          · obtain ⟨b1, b2, b3, b4⟩ := hb' hop
            have hitL : ∀ i, nl ≤ i → i ≤ dl - 1 → ∀ k, hl ≤ k → k ≤ hu →
                RowHit V e.incomplete col i k → k < l' := by
              intro i h1 h2 k hk hk' hr
              have c := ((rowHit_step hc).1 hr).1
              rw [hop] at c
              have := below i h1 h2
              exact (b4 k hk hk').1.1 (by rw [c.eq]; exact this)
            have hitR : ∀ i, du + 1 ≤ i → i ≤ nu → ∀ k, hl ≤ k → k ≤ hu →
                RowHit V e.incomplete col i k → u' < k := by
              intro i h1 h2 k hk hk' hr
              have c := ((rowHit_step hc).1 hr).1
              rw [hop] at c
              have := above i h1 h2
              exact (b4 k hk hk').2.1 (by rw [c.eq]; exact this)
            rw [hop]
            constructor
            · show HaySide V e.incomplete col hl hu nl (dl - 1)
                (if decide (nl ≤ dl - 1) && decide (l' > hl) then some (hl, l' - 1) else none)
              by_cases h1 : nl ≤ dl - 1
              · by_cases h2 : l' > hl
                · rw [if_pos (by simp [h2]; omega)]
                  refine ⟨h1, Int.le_refl _, by dsimp only; omega, by dsimp only; omega, ?_⟩
                  intro i i1 i2 k k1 k2 hr
                  have := hitL i i1 i2 k k1 k2 hr
                  exact ⟨k1, by dsimp only; omega⟩
                · rw [if_neg (by simp [h2])]
                  refine .inr ⟨hop, fun i i1 i2 k k1 k2 hr => ?_⟩
                  have := hitL i i1 i2 k k1 k2 hr
                  omega
              · rw [if_neg (by simp; omega)]
                exact .inl (by omega)
            · show HaySide V e.incomplete col hl hu (du + 1) nu
                (if decide (du + 1 ≤ nu) && decide (u' < hu) then some (u' + 1, hu) else none)
              by_cases h1 : du + 1 ≤ nu
              · by_cases h2 : u' < hu
                · rw [if_pos (by simp [h2]; omega)]
                  refine ⟨h1, by dsimp only; omega, Int.le_refl _, by dsimp only; omega, ?_⟩
                  intro i i1 i2 k k1 k2 hr
                  have := hitR i i1 i2 k k1 k2 hr
                  exact ⟨by dsimp only; omega, k2⟩
                · rw [if_neg (by simp [h2])]
                  refine .inr ⟨hop, fun i i1 i2 k k1 k2 hr => ?_⟩
                  have := hitR i i1 i2 k k1 k2 hr
                  omega
              · rw [if_neg (by simp; omega)]
                exact .inl (by omega)
          · have : sideBounds (V.op col) (decide (nl ≤ dl - 1)) (decide (du + 1 ≤ nu)) l' u' hl hu =
                (if decide (nl ≤ dl - 1) = true then some (hl, hu) else none,
                  if decide (du + 1 ≤ nu) = true then some (hl, hu) else none) := by
              cases h : V.op col <;> first | rfl | exact absurd h hop
            rw [this]
            exact ⟨full _ _, full _ _⟩
        exact recurseSides_ok he hc sideL.1 sideL.2 h0 hn (by omega) (by omega) (by omega) ha₁
          eff₁ hun sides

end Vctrs
