import Verif.Lemmas.MatchSearch

/-!
# The matches of a needle in one column are a range
-/

namespace Vctrs

/-- The rank `b` matches the rank `a` of a needle; `K` tells the ranks of complete values. -/
def CellHit (op : MOp) (inc : MIncomplete) (K : Int → Bool) (a b : Int) : Prop :=
  (K a = true ∧ match op with
    | .eq => b = a
    | .gt => K b = true ∧ b < a
    | .gte => K b = true ∧ b ≤ a
    | .lt => a < b
    | .lte => a ≤ b) ∨
  (K a = false ∧ b = a ∧ (inc = .exact ∨ (inc = .compare ∧ (op = .eq ∨ op = .gte ∨ op = .lte))))

theorem CellHit.eq {inc : MIncomplete} {K : Int → Bool} {a b : Int} (h : CellHit .eq inc K a b) : b = a := by
  rcases h with ⟨_, h⟩ | ⟨_, h, _⟩ <;> exact h

theorem CellHit.incomplete {op : MOp} {inc : MIncomplete} {K : Int → Bool} {a b : Int}
    (h : CellHit op inc K a b) (ha : K a = false) : b = a ∧ inc.signals = false := by
  rcases h with ⟨h, _⟩ | ⟨_, h, h' | ⟨h', _⟩⟩
  · rw [ha] at h; cases h
  · exact ⟨h, by rw [h']; rfl⟩
  · exact ⟨h, by rw [h']; rfl⟩

/-- With `>` and `>=`, the complete values have the largest ranks. -/
def Upward (op : MOp) (K : Int → Bool) : Prop :=
  op = .gt ∨ op = .gte → ∀ a b, a ≤ b → K a = true → K b = true

/-- A range of locations. -/
structure Span (p : Int → Prop) (lo hi l u : Int) : Prop where
  lower : lo ≤ l
  upper : u ≤ hi
  le : l ≤ u + 1
  iff : ∀ k, lo ≤ k → k ≤ hi → (p k ↔ l ≤ k ∧ k ≤ u)

theorem signals_false {inc : MIncomplete} (h : inc.signals = false) :
    inc = .exact ∨ inc = .compare := by
  cases inc <;> first | (right; rfl) | (left; rfl) | cases h

theorem skipIncomplete_skip {op : MOp} {complete : Bool} {wc : List Bool} {o : List Int} {l u : Int}
    (h : complete = false ∨ (op ≠ .gt ∧ op ≠ .gte)) :
    skipIncomplete op complete wc o l u = .ok l := by
  unfold skipIncomplete
  rw [if_neg]
  rcases h with h | ⟨h, h'⟩
  · simp [h]
  · simp [h, h']

theorem skipIncomplete_ok {op : MOp} {wc : List Bool} {o : List Int} {g : Int → Int}
    {K : Int → Bool} {lo hi u : Int} (hop : op = .gt ∨ op = .gte) (hK : Upward op K)
    (hc : OrdVals wc o (fun k => K (g k)) lo hi) (hm : MonoOn g lo hi) (hu : u ≤ hi)
    (hlu : lo ≤ u + 1) :
    Ret (skipIncomplete op true wc o lo u) (fun l => lo ≤ l ∧ l ≤ u + 1 ∧
      ∀ k, lo ≤ k → k ≤ u → (K (g k) = true ↔ l ≤ k)) := by
  unfold skipIncomplete
  by_cases h : lo ≤ u
  · rw [if_pos (by rcases hop with rfl | rfl <;> simp [h])]
    rw [hc lo (Int.le_refl _) (by omega), ok_bind]
    by_cases hT : K (g lo) = true
    · rw [if_pos hT]
      refine Ret.ok ⟨Int.le_refl _, hlu, fun k hk hk' => ?_⟩
      exact ⟨fun _ => hk, fun _ => hK hop _ _ (hm lo k (Int.le_refl _) hk (by omega)) hT⟩
    · rw [if_neg hT]
      refine Ret.bind (locateUpperIncomplete_ok (hc.sub (Int.le_refl _) hu) ?_ h) ?_
      · intro k k' h1 h2 h3 h4
        exact hK hop _ _ (hm k k' h1 h2 (by omega)) h4
      · rintro r ⟨r1, r2, r3⟩
        refine Ret.ok ⟨r1, by omega, fun k hk hk' => ?_⟩
        have := r3 k hk hk'
        rw [this]
        omega
  · rw [if_neg (by simp [h])]
    exact Ret.ok ⟨Int.le_refl _, hlu, fun k hk hk' => by omega⟩

theorem matchBounds_ok {op : MOp} {inc : MIncomplete} {w : List Int} {wc : List Bool} {o : List Int}
    {g : Int → Int} {K : Int → Bool} {val lo hi : Int} (hK : Upward op K) (hw : OrdVals w o g lo hi)
    (hc : OrdVals wc o (fun k => K (g k)) lo hi) (hm : MonoOn g lo hi) (h : lo ≤ hi + 1)
    (hs : K val = false → inc.signals = false) :
    Ret (matchBounds op (K val) (decide (inc = .exact)) val w wc o lo hi)
      (fun r => Span (fun k => CellHit op inc K val (g k)) lo hi r.1 r.2 ∧
        (op = .eq → Bounds g val lo hi r.1 r.2)) := by
  unfold matchBounds
  refine Ret.bind (locateMatch_ok hw hm h) ?_
  rintro ⟨l, u⟩ ⟨b1, b2, b3, b4⟩
  dsimp only at b1 b2 b3 b4 ⊢
  by_cases hv : K val = true
  · rw [hv]
    have hit : ∀ b, CellHit op inc K val b ↔ match (generalizing := false) op with
        | .eq => b = val
        | .gt => K b = true ∧ b < val
        | .gte => K b = true ∧ b ≤ val
        | .lt => val < b
        | .lte => val ≤ b := by
      intro b
      constructor
      · rintro (h | h)
        · exact h.2
        · rw [hv] at h; cases h.1
      · exact fun h => .inl ⟨hv, h⟩
    cases op with
    | eq =>
      rw [show adjustBounds .eq true (decide (inc = .exact)) l u lo hi = (l, u) from rfl]
      dsimp only
      rw [skipIncomplete_skip (.inr ⟨by decide, by decide⟩), ok_bind]
      refine Ret.ok ⟨⟨b1, b2, b3, fun k hk hk' => ?_⟩, fun _ => ⟨b1, b2, b3, b4⟩⟩
      rw [hit]
      have := b4 k hk hk'
      dsimp only
      omega
    | lt =>
      rw [show adjustBounds .lt true (decide (inc = .exact)) l u lo hi = (u + 1, hi) from rfl]
      dsimp only
      rw [skipIncomplete_skip (.inr ⟨by decide, by decide⟩), ok_bind]
      refine Ret.ok ⟨⟨by dsimp only; omega, Int.le_refl _, by dsimp only; omega,
        fun k hk hk' => ?_⟩, fun e => by cases e⟩
      rw [hit]
      have := b4 k hk hk'
      dsimp only
      omega
    | lte =>
      rw [show adjustBounds .lte true (decide (inc = .exact)) l u lo hi = (l, hi) from rfl]
      dsimp only
      rw [skipIncomplete_skip (.inr ⟨by decide, by decide⟩), ok_bind]
      refine Ret.ok ⟨⟨by dsimp only; omega, Int.le_refl _, by dsimp only; omega,
        fun k hk hk' => ?_⟩, fun e => by cases e⟩
      rw [hit]
      have := b4 k hk hk'
      dsimp only
      omega
    | gt =>
      rw [show adjustBounds .gt true (decide (inc = .exact)) l u lo hi = (lo, l - 1) from rfl]
      dsimp only
      refine Ret.bind (skipIncomplete_ok (.inl rfl) hK hc hm (by omega) (by omega)) ?_
      rintro l' ⟨c1, c2, c3⟩
      refine Ret.ok ⟨⟨c1, by dsimp only; omega, by dsimp only; omega,
        fun k hk hk' => ?_⟩, fun e => by cases e⟩
      rw [hit]
      dsimp only
      have := b4 k hk hk'
      rcases Int.lt_or_le k l with hl | hl
      · rw [c3 k hk (by omega)]
        omega
      · omega
    | gte =>
      rw [show adjustBounds .gte true (decide (inc = .exact)) l u lo hi = (lo, u) from rfl]
      dsimp only
      refine Ret.bind (skipIncomplete_ok (.inr rfl) hK hc hm (by omega) (by omega)) ?_
      rintro l' ⟨c1, c2, c3⟩
      refine Ret.ok ⟨⟨c1, by dsimp only; omega, by dsimp only; omega,
        fun k hk hk' => ?_⟩, fun e => by cases e⟩
      rw [hit]
      dsimp only
      have := b4 k hk hk'
      rcases Int.lt_or_le u k with hl | hl
      · omega
      · rw [c3 k hk (by omega)]
        omega
  · have hlt : K val = false := by simpa using hv
    rw [hlt]
    have hit : ∀ b, CellHit op inc K val b ↔
        b = val ∧ (inc = .exact ∨ (inc = .compare ∧ (op = .eq ∨ op = .gte ∨ op = .lte))) := by
      intro b
      constructor
      · rintro (h | h)
        · exact absurd h.1 hv
        · exact h.2
      · exact fun h => .inr ⟨hlt, h⟩
    rw [skipIncomplete_skip (.inl rfl), ok_bind]
    have same : (inc = .exact ∨ (inc = .compare ∧ (op = .eq ∨ op = .gte ∨ op = .lte))) →
        Span (fun k => CellHit op inc K val (g k)) lo hi l u := by
      intro hi'
      refine ⟨b1, b2, b3, fun k hk hk' => ?_⟩
      rw [hit]
      have := b4 k hk hk'
      constructor
      · rintro ⟨e, _⟩
        omega
      · intro e
        exact ⟨by omega, hi'⟩
    rcases signals_false (hs hlt) with he | he
    · subst he
      rw [show adjustBounds op false (decide (MIncomplete.exact = .exact)) l u lo hi = (l, u) from rfl]
      exact Ret.ok ⟨same (.inl rfl), fun _ => ⟨b1, b2, b3, b4⟩⟩
    · subst he
      cases op with
      | eq => exact Ret.ok ⟨same (.inr ⟨rfl, .inl rfl⟩), fun _ => ⟨b1, b2, b3, b4⟩⟩
      | gte => exact Ret.ok ⟨same (.inr ⟨rfl, .inr (.inl rfl)⟩), fun e => by cases e⟩
      | lte => exact Ret.ok ⟨same (.inr ⟨rfl, .inr (.inr rfl)⟩), fun e => by cases e⟩
      | lt =>
        rw [show adjustBounds .lt false (decide (MIncomplete.compare = .exact)) l u lo hi =
          (u + 1, u) from rfl]
        refine Ret.ok ⟨⟨by dsimp only; omega, b2, by dsimp only; omega, fun k hk hk' => ?_⟩,
          fun e => by cases e⟩
        rw [hit]
        simp only [reduceCtorEq, or_self, and_false, false_or, false_iff]
        omega
      | gt =>
        rw [show adjustBounds .gt false (decide (MIncomplete.compare = .exact)) l u lo hi =
          (l, l - 1) from rfl]
        refine Ret.ok ⟨⟨b1, by dsimp only; omega, by dsimp only; omega, fun k hk hk' => ?_⟩,
          fun e => by cases e⟩
        rw [hit]
        simp only [reduceCtorEq, or_self, and_false, false_or, false_iff]
        omega

/-- The filter of a column: `b` is at least as good as `b'`. -/
def FilterLe : MFilter → Int → Int → Prop
  | .all, _, _ => True
  | .max, b, b' => b' ≤ b
  | .min, b, b' => b ≤ b'

theorem filterBounds_ok {filter : MFilter} {op : MOp} {inc : MIncomplete} {w : List Int}
    {o : List Int} {g : Int → Int} {K : Int → Bool} {val lo hi l u : Int} (hw : OrdVals w o g lo hi)
    (hm : MonoOn g lo hi) (hsp : Span (fun k => CellHit op inc K val (g k)) lo hi l u)
    (hlu : l ≤ u) :
    Ret (filterBounds filter op (K val) w o l u) (fun r => lo ≤ r.1 ∧ r.2 ≤ hi ∧
      r.1 ≤ r.2 ∧ (filter = .all ∨ op = .eq → r = (l, u)) ∧
      ∀ k, lo ≤ k → k ≤ hi → ((CellHit op inc K val (g k) ∧ ∀ k', lo ≤ k' → k' ≤ hi →
        CellHit op inc K val (g k') → FilterLe filter (g k) (g k')) ↔ r.1 ≤ k ∧ k ≤ r.2)) := by
  obtain ⟨s1, s2, s3, s4⟩ := hsp
  have refl : ∀ {b b' : Int}, b = b' → FilterLe filter b b' := by
    rintro b _ rfl
    cases filter
    · trivial
    · exact Int.le_refl _
    · exact Int.le_refl _
  unfold filterBounds
  by_cases hc : K val = true ∧ op ≠ .eq
  · rw [if_neg (by simp [hc.1, hc.2])]
    cases filter with
    | all =>
      refine Ret.ok ⟨s1, s2, hlu, fun _ => rfl, fun k hk hk' => ?_⟩
      rw [← s4 k hk hk']
      exact ⟨fun h => h.1, fun h => ⟨h, fun _ _ _ _ => trivial⟩⟩
    | max =>
      dsimp only
      rw [hw l s1 (by omega), ok_bind, hw u (by omega) s2, ok_bind]
      by_cases he : g l = g u
      · rw [if_neg (by simpa using he)]
        refine Ret.ok ⟨s1, s2, hlu, fun _ => rfl, fun k hk hk' => ?_⟩
        rw [← s4 k hk hk']
        refine ⟨fun h => h.1, fun h => ⟨h, fun k' h1 h2 h3 => refl ?_⟩⟩
        have a := (s4 k hk hk').1 h
        have b := (s4 k' h1 h2).1 h3
        have c1 := hm l k s1 a.1 hk'
        have c2 := hm k u hk a.2 s2
        have d1 := hm l k' s1 b.1 h2
        have d2 := hm k' u h1 b.2 s2
        omega
      · rw [if_pos he]
        refine Ret.bind (locateLowerDuplicate_ok (hw.sub s1 s2) (hm.sub s1 s2) hlu rfl) ?_
        rintro r ⟨r1, r2, r3⟩
        refine Ret.ok ⟨by dsimp only; omega, s2, r2, ?_, fun k hk hk' => ?_⟩
        · rintro (h | h)
          · cases h
          · exact absurd h hc.2
        · dsimp only
          constructor
          · rintro ⟨h, h'⟩
            have a := (s4 k hk hk').1 h
            have b := h' u (by omega) s2 ((s4 u (by omega) s2).2 ⟨hlu, Int.le_refl _⟩)
            have c := hm k u hk a.2 s2
            exact ⟨(r3 k a.1 a.2).1 (Int.le_antisymm c b), a.2⟩
          · rintro ⟨h1, h2⟩
            refine ⟨(s4 k hk hk').2 ⟨by omega, h2⟩, fun k' h3 h4 h5 => ?_⟩
            have a := (s4 k' h3 h4).1 h5
            have b := (r3 k (by omega) h2).2 h1
            have c := hm k' u h3 a.2 s2
            show g k' ≤ g k
            omega
    | min =>
      dsimp only
      rw [hw l s1 (by omega), ok_bind, hw u (by omega) s2, ok_bind]
      by_cases he : g l = g u
      · rw [if_neg (by simpa using he)]
        refine Ret.ok ⟨s1, s2, hlu, fun _ => rfl, fun k hk hk' => ?_⟩
        rw [← s4 k hk hk']
        refine ⟨fun h => h.1, fun h => ⟨h, fun k' h1 h2 h3 => refl ?_⟩⟩
        have a := (s4 k hk hk').1 h
        have b := (s4 k' h1 h2).1 h3
        have c1 := hm l k s1 a.1 hk'
        have c2 := hm k u hk a.2 s2
        have d1 := hm l k' s1 b.1 h2
        have d2 := hm k' u h1 b.2 s2
        omega
      · rw [if_pos he]
        refine Ret.bind (locateUpperDuplicate_ok (hw.sub s1 s2) (hm.sub s1 s2) hlu rfl) ?_
        rintro r ⟨r1, r2, r3⟩
        refine Ret.ok ⟨s1, by dsimp only; omega, r1, ?_, fun k hk hk' => ?_⟩
        · rintro (h | h)
          · cases h
          · exact absurd h hc.2
        · dsimp only
          constructor
          · rintro ⟨h, h'⟩
            have a := (s4 k hk hk').1 h
            have b := h' l s1 (by omega) ((s4 l s1 (by omega)).2 ⟨Int.le_refl _, hlu⟩)
            have c := hm l k s1 a.1 hk'
            exact ⟨a.1, (r3 k a.1 a.2).1 (Int.le_antisymm b c)⟩
          · rintro ⟨h1, h2⟩
            refine ⟨(s4 k hk hk').2 ⟨h1, by omega⟩, fun k' h3 h4 h5 => ?_⟩
            have a := (s4 k' h3 h4).1 h5
            have b := (r3 k h1 (by omega)).2 h2
            have c := hm l k' s1 a.1 h4
            show g k ≤ g k'
            omega
  · have hcond : (!K val || op == .eq) = true := by
      rw [Bool.or_eq_true]
      by_cases h : K val = true
      · right
        have : op = .eq := Decidable.byContradiction fun h' => hc ⟨h, h'⟩
        simp [this]
      · left
        simp [h]
    rw [if_pos hcond]
    refine Ret.ok ⟨s1, s2, hlu, fun _ => rfl, fun k hk hk' => ?_⟩
    rw [← s4 k hk hk']
    refine ⟨fun h => h.1, fun h => ⟨h, fun k' h1 h2 h3 => refl ?_⟩⟩
    have eq : ∀ b, CellHit op inc K val b → b = val := by
      intro b hb
      by_cases ho : op = .eq
      · subst ho; exact hb.eq
      · exact (hb.incomplete (by
          have : ¬ K val = true := fun h => hc ⟨h, ho⟩
          simpa using this)).1
    rw [eq _ h, eq _ h3]

end Vctrs
