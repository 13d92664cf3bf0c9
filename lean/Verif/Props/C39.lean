import Verif.Lemmas.IntervalComplement
import Verif.Props.C38
import Verif.Props.C29

/-! # C39: vec_interval_complement covers exactly the uncovered points between bounds -/

namespace Vctrs

open Spec

theorem noneMissing_row : {ts : List ATy} → {ps : List Val} → {i : Nat} → {r : Row ts} →
    HasRow ts ps i r → ¬ SomeMissing ts r → noneMissing ps i = true
  | [], _, _, _, h, _ => by
      have e : _ = [] := h
      subst e
      rfl
  | t :: ts, _, i, (a, r), ⟨xs, qs, e, ha, hr⟩, hm => by
      subst e
      have ih := noneMissing_row hr (fun h => hm (.inr h))
      unfold noneMissing at ih ⊢
      rw [List.all_cons, ih, Bool.and_true, Bool.not_eq_true', ← Bool.not_eq_true, cellMissing_iff]
      rintro ⟨b, hb, hmb⟩
      have e : some a = some b := ha.symm.trans hb
      cases e
      exact hm (.inl hmb)

theorem not_each_of_not_some {ts : List ATy} (hts : ts ≠ []) {r : Row ts} (h : ¬ SomeMissing ts r) :
    ¬ EachMissing ts r := by
  match ts, hts, r, h with
  | t :: ts, _, (a, r), h => exact fun h' => h (.inl h'.1)

theorem not_nil_of_lt {ts : List ATy} {r s : Row ts} (h : RowsLt ts r s) : ts ≠ [] := by
  rintro rfl
  exact h

/-- The row of a bound that may be absent. -/
def LimitRow (ts : List ATy) (x : Option Val) (r : Option (Row ts)) : Prop :=
  match x, r with
  | none, none => True
  | some x, some r => HasRow ts (leaves x) 0 r ∧ ¬ SomeMissing ts r
  | _, _ => False

theorem limitRow {ts : List ATy} {type : Val} {x : Option Val} (h : ∀ l, x = some l → IsLimit ts type l) :
    ∃ r, LimitRow ts x r := by
  cases x with
  | none => exact ⟨none, trivial⟩
  | some l =>
    have hl := h l rfl
    obtain ⟨f, hf⟩ := hl.bounds.rows
    exact ⟨some (f 0), hf 0 (by omega), hl.complete _ (hf 0 (by omega))⟩

theorem optBound_ok {ts : List ATy} {type : Val} {x : Option Val} (h : ∀ l, x = some l → IsLimit ts type l) :
    optBound x = .ok (x.map (fun l => packLeaves l.size (leaves l))) := by
  cases x with
  | none => rfl
  | some l =>
    have hl := h l rfl
    obtain ⟨f, hf⟩ := hl.bounds.rows
    have hr := hf 0 (by omega)
    have hsz : l.size = 1 := hl.bounds.sized.size
    have hv := vecDetectComplete_pack 1 (leaves l) (sized_leaves l hl.bounds.sized)
    have h1 : boundProxy l = .ok (packLeaves l.size (leaves l)) := by
      unfold boundProxy
      rw [if_neg (by simp [hsz]), proxyVal_ok, ok_bind, hsz, hv, ok_bind]
      have : rd ((List.range 1).map (noneMissing (leaves l))) 0 = .ok true :=
        rd_of_getElem? (by simp [List.range_succ, noneMissing_row hr (hl.complete _ hr)])
      rw [this, ok_bind]
      rfl
    unfold optBound
    dsimp only
    rw [h1, ok_bind]
    rfl

section
variable {ts : List ATy} {n : Nat} {start stop : Val} {K : Type} [LinearOrder K] {k : Row ts → K}
  {s e : Nat → Row ts}

theorem boundsEmpty_ok {type : Val} (hk : ∀ a b, k a < k b ↔ RowsLt ts a b)
    (ho : ∀ t ∈ ts, Spec.Ordered t) {x y : Option Val}
    (hx : ∀ l, x = some l → IsLimit ts type l) (hy : ∀ l, y = some l → IsLimit ts type l)
    {lr ur : Option (Row ts)} (hl : LimitRow ts x lr) (hu : LimitRow ts y ur) :
    ∃ b, boundsEmpty (x.map (fun l => packLeaves l.size (leaves l)))
      (y.map (fun l => packLeaves l.size (leaves l))) = .ok b ∧
      (b = true ↔ ∃ l u, lr = some l ∧ ur = some u ∧ k u ≤ k l) := by
  cases x with
  | none =>
    cases lr with
    | none => exact ⟨false, rfl, by simp⟩
    | some _ => exact hl.elim
  | some x =>
    cases lr with
    | none => exact hl.elim
    | some l =>
      cases y with
      | none =>
        cases ur with
        | none => exact ⟨false, rfl, by simp⟩
        | some _ => exact hu.elim
      | some y =>
        cases ur with
        | none => exact hu.elim
        | some u =>
          obtain ⟨c, hc, hc'⟩ := polyCompare_key hk ho (hx x rfl).bounds (hy y rfl).bounds
            (i := 0) (j := 0) hl.1 hu.1
          refine ⟨decide (c ≥ 0), ?_, ?_⟩
          · unfold boundsEmpty
            dsimp only [Option.map_some]
            refine bind_eq_of hc ?_
            rfl
          · rw [decide_eq_true_iff, hc'.ge_zero]
            simp

/-- The first row of group `j`. -/
def firstOf (G : List Grp) (j : Nat) : Nat :=
  match G[j]? with
  | some g => g.first
  | none => 0

/-- The last row of group `j`. -/
def lastOf (G : List Grp) (j : Nat) : Nat :=
  match G[j]? with
  | some g => g.last
  | none => 0

theorem firstOf_eq {G : List Grp} {j : Nat} {g : Grp} (h : G[j]? = some g) : firstOf G j = g.first := by
  unfold firstOf
  rw [h]

theorem lastOf_eq {G : List Grp} {j : Nat} {g : Grp} (h : G[j]? = some g) : lastOf G j = g.last := by
  unfold lastOf
  rw [h]

theorem tab_first (G : List Grp) : tab G.length (firstOf G) = G.map Grp.first := by
  refine List.ext_getElem (by simp [tab]) ?_
  intro i h1 h2
  simp only [tab, List.getElem_map, List.getElem_range]
  exact firstOf_eq (List.getElem?_eq_getElem _)

theorem tab_last (G : List Grp) : tab G.length (lastOf G) = G.map Grp.last := by
  refine List.ext_getElem (by simp [tab]) ?_
  intro i h1 h2
  simp only [tab, List.getElem_map, List.getElem_range]
  exact lastOf_eq (List.getElem?_eq_getElem _)

theorem before_get (E : Nat → Nat) {j n t : Nat} (ht : t < n) :
    (before E j n)[t]? = some (E (j + t - 1)) := by
  unfold before
  rw [List.getElem?_map, List.getElem?_range' ht]
  simp

theorem after_get (F : Nat → Nat) {j n t : Nat} (ht : t < n) :
    (after F j n)[t]? = some (F (j + t)) := by
  unfold after
  rw [List.getElem?_map, List.getElem?_range' ht]
  simp

/-- `lower` before the ends of intervals. -/
theorem pushLower_ok (hstop : IsBounds ts n stop) (hn : n < intMax)
    (he : ∀ i, i < n → HasRow ts (leaves stop) i (e i)) {x : Option Val} {lr : Option (Row ts)}
    (hx : ∀ l, x = some l → IsLimit ts stop l) (hlr : LimitRow ts x lr) {a : Bool}
    (ha : a = true → lr.isSome) {l : List Nat} (hl : ∀ i ∈ l, i < n) (hlen : l.length ≤ n) :
    ∃ S, pushLower a x (pick l stop) = .ok S ∧ IsBounds ts (l.length + a.toNat) S ∧ SameType S stop ∧
      (∀ r, a = true → lr = some r → HasRow ts (leaves S) 0 r) ∧
      ∀ (t i : Nat), l[t]? = some i → HasRow ts (leaves S) (t + a.toNat) (e i) := by
  have hp := hstop.pick hl
  have hrow : ∀ (t i : Nat), l[t]? = some i → HasRow ts (leaves (pick l stop)) t (e i) :=
    fun t i ht => hstop.pick_row hl ht (he i (hl i (List.mem_of_getElem? ht)))
  cases a with
  | false => exact ⟨_, rfl, hp, emptied_pick _ _, by simp, hrow⟩
  | true =>
    cases lr with
    | none => exact absurd (ha rfl) (by simp)
    | some r =>
      cases x with
      | none => exact hlr.elim
      | some x =>
        have hb := (hx x rfl).bounds
        have hty : SameType x (pick l stop) := (hx x rfl).type.trans (emptied_pick _ _).symm
        obtain ⟨z, hz, h1, h2, h3, h4⟩ := valAppend_bounds (by omega) hb hp hty
        refine ⟨z, hz, ?_, h2.trans (hx x rfl).type, ?_, ?_⟩
        · rw [Nat.add_comm]; exact h1
        · intro r' _ e
          cases e
          exact h3 hlr.1
        · intro t i ht
          have := h4 (hrow t i ht)
          rw [Nat.add_comm]
          exact this

/-- `upper` after the starts of intervals. -/
theorem pushUpper_ok (hstart : IsBounds ts n start) (hn : n < intMax)
    (hs : ∀ i, i < n → HasRow ts (leaves start) i (s i)) {x : Option Val} {ur : Option (Row ts)}
    (hx : ∀ l, x = some l → IsLimit ts start l) (hur : LimitRow ts x ur) {a : Bool}
    (ha : a = true → ur.isSome) {l : List Nat} (hl : ∀ i ∈ l, i < n) (hlen : l.length ≤ n) :
    ∃ E, pushUpper a x (pick l start) = .ok E ∧ IsBounds ts (l.length + a.toNat) E ∧ SameType E start ∧
      (∀ r, a = true → ur = some r → HasRow ts (leaves E) l.length r) ∧
      ∀ (t i : Nat), l[t]? = some i → HasRow ts (leaves E) t (s i) := by
  have hp := hstart.pick hl
  have hrow : ∀ (t i : Nat), l[t]? = some i → HasRow ts (leaves (pick l start)) t (s i) :=
    fun t i ht => hstart.pick_row hl ht (hs i (hl i (List.mem_of_getElem? ht)))
  cases a with
  | false => exact ⟨_, rfl, hp, emptied_pick _ _, by simp, hrow⟩
  | true =>
    cases ur with
    | none => exact absurd (ha rfl) (by simp)
    | some r =>
      cases x with
      | none => exact hur.elim
      | some x =>
        have hb := (hx x rfl).bounds
        have hty : SameType (pick l start) x := (emptied_pick _ _).trans (hx x rfl).type.symm
        obtain ⟨z, hz, h1, h2, h3, h4⟩ := valAppend_bounds (by omega) hp hb hty
        refine ⟨z, hz, h1, h2.trans (emptied_pick _ _), ?_, fun t i ht => h3 (hrow t i ht)⟩
        intro r' _ e
        cases e
        have := h4 hur.1
        exact this

end

/-- `vec_interval_complement()`: the result is sorted, its intervals are disjoint with gaps between
them, not empty and not missing, and they cover exactly the points that no given interval covers
between the bounds, or between the first start and the last end where no bound is given. -/
theorem C39_complement (ts : List ATy) (n : Nat) (start stop : Val) (h : IsIntervals ts n start stop)
    (hv : ValidIntervals ts start stop) (ht : SameType start stop) (hn : n < intMax)
    (lower upper : Option Val) (hlower : ∀ l, lower = some l → IsLimit ts start l)
    (hupper : ∀ u, upper = some u → IsLimit ts start u) (tl : TL)
    (h0 : ∀ u, 0 ≤ tl u) (fuel : Nat) (hf : 2 * ts.length ≤ fuel) :
    ∃ (S E : Val) (m : Nat),
      intervalComplement fuel start stop lower upper tl (List.replicate 100001 0) =
        .ok ((S, E), tl, List.replicate 100001 0) ∧
      IsComplement ts start stop lower upper m S E := by
  obtain ⟨K, _, k, hkey⟩ := rows_key ts h.ordered
  obtain ⟨s, hs⟩ := h.starts.rows
  obtain ⟨e, he⟩ := h.stops.rows
  have hk : Keyed ts n start stop K k s e := ⟨hkey, hs, he⟩
  obtain ⟨lr, hlr⟩ := limitRow hlower
  obtain ⟨ur, hur⟩ := limitRow hupper
  obtain ⟨b, hb, hb'⟩ := boundsEmpty_ok hkey h.ordered hlower hupper hlr hur
  have hup' : ∀ u, upper = some u → IsLimit ts start u := hupper
  have hlow' : ∀ l, lower = some l → IsLimit ts stop l :=
    fun l e => ⟨(hlower l e).bounds, (hlower l e).type.trans ht, (hlower l e).complete⟩
  -- the range, with keys
  have hafter : ∀ l r, lr = some l → (AfterLower ts start stop lower r ↔ k l ≤ k r) := by
    intro l r el
    subst el
    cases lower with
    | none => exact hlr.elim
    | some x =>
      constructor
      · rintro ⟨y, hy, hlt⟩
        have := hasRow_unique hy hlr.1
        subst this
        rw [← hkey] at hlt
        exact not_lt.1 hlt
      · intro hle
        refine ⟨l, hlr.1, ?_⟩
        rw [← hkey]
        exact not_lt.2 hle
  have hbefore : ∀ u r, ur = some u → (BeforeUpper ts start stop upper r ↔ k r < k u) := by
    intro u r eu
    subst eu
    cases upper with
    | none => exact hur.elim
    | some x =>
      constructor
      · rintro ⟨y, hy, hlt⟩
        have := hasRow_unique hy hur.1
        subst this
        rwa [hkey]
      · intro hlt
        exact ⟨u, hur.1, (hkey _ _).1 hlt⟩
  unfold intervalComplement
  rw [proxyVal_ok, ok_bind, proxyVal_ok, ok_bind, optBound_ok hlower, ok_bind, optBound_ok hupper,
    ok_bind, hb, ok_bind]
  by_cases hbt : b = true
  · obtain ⟨l, u, el, eu, hul⟩ := hb'.1 hbt
    rw [if_pos hbt]
    have h1 := valSlice_ok (n := n) (l := []) (by simp) start h.starts.sized
    have h2 := valSlice_ok (n := n) (l := []) (by simp) stop h.stops.sized
    rw [List.map_nil] at h1 h2
    rw [h1, ok_bind, h2, ok_bind]
    have b1 := h.starts.pick (l := []) (by simp)
    have b2 := h.stops.pick (l := []) (by simp)
    have none : ∀ {i x y}, ¬ IsInterval ts (pick [] start) (pick [] stop) i x y := by
      rintro i x y ⟨g1, _, g3⟩
      have := hasRow_lt b1 (not_nil_of_complete g3) g1
      simp at this
    refine ⟨_, _, 0, rfl, ⟨b1, b2, h.ordered, ?_⟩, emptied_pick _ _, emptied_pick _ _, ?_, ?_, ?_, ?_⟩
    · intro i x y g1 g2
      by_cases hx : ts = []
      · subst hx
        exact .inl ⟨trivial, trivial⟩
      · have := hasRow_lt b1 hx g1
        simp at this
    · intro r
      constructor
      · rintro ⟨i, x, y, hI, _⟩
        exact absurd hI none
      · rintro ⟨g1, g2, _⟩
        rw [hafter l r el] at g1
        rw [hbefore u r eu] at g2
        order
    · intro i j x y x' y' _ hI
      exact absurd hI none
    · intro i x y hI
      exact absurd hI none
    · rintro j ⟨hj, _⟩
      rw [b1.sized.size] at hj
      simp at hj
  · rw [if_neg hbt]
    obtain ⟨ms, q, r, G, Gm, hq, hG, hr⟩ := intervalGroupInfo_ok h (by omega) hk true false false h0 hf
    obtain ⟨S0, E0, _, _, hR, hS0, hE0⟩ := groupsResult h hk hq hG
    have hM := mergedGroups h hk hq hG hR hS0 hE0
    have res : ∀ {j x y}, IsInterval ts S0 E0 j x y ↔
        ∃ g, G[j]? = some g ∧ x = s g.first ∧ y = e g.last := isInterval_result hq hG hR
    have src : ∀ {i x y}, IsInterval ts start stop i x y ↔ i ∈ q ∧ x = s i ∧ y = e i :=
      isInterval_source h hk hq
    have hGm : Gm = [] := by
      rcases hG.missing with ⟨e, _⟩ | ⟨e, _⟩
      · exact e
      · simp at e
    have grp : ∀ i ∈ q, ∃ (j : Nat) (g : Grp), G[j]? = some g ∧ i ∈ g.mem := by
      intro i hi
      rw [← hG.split] at hi
      obtain ⟨g, hg, hi⟩ := List.mem_flatMap.1 hi
      obtain ⟨j, hj⟩ := List.getElem?_of_mem hg
      exact ⟨j, g, hj, hi⟩
    rw [hr, ok_bind]
    dsimp only
    have hps := hG.pushed.1
    have hpe := hG.pushed.2.1
    rw [hGm, List.append_nil] at hps hpe
    rw [hps, hpe, ← tab_first, ← tab_last]
    generalize hFe : firstOf G = F
    generalize hEe : lastOf G = E
    have hF : ∀ {j g}, G[j]? = some g → F j = g.first := fun hg => by rw [← hFe]; exact firstOf_eq hg
    have hE : ∀ {j g}, G[j]? = some g → E j = g.last := fun hg => by rw [← hEe]; exact lastOf_eq hg
    have hget : ∀ j, j < G.length → ∃ g, G[j]? = some g ∧ g ∈ G :=
      fun j hj => ⟨G[j], List.getElem?_eq_getElem hj, List.getElem_mem hj⟩
    have hFq : ∀ j, j < G.length → F j ∈ q ∧ E j ∈ q := by
      intro j hj
      obtain ⟨g, hg, hm⟩ := hget j hj
      rw [hF hg, hE hg]
      exact ⟨hG.mem_q hm (hG.ok g hm).first_mem, hG.mem_q hm (hG.ok g hm).last_mem⟩
    have hqn : ∀ i ∈ q, i < n := fun i hi => hq.lt (by simp [hi])
    have hch : Chain G.length (fun j => k (s (F j))) (fun j => k (e (E j))) := by
      constructor
      · intro j hj
        obtain ⟨g, hg, hm⟩ := hget j hj
        have hok := hG.ok g hm
        have h1 := hv _ _ _ (src.2 ⟨hG.mem_q hm hok.first_mem, rfl, rfl⟩)
        rw [← hkey] at h1
        rw [hF hg, hE hg]
        exact lt_of_lt_of_le h1 (hok.inside _ hok.first_mem).2
      · intro i j hij hj
        obtain ⟨g, hg, _⟩ := hget i (by omega)
        obtain ⟨g', hg', _⟩ := hget j hj
        have hsep := hG.sep
        rw [List.pairwise_iff_getElem] at hsep
        obtain ⟨hi, ei⟩ := List.getElem?_eq_some_iff.1 hg
        obtain ⟨hj, ej⟩ := List.getElem?_eq_some_iff.1 hg'
        have := hsep i j hi hj hij
        rw [ei, ej] at this
        rw [hE hg, hF hg']
        exact this
    have hbound : ∀ {x : Option Val} {xr : Option (Row ts)}, (∀ l, x = some l → IsLimit ts start l) →
        LimitRow ts x xr → BoundIs (x.map (fun l => packLeaves l.size (leaves l)))
          (packLeaves start.size (leaves start)) (packLeaves stop.size (leaves stop)) G.length F E
          (fun j => k (s (F j))) (fun j => k (e (E j))) (xr.map k) := by
      intro x xr hx hxr
      cases x with
      | none =>
        cases xr with
        | none => trivial
        | some _ => exact hxr.elim
      | some x =>
        cases xr with
        | none => exact hxr.elim
        | some xr =>
          constructor
          · intro j hj
            exact polyCompare_key hkey h.ordered (hx x rfl).bounds h.starts (i := 0) hxr.1
              (hs _ (hqn _ (hFq j hj).1))
          · intro j hj
            exact polyCompare_key hkey h.ordered (hx x rfl).bounds h.stops (i := 0) hxr.1
              (he _ (hqn _ (hFq j hj).2))
    have hlu : ∀ l u, lr.map k = some l → ur.map k = some u → l < u := by
      intro l u h1 h2
      obtain ⟨l, el, rfl⟩ := Option.map_eq_some_iff.1 h1
      obtain ⟨u, eu, rfl⟩ := Option.map_eq_some_iff.1 h2
      by_contra hh
      exact hbt (hb'.2 ⟨l, u, el, eu, not_lt.1 hh⟩)
    obtain ⟨⟨a, a', locS, locE⟩, hc, c, d, j, m, hgaps⟩ :=
      complementLocs_ok hch (hbound hlower hlr) (hbound hupper hur) hlu
    rw [hc, ok_bind]
    dsimp only
    have hLs : locS = locs1 (before E (j + a.toNat) (m - a.toNat)) := hgaps.starts
    have hLe : locE = locs1 (after F j (m - a'.toNat)) := hgaps.stops
    have haL : a = true ↔ (lr.map k).isSome ∧ 0 < m ∧ ¬ LowerIn (fun j => k (e (E j))) (lr.map k) c :=
      hgaps.addLower
    have haU : a' = true ↔ (ur.map k).isSome ∧ 0 < m ∧
        ¬ UpperIn G.length (fun j => k (s (F j))) (ur.map k) d := hgaps.addUpper
    -- the rows of the result
    have hX : ∃ xr : Nat → Row ts, (∀ t, ¬ (t = 0 ∧ a = true) → xr t = e (E (j + t - 1))) ∧
        (a = true → lr = some (xr 0)) := by
      by_cases haa : a = true
      · obtain ⟨l, hl⟩ := Option.isSome_iff_exists.1 (haL.1 haa).1
        obtain ⟨l, el, _⟩ := Option.map_eq_some_iff.1 hl
        refine ⟨fun t => if t = 0 then l else e (E (j + t - 1)), ?_, fun _ => el⟩
        intro t ht
        exact if_neg (fun e => ht ⟨e, haa⟩)
      · exact ⟨fun t => e (E (j + t - 1)), fun _ _ => rfl, fun e => absurd e haa⟩
    have hY : ∃ yr : Nat → Row ts, (∀ t, ¬ (t + 1 = m ∧ a' = true) → yr t = s (F (j + t))) ∧
        (a' = true → ur = some (yr (m - 1))) := by
      by_cases haa : a' = true
      · obtain ⟨l, hl⟩ := Option.isSome_iff_exists.1 (haU.1 haa).1
        obtain ⟨l, el, _⟩ := Option.map_eq_some_iff.1 hl
        have hm0 := (haU.1 haa).2.1
        refine ⟨fun t => if t + 1 = m then l else s (F (j + t)), ?_, fun _ => ?_⟩
        · intro t ht
          exact if_neg (fun e => ht ⟨e, haa⟩)
        · dsimp only
          rw [if_pos (by omega)]
          exact el
      · exact ⟨fun t => s (F (j + t)), fun _ _ => rfl, fun e => absurd e haa⟩
    obtain ⟨xr, hx1, hx2⟩ := hX
    obtain ⟨yr, hy1, hy2⟩ := hY
    have hK : GapKeys G.length (fun j => k (s (F j))) (fun j => k (e (E j))) (lr.map k) (ur.map k) c d a a'
        j m (fun t => k (xr t)) (fun t => k (yr t)) := by
      refine ⟨hch, hgaps.lower, hgaps.upper, hgaps.first, hgaps.count, haL, haU, ?_, ?_, hlu⟩
      · intro t ht
        by_cases hc : t = 0 ∧ a = true
        · obtain ⟨rfl, haa⟩ := hc
          exact .inl ⟨rfl, haa, by rw [hx2 haa]; rfl⟩
        · exact .inr ⟨hc, by rw [hx1 t hc]⟩
      · intro t ht
        by_cases hc : t + 1 = m ∧ a' = true
        · refine .inl ⟨hc.1, hc.2, ?_⟩
          have e : m - 1 = t := by omega
          rw [hy2 hc.2, e]
          rfl
        · exact .inr ⟨hc, by rw [hy1 t hc]⟩
    have ha1 : a.toNat ≤ m ∧ (a = true ∨ a.toNat = 0) := by
      cases hav : a with
      | false => simp
      | true =>
        have := (haL.1 hav).2.1
        simp
        omega
    have ha2 : a'.toNat ≤ m ∧ (a' = true ∨ a'.toNat = 0) := by
      cases hav : a' with
      | false => simp
      | true =>
        have := (haU.1 hav).2.1
        simp
        omega
    have hGn : G.length ≤ n := by
      have h1 : (members G).length ≤ n := by
        rw [hG.split]
        have := hq.length
        omega
      have h2 : ∀ (G : List Grp), (∀ g ∈ G, g.first ∈ g.mem) → G.length ≤ (members G).length := by
        intro G
        induction G with
        | nil => simp
        | cons g G ih =>
          intro h
          have h1 := ih (fun g' hg' => h g' (by simp [hg']))
          have h2 := List.length_pos_of_mem (h g (by simp))
          unfold members at h1 ⊢
          rw [List.flatMap_cons, List.length_append, List.length_cons]
          omega
      exact le_trans (h2 G (fun g hg => (hG.ok g hg).first_mem)) h1
    -- the locations are those of rows
    have hS1 : ∀ t, t < m → ¬ (t = 0 ∧ a = true) → j + t - 1 < G.length := by
      intro t htm hc
      have := hK.pos htm hc
      have := hK.le htm
      have := hK.dm
      omega
    have hE1 : ∀ t, t < m → ¬ (t + 1 = m ∧ a' = true) → j + t < G.length := fun t htm hc => hK.lt htm hc
    have hlS : ∀ i ∈ before E (j + a.toNat) (m - a.toNat), i < n := by
      intro i hi
      obtain ⟨t, ht'⟩ := List.getElem?_of_mem hi
      have hlt : t < m - a.toNat := by
        have := (List.getElem?_eq_some_iff.1 ht').1
        rwa [before_length] at this
      rw [before_get E hlt] at ht'
      cases ht'
      have e : j + a.toNat + t - 1 = j + (t + a.toNat) - 1 := by omega
      rw [e]
      refine hqn _ (hFq _ (hS1 (t + a.toNat) (by omega) ?_)).2
      rintro ⟨h1, h2⟩
      rw [h2] at h1
      simp at h1
    have hlE : ∀ i ∈ after F j (m - a'.toNat), i < n := by
      intro i hi
      obtain ⟨t, ht'⟩ := List.getElem?_of_mem hi
      have hlt : t < m - a'.toNat := by
        have := (List.getElem?_eq_some_iff.1 ht').1
        rwa [after_length] at this
      rw [after_get F hlt] at ht'
      cases ht'
      refine hqn _ (hFq _ (hE1 t (by omega) ?_)).1
      rintro ⟨h1, h2⟩
      rw [h2] at hlt
      simp at hlt
      omega
    have hmG : m - a.toNat ≤ G.length ∧ m - a'.toNat ≤ G.length := by
      constructor
      · rcases Nat.eq_zero_or_pos (m - a.toNat) with hz | hz
        · omega
        · have := hS1 (m - 1) (by omega) (by
            rintro ⟨h1, h2⟩
            rw [h2] at hz
            simp at hz
            omega)
          have h3 : ¬ a = true → 0 < j := by
            intro hna
            have := hK.pos (t := 0) (by omega) (fun h => hna h.2)
            omega
          by_cases hna : a = true
          · rw [hna]
            simp
            omega
          · have := h3 hna
            omega
      · rcases Nat.eq_zero_or_pos (m - a'.toNat) with hz | hz
        · omega
        · by_cases hna : a' = true
          · rw [hna] at hz ⊢
            simp at hz ⊢
            have := hE1 (m - 1 - 1) (by omega) (by omega)
            omega
          · have := hE1 (m - 1) (by omega) (fun h => hna h.2)
            omega
    have isS : ∀ {o : Option (Row ts)}, (o.map k).isSome → o.isSome := by
      intro o h
      cases o with
      | none => exact h
      | some _ => rfl
    obtain ⟨S, pS, bS, tS, rS0, rS1⟩ := pushLower_ok h.stops hn he hlow' hlr (a := a)
      (fun hh => isS (haL.1 hh).1) hlS (by rw [before_length]; omega)
    obtain ⟨T, pT, bT, tT, rT0, rT1⟩ := pushUpper_ok h.starts hn hs hup' hur (a := a')
      (fun hh => isS (haU.1 hh).1) hlE (by rw [after_length]; omega)
    rw [before_length, Nat.sub_add_cancel ha1.1] at bS
    rw [after_length, Nat.sub_add_cancel ha2.1] at bT
    rw [hLs, hLe]
    have v1 := valSlice_ok hlS stop h.stops.sized
    have v2 := valSlice_ok hlE start h.starts.sized
    unfold locs1
    rw [v1, ok_bind, v2, ok_bind, pS, ok_bind, pT, ok_bind]
    have rowS : ∀ t, t < m → HasRow ts (leaves S) t (xr t) := by
      intro t htm
      by_cases hc : t = 0 ∧ a = true
      · obtain ⟨rfl, haa⟩ := hc
        exact rS0 _ haa (hx2 haa)
      · rw [hx1 t hc]
        have hta : a.toNat ≤ t := by
          rcases ha1.2 with haa | haa
          · have : t ≠ 0 := fun h => hc ⟨h, haa⟩
            rw [haa]
            simp
            omega
          · omega
        have hg := before_get E (j := j + a.toNat) (n := m - a.toNat) (t := t - a.toNat) (by omega)
        have := rS1 _ _ hg
        have e1 : t - a.toNat + a.toNat = t := by omega
        have e2 : j + a.toNat + (t - a.toNat) - 1 = j + t - 1 := by omega
        rw [e1, e2] at this
        exact this
    have rowT : ∀ t, t < m → HasRow ts (leaves T) t (yr t) := by
      intro t htm
      by_cases hc : t + 1 = m ∧ a' = true
      · have := rT0 _ hc.2 (hy2 hc.2)
        rw [after_length, hc.2] at this
        have e : m - 1 = t := by omega
        have e' : m - true.toNat = t := by simp; omega
        rw [e, e'] at this
        exact this
      · rw [hy1 t hc]
        refine rT1 _ _ (after_get F (j := j) (n := m - a'.toNat) (t := t) ?_)
        rcases ha2.2 with haa | haa
        · have : t + 1 ≠ m := fun h => hc ⟨h, haa⟩
          rw [haa]
          simp
          omega
        · omega
    have comp : ∀ t, t < m → ¬ SomeMissing ts (xr t) ∧ ¬ SomeMissing ts (yr t) := by
      intro t htm
      constructor
      · by_cases hc : t = 0 ∧ a = true
        · obtain ⟨rfl, haa⟩ := hc
          have hh := hx2 haa
          rw [hh] at hlr
          cases lower with
          | none => exact hlr.elim
          | some l => exact hlr.2
        · rw [hx1 t hc]
          exact (hq.complete _ (hFq _ (hS1 t htm hc)).2).2.2
      · by_cases hc : t + 1 = m ∧ a' = true
        · have hh := hy2 hc.2
          have e : m - 1 = t := by omega
          rw [hh, e] at hur
          cases upper with
          | none => exact hur.elim
          | some l => exact hur.2
        · rw [hy1 t hc]
          exact (hq.complete _ (hFq _ (hE1 t htm hc)).1).2.1
    have hne : ∀ t, t < m → ts ≠ [] := by
      intro t htm
      have := hK.valid htm
      rw [hkey] at this
      exact not_nil_of_lt this
    have out : ∀ {t x y}, IsInterval ts S T t x y ↔ t < m ∧ x = xr t ∧ y = yr t := by
      intro t x y
      constructor
      · rintro ⟨g1, g2, g3⟩
        have htm := hasRow_lt bS (not_nil_of_complete g3) g1
        exact ⟨htm, hasRow_unique g1 (rowS t htm), hasRow_unique g2 (rowT t htm)⟩
      · rintro ⟨htm, rfl, rfl⟩
        exact ⟨rowS t htm, rowT t htm, not_each_of_not_some (hne t htm) (comp t htm).1⟩
    refine ⟨S, T, m, rfl, ⟨bS, bT, h.ordered, ?_⟩, tS.trans ht.symm, tT.trans ht, ?_, ?_, ?_, ?_⟩
    · intro t x y g1 g2
      by_cases hx : ts = []
      · subst hx
        exact .inl ⟨trivial, trivial⟩
      · have htm := hasRow_lt bS hx g1
        rw [hasRow_unique g1 (rowS t htm), hasRow_unique g2 (rowT t htm)]
        exact .inr (comp t htm)
    · intro x
      have e1 : Covers ts S T x ↔ ∃ t, t < m ∧ k (xr t) ≤ k x ∧ k x < k (yr t) := by
        constructor
        · rintro ⟨t, _, _, hI, g1, g2⟩
          obtain ⟨htm, rfl, rfl⟩ := out.1 hI
          rw [← hkey] at g1 g2
          exact ⟨t, htm, not_lt.1 g1, g2⟩
        · rintro ⟨t, htm, g1, g2⟩
          refine ⟨t, _, _, out.2 ⟨htm, rfl, rfl⟩, ?_, ?_⟩
          · rw [← hkey]
            exact not_lt.2 g1
          · rw [← hkey]
            exact g2
      have e2 : Covers ts start stop x ↔ ∃ i, i < G.length ∧ k (s (F i)) ≤ k x ∧ k x < k (e (E i)) := by
        rw [← hM.covers]
        constructor
        · rintro ⟨i, _, _, hI, g1, g2⟩
          obtain ⟨g, hg, rfl, rfl⟩ := res.1 hI
          rw [← hkey] at g1 g2
          refine ⟨i, (List.getElem?_eq_some_iff.1 hg).1, ?_⟩
          rw [hF hg, hE hg]
          exact ⟨not_lt.1 g1, g2⟩
        · rintro ⟨i, hi, g1, g2⟩
          obtain ⟨g, hg, _⟩ := hget i hi
          rw [hF hg] at g1
          rw [hE hg] at g2
          refine ⟨i, _, _, res.2 ⟨g, hg, rfl, rfl⟩, ?_, ?_⟩
          · rw [← hkey]
            exact not_lt.2 g1
          · rw [← hkey]
            exact g2
      have e3 : AfterLower ts start stop lower x ↔ LowOk G.length (fun j => k (s (F j))) (lr.map k) (k x) := by
        cases hlv : lr with
        | some l => exact hafter l x hlv
        | none =>
          rw [hlv] at hlr
          cases lower with
          | some _ => exact hlr.elim
          | none =>
            constructor
            · rintro ⟨i, _, _, hI, g1⟩
              obtain ⟨hi, rfl, rfl⟩ := src.1 hI
              obtain ⟨w, g, hg, him⟩ := grp i hi
              rw [← hkey] at g1
              refine ⟨w, (List.getElem?_eq_some_iff.1 hg).1, ?_⟩
              dsimp only
              rw [hF hg]
              exact le_trans ((hG.ok g (List.mem_of_getElem? hg)).inside i him).1 (not_lt.1 g1)
            · rintro ⟨i, hi, g1⟩
              refine ⟨F i, _, _, src.2 ⟨(hFq i hi).1, rfl, rfl⟩, ?_⟩
              rw [← hkey]
              exact not_lt.2 g1
      have e4 : BeforeUpper ts start stop upper x ↔ UpOk G.length (fun j => k (e (E j))) (ur.map k) (k x) := by
        cases huv : ur with
        | some l => exact hbefore l x huv
        | none =>
          rw [huv] at hur
          cases upper with
          | some _ => exact hur.elim
          | none =>
            constructor
            · rintro ⟨i, _, _, hI, g1⟩
              obtain ⟨hi, rfl, rfl⟩ := src.1 hI
              obtain ⟨w, g, hg, him⟩ := grp i hi
              rw [← hkey] at g1
              refine ⟨w, (List.getElem?_eq_some_iff.1 hg).1, ?_⟩
              dsimp only
              rw [hE hg]
              exact lt_of_lt_of_le g1 ((hG.ok g (List.mem_of_getElem? hg)).inside i him).2
            · rintro ⟨i, hi, g1⟩
              refine ⟨E i, _, _, src.2 ⟨(hFq i hi).2, rfl, rfl⟩, ?_⟩
              rw [← hkey]
              exact g1
      rw [e1, e2, e3, e4]
      exact hK.covers (k x)
    · intro i i' x y x' y' hii h1 h2
      obtain ⟨_, rfl, rfl⟩ := out.1 h1
      obtain ⟨him, rfl, rfl⟩ := out.1 h2
      show RowsLt ts _ _
      rw [← hkey]
      exact hK.apart hii him
    · intro t x y hI
      obtain ⟨htm, rfl, rfl⟩ := out.1 hI
      rw [← hkey]
      exact hK.valid htm
    · rintro t ⟨htm, x, y, g1, _, g3, _⟩
      rw [bS.sized.size] at htm
      have := hasRow_unique g1 (rowS t htm)
      subst this
      exact not_each_of_not_some (hne t htm) (comp t htm).1 g3

/-! ## Example -/

/-- The result of a run. -/
def C39_run (r : C ((Val × Val) × TL × List Nat)) : Option (List Int × List Int) :=
  match r with
  | .ok ((.vec (.atom .int) (s : List Int), .vec (.atom .int) (e : List Int)), _, _) => some (s, e)
  | _ => none

/-- A bound. -/
def exLimit (i : Int) : Val := .vec (.atom .int) ([i] : List Int)

theorem exLimit_ok {i : Int} (h : IsInt i) (hi : i ≠ naInt) : IsLimit [.int] exIvStart (exLimit i) := by
  refine ⟨exIv_bounds rfl (by simpa using h), rfl, ?_⟩
  rintro ⟨(a : Int), ⟨⟩⟩ hr hm
  have e := exIv_row hr
  cases e
  rcases hm with hm | hm
  · exact hi hm
  · exact hm

example := C39_complement [.int] 6 exIvStart exIvStop exIv exIv_valid rfl (by decide)
  (some (exLimit (-2))) none
  (fun l e => by cases e; exact exLimit_ok (by unfold IsInt; decide) (by decide))
  (fun l e => by cases e) exTl exTl_ok 2 (by decide)

example : C39_run (intervalComplement 2 exIvStart exIvStop none none exTl exStatic) =
    some ([6], [8]) := by decide +kernel

example : C39_run (intervalComplement 2 exIvStart exIvStop (some (exLimit (-2))) (some (exLimit 12))
    exTl exStatic) = some ([-2, 6, 9], [1, 8, 12]) := by decide +kernel

example : C39_run (intervalComplement 2 exIvStart exIvStop (some (exLimit 3)) (some (exLimit 7))
    exTl exStatic) = some ([6], [7]) := by decide +kernel

example : C39_run (intervalComplement 2 exIvStart exIvStop (some (exLimit 7)) (some (exLimit 7))
    exTl exStatic) = some ([], []) := by decide +kernel

end Vctrs
