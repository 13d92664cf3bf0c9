import Verif.Props.C38Laws
import Verif.Props.C40

/-!
# C40: containers are all that matters

The containers cover what the intervals cover, so that merging them gives the same groups; and they are
their own containers.
-/

namespace Vctrs
open Spec

variable {ts : List ATy}

theorem hasRow_picked {n : Nat} {x : Val} (hx : IsBounds ts n x) (hts : ts ≠ []) {l : List Nat}
    (hl : ∀ i ∈ l, i < n) {j : Nat} {r : Row ts} :
    HasRow ts (leaves (pick l x)) j r ↔ ∃ i, l[j]? = some i ∧ HasRow ts (leaves x) i r := by
  rw [leaves_pick]
  rcases hasRow_pick hx.types (fun p hp => sized_of_sortable (hx.sortable p hp)) hl (k := j) (r := r) with h | h
  · exact h
  · exact absurd h hts

theorem isInterval_picked {n : Nat} {start stop : Val} (h : IsIntervals ts n start stop) {l : List Nat}
    (hl : ∀ i ∈ l, i < n) {j : Nat} {x y : Row ts} :
    IsInterval ts (pick l start) (pick l stop) j x y ↔ ∃ i, l[j]? = some i ∧ IsInterval ts start stop i x y := by
  by_cases hts : ts = []
  · subst hts
    exact ⟨fun hI => absurd trivial hI.2.2, fun ⟨_, _, hI⟩ => absurd trivial hI.2.2⟩
  · unfold IsInterval
    rw [hasRow_picked h.starts hts hl, hasRow_picked h.stops hts hl]
    constructor
    · rintro ⟨⟨i, e1, h1⟩, ⟨i', e2, h2⟩, h3⟩
      rw [e1] at e2
      cases e2
      exact ⟨i, e1, h1, h2, h3⟩
    · rintro ⟨i, e1, h1, h2, h3⟩
      exact ⟨⟨i, e1, h1⟩, ⟨i, e1, h2⟩, h3⟩

theorem isMissing_picked {n : Nat} {start stop : Val} (h : IsIntervals ts n start stop) {l : List Nat}
    (hl : ∀ i ∈ l, i < n) {j : Nat} (hm : IsMissingInterval ts (pick l start) (pick l stop) j) :
    ∃ i, l[j]? = some i ∧ IsMissingInterval ts start stop i := by
  obtain ⟨hj, x, y, h1, h2, h3, h4⟩ := hm
  rw [(h.starts.pick hl).sized.size] at hj
  have hi := hl l[j] (List.getElem_mem hj)
  refine ⟨l[j], List.getElem?_eq_getElem hj, by rw [h.starts.sized.size]; exact hi, ?_⟩
  by_cases hts : ts = []
  · subst hts
    obtain ⟨s, hs⟩ := h.starts.rows
    obtain ⟨e, he⟩ := h.stops.rows
    exact ⟨_, _, hs _ hi, he _ hi, trivial, trivial⟩
  · obtain ⟨i, e1, g1⟩ := (hasRow_picked h.starts hts hl).1 h1
    obtain ⟨i', e2, g2⟩ := (hasRow_picked h.stops hts hl).1 h2
    rw [List.getElem?_eq_getElem hj] at e1 e2
    cases e1
    cases e2
    exact ⟨x, y, g1, g2, h3, h4⟩

theorem isIntervals_picked {n : Nat} {start stop : Val} (h : IsIntervals ts n start stop) {l : List Nat}
    (hl : ∀ i ∈ l, i < n) : IsIntervals ts l.length (pick l start) (pick l stop) := by
  refine ⟨h.starts.pick hl, h.stops.pick hl, h.ordered, ?_⟩
  intro j x y h1 h2
  by_cases hts : ts = []
  · subst hts
    exact .inl ⟨trivial, trivial⟩
  · obtain ⟨i, e1, g1⟩ := (hasRow_picked h.starts hts hl).1 h1
    obtain ⟨i', e2, g2⟩ := (hasRow_picked h.stops hts hl).1 h2
    rw [e1] at e2
    cases e2
    exact h.complete i x y g1 g2

theorem isMissing_not {start stop : Val} {i : Nat} {x y : Row ts} (h : IsMissingInterval ts start stop i)
    (hI : IsInterval ts start stop i x y) : False := by
  obtain ⟨_, s, _, h1, _, h3, _⟩ := h
  cases hasRow_unique h1 hI.1
  exact hI.2.2 h3

theorem rowsLt_not_self (ho : ∀ t ∈ ts, Spec.Ordered t) (x : Row ts) : ¬ RowsLt ts x x := by
  obtain ⟨K, _, k, hkey⟩ := rows_key ts ho
  rw [← hkey]
  exact lt_irrefl _

/-- The containers are locations, each once. -/
theorem containers_nodup {n : Nat} {start stop : Val} (h : IsIntervals ts n start stop) {cs mm : List Nat}
    (h1 : ∀ c ∈ cs, ∃ x y, IsInterval ts start stop c x y)
    (h3 : ∀ (j j' c c' : Nat), j ≠ j' → cs[j]? = some c → cs[j']? = some c' →
        ¬ ContainedIn ts start stop c start stop c')
    (h5 : (mm = [] ∧ ∀ i, ¬ IsMissingInterval ts start stop i) ∨
        ∃ i, IsMissingInterval ts start stop i ∧ mm = [i]) :
    (cs ++ mm).Nodup ∧ ∀ i ∈ cs ++ mm, i < n := by
  constructor
  · rw [List.nodup_append]
    refine ⟨?_, ?_, ?_⟩
    · rw [List.nodup_iff_getElem?_ne_getElem?]
      intro i j hij hj he
      obtain ⟨x, y, hI⟩ := h1 cs[j] (List.getElem_mem hj)
      rw [List.getElem?_eq_getElem hj] at he
      exact h3 i j _ _ (by omega) he (List.getElem?_eq_getElem hj)
        ⟨x, y, x, y, hI, hI, rowsLt_not_self h.ordered _, rowsLt_not_self h.ordered _⟩
    · rcases h5 with ⟨rfl, _⟩ | ⟨i, _, rfl⟩ <;> simp
    · rintro a ha b hb rfl
      obtain ⟨x, y, hI⟩ := h1 a ha
      rcases h5 with ⟨rfl, _⟩ | ⟨i, hm, rfl⟩
      · simp at hb
      · rw [List.mem_singleton] at hb
        subst hb
        exact isMissing_not hm hI
  · intro i hi
    rcases List.mem_append.1 hi with hi | hi
    · obtain ⟨x, y, hI⟩ := h1 i hi
      exact IsInterval.bound h hI
    · rcases h5 with ⟨rfl, _⟩ | ⟨i', hm, rfl⟩
      · simp at hi
      · rw [List.mem_singleton] at hi
        subst hi
        have := hm.1
        rwa [h.starts.sized.size] at this

theorem nodup_le {n : Nat} {l : List Nat} (h : l.Nodup) (hl : ∀ i ∈ l, i < n) : l.length ≤ n := by
  have := (List.subperm_of_subset h (fun i hi => List.mem_range.2 (hl i hi))).length_le
  rwa [List.length_range] at this

/-- The containers have the groups of all the intervals: merging what `vec_slice()` takes at the containers
gives the same intervals as merging everything. -/
theorem C40_groups (ts : List ATy) (n : Nat) (start stop : Val) (h : IsIntervals ts n start stop)
    (hn : n ≤ intMax) (hv : ValidIntervals ts start stop) (tl : TL) (h0 : ∀ u, 0 ≤ tl u) (fuel : Nat)
    (hf : 2 * ts.length ≤ fuel) :
    ∃ (locs : List Int) (A B S E S' E' : Val) (m m' : Nat),
      intervalLocateContainers fuel start stop tl (List.replicate 100001 0) =
        .ok (locs, tl, List.replicate 100001 0) ∧ locs.length ≤ n ∧
      valSlice (.locs locs) start = .ok A ∧ valSlice (.locs locs) stop = .ok B ∧
      (∀ r, Covers ts A B r ↔ Covers ts start stop r) ∧
      intervalGroups fuel start stop true (some "drop".toList) tl (List.replicate 100001 0) =
        .ok ((S, E), tl, List.replicate 100001 0) ∧
      intervalGroups fuel A B true (some "drop".toList) tl (List.replicate 100001 0) =
        .ok ((S', E'), tl, List.replicate 100001 0) ∧
      SameIntervals ts m S E m' S' E' ∧ S.size = m ∧ S'.size = m' := by
  obtain ⟨cs, mm, h1, h2, h3, h4, _, h6⟩ := C40_containers ts n start stop h hn tl h0 fuel hf
  obtain ⟨hnd, hl⟩ := containers_nodup h h2 h4 h6
  have hle : (cs ++ mm).length ≤ n := nodup_le hnd hl
  have hI := isIntervals_picked h hl
  have hcov : ∀ r, Covers ts start stop r ↔ Covers ts (pick (cs ++ mm) start) (pick (cs ++ mm) stop) r := by
    intro r
    constructor
    · rintro ⟨i, x, y, hi, g1, g2⟩
      obtain ⟨c, hc, s, e, s', e', k1, k2, k3, k4⟩ := h3 i x y hi
      cases hasRow_unique hi.1 k1.1
      cases hasRow_unique hi.2.1 k1.2.1
      obtain ⟨j, hj⟩ := List.mem_iff_getElem?.1 (List.mem_append_left mm hc)
      obtain ⟨K, _, k, hkey⟩ := rows_key ts h.ordered
      refine ⟨j, s', e', (isInterval_picked h hl).2 ⟨c, hj, k2⟩, ?_, ?_⟩
      · rw [← hkey] at g1 k3 ⊢
        exact not_lt.2 (le_trans (not_lt.1 k3) (not_lt.1 g1))
      · rw [← hkey] at g2 k4 ⊢
        exact lt_of_lt_of_le g2 (not_lt.1 k4)
    · rintro ⟨j, x, y, hj, g⟩
      obtain ⟨i, _, hi⟩ := (isInterval_picked h hl).1 hj
      exact ⟨i, x, y, hi, g⟩
  have hv' : ValidIntervals ts (pick (cs ++ mm) start) (pick (cs ++ mm) stop) := by
    intro j x y hj
    obtain ⟨i, _, hi⟩ := (isInterval_picked h hl).1 hj
    exact hv i x y hi
  obtain ⟨S, E, S', E', m, m', r1, r2, r3, r4, r5⟩ := C38_determined ts n _ start stop _ _ h hI hn
    (Nat.le_trans hle hn) hv hv' hcov tl h0 fuel hf
  exact ⟨_, _, _, S, E, S', E', m, m', h1, by simpa using hle, valSlice_ok hl start h.starts.sized,
    valSlice_ok hl stop h.stops.sized, fun r => (hcov r).symm, r1, r2, r3, r4, r5⟩

/-- The containers are their own containers, and are in their order. -/
theorem C40_twice (ts : List ATy) (n : Nat) (start stop : Val) (h : IsIntervals ts n start stop)
    (hn : n ≤ intMax) (tl : TL) (h0 : ∀ u, 0 ≤ tl u) (fuel : Nat) (hf : 2 * ts.length ≤ fuel) :
    ∃ (locs : List Int) (A B : Val),
      intervalLocateContainers fuel start stop tl (List.replicate 100001 0) =
        .ok (locs, tl, List.replicate 100001 0) ∧
      valSlice (.locs locs) start = .ok A ∧ valSlice (.locs locs) stop = .ok B ∧
      intervalLocateContainers fuel A B tl (List.replicate 100001 0) =
        .ok ((List.range locs.length).map (fun (i : Nat) => (i : Int) + 1), tl, List.replicate 100001 0) := by
  obtain ⟨cs, mm, h1, h2, h3, h4, h5, h6⟩ := C40_containers ts n start stop h hn tl h0 fuel hf
  obtain ⟨hnd, hl⟩ := containers_nodup h h2 h4 h6
  have hle : (cs ++ mm).length ≤ n := nodup_le hnd hl
  have hI := isIntervals_picked h hl
  obtain ⟨cs', mm', g1, g2, g3, g4, g5, g6⟩ := C40_containers ts _ _ _ hI (Nat.le_trans hle hn) tl h0 fuel hf
  refine ⟨_, _, _, h1, valSlice_ok hl start h.starts.sized, valSlice_ok hl stop h.stops.sized, ?_⟩
  rw [g1, List.length_map]
  -- Interval `j` of the slice is container `j`.
  have at_ : ∀ {j x y}, IsInterval ts (pick (cs ++ mm) start) (pick (cs ++ mm) stop) j x y →
      ∃ c, cs[j]? = some c ∧ IsInterval ts start stop c x y := by
    intro j x y hj
    obtain ⟨c, e, hc⟩ := (isInterval_picked h hl).1 hj
    by_cases hlt : j < cs.length
    · rw [List.getElem?_append_left hlt] at e
      exact ⟨c, e, hc⟩
    · rw [List.getElem?_append_right (by omega)] at e
      rcases h6 with ⟨rfl, _⟩ | ⟨i, hm, rfl⟩
      · simp at e
      · have := List.mem_of_getElem? e
        rw [List.mem_singleton] at this
        subst this
        exact (isMissing_not hm hc).elim
  have of_ : ∀ {j}, j < cs.length → ∃ x y, IsInterval ts (pick (cs ++ mm) start) (pick (cs ++ mm) stop) j x y := by
    intro j hj
    obtain ⟨x, y, hc⟩ := h2 cs[j] (List.getElem_mem hj)
    refine ⟨x, y, (isInterval_picked h hl).2 ⟨_, ?_, hc⟩⟩
    rw [List.getElem?_append_left hj, List.getElem?_eq_getElem hj]
  have hmem : ∀ j, j ∈ cs' ↔ j < cs.length := by
    intro j
    constructor
    · intro hj
      obtain ⟨x, y, hx⟩ := g2 j hj
      obtain ⟨c, e, _⟩ := at_ hx
      exact (List.getElem?_eq_some_iff.1 e).1
    · intro hj
      obtain ⟨x, y, hx⟩ := of_ hj
      obtain ⟨j', hj', s, e, s', e', k1, k2, k3⟩ := g3 j x y hx
      obtain ⟨c, e1, q1⟩ := at_ k1
      obtain ⟨c', e2, q2⟩ := at_ k2
      by_cases hjj : j = j'
      · rw [hjj]; exact hj'
      · exact absurd ⟨s, e, s', e', q1, q2, k3⟩ (h4 j j' c c' hjj e1 e2)
  have hsort : cs'.Pairwise (· < ·) := by
    rw [List.pairwise_iff_getElem]
    intro a b ha hb hab
    obtain ⟨x, y, hx⟩ := g2 cs'[a] (List.getElem_mem ha)
    obtain ⟨x', y', hx'⟩ := g2 cs'[b] (List.getElem_mem hb)
    have hlt := g5 a b _ _ x y x' y' hab (List.getElem?_eq_getElem ha) (List.getElem?_eq_getElem hb) hx hx'
    obtain ⟨c, e1, q1⟩ := at_ hx
    obtain ⟨c', e2, q2⟩ := at_ hx'
    by_contra hcon
    rcases Nat.lt_or_ge cs'[b] cs'[a] with hba | hba
    · have := h5 _ _ c' c x' y' x y hba e2 e1 q2 q1
      obtain ⟨K, _, k, hkey⟩ := rows_key ts h.ordered
      rw [← hkey] at this hlt
      exact lt_asymm this hlt
    · have heq : cs'[a] = cs'[b] := by omega
      rw [heq, e2] at e1
      cases e1
      cases hasRow_unique q1.1 q2.1
      exact rowsLt_not_self h.ordered _ hlt
  have hcs : cs' = List.range cs.length := by
    refine List.Perm.eq_of_pairwise (le := (· < ·)) (fun a b _ _ p q => absurd q (Nat.lt_asymm p)) hsort
      List.pairwise_lt_range ?_
    rw [List.perm_ext_iff_of_nodup (hsort.imp Nat.ne_of_lt) List.nodup_range]
    intro j
    rw [hmem, List.mem_range]
  have hmm : mm' = (List.range mm.length).map (cs.length + ·) := by
    have miss : ∀ j, IsMissingInterval ts (pick (cs ++ mm) start) (pick (cs ++ mm) stop) j →
        ∃ i, mm[j - cs.length]? = some i ∧ cs.length ≤ j := by
      intro j hj
      obtain ⟨i, e, hi⟩ := isMissing_picked h hl hj
      by_cases hlt : j < cs.length
      · rw [List.getElem?_append_left hlt] at e
        obtain ⟨x, y, hx⟩ := h2 i (List.mem_of_getElem? e)
        exact (isMissing_not hi hx).elim
      · rw [List.getElem?_append_right (by omega)] at e
        exact ⟨i, e, by omega⟩
    rcases h6 with ⟨rfl, hno⟩ | ⟨i, hm, rfl⟩
    · rcases g6 with ⟨rfl, _⟩ | ⟨j, hj, rfl⟩
      · rfl
      · obtain ⟨i, e, _⟩ := miss j hj
        simp at e
    · rcases g6 with ⟨rfl, hno⟩ | ⟨j, hj, rfl⟩
      · refine absurd ?_ (hno cs.length)
        obtain ⟨_, x, y, k1, k2, k3, k4⟩ := hm
        have hat : (cs ++ [i])[cs.length]? = some i := by simp
        refine ⟨by rw [hI.starts.sized.size]; simp, x, y, ?_, ?_, k3, k4⟩
        · exact h.starts.pick_row hl hat k1
        · exact h.stops.pick_row hl hat k2
      · obtain ⟨_, e, hge⟩ := miss j hj
        have := (List.getElem?_eq_some_iff.1 e).1
        simp only [List.length_singleton] at this
        have : j = cs.length := by omega
        subst this
        rfl
  rw [hcs, hmm, List.length_append, List.range_add]

/-! ## Examples -/

example := C40_groups [.int] 6 exIvStart exIvStop exIv (by decide) exIv_valid exTl exTl_ok 2 (by decide)
example := C40_twice [.int] 6 exIvStart exIvStop exIv (by decide) exTl exTl_ok 2 (by decide)

end Vctrs
