import Verif.Lemmas.IntervalOrder

namespace Vctrs

open Spec

/-! ## Comparison by keys -/

/-- A comparison gives -1, 0 or 1 by the order of keys. -/
structure KeyCmp {K : Type} [LinearOrder K] (a b : K) (c : Int) : Prop where
  range : c = -1 ∨ c = 0 ∨ c = 1
  lt : c = -1 ↔ a < b
  gt : c = 1 ↔ b < a

section
variable {K : Type} [LinearOrder K]

theorem KeyCmp.le_zero {a b : K} {c : Int} (h : KeyCmp a b c) : c ≤ 0 ↔ a ≤ b := by
  rw [← not_lt (a := b), ← h.gt]
  have := h.range
  omega

theorem KeyCmp.le_neg {a b : K} {c : Int} (h : KeyCmp a b c) : c ≤ -1 ↔ a < b := by
  rw [← h.lt]
  have := h.range
  omega

theorem KeyCmp.ge_zero {a b : K} {c : Int} (h : KeyCmp a b c) : c ≥ 0 ↔ b ≤ a := by
  rw [← not_lt (a := a), ← h.lt]
  have := h.range
  omega

theorem polyCompare_key {ts : List ATy} {k : Row ts → K} (hk : ∀ a b, k a < k b ↔ RowsLt ts a b)
    (ho : ∀ t ∈ ts, Spec.Ordered t) {x y : Val} {n m : Nat}
    (hx : IsBounds ts n x) (hy : IsBounds ts m y) {i j : Nat} {a b : Row ts}
    (ha : HasRow ts (leaves x) i a) (hb : HasRow ts (leaves y) j b) :
    ∃ c, polyCompare (packLeaves x.size (leaves x)) i (packLeaves y.size (leaves y)) j = .ok c ∧
      KeyCmp (k a) (k b) c := by
  obtain ⟨c, hc, h1, h2, h3⟩ := polyCompare_ok ho hx hy ha hb
  exact ⟨c, hc, h1, h2.trans (hk a b).symm, h3.trans (hk b a).symm⟩

end

/-! ## The missing intervals -/

/-- Locations from 1. -/
def locs1 (l : List Nat) : List Int := l.map (fun (i : Nat) => (i : Int) + 1)

theorem locs1_get {l : List Nat} {k i : Nat} (h : l[k]? = some i) :
    rd (locs1 l) k = .ok ((i : Int) + 1) := by
  refine rd_of_getElem? ?_
  unfold locs1
  rw [List.getElem?_map, h]
  rfl

theorem add_sub_one (i : Nat) : (i : Int) + 1 - 1 = (i : Int) := by omega

section
variable {ts : List ATy} {n : Nat} {start stop : Val} {K : Type} [LinearOrder K] {k : Row ts → K}
  {s e : Nat → Row ts} {desc : Bool} {ms q : List Nat}

theorem Sorted.lt (hq : Sorted ts n k s e desc ms q) {i : Nat} (hi : i ∈ ms ++ q) : i < n :=
  List.mem_range.1 (hq.perm.mem_iff.1 hi)

theorem Sorted.length (hq : Sorted ts n k s e desc ms q) : ms.length + q.length = n := by
  have := hq.perm.length_eq
  rw [List.length_append, List.length_range] at this
  exact this

theorem Sorted.missing_at (h : IsIntervals ts n start stop) (hk : Keyed ts n start stop K k s e)
    (hq : Sorted ts n k s e desc ms q) {j i : Nat} (hj : (ms ++ q)[j]? = some i) :
    polyIsMissing (packLeaves start.size (leaves start)) (i : Int) = .ok (decide (j < ms.length)) := by
  have hi : i < n := hq.lt (List.mem_of_getElem? hj)
  obtain ⟨b, hb, h1⟩ := polyIsMissing_ok h.starts hi (hk.rowS i hi)
  rw [hb]
  congr 1
  rw [Bool.eq_iff_iff, h1, decide_eq_true_iff]
  by_cases hlt : j < ms.length
  · rw [List.getElem?_append_left hlt] at hj
    exact ⟨fun _ => hlt, fun _ => (hq.missing i (List.mem_of_getElem? hj)).1⟩
  · rw [List.getElem?_append_right (by omega)] at hj
    exact ⟨fun h => absurd h (hq.complete i (List.mem_of_getElem? hj)).1, fun h => absurd h hlt⟩

theorem skipMissing_ok (h : IsIntervals ts n start stop) (hk : Keyed ts n start stop K k s e)
    (hq : Sorted ts n k s e desc ms q) :
    skipMissing (locs1 (ms ++ q)) (packLeaves start.size (leaves start)) n =
      .ok (ms.length, (ms.length : Int) - 1) := by
  suffices H : Ret (skipMissing (locs1 (ms ++ q)) (packLeaves start.size (leaves start)) n)
      (fun r => r = (ms.length, (ms.length : Int) - 1)) by
    obtain ⟨r, hr, rfl⟩ := H
    exact hr
  have hlen := hq.length
  unfold skipMissing
  refine Ret.forBrk (fun i s => i ≤ ms.length ∧ s = (i, (i : Int) - 1)) _ ⟨by omega, rfl⟩ ?_ ?_
  · rintro i st hi ⟨hle, rfl⟩
    have hj : (ms ++ q)[i]? = some ((ms ++ q)[i]'(by simp; omega)) := List.getElem?_eq_getElem _
    refine Ret.bind_eq (locs1_get hj) ?_
    rw [add_sub_one]
    refine Ret.bind_eq (hq.missing_at h hk hj) ?_
    by_cases hlt : i < ms.length
    · rw [decide_eq_true hlt]
      exact Ret.ok ⟨hlt, by simp⟩
    · rw [decide_eq_false hlt]
      have : i = ms.length := by omega
      subst this
      exact Ret.ok rfl
  · rintro st ⟨hle, rfl⟩
    have : n = ms.length := by omega
    rw [this]

theorem skipMissingAny_ok (h : IsIntervals ts n start stop) (hk : Keyed ts n start stop K k s e)
    (hq : Sorted ts n k s e desc ms q) :
    skipMissingAny (locs1 (ms ++ q)) (packLeaves start.size (leaves start)) n =
      .ok (ms.length, decide (0 < ms.length)) := by
  suffices H : Ret (skipMissingAny (locs1 (ms ++ q)) (packLeaves start.size (leaves start)) n)
      (fun r => r = (ms.length, decide (0 < ms.length))) by
    obtain ⟨r, hr, rfl⟩ := H
    exact hr
  have hlen := hq.length
  unfold skipMissingAny
  refine Ret.forBrk (fun i s => i ≤ ms.length ∧ s = (i, decide (0 < i))) _ ⟨by omega, rfl⟩ ?_ ?_
  · rintro i st hi ⟨hle, rfl⟩
    have hj : (ms ++ q)[i]? = some ((ms ++ q)[i]'(by simp; omega)) := List.getElem?_eq_getElem _
    refine Ret.bind_eq (locs1_get hj) ?_
    rw [add_sub_one]
    refine Ret.bind_eq (hq.missing_at h hk hj) ?_
    by_cases hlt : i < ms.length
    · rw [decide_eq_true hlt]
      exact Ret.ok ⟨hlt, by simp⟩
    · rw [decide_eq_false hlt]
      have : i = ms.length := by omega
      subst this
      exact Ret.ok rfl
  · rintro st ⟨hle, rfl⟩
    have : n = ms.length := by omega
    rw [this]

end

/-! ## Groups -/

theorem copyOrder_ok (pre mid post : List Nat) {f l : Int} (hf : f = (pre.length : Int))
    (hl : l = (pre.length : Int) + (mid.length : Int) - 1) :
    copyOrder (locs1 (pre ++ mid ++ post)) f l = .ok (locs1 mid) := by
  have hsz : l - f + 1 = (mid.length : Int) := by omega
  unfold copyOrder
  dsimp only
  rw [hsz, if_neg (by omega), Int.toNat_natCast]
  suffices H : Ret (forN mid.length (fun j (v : List (Option Int)) => do
      let l ← rdI (locs1 (pre ++ mid ++ post)) (f + j)
      wr v j (some l)) (alloc Int mid.length) >>= initd) (fun r => r = locs1 mid) by
    obtain ⟨r, hr, rfl⟩ := H
    exact hr
  refine Ret.bind (Ret.forN (Filled (fun j r => ∀ i, mid[j]? = some i → r = (i : Int) + 1) mid.length)
    (Filled.start _ _) ?_) ?_
  · intro j v hj hv
    have hm : (pre ++ mid ++ post)[pre.length + j]? = some mid[j] := by
      rw [List.append_assoc, List.getElem?_append_right (by omega),
        List.getElem?_append_left (by omega), Nat.add_sub_cancel_left]
      exact List.getElem?_eq_getElem hj
    have hr : rdI (locs1 (pre ++ mid ++ post)) (f + j) = .ok ((mid[j] : Int) + 1) := by
      refine rdI_ok (by omega) ?_
      have : (f + j).toNat = pre.length + j := by omega
      rw [this]
      unfold locs1
      rw [List.getElem?_map, hm]
      rfl
    refine Ret.bind_eq hr ?_
    obtain ⟨h1, h2⟩ := hv.step (r := (mid[j] : Int) + 1) hj (by
      intro i hi
      rw [List.getElem?_eq_getElem hj] at hi
      cases hi
      rfl)
    exact ⟨_, h1, h2⟩
  · intro v hv
    refine hv.done.mono ?_
    rintro out ⟨h1, h2⟩
    apply List.ext_getElem?
    intro j
    unfold locs1
    rw [List.getElem?_map]
    by_cases hj : j < mid.length
    · have e1 := List.getElem?_eq_getElem hj
      have e2 := List.getElem?_eq_getElem (l := out) (i := j) (by omega)
      rw [e1, e2, h2 j _ e2 _ e1]
      rfl
    · rw [List.getElem?_eq_none (by omega), List.getElem?_eq_none (by omega)]
      rfl

/-- A group: the rows of its start and of its end, and all its rows. -/
structure Grp where
  first : Nat
  last : Nat
  mem : List Nat

/-- The group lies between its start and its end and leaves nothing out.  Its rows overlap, or abut
if `abutting`. -/
structure Grp.Ok {K : Type} [LinearOrder K] (a b : Nat → K) (abutting : Bool) (g : Grp) : Prop where
  first_mem : g.first ∈ g.mem
  last_mem : g.last ∈ g.mem
  inside : ∀ i ∈ g.mem, a g.first ≤ a i ∧ b i ≤ b g.last
  cover : ∀ x, a g.first ≤ x → x < b g.last → ∃ i ∈ g.mem, a i ≤ x ∧ x < b i
  joined : abutting = false → ∀ x, a g.first < x → x < b g.last → ∃ i ∈ g.mem, a i < x ∧ x < b i

/-- A group ends before another starts. -/
def Grp.Sep {K : Type} [LinearOrder K] (a b : Nat → K) (abutting : Bool) (g h : Grp) : Prop :=
  if abutting then b g.last < a h.first else b g.last ≤ a h.first

/-- The rows of groups. -/
def members (G : List Grp) : List Nat := G.flatMap Grp.mem

/-- The starts, ends and locations of groups. -/
def IvPushed (locations : Bool) (G : List Grp) (starts stops : List Int) (locs : List (List Int)) : Prop :=
  starts = locs1 (G.map Grp.first) ∧ stops = locs1 (G.map Grp.last) ∧
    locs = if locations then G.map (fun g => locs1 g.mem) else []

theorem pushGroup_ok {locations : Bool} {G : List Grp} {g : Grp} {st : GroupState}
    (h : IvPushed locations G st.starts st.stops st.locs) {pre post : List Nat} {f l : Int}
    (hf : f = (pre.length : Int)) (hl : l = (pre.length : Int) + (g.mem.length : Int) - 1) :
    Ret (pushGroup locations (locs1 (pre ++ g.mem ++ post)) (g.first : Int) (g.last : Int) f l st)
      (fun r => IvPushed locations (G ++ [g]) r.starts r.stops r.locs ∧ r.orderStart = st.orderStart ∧
        r.orderEnd = st.orderEnd ∧ r.groupStart = st.groupStart ∧ r.groupEnd = st.groupEnd) := by
  obtain ⟨h1, h2, h3⟩ := h
  unfold pushGroup
  dsimp only
  cases locations with
  | false =>
    refine Ret.ok ⟨⟨?_, ?_, ?_⟩, rfl, rfl, rfl, rfl⟩
    · simp [h1, locs1]
    · simp [h2, locs1]
    · simpa using h3
  | true =>
    rw [if_pos rfl, copyOrder_ok pre g.mem post hf hl]
    refine Ret.ok ⟨⟨?_, ?_, ?_⟩, rfl, rfl, rfl, rfl⟩
    · simp [h1, locs1]
    · simp [h2, locs1]
    · simp [h3]

section
variable {K : Type} [LinearOrder K] {a b : Nat → K} {abutting : Bool}

theorem Grp.Ok.single (i : Nat) : Grp.Ok a b abutting ⟨i, i, [i]⟩ := by
  refine ⟨by simp, by simp, ?_, ?_, ?_⟩
  · intro j hj
    rw [List.mem_singleton] at hj
    subst hj
    exact ⟨le_refl _, le_refl _⟩
  · intro x h1 h2
    exact ⟨i, by simp, h1, h2⟩
  · intro _ x h1 h2
    exact ⟨i, by simp, h1, h2⟩

theorem Grp.Ok.grow {g : Grp} (h : g.Ok a b abutting) {j : Nat} (h1 : a g.first ≤ a j)
    (h2 : a j ≤ b g.last) (h3 : abutting = false → a j < b g.last)
    {l : Nat} (hl : l = if b g.last < b j then j else g.last) :
    Grp.Ok a b abutting ⟨g.first, l, g.mem ++ [j]⟩ := by
  have hle : b g.last ≤ b l ∧ b j ≤ b l := by
    subst hl
    split
    · rename_i hb
      exact ⟨le_of_lt hb, le_refl _⟩
    · rename_i hb
      exact ⟨le_refl _, not_lt.1 hb⟩
  refine ⟨by simp [h.first_mem], ?_, ?_, ?_, ?_⟩
  · subst hl
    dsimp only
    split
    · simp
    · simp [h.last_mem]
  · intro i hi
    dsimp only at hi ⊢
    rcases List.mem_append.1 hi with hi | hi
    · exact ⟨(h.inside i hi).1, le_trans (h.inside i hi).2 hle.1⟩
    · rw [List.mem_singleton] at hi
      subst hi
      exact ⟨h1, hle.2⟩
  · intro x hx1 hx2
    dsimp only at hx1 hx2 ⊢
    by_cases hx : x < b g.last
    · obtain ⟨i, hi, h3⟩ := h.cover x hx1 hx
      exact ⟨i, by simp [hi], h3⟩
    · have hx' := not_lt.1 hx
      refine ⟨j, by simp, le_trans h2 hx', ?_⟩
      subst hl
      split at hx2
      · exact hx2
      · exact absurd hx2 hx
  · intro ha x hx1 hx2
    dsimp only at hx1 hx2 ⊢
    by_cases hx : x < b g.last
    · obtain ⟨i, hi, h3⟩ := h.joined ha x hx1 hx
      exact ⟨i, by simp [hi], h3⟩
    · have hx' := not_lt.1 hx
      refine ⟨j, by simp, lt_of_lt_of_le (h3 ha) hx', ?_⟩
      subst hl
      split at hx2
      · exact hx2
      · exact absurd hx2 hx

end

section
variable {ts : List ATy} {n : Nat} {start stop : Val} {K : Type} [LinearOrder K] {k : Row ts → K}
  {s e : Nat → Row ts} {ms q : List Nat}

/-- The state of the loop at row `i` of the order. -/
structure IvLoop (k : Row ts → K) (s e : Nat → Row ts) (ms q : List Nat)
    (abutting locations : Bool) (i : Nat) (st : GroupState) (G : List Grp) (g : Grp)
    (rest : List Nat) : Prop where
  split : q = members G ++ g.mem ++ rest
  at' : i = ms.length + (members G).length + g.mem.length
  ok : ∀ g' ∈ G ++ [g], g'.Ok (fun i => k (s i)) (fun i => k (e i)) abutting
  sep : (G ++ [g]).Pairwise (Grp.Sep (fun i => k (s i)) (fun i => k (e i)) abutting)
  pushed : IvPushed locations G st.starts st.stops st.locs
  orderStart : st.orderStart = (ms.length : Int) + ((members G).length : Int)
  orderEnd : st.orderEnd = (i : Int) - 1
  groupStart : st.groupStart = (g.first : Int)
  groupEnd : st.groupEnd = (g.last : Int)

theorem groupRound_ok (h : IsIntervals ts n start stop) (hk : Keyed ts n start stop K k s e)
    (hq : Sorted ts n k s e false ms q) {abutting locations : Bool} {i : Nat} {st : GroupState}
    {G : List Grp} {g : Grp} {j : Nat} {rest : List Nat}
    (hl : IvLoop k s e ms q abutting locations i st G g (j :: rest)) :
    Ret (groupRound abutting locations (locs1 (ms ++ q)) (packLeaves start.size (leaves start))
      (packLeaves stop.size (leaves stop)) i st) (fun st' => ∃ G' g',
        IvLoop k s e ms q abutting locations (i + 1) st' G' g' rest) := by
  have hg := hl.ok g (by simp)
  have hmq : ∀ x ∈ g.mem, x ∈ q := fun x hx => by rw [hl.split]; simp [hx]
  have hjq : j ∈ q := by rw [hl.split]; simp
  have hn : ∀ x ∈ q, x < n := fun x hx => hq.lt (by simp [hx])
  have hge := hmq _ hg.last_mem
  have hj : (ms ++ q)[i]? = some j := by
    rw [hl.split, hl.at']
    rw [← List.append_assoc ms, List.getElem?_append_right (by simp; omega)]
    have e1 : ms.length + (members G).length + g.mem.length -
        (ms ++ (members G ++ g.mem)).length = 0 := by simp; omega
    rw [e1]
    rfl
  have hsort : k (s g.first) ≤ k (s j) := by
    have := hq.sorted
    rw [hl.split, List.pairwise_append] at this
    rcases this.2.2 g.first (by simp [hg.first_mem]) j (by simp) with h | h
    · exact le_of_lt h
    · exact le_of_eq h.1
  unfold groupRound
  refine Ret.bind_eq (locs1_get hj) ?_
  rw [add_sub_one, hl.groupEnd]
  obtain ⟨c, hc, hcmp⟩ := polyCompare_key hk.key h.ordered h.stops h.starts
    (hk.rowE _ (hn _ hge)) (hk.rowS _ (hn _ hjq))
  dsimp only
  rw [hc, ok_bind]
  have hif : c ≤ (if abutting then -1 else 0) ↔
      Grp.Sep (fun i => k (s i)) (fun i => k (e i)) abutting g ⟨j, j, [j]⟩ := by
    unfold Grp.Sep
    cases abutting with
    | false => exact hcmp.le_zero
    | true => exact hcmp.le_neg
  by_cases hs : c ≤ (if abutting then -1 else 0)
  · rw [if_pos hs]
    have hsep := hif.1 hs
    have hspl : ms ++ q = (ms ++ members G) ++ g.mem ++ (j :: rest) := by
      rw [hl.split]; simp
    rw [hspl, hl.groupStart]
    obtain ⟨st', h1, h2, h3, h4, h5, h6⟩ := pushGroup_ok (pre := ms ++ members G) (post := j :: rest)
      hl.pushed (g := g) (f := st.orderStart) (l := st.orderEnd)
      (by rw [hl.orderStart]; simp) (by rw [hl.orderEnd, hl.at']; simp)
    rw [h1, ok_bind]
    refine Ret.ok ⟨G ++ [g], ⟨j, j, [j]⟩, ?_⟩
    have hm : members (G ++ [g]) = members G ++ g.mem := by simp [members]
    refine ⟨?_, ?_, ?_, ?_, h2, ?_, ?_, rfl, rfl⟩
    · rw [hm, hl.split]; simp
    · rw [hm, hl.at']; simp; omega
    · intro g' hg'
      rcases List.mem_append.1 hg' with hg' | hg'
      · exact hl.ok g' hg'
      · rw [List.mem_singleton] at hg'
        subst hg'
        exact Grp.Ok.single j
    · rw [List.pairwise_append]
      refine ⟨hl.sep, by simp, ?_⟩
      intro g1 hg1 g2 hg2
      rw [List.mem_singleton] at hg2
      subst hg2
      rcases List.mem_append.1 hg1 with hg1 | hg1
      · have hp := (List.pairwise_append.1 hl.sep).2.2 g1 hg1 g (by simp)
        unfold Grp.Sep at hp ⊢
        cases abutting with
        | false => exact le_trans hp hsort
        | true => exact lt_of_lt_of_le hp hsort
      · rw [List.mem_singleton] at hg1
        subst hg1
        exact hsep
    · show st'.orderEnd + 1 = _
      rw [h4, hl.orderEnd, hm, hl.at']
      simp
      omega
    · show (i : Int) = _
      push_cast
      omega
  · rw [if_neg hs]
    have hnsep : k (s j) ≤ k (e g.last) ∧ (abutting = false → k (s j) < k (e g.last)) := by
      have : ¬ Grp.Sep (fun i => k (s i)) (fun i => k (e i)) abutting g ⟨j, j, [j]⟩ :=
        fun h => hs (hif.2 h)
      unfold Grp.Sep at this
      cases abutting with
      | false => exact ⟨le_of_lt (not_le.1 this), fun _ => not_le.1 this⟩
      | true => exact ⟨not_lt.1 this, fun h => absurd h (by simp)⟩
    obtain ⟨d, hd, hdmp⟩ := polyCompare_key hk.key h.ordered h.stops h.stops
      (hk.rowE _ (hn _ hge)) (hk.rowE _ (hn _ hjq))
    rw [hd]
    have key : ∀ (l : Nat) (st' : GroupState), l = (if k (e g.last) < k (e j) then j else g.last) →
        st' = { st with groupEnd := (l : Int), orderEnd := (i : Int) } →
        IvLoop k s e ms q abutting locations (i + 1) st' G ⟨g.first, l, g.mem ++ [j]⟩ rest := by
      rintro l st' hlast rfl
      refine ⟨?_, ?_, ?_, ?_, hl.pushed, hl.orderStart, ?_, hl.groupStart, rfl⟩
      · rw [hl.split]; simp
      · rw [hl.at']; simp; omega
      · intro g' hg'
        rcases List.mem_append.1 hg' with hg' | hg'
        · exact hl.ok g' (by simp [hg'])
        · rw [List.mem_singleton] at hg'
          subst hg'
          exact hg.grow hsort hnsep.1 hnsep.2 hlast
      · have := hl.sep
        rw [List.pairwise_append] at this ⊢
        refine ⟨this.1, by simp, ?_⟩
        intro g1 hg1 g2 hg2
        rw [List.mem_singleton] at hg2
        subst hg2
        exact this.2.2 g1 hg1 g (by simp)
      · show (i : Int) = _
        push_cast
        omega
    by_cases hdl : d = -1
    · rw [ok_bind, if_pos hdl]
      refine Ret.ok ⟨G, _, key j _ ?_ rfl⟩
      rw [if_pos (hdmp.lt.1 hdl)]
    · rw [ok_bind, if_neg hdl]
      refine Ret.ok ⟨G, _, key g.last _ ?_ ?_⟩
      · rw [if_neg (fun h => hdl (hdmp.lt.2 h))]
      · rw [← hl.groupEnd]

/-- The groups found, and that of the missing intervals. -/
structure GroupsFound (k : Row ts → K) (s e : Nat → Row ts) (ms q : List Nat)
    (abutting group locations : Bool) (r : IntervalGroups) (G Gm : List Grp) : Prop where
  split : members G = q
  ok : ∀ g ∈ G, g.Ok (fun i => k (s i)) (fun i => k (e i)) abutting
  sep : G.Pairwise (Grp.Sep (fun i => k (s i)) (fun i => k (e i)) abutting)
  missing : (Gm = [] ∧ (group = false ∨ ms = [])) ∨ (group = true ∧ ∃ g, Gm = [g] ∧ g.first ∈ ms ∧
    g.last ∈ ms ∧ g.mem = ms)
  pushed : IvPushed locations (G ++ Gm) r.starts r.stops r.locs

theorem groupOrdered_ok (h : IsIntervals ts n start stop) (hk : Keyed ts n start stop K k s e)
    (hq : Sorted ts n k s e false ms q) (abutting group locations : Bool) :
    Ret (groupOrdered abutting group locations (locs1 (ms ++ q))
      (packLeaves start.size (leaves start)) (packLeaves stop.size (leaves stop)) n) (fun r =>
        ∃ G Gm, GroupsFound k s e ms q abutting group locations r G Gm) := by
  have hlen := hq.length
  unfold groupOrdered
  refine Ret.bind_eq (skipMissing_ok h hk hq) ?_
  dsimp only
  -- the missing intervals
  have hmiss : ∀ (st : GroupState) (G : List Grp), IvPushed locations G st.starts st.stops st.locs →
      Ret (if (group && decide ((ms.length : Int) - 1 ≥ 0)) = true then do
          let a ← rdI (locs1 (ms ++ q)) 0
          let b ← rdI (locs1 (ms ++ q)) ((ms.length : Int) - 1)
          pushGroup locations (locs1 (ms ++ q)) (a - 1) (b - 1) 0 ((ms.length : Int) - 1) st
        else .ok st : C GroupState) (fun st' => ∃ Gm,
          ((Gm = [] ∧ (group = false ∨ ms = [])) ∨ (group = true ∧ ∃ g, Gm = [g] ∧ g.first ∈ ms ∧
            g.last ∈ ms ∧ g.mem = ms)) ∧ IvPushed locations (G ++ Gm) st'.starts st'.stops st'.locs) := by
    intro st G hp
    cases group with
    | false =>
      refine Ret.ok ⟨[], .inl ⟨rfl, .inl rfl⟩, by simpa using hp⟩
    | true =>
      by_cases hm : ms = []
      · subst hm
        refine Ret.ok ⟨[], .inl ⟨rfl, .inr rfl⟩, by simpa using hp⟩
      · have hpos : 0 < ms.length := List.length_pos_iff.2 hm
        have hlast : ms.length - 1 < ms.length := by omega
        rw [if_pos (by simp; omega)]
        have e0 : rdI (locs1 (ms ++ q)) 0 = .ok ((ms[0] : Int) + 1) := by
          refine rdI_ok (by omega) ?_
          unfold locs1
          rw [List.getElem?_map, Int.toNat_zero, List.getElem?_append_left hpos,
            List.getElem?_eq_getElem hpos]
          rfl
        have e1 : rdI (locs1 (ms ++ q)) ((ms.length : Int) - 1) = .ok ((ms[ms.length - 1] : Int) + 1) := by
          refine rdI_ok (by omega) ?_
          have : ((ms.length : Int) - 1).toNat = ms.length - 1 := by omega
          unfold locs1
          rw [this, List.getElem?_map, List.getElem?_append_left hlast,
            List.getElem?_eq_getElem hlast]
          rfl
        rw [e0, ok_bind, e1, ok_bind, add_sub_one, add_sub_one]
        have hspl : ms ++ q = [] ++ ms ++ q := by simp
        rw [hspl]
        refine (pushGroup_ok (pre := []) (post := q) hp (g := ⟨ms[0], ms[ms.length - 1], ms⟩)
          (by simp) (by simp)).mono ?_
        rintro st' ⟨h6, -⟩
        exact ⟨_, .inr ⟨rfl, _, rfl, List.getElem_mem _, List.getElem_mem _, rfl⟩, h6⟩
  refine Ret.bind (P := fun si => (q = [] ∧ si = (⟨[], [], [], 0, -1, 0, -1⟩, n)) ∨
    (si.2 ≤ n ∧ ∃ g rest, IvLoop k s e ms q abutting locations si.2 si.1 [] g rest)) ?_ ?_
  · match hqq : q with
    | [] =>
      have e1 : ms.length = n := by rw [hqq] at hlen; simpa using hlen
      rw [if_neg (by omega), e1]
      exact Ret.ok (.inl ⟨rfl, rfl⟩)
    | j :: rest =>
      rw [hqq, List.length_cons] at hlen
      have hj : (ms ++ j :: rest)[ms.length]? = some j := by simp
      rw [if_pos (by omega), locs1_get hj, ok_bind, add_sub_one]
      refine Ret.ok (.inr ⟨by show ms.length + 1 ≤ n; omega, ⟨j, j, [j]⟩, rest, rfl, by simp [members], ?_,
        by simp, ⟨rfl, rfl, ?_⟩, by simp [members], ?_, rfl, rfl⟩)
      · intro g hg
        simp only [List.nil_append, List.mem_singleton] at hg
        subst hg
        exact Grp.Ok.single j
      · cases locations <;> rfl
      · show (ms.length : Int) = _
        push_cast
        omega
  rintro ⟨st, i⟩ hsi
  dsimp only at hsi ⊢
  refine Ret.bind (P := fun st => (q = [] ∧ st = ⟨[], [], [], 0, -1, 0, -1⟩) ∨
    (∃ G g rest, IvLoop k s e ms q abutting locations n st G g rest)) ?_ ?_
  · rcases hsi with ⟨h1, h2⟩ | ⟨hin, g, rest, hl⟩
    · cases h2
      rw [Nat.sub_self]
      exact Ret.ok (.inl ⟨h1, rfl⟩)
    · refine (Ret.forFrom (fun i st => ∃ G g rest, IvLoop k s e ms q abutting locations i st G g rest)
        ⟨[], g, rest, hl⟩ ?_).mono ?_
      · rintro i st h1 h2 ⟨G, g, rest', hl⟩
        match rest', hl with
        | [], hl =>
          have h3 := hl.split
          have h4 := hl.at'
          have h5 := congrArg List.length h3
          simp at h5
          omega
        | x :: rest'', hl =>
          refine (groupRound_ok h hk hq hl).mono ?_
          rintro st' ⟨G', g', hl'⟩
          exact ⟨G', g', rest'', hl'⟩
      · intro st hst
        rw [Nat.add_sub_cancel' hin] at hst
        exact .inr hst
  intro st hst
  refine Ret.bind (P := fun st => ∃ G, members G = q ∧
        (∀ g ∈ G, g.Ok (fun i => k (s i)) (fun i => k (e i)) abutting) ∧
        G.Pairwise (Grp.Sep (fun i => k (s i)) (fun i => k (e i)) abutting) ∧
        IvPushed locations G st.starts st.stops st.locs) ?_ ?_
  · rcases hst with ⟨rfl, rfl⟩ | ⟨G, g, rest', hl⟩
    · rw [if_neg (by decide)]
      refine Ret.ok ⟨[], rfl, by simp, by simp, rfl, rfl, ?_⟩
      cases locations <;> rfl
    · have h3 := hl.split
      have h4 := hl.at'
      have h5 := congrArg List.length h3
      simp at h5
      have hg := hl.ok g (by simp)
      have hgl : 0 < g.mem.length := List.length_pos_of_mem hg.first_mem
      have hr : rest' = [] := by
        apply List.eq_nil_of_length_eq_zero
        omega
      subst hr
      rw [if_pos (by rw [hl.orderEnd, hl.orderStart]; omega)]
      have hspl : ms ++ q = (ms ++ members G) ++ g.mem ++ [] := by
        rw [hl.split]; simp
      rw [hspl, hl.groupStart, hl.groupEnd]
      refine (pushGroup_ok (pre := ms ++ members G) (post := []) hl.pushed (g := g)
        (by rw [hl.orderStart]; simp) (by rw [hl.orderEnd]; simp; omega)).mono ?_
      rintro st' ⟨h6, -⟩
      refine ⟨G ++ [g], ?_, hl.ok, hl.sep, h6⟩
      rw [h3]
      simp [members]
  rintro st ⟨G, h1, h2, h3, h4⟩
  refine Ret.bind (hmiss st G h4) ?_
  rintro st' ⟨Gm, h5, h6⟩
  exact Ret.ok ⟨G, Gm, h1, h2, h3, h5, h6⟩

theorem intervalGroupInfo_ok (h : IsIntervals ts n start stop) (hn : n ≤ intMax)
    (hk : Keyed ts n start stop K k s e) (abutting group locations : Bool) {tl : TL}
    (h0 : ∀ u, 0 ≤ tl u) {fuel : Nat} (hf : 2 * ts.length ≤ fuel) :
    ∃ ms q r G Gm, Sorted ts n k s e false ms q ∧
      GroupsFound k s e ms q abutting group locations r G Gm ∧
      intervalGroupInfo fuel start stop abutting group locations tl (List.replicate 100001 0) =
        .ok (r, tl, List.replicate 100001 0) := by
  obtain ⟨ms, q, ho, hq⟩ := intervalOrder_ok h hn hk (direction := chrsAsc) (naValue := chrsSmallest)
    (desc := false) (na := false) ⟨rfl, .inl ⟨_, false, rfl, rfl, by simp⟩⟩
    ⟨rfl, .inl ⟨_, false, rfl, rfl, by simp⟩⟩ h0 hf
  obtain ⟨r, hr, G, Gm, hG⟩ := groupOrdered_ok h hk hq abutting group locations
  refine ⟨ms, q, r, G, Gm, hq, hG, ?_⟩
  unfold intervalGroupInfo
  rw [proxyVal_ok, ok_bind, proxyVal_ok, ok_bind]
  dsimp only
  rw [h.starts.pack_size, h.stops.pack_size, if_neg (by simp), ho, ok_bind]
  dsimp only
  exact bind_eq_of hr rfl

/-! ## The intervals of the result -/

theorem hasRow_lt {x : Val} (hx : IsBounds ts n x) (hts : ts ≠ []) {i : Nat} {r : Row ts}
    (hr : HasRow ts (leaves x) i r) : i < n := by
  have hs := hx.sortable
  match ts, hts, r, hr with
  | t :: ts, _, (a, r), ⟨xs, qs, e, ha, _⟩ =>
    rw [e] at hs
    have := sized_of_sortable (hs _ (List.mem_cons_self ..))
    cases this with
    | vec _ _ h =>
      rw [← h]
      exact (List.getElem?_eq_some_iff.1 ha).1

theorem not_nil_of_complete {r : Row ts} (h : ¬ EachMissing ts r) : ts ≠ [] := by
  rintro rfl
  exact h trivial

theorem isInterval_source (h : IsIntervals ts n start stop) (hk : Keyed ts n start stop K k s e)
    {desc : Bool} (hq : Sorted ts n k s e desc ms q) {i : Nat} {x y : Row ts} :
    IsInterval ts start stop i x y ↔ i ∈ q ∧ x = s i ∧ y = e i := by
  constructor
  · rintro ⟨h1, h2, h3⟩
    have hi := hasRow_lt h.starts (not_nil_of_complete h3) h1
    have e1 := hasRow_unique h1 (hk.rowS i hi)
    have e2 := hasRow_unique h2 (hk.rowE i hi)
    subst e1
    refine ⟨?_, rfl, e2⟩
    have hm : i ∈ ms ++ q := hq.perm.mem_iff.2 (List.mem_range.2 hi)
    rcases List.mem_append.1 hm with hm | hm
    · exact absurd (hq.missing i hm).1 h3
    · exact hm
  · rintro ⟨hi, rfl, rfl⟩
    have hin : i < n := hq.lt (by simp [hi])
    exact ⟨hk.rowS i hin, hk.rowE i hin, (hq.complete i hi).1⟩

theorem isMissing_source (h : IsIntervals ts n start stop) (hk : Keyed ts n start stop K k s e)
    {desc : Bool} (hq : Sorted ts n k s e desc ms q) {i : Nat} :
    IsMissingInterval ts start stop i ↔ i ∈ ms := by
  constructor
  · rintro ⟨hi, x, y, h1, h2, h3, h4⟩
    rw [h.starts.sized.size] at hi
    have e1 := hasRow_unique h1 (hk.rowS i hi)
    subst e1
    have hm : i ∈ ms ++ q := hq.perm.mem_iff.2 (List.mem_range.2 hi)
    rcases List.mem_append.1 hm with hm | hm
    · exact hm
    · exact absurd h3 (hq.complete i hm).1
  · intro hi
    have hin : i < n := hq.lt (by simp [hi])
    exact ⟨by rw [h.starts.sized.size]; exact hin, _, _, hk.rowS i hin, hk.rowE i hin,
      hq.missing i hi⟩

mutual

theorem emptied_pick (l : List Nat) : (x : Val) → emptied (pick l x) = emptied x
  | .vec t xs => rfl
  | .df m cols => by rw [pick, emptied, emptied, emptiedAll_pick l cols]

theorem emptiedAll_pick (l : List Nat) : (xs : List Val) → emptiedAll (pickAll l xs) = emptiedAll xs
  | [] => rfl
  | x :: xs => by rw [pickAll, emptiedAll, emptiedAll, emptied_pick l x, emptiedAll_pick l xs]

end

theorem hasTypes_pick (l : List Nat) : {ts : List ATy} → {ps : List Val} → HasTypes ts ps →
    HasTypes ts (ps.map (pick l))
  | [], _, h => by
      have e : _ = [] := h
      subst e
      rfl
  | _ :: _, _, ⟨xs, qs, e, h⟩ => by
      subst e
      exact ⟨pickList l xs, qs.map (pick l), rfl, hasTypes_pick l h⟩

theorem Spec.IsBounds.pick {x : Val} (hx : IsBounds ts n x) {l : List Nat} (hl : ∀ i ∈ l, i < n) :
    IsBounds ts l.length (pick l x) := by
  refine ⟨hx.sized.pick hl, ?_, ?_⟩
  · rw [leaves_pick]
    exact hasTypes_pick l hx.types
  · intro p hp
    rw [leaves_pick] at hp
    obtain ⟨p', hp', rfl⟩ := List.mem_map.1 hp
    exact sortable_pick (hx.sortable p' hp') hl

theorem Spec.IsBounds.pick_row {x : Val} (hx : IsBounds ts n x) {l : List Nat} (hl : ∀ i ∈ l, i < n)
    {j i : Nat} (hj : l[j]? = some i) {r : Row ts} (hr : HasRow ts (leaves x) i r) :
    HasRow ts (leaves (Vctrs.pick l x)) j r := by
  rw [leaves_pick]
  rcases hasRow_pick hx.types (fun p hp => sized_of_sortable (hx.sortable p hp)) hl (k := j) (r := r)
    with h | h
  · exact h.2 ⟨i, hj, hr⟩
  · subst h
    have e : leaves x = [] := hr
    rw [e]
    rfl

/-- The result has the groups as intervals. -/
structure GroupsResult (ts : List ATy) (s e : Nat → Row ts) (G Gm : List Grp) (S E : Val) : Prop where
  starts : IsBounds ts (G ++ Gm).length S
  stops : IsBounds ts (G ++ Gm).length E
  row : ∀ (j : Nat) (g : Grp), (G ++ Gm)[j]? = some g →
    HasRow ts (leaves S) j (s g.first) ∧ HasRow ts (leaves E) j (e g.last)

theorem groupsResult {abutting group locations : Bool} {r : IntervalGroups} {G Gm : List Grp}
    (h : IsIntervals ts n start stop)
    (hk : Keyed ts n start stop K k s e) (hq : Sorted ts n k s e false ms q)
    (hG : GroupsFound k s e ms q abutting group locations r G Gm) :
    ∃ S E, valSlice (.locs r.starts) start = .ok S ∧ valSlice (.locs r.stops) stop = .ok E ∧
      GroupsResult ts s e G Gm S E ∧ SameType S start ∧ SameType E stop := by
  have hin : ∀ g ∈ G ++ Gm, g.first < n ∧ g.last < n := by
    intro g hg
    rcases List.mem_append.1 hg with hg | hg
    · have hok := hG.ok g hg
      have hm : ∀ i ∈ g.mem, i < n := by
        intro i hi
        refine hq.lt ?_
        rw [← hG.split]
        exact List.mem_append_right _ (List.mem_flatMap.2 ⟨g, hg, hi⟩)
      exact ⟨hm _ hok.first_mem, hm _ hok.last_mem⟩
    · rcases hG.missing with ⟨e, _⟩ | ⟨_, g', e, h1, h2, _⟩
      · rw [e] at hg
        simp at hg
      · rw [e, List.mem_singleton] at hg
        subst hg
        exact ⟨hq.lt (by simp [h1]), hq.lt (by simp [h2])⟩
  have hl1 : ∀ i ∈ (G ++ Gm).map Grp.first, i < n := by
    intro i hi
    obtain ⟨g, hg, rfl⟩ := List.mem_map.1 hi
    exact (hin g hg).1
  have hl2 : ∀ i ∈ (G ++ Gm).map Grp.last, i < n := by
    intro i hi
    obtain ⟨g, hg, rfl⟩ := List.mem_map.1 hi
    exact (hin g hg).2
  refine ⟨pick ((G ++ Gm).map Grp.first) start, pick ((G ++ Gm).map Grp.last) stop, ?_, ?_, ?_, ?_, ?_⟩
  · rw [hG.pushed.1]
    exact valSlice_ok hl1 start h.starts.sized
  · rw [hG.pushed.2.1]
    exact valSlice_ok hl2 stop h.stops.sized
  · refine ⟨?_, ?_, ?_⟩
    · have := h.starts.pick hl1
      rwa [List.length_map] at this
    · have := h.stops.pick hl2
      rwa [List.length_map] at this
    · intro j g hg
      have hb := hin g (List.mem_of_getElem? hg)
      exact ⟨h.starts.pick_row hl1 (by rw [List.getElem?_map, hg]; rfl) (hk.rowS _ hb.1),
        h.stops.pick_row hl2 (by rw [List.getElem?_map, hg]; rfl) (hk.rowE _ hb.2)⟩
  · exact emptied_pick _ _
  · exact emptied_pick _ _

section
variable {abutting group locations : Bool} {r : IntervalGroups} {G Gm : List Grp} {S E : Val}

theorem GroupsFound.mem_q (hG : GroupsFound k s e ms q abutting group locations r G Gm) {g : Grp}
    (hg : g ∈ G) {i : Nat} (hi : i ∈ g.mem) : i ∈ q := by
  rw [← hG.split]
  exact List.mem_flatMap.2 ⟨g, hg, hi⟩

theorem GroupsFound.missing_of (hq : Sorted ts n k s e false ms q)
    (hG : GroupsFound k s e ms q abutting group locations r G Gm) {g : Grp}
    (hg : g ∈ Gm) : EachMissing ts (s g.first) ∧ EachMissing ts (e g.last) := by
  rcases hG.missing with ⟨e, _⟩ | ⟨_, g', e, h1, h2, _⟩
  · rw [e] at hg
    simp at hg
  · rw [e, List.mem_singleton] at hg
    subst hg
    exact ⟨(hq.missing _ h1).1, (hq.missing _ h2).2⟩

theorem isInterval_result (hq : Sorted ts n k s e false ms q)
    (hG : GroupsFound k s e ms q abutting group locations r G Gm) (hR : GroupsResult ts s e G Gm S E)
    {j : Nat} {x y : Row ts} :
    IsInterval ts S E j x y ↔ ∃ g, G[j]? = some g ∧ x = s g.first ∧ y = e g.last := by
  constructor
  · rintro ⟨h1, h2, h3⟩
    have hj := hasRow_lt hR.starts (not_nil_of_complete h3) h1
    have hg := List.getElem?_eq_getElem hj
    obtain ⟨r1, r2⟩ := hR.row j _ hg
    have e1 := hasRow_unique h1 r1
    have e2 := hasRow_unique h2 r2
    by_cases hlt : j < G.length
    · rw [List.getElem?_append_left hlt] at hg
      exact ⟨_, hg, e1, e2⟩
    · rw [List.getElem?_append_right (by omega)] at hg
      rw [e1] at h3
      exact absurd (hG.missing_of hq (List.mem_of_getElem? hg)).1 h3
  · rintro ⟨g, hg, rfl, rfl⟩
    have hj : j < G.length := (List.getElem?_eq_some_iff.1 hg).1
    have hmem := List.mem_of_getElem? hg
    obtain ⟨r1, r2⟩ := hR.row j g (by rw [List.getElem?_append_left hj]; exact hg)
    exact ⟨r1, r2, (hq.complete _ (hG.mem_q hmem (hG.ok g hmem).first_mem)).1⟩

theorem isMissing_result (hq : Sorted ts n k s e false ms q)
    (hG : GroupsFound k s e ms q abutting group locations r G Gm) (hR : GroupsResult ts s e G Gm S E)
    {j : Nat} : IsMissingInterval ts S E j ↔ j = G.length ∧ Gm ≠ [] := by
  have hlen : Gm.length ≤ 1 := by
    rcases hG.missing with ⟨e, _⟩ | ⟨_, g', e, _⟩ <;> simp [e]
  constructor
  · rintro ⟨hj, x, y, h1, h2, h3, h4⟩
    rw [hR.starts.sized.size] at hj
    have hg := List.getElem?_eq_getElem hj
    obtain ⟨r1, r2⟩ := hR.row j _ hg
    have e1 := hasRow_unique h1 r1
    rw [List.length_append] at hj
    by_cases hlt : j < G.length
    · rw [List.getElem?_append_left hlt] at hg
      have hmem := List.mem_of_getElem? hg
      rw [e1] at h3
      exact absurd h3 (hq.complete _ (hG.mem_q hmem (hG.ok _ hmem).first_mem)).1
    · refine ⟨by omega, ?_⟩
      rintro rfl
      simp at hj
      omega
  · rintro ⟨rfl, hne⟩
    have hpos : 0 < Gm.length := List.length_pos_iff.2 hne
    have hg : (G ++ Gm)[G.length]? = some Gm[0] := by
      rw [List.getElem?_append_right (by omega), Nat.sub_self]
      exact List.getElem?_eq_getElem hpos
    obtain ⟨r1, r2⟩ := hR.row _ _ hg
    refine ⟨?_, _, _, r1, r2, hG.missing_of hq (List.getElem_mem hpos)⟩
    rw [hR.starts.sized.size, List.length_append]
    omega

end

end

theorem parseMissing_ok {missing : Name} {group : Bool}
    (hm : missing = some (if group then "group".toList else "drop".toList)) :
    parseMissing missing = .ok group := by
  subst hm
  cases group <;> rfl

end Vctrs
