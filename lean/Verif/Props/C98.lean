import Verif.Props.C04
import Verif.Props.C05
import Verif.Props.C06
import Verif.Props.C07
import Verif.Props.C27
import Verif.Props.C30
import Verif.Props.C32
import Verif.Props.C33
import Verif.Props.C36
import Verif.Props.C50

/-!
# C98: functions that sort and functions that hash agree on which values are the same

`vec_locate_sorted_groups()` and `vec_locate_matches()` sort; `vec_unique_loc()`, `vec_unique_count()`,
`vec_duplicate_id()` and `vec_match()` hash.
-/

namespace Vctrs

open Spec

/-- `x` is a vector or a data frame that can be ordered, with these rows. -/
structure TableRows (ts : List ATy) (x : Val) (rows : List (Row ts)) : Prop where
  size : rows.length = x.size
  types : HasTypes ts (leaves x)
  row : ∀ (i : Nat) (a : Row ts), rows[i]? = some a → HasRow ts (leaves x) i a
  sortable : ∀ p ∈ leaves x, Sortable x.size p

/-- Elements that are tied are the same, if NaN is distinct from NA. -/
theorem tie_same {t : ATy} (hc : t ≠ .cpl) (hr : t ≠ .raw) (desc naLargest : Bool) (a b : t.El) :
    (¬ Before desc naLargest true t a b ∧ ¬ Before desc naLargest true t b a) ↔ SameAtom t a b := by
  cases t with
  | lgl => exact C30_ties desc naLargest true a b
  | int => exact C30_ties desc naLargest true a b
  | dbl =>
    refine (C32_ties desc naLargest true a b).trans ⟨?_, ?_⟩
    · rintro ⟨h1, h2, h3⟩
      refine ⟨?_, h1, h2⟩
      by_cases ha : IsNaN a
      · exact h3 rfl ha
      · exact ⟨fun h => absurd h.1 ha, fun h => absurd (h1.2 h.1) ha⟩
    · rintro ⟨h1, h2, h3⟩
      exact ⟨h2, h3, fun _ _ => h1⟩
  | cpl => exact absurd rfl hc
  | chr => exact C33_ties desc naLargest true a b
  | raw => exact absurd rfl hr

theorem keyBefore_iff {t : ATy} {xs : List t.El} {desc naLargest nanDistinct : Bool} {i j : Nat} {a b : t.El}
    (ha : xs[i]? = some a) (hb : xs[j]? = some b) :
    KeyBefore nanDistinct (desc, naLargest, .vec (.atom t) xs) i j ↔ Before desc naLargest nanDistinct t a b := by
  constructor
  · rintro ⟨u, ys, a', b', e, h1, h2, h3⟩
    cases e
    rw [ha] at h1
    rw [hb] at h2
    cases h1
    cases h2
    exact h3
  · exact fun h => ⟨t, xs, a, b, rfl, ha, hb, h⟩

theorem rowTie_same : {ts : List ATy} → .cpl ∉ ts → .raw ∉ ts → {ks : List SortKey} → {i j : Nat} →
    {a b : Row ts} → HasRow ts (ks.map (·.2.2)) i a → HasRow ts (ks.map (·.2.2)) j b →
    ((¬ RowBefore true ks i j ∧ ¬ RowBefore true ks j i) ↔ SameCells ts a b)
  | [], _, _, ks, i, j, a, b, h1, h2 => by
    have e : ks = [] := List.map_eq_nil_iff.1 h1
    subst e
    refine ⟨fun _ => trivial, fun _ => ⟨?_, ?_⟩⟩ <;>
    · rintro ⟨m, k, h, _⟩
      simp at h
  | t :: ts, hc, hr, ks, i, j, (a, r), (b, s), h1, h2 => by
    obtain ⟨xs, qs, e, ha, h1⟩ := h1
    obtain ⟨ys, qs', e', hb, h2⟩ := h2
    cases ks with
    | nil => cases e
    | cons k ks =>
      obtain ⟨d, na, p⟩ := k
      simp only [List.map_cons, List.cons.injEq] at e e'
      obtain ⟨rfl, rfl⟩ := e
      obtain ⟨e, rfl⟩ := e'
      cases e
      have ih := rowTie_same (ts := ts) (fun h => hc (List.mem_cons_of_mem _ h))
        (fun h => hr (List.mem_cons_of_mem _ h)) h1 h2
      have hk := tie_same (t := t) (fun h => hc (by rw [h]; exact List.mem_cons_self))
        (fun h => hr (by rw [h]; exact List.mem_cons_self)) d na a b
      rw [rowBefore_cons, rowBefore_cons, keyBefore_iff ha hb, keyBefore_iff hb ha]
      show _ ↔ SameAtom t a b ∧ SameCells ts r s
      rw [← ih, ← hk]
      constructor
      · rintro ⟨g1, g2⟩
        have k1 : ¬ Before d na true t a b := fun h => g1 (.inl h)
        have k2 : ¬ Before d na true t b a := fun h => g2 (.inl h)
        exact ⟨⟨k1, k2⟩, fun h => g1 (.inr ⟨⟨k1, k2⟩, h⟩), fun h => g2 (.inr ⟨⟨k2, k1⟩, h⟩)⟩
      · rintro ⟨⟨k1, k2⟩, g1, g2⟩
        exact ⟨fun h => h.elim k1 (fun h => g1 h.2), fun h => h.elim k2 (fun h => g2 h.2)⟩

theorem sortKeys_values {x : Val} {ds ns : List Bool} (hd : ds.length = (columns x).length)
    (hn : ns.length = (columns x).length) : (sortKeys x ds ns).map (·.2.2) = leaves x := by
  refine (sortKeys_leaves (columns x) ds ns hd hn).trans ?_
  cases x with
  | vec t xs => simp [columns, leavesAll, leaves]
  | df n cols => simp [columns, leaves]

theorem rows_tied {ts : List ATy} (hc : .cpl ∉ ts) (hr : .raw ∉ ts) {x : Val} {rows : List (Row ts)}
    (hx : TableRows ts x rows) {ds ns : List Bool} (hd : ds.length = (columns x).length)
    (hn : ns.length = (columns x).length) {i j : Nat} {a b : Row ts} (ha : rows[i]? = some a)
    (hb : rows[j]? = some b) :
    (¬ RowBefore true (sortKeys x ds ns) i j ∧ ¬ RowBefore true (sortKeys x ds ns) j i) ↔
      rowEqual ts a b = true := by
  rw [rowEqual_iff]
  refine rowTie_same hc hr ?_ ?_ <;> rw [sortKeys_values hd hn]
  · exact hx.row i a ha
  · exact hx.row j b hb

theorem hasTypes_noComplex : {ts : List ATy} → .cpl ∉ ts → {ps : List Val} → HasTypes ts ps → ∀ p ∈ ps, ¬ IsComplex p
  | [], _, ps, h => by
    have e : ps = [] := h
    subst e
    intro p hp
    cases hp
  | t :: ts, hc, ps, h => by
    obtain ⟨xs, qs, rfl, h⟩ := h
    intro p hp
    rcases List.mem_cons.1 hp with rfl | hp
    · intro hcp
      cases t <;> first | exact hcp | exact hc List.mem_cons_self
    · exact hasTypes_noComplex (fun h => hc (List.mem_cons_of_mem _ h)) h p hp

/-- The groups of `vec_locate_sorted_groups()` are the values that `vec_unique_loc()` finds: the keys are the same
locations in another order, there are as many as `vec_unique_count()` says, and a location is in the group of the key
that `vec_duplicate_id()` gives for it.  This is whatever the directions and places of missing values are, without
complex columns and if NaN is distinct from NA; see `C98_complex` and `C98_nan`. -/
theorem C98_groups_partial (addr : Name → BitVec 64) (ts : List ATy) (hc : .cpl ∉ ts) (hr : .raw ∉ ts) (x : Val)
    (rows : List (Row ts)) (hx : TableRows ts x rows) (hn : x.size ≤ intMax) (direction naValue : List Name)
    (ds ns : List Bool) (hd : ForColumns IsDirection direction (columns x).length ds)
    (hna : ForColumns IsNaValue naValue (columns x).length ns) (tl : TL) (h0 : ∀ u, 0 ≤ tl u) (fuel : Nat)
    (hf : (leaves x).length ≤ fuel) :
    ∃ (keys : List Int) (locs : List (List Int)) (u ids : List Nat),
      vecLocateSortedGroups fuel x direction naValue true tl (List.replicate 100001 0) =
        .ok ((keys, locs), tl, List.replicate 100001 0) ∧
      uniqueLoc (rowOps addr true ts) rows = .ok u ∧ duplicateId (rowOps addr true ts) rows = .ok ids ∧
      nDistinct (rowOps addr true ts) rows = .ok locs.length ∧
      keys.Perm (u.map (fun (l : Nat) => (l : Int))) ∧
      ∀ (g i id : Nat) (key : Int) (loc : List Int), keys[g]? = some key → locs[g]? = some loc → ids[i]? = some id →
        ((i : Int) + 1 ∈ loc ↔ (id : Int) = key) := by
  have he := rowOps_eqv addr true ts
  have hl : rows.length ≤ 2147483647 := by
    rw [hx.size]
    exact hn
  have hcc : ∀ (i : Nat) (p : Val), 0 < i → (leaves x)[i]? = some p → ¬ IsComplex p := by
    intro i p _ hp
    exact hasTypes_noComplex hc hx.types p (List.mem_of_getElem? hp)
  obtain ⟨⟨⟨keys, locs⟩, tl', st'⟩, h, h1, h2, B, hB, h3, h4⟩ :=
    vecLocateSortedGroups_ok true hn hx.sortable hcc hd hna h0 (static := List.replicate 100001 0) rfl (fun _ => hf)
  dsimp only at h1 h2 h3 h4
  subst h1 h2 h3
  obtain ⟨u, g1, g2, g3⟩ := C04_unique_loc he rows hl
  obtain ⟨ids, i1, i2, i3⟩ := C06_duplicate_id he rows hl
  obtain ⟨k, u', j1, j2, j3, _⟩ := C05_unique_count he rows hl
  rw [g1] at j2
  cases j2
  have tied : ∀ {i j : Nat} {a b : Row ts}, rows[i]? = some a → rows[j]? = some b →
      ((¬ RowBefore true (sortKeys x ds ns) i j ∧ ¬ RowBefore true (sortKeys x ds ns) j i) ↔ rowEqual ts a b = true) :=
    fun ha hb => rows_tied hc hr hx hd.1 hna.1 ha hb
  have mem : ∀ i, i < x.size ↔ ∃ b ∈ B, i ∈ b := by
    intro i
    rw [← List.mem_flatten, hB.perm.mem_iff, List.mem_range]
  have cls : ∀ {b : List Nat} {i j : Nat} {a c : Row ts}, b ∈ B → i ∈ b → rows[i]? = some a → rows[j]? = some c →
      (j ∈ b ↔ rowEqual ts a c = true) := by
    intro b i j a c hb hi ha hcj
    rw [← tied ha hcj]
    constructor
    · exact fun hj => ⟨hB.tied b hb i hi j hj, hB.tied b hb j hj i hi⟩
    · rintro ⟨t1, t2⟩
      obtain ⟨b', hb', hj⟩ := (mem j).1 (by rw [← hx.size]; exact (List.getElem?_eq_some_iff.1 hcj).1)
      obtain ⟨g, hg, e⟩ := List.mem_iff_getElem.1 hb
      obtain ⟨g', hg', e'⟩ := List.mem_iff_getElem.1 hb'
      have hsort := List.pairwise_iff_getElem.1 hB.sorted
      rcases Nat.lt_trichotomy g g' with hlt | heq | hlt
      · exact absurd (hsort g g' hg hg' hlt i (by rw [e]; exact hi) j (by rw [e']; exact hj)) t1
      · subst heq
        rw [← e, e']
        exact hj
      · exact absurd (hsort g' g hg' hg hlt j (by rw [e']; exact hj) i (by rw [e]; exact hi)) t2
  have least : ∀ {b : List Nat} {k : Nat}, b ∈ B → b.head? = some k → k ∈ b ∧ ∀ i ∈ b, k ≤ i := by
    intro b k hb hk
    cases b with
    | nil => cases hk
    | cons k' b =>
      cases hk
      refine ⟨List.mem_cons_self, fun i hi => ?_⟩
      rcases List.mem_cons.1 hi with rfl | hi
      · exact Nat.le_refl _
      · exact Nat.le_of_lt (List.rel_of_pairwise_cons (hB.increasing _ hb) hi)
  have inRows : ∀ {b : List Nat} {i : Nat}, b ∈ B → i ∈ b → ∃ a, rows[i]? = some a := by
    intro b i hb hi
    have : i < rows.length := by
      rw [hx.size]
      exact (mem i).2 ⟨b, hb, hi⟩
    exact ⟨_, List.getElem?_eq_getElem this⟩
  have first : ∀ {b : List Nat} {k i : Nat} {a : Row ts}, b ∈ B → b.head? = some k → i ∈ b → rows[i]? = some a →
      IsFirstEq (rowEqual ts) rows a k := by
    intro b k i a hb hk hi ha
    obtain ⟨hkb, hle⟩ := least hb hk
    obtain ⟨c, hck⟩ := inRows hb hkb
    refine ⟨c, hck, (cls hb hkb hck ha).1 hi, fun j d hj hd' => ?_⟩
    cases e : rowEqual ts d a with
    | false => rfl
    | true =>
      rw [rowEqual_comm] at e
      have := hle j ((cls hb hi ha hd').2 e)
      omega
  have atKey : ∀ {g : Nat} {key : Int}, keys[g]? = some key →
      ∃ b k, B[g]? = some b ∧ b.head? = some k ∧ key = (k : Int) + 1 := by
    intro g key hg
    have h5 := congrArg (fun l => l[g]?) h4
    simp only [List.getElem?_map, hg, Option.map_some] at h5
    cases hb : B[g]? with
    | none => rw [hb] at h5; cases h5
    | some b =>
      rw [hb] at h5
      cases hk : b.head? with
      | none => simp [hk] at h5
      | some k =>
        simp only [Option.map_some, hk, Option.some.injEq] at h5
        exact ⟨b, k, rfl, hk, h5⟩
  have keyOf : ∀ {b : List Nat}, b ∈ B → ∃ k, b.head? = some k ∧ (k : Int) + 1 ∈ keys := by
    intro b hb
    obtain ⟨g, hg⟩ := List.mem_iff_getElem?.1 hb
    have h5 := congrArg (fun l => l[g]?) h4
    simp only [List.getElem?_map, hg, Option.map_some] at h5
    cases hk : b.head? with
    | none => exact absurd (List.head?_eq_none_iff.1 hk) (hB.nonempty b hb)
    | some k =>
      refine ⟨k, rfl, ?_⟩
      rw [hk] at h5
      cases hkg : keys[g]? with
      | none => rw [hkg] at h5; cases h5
      | some key =>
        simp only [hkg, Option.map_some, Option.some.injEq] at h5
        rw [← h5]
        exact List.mem_of_getElem? hkg
  have hperm : keys.Perm (u.map (fun (l : Nat) => (l : Int))) := by
    have nk : keys.Nodup := by
      obtain ⟨ks, rfl, hlt, hks, _⟩ := hB.sortedGroups h4
      rw [List.Nodup, List.pairwise_map]
      refine hks.imp_of_mem ?_
      intro i j hi hj hij e
      have e : i = j := by omega
      subst e
      exact rowBefore_asymm hx.sortable (hlt _ hi) (hlt _ hi) hij hij
    have nu : (u.map (fun (l : Nat) => (l : Int))).Nodup := by
      rw [List.Nodup, List.pairwise_map]
      refine g2.imp ?_
      intro i j hij e
      omega
    refine (List.perm_ext_iff_of_nodup nk nu).2 fun key => ?_
    rw [List.mem_map]
    constructor
    · intro hk
      obtain ⟨g, hg⟩ := List.mem_iff_getElem?.1 hk
      obtain ⟨b, k, hb, hk', rfl⟩ := atKey hg
      have hb := List.mem_of_getElem? hb
      obtain ⟨hkb, _⟩ := least hb hk'
      obtain ⟨a, ha⟩ := inRows hb hkb
      obtain ⟨c, hck, _, hmin⟩ := first hb hk' hkb ha
      exact ⟨k + 1, (g3 _).2 ⟨k, rfl, a, ha, hmin⟩, by omega⟩
    · rintro ⟨l, hl', rfl⟩
      obtain ⟨i, rfl, a, ha, hmin⟩ := (g3 l).1 hl'
      obtain ⟨b, hb, hi⟩ := (mem i).1 (by rw [← hx.size]; exact (List.getElem?_eq_some_iff.1 ha).1)
      obtain ⟨k, hk, hkeys⟩ := keyOf hb
      obtain ⟨hkb, hle⟩ := least hb hk
      have hki := hle i hi
      obtain ⟨c, hck, he', _⟩ := first hb hk hi ha
      have : k = i := by
        rcases Nat.lt_or_eq_of_le hki with hlt | e
        · have := hmin k c hlt hck
          rw [show (rowOps addr true ts).eq c a = rowEqual ts c a from rfl, he'] at this
          cases this
        · exact e
      subst this
      have e : ((k + 1 : Nat) : Int) = (k : Int) + 1 := by omega
      rw [e]
      exact hkeys
  have hlen : keys.length = B.length := by
    have := congrArg List.length h4
    simpa using this
  refine ⟨keys, _, u, ids, h, g1, i1, ?_, hperm, ?_⟩
  · rw [j1, j3, List.length_map, ← hlen, hperm.length_eq, List.length_map]
  · intro g i id key loc hkey hloc hid
    obtain ⟨b, k, hb, hk, rfl⟩ := atKey hkey
    rw [List.getElem?_map, hb] at hloc
    simp only [Option.map_some, Option.some.injEq] at hloc
    subst hloc
    have hbB := List.mem_of_getElem? hb
    have hil : i < rows.length := by
      rw [← i2]
      exact (List.getElem?_eq_some_iff.1 hid).1
    have ha := List.getElem?_eq_getElem hil
    obtain ⟨j, rfl, hfj⟩ := i3 i id _ hid ha
    have hmem : ((i : Int) + 1 ∈ b.map (fun (i : Nat) => (i : Int) + 1)) ↔ i ∈ b := by
      rw [List.mem_map]
      constructor
      · rintro ⟨i', hi', e⟩
        have : i' = i := by omega
        rw [← this]
        exact hi'
      · exact fun hi => ⟨i, hi, rfl⟩
    rw [hmem]
    obtain ⟨hkb, _⟩ := least hbB hk
    obtain ⟨c, hck⟩ := inRows hbB hkb
    constructor
    · intro hi
      have hfk := first hbB hk hi ha
      obtain ⟨d, hd1, hd2, hd3⟩ := hfj
      obtain ⟨d', hd1', hd2', hd3'⟩ := hfk
      have : j = k := by
        rcases Nat.lt_trichotomy j k with hlt | e | hlt
        · have := hd3' j d hlt hd1
          rw [show (rowOps addr true ts).eq d _ = rowEqual ts d _ from rfl] at hd2
          rw [hd2] at this
          cases this
        · exact e
        · have := hd3 k d' hlt hd1'
          rw [show (rowOps addr true ts).eq d' _ = rowEqual ts d' _ from rfl, hd2'] at this
          cases this
      omega
    · intro e
      have : j = k := by omega
      subst this
      obtain ⟨d, hd1, hd2, _⟩ := hfj
      exact (cls hbB hkb hd1 ha).2 hd2

/-! ## Matching -/

theorem cellMatches_same {t : ATy} (hc : t ≠ .cpl) (hr : t ≠ .raw) (I : MIncomplete) (u v : t.El) :
    CellMatches true I .eq [t] (u, ()) (v, ()) ↔
      SameAtom t u v ∧ (¬ MissingAtom t u ∨ I = .exact ∨ I = .compare) := by
  have hcmp : Compares true .eq [t] (u, ()) (v, ()) ↔ SameAtom t u v := by
    rw [← tie_same hc hr false false u v]
    have h : ∀ u v : t.El, RowSmaller true [t] (u, ()) (v, ()) ↔ Before false false true t u v :=
      fun u v => ⟨fun h => h.resolve_right fun h => h.2, .inl⟩
    exact and_congr (not_congr (h u v)) (not_congr (h v u))
  have hm : ∀ u : t.El, SomeMissing [t] (u, ()) ↔ MissingAtom t u :=
    fun u => ⟨fun h => h.resolve_right fun h => h, .inl⟩
  have hsame : SameAtom t u v → (MissingAtom t u ↔ MissingAtom t v) := by
    intro h
    cases t with
    | lgl => cases h; exact Iff.rfl
    | int => cases h; exact Iff.rfl
    | dbl => exact h.2.1
    | cpl => exact absurd rfl hc
    | chr => cases h; exact Iff.rfl
    | raw => exact absurd rfl hr
  unfold CellMatches
  rw [hm, hm, hcmp]
  constructor
  · rintro (⟨h1, h2, h3⟩ | ⟨h1, h2, h3, h4⟩)
    · exact ⟨h3, .inl h1⟩
    · exact ⟨h3, .inr (h4.imp id And.left)⟩
  · rintro ⟨h1, h2⟩
    by_cases hu : MissingAtom t u
    · refine .inr ⟨hu, (hsame h1).1 hu, h1, ?_⟩
      rcases h2 with h2 | h2 | h2
      · exact absurd hu h2
      · exact .inl h2
      · exact .inr ⟨h2, .inl rfl⟩
    · exact .inl ⟨hu, fun h => hu ((hsame h1).2 h), h1⟩

/-- All columns of two rows match. -/
def ColumnsMatch (I : MIncomplete) (ps qs : List Val) (i j : Nat) : Prop :=
  ∀ (c : Nat) (p q : Val) (ts : List ATy) (a b : Row ts), ps[c]? = some p → qs[c]? = some q →
    HasRow ts (leaves p) i a → HasRow ts (leaves q) j b → CellMatches true I .eq ts a b

theorem columnsMatch_same (I : MIncomplete) : {ts : List ATy} → .cpl ∉ ts → .raw ∉ ts → {ps qs : List Val} →
    {i j : Nat} → {a b : Row ts} → HasRow ts ps i a → HasRow ts qs j b →
    (ColumnsMatch I ps qs i j ↔ SameCells ts a b ∧ (¬ SomeMissing ts a ∨ I = .exact ∨ I = .compare))
  | [], _, _, ps, qs, i, j, a, b, h1, h2 => by
    have e : ps = [] := h1
    subst e
    refine ⟨fun _ => ⟨trivial, .inl fun h => h⟩, fun _ c p q ts a b hp => ?_⟩
    simp at hp
  | t :: ts, hc, hr, ps, qs, i, j, (a, r), (b, s), h1, h2 => by
    obtain ⟨xs, ps, rfl, ha, h1⟩ := h1
    obtain ⟨ys, qs, rfl, hb, h2⟩ := h2
    have ih := columnsMatch_same I (ts := ts) (fun h => hc (List.mem_cons_of_mem _ h))
      (fun h => hr (List.mem_cons_of_mem _ h)) h1 h2
    have hcell := cellMatches_same (t := t) (fun h => hc (by rw [h]; exact List.mem_cons_self))
        (fun h => hr (by rw [h]; exact List.mem_cons_self)) I a b
    have split : ColumnsMatch I (.vec (.atom t) xs :: ps) (.vec (.atom t) ys :: qs) i j ↔
        CellMatches true I .eq [t] (a, ()) (b, ()) ∧ ColumnsMatch I ps qs i j := by
      constructor
      · intro h
        exact ⟨h 0 _ _ [t] (a, ()) (b, ()) rfl rfl ⟨xs, [], rfl, ha, rfl⟩ ⟨ys, [], rfl, hb, rfl⟩,
          fun c p q ts a b hp hq => h (c + 1) p q ts a b hp hq⟩
      · rintro ⟨g1, g2⟩ c p q ts' a' b' hp hq ha' hb'
        cases c with
        | zero =>
          cases hp
          cases hq
          refine row_vec (P := fun ts a' => ∀ b' : Row ts, HasRow ts (leaves (.vec (.atom t) ys)) j b' →
            CellMatches true I .eq ts a' b') ?_ ts' a' ha' b' hb'
          intro w hw b' hb'
          rw [ha] at hw
          cases hw
          obtain ⟨zs, qs', e, g3, _⟩ := hb'
          cases e
          obtain ⟨b1, b2⟩ := b'
          dsimp only at g3
          rw [hb] at g3
          cases g3
          exact g1
        | succ c => exact g2 c p q ts' a' b' hp hq ha' hb'
    rw [split, hcell, ih]
    show _ ↔ (SameAtom t a b ∧ SameCells ts r s) ∧ (¬ (MissingAtom t a ∨ SomeMissing ts r) ∨ _)
    constructor
    · rintro ⟨⟨k1, k2⟩, k3, k4⟩
      refine ⟨⟨k1, k3⟩, ?_⟩
      rcases k2 with k2 | k2
      · rcases k4 with k4 | k4
        · exact .inl fun h => h.elim k2 k4
        · exact .inr k4
      · exact .inr k2
    · rintro ⟨⟨k1, k3⟩, k4⟩
      exact ⟨⟨k1, k4.imp (fun h e => h (.inl e)) id⟩, k3, k4.imp (fun h e => h (.inr e)) id⟩

theorem hasColumns_of : {ts : List ATy} → {n : Nat} → {ps : List Val} → HasTypes ts ps →
    (∀ p ∈ ps, Sortable n p) → HasColumns n (ts.map (fun t => [t])) ps
  | [], _, _, h, _ => h
  | t :: ts, n, _, h, hs => by
    obtain ⟨xs, qs, rfl, h⟩ := h
    exact ⟨_, qs, rfl, bounds_vec (hs _ List.mem_cons_self),
      hasColumns_of h fun p hp => hs p (List.mem_cons_of_mem _ hp)⟩

/-- What `vec_match()` finds: NA for needles that are incomplete if these do not match and for those not in the
haystack, else the first location. -/
theorem vecMatch_either {α : Type} {ops : PolyOps α} (he : EqvHash ops) (incomplete : α → Bool) (naEqual : Bool)
    (hmiss : naEqual = false → ∀ a, incomplete a = true → ops.hash a = 1)
    (hinc : ∀ a b, ops.eq a b = true → incomplete a = incomplete b) (needles haystack : List α)
    (hn : haystack.length ≤ 2147483647) :
    ∃ out, vecMatch ops incomplete naEqual needles haystack = .ok out ∧ out.length = needles.length ∧
      ∀ (i : Nat) (r : Option Nat) (y : α), out[i]? = some r → needles[i]? = some y →
        (r = none ∧ ((naEqual = false ∧ incomplete y = true) ∨ ∀ a ∈ haystack, ops.eq a y = false)) ∨
        ((naEqual = true ∨ incomplete y = false) ∧ ∃ j, r = some (j + 1) ∧ IsFirstEq ops.eq haystack y j) := by
  cases naEqual with
  | true =>
    obtain ⟨out, h1, h2, h3⟩ := C07_match he incomplete needles haystack hn
    refine ⟨out, h1, h2, fun i r y hr hy => ?_⟩
    obtain ⟨h4, h5⟩ := h3 i r y hr hy
    cases r with
    | none => exact .inl ⟨rfl, .inr (h4.1 rfl)⟩
    | some l =>
      obtain ⟨j, rfl, hj⟩ := (h5 l).1 rfl
      exact .inr ⟨.inl rfl, j, rfl, hj⟩
  | false =>
    obtain ⟨out, h1, h2, h3⟩ := C07_match_na_propagate he incomplete (hmiss rfl) hinc needles haystack hn
    refine ⟨out, h1, h2, fun i r y hr hy => ?_⟩
    obtain ⟨h4, h5⟩ := h3 i r y hr hy
    cases hi : incomplete y with
    | true => exact .inl ⟨h4 hi, .inl ⟨rfl, rfl⟩⟩
    | false =>
      rcases h5 hi with ⟨h6, h7⟩ | ⟨j, a, h6, h7, _, _⟩
      · exact .inl ⟨h6, .inr h7⟩
      · exact .inr ⟨.inr rfl, j, h6, h7⟩

theorem columns_missing : {ts : List ATy} → {ps : List Val} → {i : Nat} → {a : Row ts} → HasRow ts ps i a →
    ((∃ (c : Nat) (ts' : List ATy) (a' : Row ts') (p : Val), ps[c]? = some p ∧ HasRow ts' (leaves p) i a' ∧
      SomeMissing ts' a') ↔ SomeMissing ts a)
  | [], ps, i, a, h => by
    have e : ps = [] := h
    subst e
    constructor
    · rintro ⟨c, ts', a', p, hp, _⟩
      simp at hp
    · exact fun h => h.elim
  | t :: ts, ps, i, (a, r), h => by
    obtain ⟨xs, ps, rfl, ha, h⟩ := h
    have ih := columns_missing h
    constructor
    · rintro ⟨c, ts', a', p, hp, hr, hm⟩
      cases c with
      | zero =>
        cases hp
        refine .inl ?_
        refine row_vec (P := fun ts a' => SomeMissing ts a' → MissingAtom t a) ?_ ts' a' hr hm
        intro w hw hm
        rw [ha] at hw
        cases hw
        exact hm.resolve_right fun h => h
      | succ c => exact .inr (ih.1 ⟨c, ts', a', p, hp, hr, hm⟩)
    · rintro (hm | hm)
      · exact ⟨0, [t], (a, ()), _, rfl, ⟨xs, [], rfl, ha, rfl⟩, .inl hm⟩
      · obtain ⟨c, ts', a', p, hp, hr, hm⟩ := ih.2 hm
        exact ⟨c + 1, ts', a', p, hp, hr, hm⟩

theorem single_pairs {f : Nat → List Int} {w : List Int} : {n : Nat} →
    (∀ r, r < n → ∃ v, w[r]? = some v ∧ f r = [v]) →
    ((List.range n).flatMap (fun i => (f i).map (fun v => ((i : Int) + 1, v)))).map (·.1) =
      (List.range n).map (fun (i : Nat) => (i : Int) + 1) ∧
    ((List.range n).flatMap (fun i => (f i).map (fun v => ((i : Int) + 1, v)))).map (·.2) = w.take n
  | 0, _ => by simp
  | n + 1, h => by
    obtain ⟨h1, h2⟩ := single_pairs (n := n) fun r hr => h r (by omega)
    obtain ⟨v, h3, h4⟩ := h n (by omega)
    rw [List.range_succ, List.flatMap_append, List.map_append, List.map_append, List.map_append, h1, h2,
      List.take_succ, h3]
    simp [h4]

theorem sameCells_missing : {ts : List ATy} → .cpl ∉ ts → .raw ∉ ts → {a b : Row ts} → SameCells ts a b →
    (SomeMissing ts a ↔ SomeMissing ts b)
  | [], _, _, _, _, _ => Iff.rfl
  | t :: ts, hc, hr, (a, r), (b, s), ⟨h, hs⟩ => by
    have ih := sameCells_missing (fun h => hc (List.mem_cons_of_mem _ h)) (fun h => hr (List.mem_cons_of_mem _ h)) hs
    refine or_congr ?_ ih
    cases t with
    | lgl => cases h; exact Iff.rfl
    | int => cases h; exact Iff.rfl
    | dbl => exact h.2.1
    | cpl => exact absurd List.mem_cons_self hc
    | chr => cases h; exact Iff.rfl
    | raw => exact absurd List.mem_cons_self hr

/-- What is asked of `vec_locate_matches()`: the first row that is equal in all columns.  Incomplete rows match, or
else NA is reported for them. -/
def firstEqual (ncol : Nat) (needles haystack : Val) (naEqual : Bool) : Query :=
  ⟨needles, haystack, List.replicate ncol .eq, List.replicate ncol .all,
    if naEqual then .compare else .value naInt, .first, true⟩

/-- `vec_locate_matches()` with `==` gives the locations that `vec_match()` gives, for vectors and for data frames
with columns that are vectors but not complex; `na_equal` is `incomplete = "compare"`, or NA for incomplete needles.
What is missing are complex columns, see `C98_complex`. -/
theorem C98_match_partial (addr : Name → BitVec 64) (ts : List ATy) (hc : .cpl ∉ ts) (hr : .raw ∉ ts) (hts : ts ≠ [])
    (naEqual : Bool) (needles haystack : Val) (ns hs : List (Row ts)) (hn : TableRows ts needles ns)
    (hh : TableRows ts haystack hs) (hnc : topColumns needles = leaves needles)
    (hhc : topColumns haystack = leaves haystack) (ht : SameType needles haystack) (hsn : needles.size ≤ intMax)
    (hsh : haystack.size ≤ intMax) (tl : TL) (h0 : ∀ u, 0 ≤ tl u) (fuel : Nat) (hf : ts.length + 1 ≤ fuel) :
    ∃ (m : List (Option Nat)) (res : Matches),
      vecMatch (rowOps addr naEqual ts) (rowIsIncomplete ts) naEqual ns hs = .ok m ∧
      vecLocateMatches fuel needles haystack [some ['=', '=']] [some ['n', 'o', 'n', 'e']]
        (if naEqual then .compare else .value naInt) (.value naInt) .drop .first .none true tl
        (List.replicate 100001 0) = .ok (res, tl, List.replicate 100001 0) ∧
      res.needles = (List.range needles.size).map (fun (i : Nat) => (i : Int) + 1) ∧
      res.haystack = m.map (fun l => match l with | none => naInt | some (l : Nat) => (l : Int)) ∧
      res.warned = false := by
  let Q := firstEqual ts.length needles haystack naEqual
  have hmiss : naEqual = false → ∀ a, rowIsIncomplete ts a = true → (rowOps addr naEqual ts).hash a = 1 := by
    rintro rfl a ha
    exact rowHashPropagate_incomplete addr ts hr a 0 ha
  have hinc : ∀ a b, (rowOps addr naEqual ts).eq a b = true → rowIsIncomplete ts a = rowIsIncomplete ts b := by
    intro a b h
    have h := sameCells_missing hc hr ((rowEqual_iff ts a b).1 h)
    rw [← rowIsIncomplete_iff, ← rowIsIncomplete_iff] at h
    exact Bool.eq_iff_iff.2 h
  obtain ⟨m, m1, m2, m3⟩ := vecMatch_either (rowOps_eqv addr naEqual ts) (rowIsIncomplete ts) naEqual hmiss hinc ns hs
    (by rw [hh.size]; exact hsh)
  have hall : ∀ f ∈ Q.filters, f = .all := fun f hf => List.eq_of_mem_replicate hf
  have heq : ∀ {c : Nat} {op : MOp}, Q.conditions[c]? = some op → op = .eq :=
    fun h => List.eq_of_mem_replicate (List.mem_of_getElem? h)
  have hcall : MatchCall Q (ts.map (fun t => [t])) [some ['=', '=']] [some ['n', 'o', 'n', 'e']] (.value naInt) := by
    refine ⟨⟨?_, rfl⟩, ⟨?_, rfl⟩, ht, ?_, ?_, ?_, hsn, hsh, .inl ⟨.eq, rfl, ?_⟩, .inl ⟨.all, rfl, ?_⟩, .inl hall, ?_, ?_,
      fun _ => .inl fun c op _ h => heq h⟩
    · show HasColumns _ _ (topColumns needles)
      rw [hnc]
      exact hasColumns_of hn.types hn.sortable
    · show HasColumns _ _ (topColumns haystack)
      rw [hhc]
      exact hasColumns_of hh.types hh.sortable
    · simpa using hts
    · intro us hus i hi
      obtain ⟨t, _, rfl⟩ := List.mem_map.1 hus
      rw [List.getElem?_eq_none (by simp; omega)]
      simp
    · exact fun c op h hne => absurd (heq h) hne
    · rw [List.length_map]; rfl
    · rw [List.length_map]; rfl
    · intro v hv
      have hv : (if naEqual then MIncomplete.compare else .value naInt) = .value v := hv
      cases naEqual with
      | true => cases hv
      | false => cases hv; unfold IsInt; decide
    · intro v hv
      cases hv
      unfold IsInt
      decide
  have hw : ∀ us ∈ ts.map (fun t => [t]), us.length ≤ fuel := by
    intro us hus
    obtain ⟨t, _, rfl⟩ := List.mem_map.1 hus
    simp
    omega
  have hf' : (ts.map (fun t => [t])).length + 1 ≤ fuel := by rw [List.length_map]; exact hf
  have hflag : ∀ {r : Nat} {a : Row ts}, ns[r]? = some a → (Flagged Q r ↔ naEqual = false ∧ SomeMissing ts a) := by
    intro r a ha
    have h1 := columns_missing (hn.row r a ha)
    have h2 : Flagged Q r ↔ (Q.incomplete ≠ .compare ∧ Q.incomplete ≠ .exact) ∧ SomeMissing ts a := by
      refine and_congr Iff.rfl (Iff.trans ⟨?_, ?_⟩ h1)
      · rintro ⟨c, ts', a', ⟨p, hp, hpr⟩, hm⟩
        have hp : (topColumns needles)[c]? = some p := hp
        rw [hnc] at hp
        exact ⟨c, ts', a', p, hp, hpr, hm⟩
      · rintro ⟨c, ts', a', p, hp, hpr, hm⟩
        rw [← hnc] at hp
        exact ⟨c, ts', a', ⟨p, hp, hpr⟩, hm⟩
    rw [h2]
    refine and_congr ?_ Iff.rfl
    cases naEqual with
    | true => exact ⟨fun h => absurd rfl h.1, fun h => by cases h⟩
    | false => exact ⟨fun _ => rfl, fun _ => ⟨(fun h => by cases h), fun h => by cases h⟩⟩
  have hmatch : ∀ {r k : Nat} {a b : Row ts}, ns[r]? = some a → hs[k]? = some b →
      (RowMatches Q r k ↔ rowEqual ts a b = true ∧ (naEqual = true ∨ ¬ SomeMissing ts a)) := by
    intro r k a b ha hb
    have h1 := columnsMatch_same Q.incomplete hc hr (hn.row r a ha) (hh.row k b hb)
    rw [rowEqual_iff]
    have h2 : RowMatches Q r k ↔ ColumnsMatch Q.incomplete (leaves needles) (leaves haystack) r k := by
      unfold RowMatches ColumnsMatch ColumnRow
      show (∀ (c : Nat) (ts : List ATy) (a b : Row ts) (op : MOp),
        (∃ col, (topColumns needles)[c]? = some col ∧ _) → (∃ col, (topColumns haystack)[c]? = some col ∧ _) → _ → _) ↔ _
      rw [hnc, hhc]
      constructor
      · intro h c p q us a' b' hp hq h3 h4
        refine h c us a' b' .eq ⟨p, hp, h3⟩ ⟨q, hq, h4⟩ ?_
        show (List.replicate ts.length MOp.eq)[c]? = some .eq
        rw [List.getElem?_replicate]
        have hlen := hn.types.length
        have hcl := (List.getElem?_eq_some_iff.1 hp).1
        rw [if_pos (by omega)]
      · rintro h c us a' b' op ⟨p, hp, h3⟩ ⟨q, hq, h4⟩ ho
        have := heq ho
        subst this
        exact h c p q us a' b' hp hq h3 h4
    rw [h2, h1]
    refine and_congr Iff.rfl ?_
    show (_ ∨ (if naEqual then MIncomplete.compare else .value naInt) = _ ∨
      (if naEqual then MIncomplete.compare else .value naInt) = _) ↔ _
    cases naEqual with
    | true => exact ⟨fun _ => .inl rfl, fun _ => .inr (.inr rfl)⟩
    | false =>
      refine ⟨fun h => ?_, fun h => .inl (h.resolve_left (by simp))⟩
      rcases h with h | h | h
      · exact .inr h
      · cases h
      · cases h
  obtain ⟨outs, ho, hok⟩ : ∃ outs : Nat → Outcome, (∀ r, r < Q.needles.size → IsOutcome Q r (outs r)) ∧
      MatchOk Q [some ['=', '=']] [some ['n', 'o', 'n', 'e']] (.value naInt) .drop .none outs tl fuel := by
    cases hna : naEqual with
    | true =>
      refine C50_locate_matches Q _ _ _ _ _ _ hcall (.inl fun r _ h => ?_) tl h0 fuel hf' hw
      exact h.1.1 (by show (if naEqual then MIncomplete.compare else .value naInt) = _; rw [hna]; rfl)
    | false =>
      refine C50_same_report Q _ _ _ _ _ _ hcall (.inl ⟨naInt, ?_, rfl⟩) tl h0 fuel hf' hw
      show (if naEqual then MIncomplete.compare else .value naInt) = _
      rw [hna]
      rfl
  rcases hok with ⟨res, e, hres⟩ | ⟨_, hrej⟩
  · obtain ⟨r1, r2, r3, _⟩ := hres
    have hvals : ∀ r, r < needles.size → ∃ l, m[r]? = some l ∧ (outs r).values Q.incomplete (.value naInt) =
        [match l with | none => naInt | some (l : Nat) => (l : Int)] := by
      intro r hrn
      have hrl : r < ns.length := by rw [hn.size]; exact hrn
      have ha := List.getElem?_eq_getElem hrl
      have hml : r < m.length := by rw [m2]; exact hrl
      have hm := List.getElem?_eq_getElem hml
      refine ⟨_, hm, ?_⟩
      have hfl := hflag ha
      have hout := ho r hrn
      have hcase := m3 r _ _ hm ha
      rw [rowIsIncomplete_iff] at hcase
      cases hor : outs r with
      | incomplete =>
        rw [hor] at hout
        obtain ⟨hna, hsm⟩ := hfl.1 hout
        have hv : Q.incomplete = .value naInt := by
          show (if naEqual then MIncomplete.compare else .value naInt) = _
          rw [hna]
          rfl
        rcases hcase with ⟨h1, _⟩ | ⟨h1, _⟩
        · rw [h1, hv]; rfl
        · rcases h1 with h1 | h1
          · rw [hna] at h1; cases h1
          · rw [(rowIsIncomplete_iff ts _).2 hsm] at h1; cases h1
      | unmatched =>
        rw [hor] at hout
        rcases hcase with ⟨h1, _⟩ | ⟨h1, j, _, b, hb, hbe, _⟩
        · rw [h1]; rfl
        · refine absurd ((hmatch ha hb).2 ⟨by rw [rowEqual_comm]; exact hbe, ?_⟩)
            (hout.2 j (by show j < haystack.size; rw [← hh.size]; exact (List.getElem?_eq_some_iff.1 hb).1))
          refine h1.imp id fun h h' => ?_
          rw [(rowIsIncomplete_iff ts _).2 h'] at h
          cases h
      | rows R =>
        rw [hor] at hout
        obtain ⟨hnf, S, _, ⟨_, hS⟩, k, hkS, rfl, hmin⟩ := hout
        obtain ⟨hkn, hks⟩ := (hS k).1 hkS
        have hkl : k < hs.length := by rw [hh.size]; exact hkn
        have hb := List.getElem?_eq_getElem hkl
        obtain ⟨hke, hkc⟩ := (hmatch ha hb).1 hks.1
        rcases hcase with ⟨_, h1⟩ | ⟨h1, j, hj, b, hbj, hbe, hfirst⟩
        · rcases h1 with ⟨h1, h2⟩ | h1
          · exact absurd (hfl.2 ⟨h1, h2⟩) hnf
          · have := h1 _ (List.getElem_mem hkl)
            rw [show (rowOps addr naEqual ts).eq = rowEqual ts from rfl, rowEqual_comm, hke] at this
            cases this
        · have hjS : j ∈ S := by
            refine (hS j).2 ⟨by show j < haystack.size; rw [← hh.size]; exact (List.getElem?_eq_some_iff.1 hbj).1,
              (hmatch ha hbj).2 ⟨by rw [rowEqual_comm]; exact hbe, hkc⟩, ?_⟩
            intro k' _ _ c us b' b'' f hff _ _
            have := hall f (List.mem_of_getElem? hff)
            subst this
            exact fun h => h
          have hle := hmin j hjS
          have hge : j ≤ k := by
            rcases Nat.lt_or_ge k j with hlt | hge
            · have := hfirst k _ hlt hb
              rw [show (rowOps addr naEqual ts).eq = rowEqual ts from rfl, rowEqual_comm, hke] at this
              cases this
            · exact hge
          have : k = j := by omega
          subst this
          rw [hj]
          show [(k : Int) + 1] = [((k + 1 : Nat) : Int)]
          simp
    have hpairs := single_pairs (n := needles.size) (f := fun r => (outs r).values Q.incomplete (.value naInt))
      (w := m.map (fun l => match l with | none => naInt | some (l : Nat) => (l : Int))) (by
        intro r hr
        obtain ⟨l, h1, h2⟩ := hvals r hr
        exact ⟨_, by rw [List.getElem?_map, h1]; rfl, h2⟩)
    have hlen : m.length = needles.size := by rw [m2, hn.size]
    rw [show remainingPairs .drop outs Q.needles.size Q.haystack.size = [] from rfl, List.append_nil] at r1 r2
    have hwn : ¬ Warned Q.multiple .none outs needles.size := by
      rintro (⟨h, _⟩ | ⟨h, _⟩) <;> cases h
    refine ⟨m, res, m1, e, ?_, ?_, ?_⟩
    · rw [r1]
      exact hpairs.1
    · rw [r2]
      refine hpairs.2.trans ?_
      rw [List.take_of_length_le (by rw [List.length_map, hlen])]
    · cases hwr : res.warned with
      | false => rfl
      | true => exact absurd (r3.1 hwr) hwn
  · exfalso
    cases hrej with
    | incomplete h =>
      have h : (if naEqual then MIncomplete.compare else .value naInt) = _ := h
      cases naEqual <;> cases h
    | unmatched h => cases h
    | several h => rcases h with h | h | h <;> cases h
    | again h => rcases h with h | h <;> cases h
    | remaining h => cases h
    | tooMany h => rcases h with h | h | h <;> cases h

/-! ## Where they do not agree -/

/-- Complex numbers with a missing real part and different imaginary parts. -/
def C98_z : List (Dbl × Dbl) := [(naReal, 0x3FF0000000000000#64), (naReal, 0x4000000000000000#64)]

/-- C98 fails for complex numbers: those with a missing part are one group and match each other if they are sorted, but
`vec_unique_loc()` and `vec_match()` tell them apart. -/
theorem C98_complex :
    C36_run (vecLocateSortedGroups 1 (.vec (.atom .cpl) C98_z) exAsc exSmallest true exTl exStatic) =
      some ([1], [[1, 2]]) ∧
    uniqueLoc (rowOps (fun _ => 0) true [.cpl]) (C98_z.map fun z => (z, ())) = .ok [1, 2] ∧
    C50_run (vecLocateMatches 2 (.vec (.atom .cpl) C98_z) (.vec (.atom .cpl) C98_z) [some ['=', '=']]
      [some ['n', 'o', 'n', 'e']] .compare (.value naInt) .drop .first .none true exTl exStatic) =
      some ([1, 2], [1, 1], false) ∧
    vecMatch (rowOps (fun _ => 0) true [.cpl]) (rowIsIncomplete [.cpl]) true (C98_z.map fun z => (z, ()))
      (C98_z.map fun z => (z, ())) = .ok [some 1, some 2] := by
  refine ⟨?_, ?_, ?_, ?_⟩ <;> decide +kernel

/-- Without `nan_distinct`, NA and NaN are one group and match each other if they are sorted; functions that hash
always tell them apart. -/
theorem C98_nan :
    C36_run (vecLocateSortedGroups 1 (.vec (.atom .dbl) [naReal, rNaN]) exAsc exSmallest false exTl exStatic) =
      some ([1], [[1, 2]]) ∧
    uniqueLoc (rowOps (fun _ => 0) true [.dbl]) [(naReal, ()), (rNaN, ())] = .ok [1, 2] ∧
    C50_run (vecLocateMatches 2 (.vec (.atom .dbl) [naReal, rNaN]) (.vec (.atom .dbl) [naReal, rNaN])
      [some ['=', '=']] [some ['n', 'o', 'n', 'e']] .compare (.value naInt) .drop .first .none false exTl exStatic) =
      some ([1, 2], [1, 1], false) ∧
    vecMatch (rowOps (fun _ => 0) true [.dbl]) (rowIsIncomplete [.dbl]) true [(naReal, ()), (rNaN, ())]
      [(naReal, ()), (rNaN, ())] = .ok [some 1, some 2] := by
  refine ⟨?_, ?_, ?_, ?_⟩ <;> decide +kernel

/-! ## Examples -/

/-- The rows of a table of integers and strings. -/
def C98_rows (a : List Int) (b : List Name) : List (Row [.int, .chr]) := a.zipWith (fun v s => (v, (s, ()))) b

theorem C98_table {a : List Int} {b : List Name} (h : b.length = a.length) (ha : ∀ v ∈ a, IsInt v)
    (hb : ∀ s, some s ∈ b → ByteString s) : TableRows [.int, .chr] (C50_table a b) (C98_rows a b) where
  size := by
    show (C98_rows a b).length = a.length
    unfold C98_rows
    exact List.length_zipWith.trans (Nat.min_eq_left (Nat.le_of_eq h.symm))
  types := ⟨a, _, rfl, b, _, rfl, rfl⟩
  row i r hr := by
    obtain ⟨v, s, h1, h2, rfl⟩ := List.getElem?_zipWith_eq_some.1 hr
    exact ⟨a, _, rfl, h1, b, _, rfl, h2, rfl⟩
  sortable p hp := by
    have hp : p ∈ [Val.vec (.atom .int) a, .vec (.atom .chr) b] := hp
    rcases List.mem_cons.1 hp with rfl | hp
    · exact ⟨rfl, ha⟩
    · rw [List.mem_singleton.1 hp]
      exact ⟨h, hb⟩

/-- Integers. -/
def C98_a : List Int := [2, naInt, 2, 1, naInt, 2]

/-- Strings. -/
def C98_b : List Name := [some ['b'], some ['a'], some ['a'], none, some ['a'], some ['b']]

example : TableRows [.int, .chr] (C50_table C98_a C98_b) (C98_rows C98_a C98_b) :=
  C98_table rfl (by unfold IsInt; decide) (C50_strings (by decide))

example : ForColumns IsDirection exAsc (columns (C50_table C98_a C98_b)).length [false, false] ∧
    ForColumns IsNaValue exSmallest (columns (C50_table C98_a C98_b)).length [false, false] := by
  refine ⟨⟨rfl, .inl ⟨_, false, rfl, rfl, by simp⟩⟩, ⟨rfl, .inl ⟨_, false, rfl, rfl, by simp⟩⟩⟩

example : C36_run (vecLocateSortedGroups 2 (C50_table C98_a C98_b) exAsc exSmallest true exTl exStatic) =
      some ([2, 4, 3, 1], [[2, 5], [4], [3], [1, 6]]) ∧
    uniqueLoc (rowOps (fun _ => 9) true [.int, .chr]) (C98_rows C98_a C98_b) = .ok [1, 2, 3, 4] ∧
    duplicateId (rowOps (fun _ => 9) true [.int, .chr]) (C98_rows C98_a C98_b) = .ok [1, 2, 3, 4, 2, 1] := by
  refine ⟨?_, ?_, ?_⟩ <;> decide +kernel

/-- Needles. -/
def C98_c : List Int := [1, 2, naInt, 2]

/-- Strings of the needles. -/
def C98_d : List Name := [none, some ['b'], some ['a'], some ['c']]

example : TableRows [.int, .chr] (C50_table C98_c C98_d) (C98_rows C98_c C98_d) ∧
    topColumns (C50_table C98_c C98_d) = leaves (C50_table C98_c C98_d) ∧
    SameType (C50_table C98_c C98_d) (C50_table C98_a C98_b) :=
  ⟨C98_table rfl (by unfold IsInt; decide) (C50_strings (by decide)), rfl, rfl⟩

example : vecMatch (rowOps (fun _ => 9) true [.int, .chr]) (rowIsIncomplete [.int, .chr]) true (C98_rows C98_c C98_d)
      (C98_rows C98_a C98_b) = .ok [some 4, some 1, some 2, none] ∧
    vecMatch (rowOps (fun _ => 9) false [.int, .chr]) (rowIsIncomplete [.int, .chr]) false (C98_rows C98_c C98_d)
      (C98_rows C98_a C98_b) = .ok [none, some 1, none, none] ∧
    C50_run (vecLocateMatches 3 (C50_table C98_c C98_d) (C50_table C98_a C98_b) [some ['=', '=']]
      [some ['n', 'o', 'n', 'e']] .compare (.value naInt) .drop .first .none true exTl exStatic) =
      some ([1, 2, 3, 4], [4, 1, 2, naInt], false) ∧
    C50_run (vecLocateMatches 3 (C50_table C98_c C98_d) (C50_table C98_a C98_b) [some ['=', '=']]
      [some ['n', 'o', 'n', 'e']] (.value naInt) (.value naInt) .drop .first .none true exTl exStatic) =
      some ([1, 2, 3, 4], [naInt, 1, naInt, naInt], false) := by
  refine ⟨?_, ?_, ?_, ?_⟩ <;> decide +kernel

end Vctrs
