import Verif.Lemmas.IntervalKey
import Verif.Props.C34

namespace Vctrs

open Spec

/-! ## The order of complete elements -/

theorem dblRank_number {x : Dbl} (h : ¬ IsNaN x) : dblRank x = 2 := by
  unfold dblRank
  have h' : ¬ IsNA x := fun h' => h h'.1
  rw [if_neg h', if_neg h]

theorem smaller_of_atomLt {na : Bool} : (t : ATy) → {a b : t.El} → ¬ MissingAtom t a →
    ¬ MissingAtom t b → AtomLt t a b → Smaller na false t a b
  | .lgl, (a : Int), (b : Int), ha, hb, h => .inl ⟨ha, hb, (h.2.resolve_left ha).2⟩
  | .int, (a : Int), (b : Int), ha, hb, h => .inl ⟨ha, hb, (h.2.resolve_left ha).2⟩
  | .dbl, (a : Dbl), (b : Dbl), ha, hb, h => by
      refine .inl (.inl ⟨ha, hb, ?_⟩)
      rcases h with h | h
      · rw [dblRank_number ha, dblRank_number hb] at h
        omega
      · exact h.2.2
  | .cpl, _, _, _, _, h => absurd h id
  | .chr, none, _, ha, _, _ => absurd rfl ha
  | .chr, some _, none, _, hb, _ => absurd rfl hb
  | .chr, some s, some u, ha, hb, h => .inl ⟨ha, hb, s, u, rfl, rfl, h⟩
  | .raw, _, _, _, _, h => absurd h id

theorem not_smaller_of_same {na : Bool} : (t : ATy) → Spec.Ordered t → {a b : t.El} →
    ¬ MissingAtom t a → ¬ MissingAtom t b → SameAtom t a b → ¬ Smaller na false t a b
  | .lgl, _, (a : Int), (b : Int), ha, hb, h => by
      have e : a = b := h
      subst e
      rintro (h | h | h)
      · exact absurd h.2.2 (by omega)
      · exact hb h.2.2
      · exact ha h.2.1
  | .int, _, (a : Int), (b : Int), ha, hb, h => by
      have e : a = b := h
      subst e
      rintro (h | h | h)
      · exact absurd h.2.2 (by omega)
      · exact hb h.2.2
      · exact ha h.2.1
  | .dbl, _, (a : Dbl), (b : Dbl), ha, hb, h => by
      have e := h.2.2 ha
      rintro ((h | h | h) | h)
      · rw [e] at h
        exact absurd h.2.2 (lt_irrefl _)
      · exact hb h.2.2
      · exact ha h.2.1
      · exact absurd h.1 (by simp)
  | .chr, _, (a : Name), (b : Name), ha, hb, h => by
      have e : a = b := h
      subst e
      rintro (⟨_, _, s, u, h1, h2, h⟩ | h | h)
      · rw [h1] at h2
        cases h2
        exact bytesLt_irrefl _ h
      · exact hb h.2.2
      · exact ha h.2.1

theorem smaller_of_missing : (t : ATy) → Spec.Ordered t → {a b : t.El} → MissingAtom t a →
    ¬ MissingAtom t b → Smaller false false t a b
  | .lgl, _, _, _, ha, hb => .inr (.inr ⟨rfl, ha, hb⟩)
  | .int, _, _, _, ha, hb => .inr (.inr ⟨rfl, ha, hb⟩)
  | .dbl, _, _, _, ha, hb => .inl (.inr (.inr ⟨rfl, ha, hb⟩))
  | .chr, _, _, _, ha, hb => .inr (.inr ⟨rfl, ha, hb⟩)

/-! ## The order of complete rows -/

theorem rowBefore_of_lt : {ts : List ATy} → (∀ t ∈ ts, Spec.Ordered t) → {ps : List Val} →
    {i j : Nat} → {r s : Row ts} → HasRow ts ps i r → HasRow ts ps j s → ¬ SomeMissing ts r →
    ¬ SomeMissing ts s → {desc na : Bool} → {ks : List SortKey} →
    (if desc then RowsLt ts s r else RowsLt ts r s) →
    RowBefore false (ps.map (fun p => (desc, na, p)) ++ ks) i j
  | [], _, _, _, _, _, _, _, _, _, _, desc, _, _, h => by
      cases desc <;> exact absurd h id
  | t :: ts, ho, _, i, j, (a, r), (b, s), ⟨xs, qs, e, ha, hr⟩, ⟨xs', qs', e', hb, hs⟩, ma, mb, desc,
      na, ks, h => by
      subst e
      cases e'
      rw [List.map_cons, List.cons_append, rowBefore_cons, keyBefore_vec ha hb, keyBefore_vec hb ha]
      have ma1 : ¬ MissingAtom t a := fun h => ma (.inl h)
      have mb1 : ¬ MissingAtom t b := fun h => mb (.inl h)
      have ih := fun h' => rowBefore_of_lt (fun u hu => ho u (by simp [hu])) hr hs
        (fun h => ma (.inr h)) (fun h => mb (.inr h)) (desc := desc) (na := na) (ks := ks) h'
      have hot := ho t (by simp)
      cases desc with
      | false =>
        rcases h with h | ⟨h1, h2⟩
        · exact .inl (smaller_of_atomLt t ma1 mb1 h)
        · exact .inr ⟨⟨not_smaller_of_same t hot ma1 mb1 h1,
            not_smaller_of_same t hot mb1 ma1 (sameAtom_symm t _ _ h1)⟩, ih h2⟩
      | true =>
        rcases h with h | ⟨h1, h2⟩
        · exact .inl (smaller_of_atomLt t mb1 ma1 h)
        · exact .inr ⟨⟨not_smaller_of_same t hot mb1 ma1 h1,
            not_smaller_of_same t hot ma1 mb1 (sameAtom_symm t _ _ h1)⟩, ih h2⟩

theorem rowBefore_of_same : {ts : List ATy} → (∀ t ∈ ts, Spec.Ordered t) → {ps : List Val} →
    {i j : Nat} → {r s : Row ts} → HasRow ts ps i r → HasRow ts ps j s → ¬ SomeMissing ts r →
    ¬ SomeMissing ts s → {desc na : Bool} → {ks : List SortKey} → SameCells ts r s →
    RowBefore false ks i j → RowBefore false (ps.map (fun p => (desc, na, p)) ++ ks) i j
  | [], _, _, _, _, _, _, hp, _, _, _, _, _, _, _, h => by
      have e : _ = [] := hp
      subst e
      exact h
  | t :: ts, ho, _, i, j, (a, r), (b, s), ⟨xs, qs, e, ha, hr⟩, ⟨xs', qs', e', hb, hs⟩, ma, mb, desc,
      na, ks, hsame, h => by
      subst e
      cases e'
      rw [List.map_cons, List.cons_append, rowBefore_cons, keyBefore_vec ha hb, keyBefore_vec hb ha]
      have ma1 : ¬ MissingAtom t a := fun h => ma (.inl h)
      have mb1 : ¬ MissingAtom t b := fun h => mb (.inl h)
      have ih := rowBefore_of_same (fun u hu => ho u (by simp [hu])) hr hs
        (fun h => ma (.inr h)) (fun h => mb (.inr h)) (desc := desc) (na := na) hsame.2 h
      have hot := ho t (by simp)
      have h1 := not_smaller_of_same (na := na) t hot ma1 mb1 hsame.1
      have h2 := not_smaller_of_same (na := na) t hot mb1 ma1 (sameAtom_symm t _ _ hsame.1)
      cases desc with
      | false => exact .inr ⟨⟨h1, h2⟩, ih⟩
      | true => exact .inr ⟨⟨h2, h1⟩, ih⟩

/-- A missing row comes before a complete one. -/
theorem rowBefore_of_missing : {ts : List ATy} → (∀ t ∈ ts, Spec.Ordered t) → {ps : List Val} →
    {i j : Nat} → {r s : Row ts} → HasRow ts ps i r → HasRow ts ps j s → EachMissing ts r →
    ¬ EachMissing ts s → ¬ SomeMissing ts s → {ks : List SortKey} →
    RowBefore false (ps.map (fun p => (false, false, p)) ++ ks) i j
  | [], _, _, _, _, _, _, _, _, _, h, _, _ => absurd trivial h
  | t :: ts, ho, _, i, j, (a, r), (b, s), ⟨xs, qs, e, ha, hr⟩, ⟨xs', qs', e', hb, hs⟩, ma, _, mb,
      ks => by
      subst e
      cases e'
      rw [List.map_cons, List.cons_append, rowBefore_cons, keyBefore_vec ha hb]
      exact .inl (smaller_of_missing t (ho t (by simp)) ma.1 (fun h => mb (.inl h)))

/-! ## The order of intervals -/

theorem split_pairwise {α : Type} {P : α → Prop} : {l : List α} →
    l.Pairwise (fun i j => P j → P i) → ∃ ms q, l = ms ++ q ∧ (∀ i ∈ ms, P i) ∧ ∀ i ∈ q, ¬ P i
  | [], _ => ⟨[], [], rfl, by simp, by simp⟩
  | x :: l, h => by
      rw [List.pairwise_cons] at h
      obtain ⟨ms, q, e, h1, h2⟩ := split_pairwise h.2
      by_cases hx : P x
      · exact ⟨x :: ms, q, by rw [e]; rfl, by simpa using ⟨hx, h1⟩, h2⟩
      · refine ⟨[], x :: l, rfl, by simp, ?_⟩
        intro i hi
        rcases List.mem_cons.1 hi with rfl | hi
        · exact hx
        · exact fun hp => hx (h.1 i hi hp)

theorem someMissing_of_each : {ts : List ATy} → ts ≠ [] → {r : Row ts} → EachMissing ts r →
    SomeMissing ts r
  | [], h, _, _ => absurd rfl h
  | _ :: _, _, (_, _), h => .inl h.1

/-- The rows of intervals and their keys. -/
structure Keyed (ts : List ATy) (n : Nat) (start stop : Val) (K : Type) [LinearOrder K]
    (k : Row ts → K) (s e : Nat → Row ts) : Prop where
  key : ∀ a b, k a < k b ↔ RowsLt ts a b
  rowS : ∀ i, i < n → HasRow ts (leaves start) i (s i)
  rowE : ∀ i, i < n → HasRow ts (leaves stop) i (e i)

/-- Some row. -/
def rowNa : (ts : List ATy) → Row ts
  | [] => ()
  | t :: ts => (naElt (.atom t), rowNa ts)

theorem Spec.IsBounds.rows {ts : List ATy} {n : Nat} {x : Val} (h : IsBounds ts n x) :
    ∃ f : Nat → Row ts, ∀ i, i < n → HasRow ts (leaves x) i (f i) := by
  have hr : ∀ i, i < n → ∃ r, HasRow ts (leaves x) i r := fun i hi =>
    HasTypes.row h.types (fun p hp => sized_of_sortable (h.sortable p hp)) hi
  classical
  refine ⟨fun i => if h : i < n then Classical.choose (hr i h) else rowNa ts, fun i hi => ?_⟩
  dsimp only
  rw [dif_pos hi]
  exact Classical.choose_spec (hr i hi)

theorem Spec.HasTypes.length : {ts : List ATy} → {ps : List Val} → HasTypes ts ps → ps.length = ts.length
  | [], _, h => by have e : _ = [] := h; rw [e]; rfl
  | _ :: _, _, ⟨_, _, e, h⟩ => by rw [e, List.length_cons, List.length_cons, h.length]

theorem Spec.HasTypes.not_complex : {ts : List ATy} → {ps : List Val} → HasTypes ts ps →
    (∀ t ∈ ts, Spec.Ordered t) → ∀ p ∈ ps, ¬ IsComplex p
  | [], _, h, _, p, hp => by
      have e : _ = [] := h
      rw [e] at hp
      simp at hp
  | t :: ts, _, ⟨xs, qs, e, h⟩, ho, p, hp => by
      rw [e] at hp
      rcases List.mem_cons.1 hp with rfl | hp
      · have := ho t (by simp)
        cases t <;> first | exact id | exact absurd this id
      · exact h.not_complex (fun u hu => ho u (by simp [hu])) p hp

theorem Spec.IsBounds.pack_leaves {ts : List ATy} {n : Nat} {x : Val} (_h : IsBounds ts n x) :
    leaves (packLeaves x.size (leaves x)) = leaves x := leaves_pack _ _ (leaves_vec x)

theorem Spec.IsBounds.pack_size {ts : List ATy} {n : Nat} {x : Val} (h : IsBounds ts n x) :
    (packLeaves x.size (leaves x)).size = n := by
  have hz := h.sized.size
  have hs := h.sortable
  generalize leaves x = l at *
  match l with
  | [] => exact hz
  | [p] => exact (sized_of_sortable (hs p (by simp))).size
  | _ :: _ :: _ => exact hz

section
variable {ts : List ATy} {n : Nat} {start stop : Val} {K : Type} [LinearOrder K] {k : Row ts → K}
  {s e : Nat → Row ts}

theorem Keyed.same (hk : Keyed ts n start stop K k s e) (ho : ∀ t ∈ ts, Spec.Ordered t)
    {a b : Row ts} (h : k a = k b) : SameCells ts a b := by
  rcases rowsLt_tri ts ho a b with h1 | h1 | h1
  · exact absurd ((hk.key a b).2 h1) (by rw [h]; exact lt_irrefl _)
  · exact h1
  · exact absurd ((hk.key b a).2 h1) (by rw [h]; exact lt_irrefl _)

/-- What the order of intervals is: missing ones, then the others by start and end. -/
structure Sorted (ts : List ATy) (n : Nat) (k : Row ts → K) (s e : Nat → Row ts) (desc : Bool)
    (ms q : List Nat) : Prop where
  perm : (ms ++ q).Perm (List.range n)
  missing : ∀ i ∈ ms, EachMissing ts (s i) ∧ EachMissing ts (e i)
  complete : ∀ i ∈ q, ¬ EachMissing ts (s i) ∧ ¬ SomeMissing ts (s i) ∧ ¬ SomeMissing ts (e i)
  sorted : q.Pairwise (fun i j => k (s i) < k (s j) ∨ (k (s i) = k (s j) ∧
    if desc then k (e j) ≤ k (e i) else k (e i) ≤ k (e j)))

theorem intervalOrder_ok (h : IsIntervals ts n start stop) (hn : n ≤ intMax)
    (hk : Keyed ts n start stop K k s e) {direction naValue : List Name} {desc na : Bool}
    (hd : ForColumns IsDirection direction 2 [false, desc])
    (hna : ForColumns IsNaValue naValue 2 [false, na]) {tl : TL} (h0 : ∀ u, 0 ≤ tl u) {fuel : Nat}
    (hf : 2 * ts.length ≤ fuel) :
    ∃ ms q, intervalOrder fuel (packLeaves start.size (leaves start))
        (packLeaves stop.size (leaves stop)) direction naValue n tl (List.replicate 100001 0) =
      .ok ((ms ++ q).map (fun (i : Nat) => (i : Int) + 1), tl, List.replicate 100001 0) ∧
      Sorted ts n k s e desc ms q := by
  have hl : leaves (.df n [packLeaves start.size (leaves start), packLeaves stop.size (leaves stop)]) =
      leaves start ++ leaves stop := by
    rw [leaves, leavesAll, leavesAll, leavesAll, h.starts.pack_leaves, h.stops.pack_leaves,
      List.append_nil]
  have hs : ∀ p ∈ leaves (.df n [packLeaves start.size (leaves start),
      packLeaves stop.size (leaves stop)]), Sortable n p := by
    rw [hl]
    intro p hp
    rcases List.mem_append.1 hp with hp | hp
    · exact h.starts.sortable p hp
    · exact h.stops.sortable p hp
  obtain ⟨o, ho, p, rfl, hp, hpw⟩ := C34_order_only_partial
    (.df n [packLeaves start.size (leaves start), packLeaves stop.size (leaves stop)]) hn hs (by
      intro i p _ hp
      have := List.mem_of_getElem? hp
      rw [hl] at this
      rcases List.mem_append.1 this with hp | hp
      · exact h.starts.types.not_complex h.ordered p hp
      · exact h.stops.types.not_complex h.ordered p hp) direction naValue _ _ hd hna false tl h0 fuel (by
      rw [hl, List.length_append, h.starts.types.length, h.stops.types.length]
      omega)
  have hkeys : sortKeys (.df n [packLeaves start.size (leaves start),
      packLeaves stop.size (leaves stop)]) [false, desc] [false, na] =
      (leaves start).map (fun p => (false, false, p)) ++
        ((leaves stop).map (fun p => (desc, na, p)) ++ []) := by
    unfold sortKeys columns
    simp only [List.zip_cons_cons, List.zip_nil_right, List.flatMap_cons, List.flatMap_nil,
      h.starts.pack_leaves, h.stops.pack_leaves]
  have hlt : ∀ i ∈ p, i < n := fun i hi => List.mem_range.1 (hp.mem_iff.1 hi)
  have hcon : ∀ i j, i ∈ p → j ∈ p →
      (RowBefore false (sortKeys (.df n [packLeaves start.size (leaves start),
        packLeaves stop.size (leaves stop)]) [false, desc] [false, na]) i j ∨
      (¬ RowBefore false (sortKeys (.df n [packLeaves start.size (leaves start),
        packLeaves stop.size (leaves stop)]) [false, desc] [false, na]) j i ∧ i < j)) →
      ¬ RowBefore false (sortKeys (.df n [packLeaves start.size (leaves start),
        packLeaves stop.size (leaves stop)]) [false, desc] [false, na]) j i := by
    intro i j hi hj hb
    rcases hb with hb | hb
    · exact rowBefore_asymm hs (hlt i hi) (hlt j hj) hb
    · exact hb.1
  rw [hkeys] at hcon
  rw [hkeys] at hpw
  have hcmp : ∀ i, i ∈ p → ¬ EachMissing ts (s i) → ¬ SomeMissing ts (s i) ∧ ¬ SomeMissing ts (e i) := by
    intro i hi hm
    exact (h.complete i _ _ (hk.rowS i (hlt i hi)) (hk.rowE i (hlt i hi))).resolve_left
      (fun h => hm h.1)
  have hpw1 : p.Pairwise (fun i j => EachMissing ts (s j) → EachMissing ts (s i)) := by
    refine List.Pairwise.imp_of_mem ?_ hpw
    intro i j hi hj hb hmj
    by_contra hmi
    exact hcon i j hi hj hb (rowBefore_of_missing h.ordered (hk.rowS j (hlt j hj))
      (hk.rowS i (hlt i hi)) hmj hmi (hcmp i hi hmi).1)
  obtain ⟨ms, q, rfl, hms, hq⟩ := split_pairwise hpw1
  refine ⟨ms, q, ho, hp, ?_, ?_, ?_⟩
  · intro i hi
    have hin := hlt i (by simp [hi])
    refine ⟨hms i hi, ?_⟩
    rcases h.complete i _ _ (hk.rowS i hin) (hk.rowE i hin) with h' | h'
    · exact h'.2
    · by_cases hts : ts = []
      · subst hts
        trivial
      · exact absurd (someMissing_of_each hts (hms i hi)) h'.1
  · intro i hi
    have := hcmp i (by simp [hi]) (hq i hi)
    exact ⟨hq i hi, this⟩
  · refine List.Pairwise.imp_of_mem ?_ (List.pairwise_append.1 hpw).2.1
    intro i j hi hj hb
    have hi' : i ∈ ms ++ q := by simp [hi]
    have hj' : j ∈ ms ++ q := by simp [hj]
    have hn' := hcon i j hi' hj' hb
    have ci := hcmp i hi' (hq i hi)
    have cj := hcmp j hj' (hq j hj)
    rcases lt_trichotomy (k (s i)) (k (s j)) with hlt' | heq | hgt
    · exact .inl hlt'
    · refine .inr ⟨heq, ?_⟩
      have hE : ¬ (if desc then RowsLt ts (e i) (e j) else RowsLt ts (e j) (e i)) := by
        intro hE
        refine hn' (rowBefore_of_same h.ordered (hk.rowS j (hlt j hj')) (hk.rowS i (hlt i hi')) cj.1
          ci.1 (hk.same h.ordered heq.symm) ?_)
        exact rowBefore_of_lt h.ordered (hk.rowE j (hlt j hj')) (hk.rowE i (hlt i hi')) cj.2 ci.2 hE
      cases desc with
      | false =>
        refine not_lt.1 (fun hl => hE ?_)
        exact (hk.key _ _).1 hl
      | true =>
        refine not_lt.1 (fun hl => hE ?_)
        exact (hk.key _ _).1 hl
    · refine absurd (rowBefore_of_lt h.ordered (hk.rowS j (hlt j hj')) (hk.rowS i (hlt i hi')) cj.1 ci.1
        (desc := false) ?_) hn'
      exact (hk.key _ _).1 hgt

end

end Vctrs
