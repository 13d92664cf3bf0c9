import Verif.Props.C50

/-!
# C50: needles and haystack exchanged

If all matches are asked for and nothing else is reported, then exchanging needles and haystack, with
the conditions turned around, gives the same pairs, exchanged.
-/

namespace Vctrs.Spec

/-- The condition turned around. -/
def turned : MOp → MOp
  | .eq => .eq
  | .gt => .lt
  | .gte => .lte
  | .lt => .gt
  | .lte => .gte

/-- The query with needles and haystack exchanged. -/
def Query.exchanged (Q : Query) : Query :=
  { Q with needles := Q.haystack, haystack := Q.needles, conditions := Q.conditions.map turned }

end Vctrs.Spec

namespace Vctrs

open Spec

theorem turned_turned (op : MOp) : turned (turned op) = op := by cases op <;> rfl

theorem compares_turned {d : Bool} {op : MOp} {ts : List ATy} {a b : Row ts}
    (h : Compares d op ts a b) : Compares d (turned op) ts b a := by
  cases op
  · exact ⟨h.2, h.1⟩
  all_goals exact h

theorem cellMatches_turned {d : Bool} {inc : MIncomplete} {op : MOp} {ts : List ATy} {a b : Row ts}
    (h : CellMatches d inc op ts a b) : CellMatches d inc (turned op) ts b a := by
  rcases h with ⟨h1, h2, h3⟩ | ⟨h1, h2, h3, h4⟩
  · exact .inl ⟨h2, h1, compares_turned h3⟩
  · refine .inr ⟨h2, h1, compares_turned h3, h4.imp_right fun h => ⟨h.1, ?_⟩⟩
    rcases h.2 with e | e | e <;> subst e
    · exact .inl rfl
    · exact .inr (.inr rfl)
    · exact .inr (.inl rfl)

theorem rowMatches_exchanged {Q : Query} {r k : Nat} (h : RowMatches Q r k) :
    RowMatches Q.exchanged k r := by
  intro c ts a b op ha hb hop
  obtain ⟨op', hop', e⟩ := Option.map_eq_some_iff.1 (List.getElem?_map (f := turned) ▸ hop)
  subst e
  exact cellMatches_turned (h c ts b a op' hb ha hop')

theorem exchanged_exchanged (Q : Query) : Q.exchanged.exchanged = Q := by
  obtain ⟨n, h, c, f, i, m, d⟩ := Q
  have e : (c.map turned).map turned = c := by
    rw [List.map_map]
    exact (List.map_congr_left fun op _ => turned_turned op).trans (List.map_id c)
  show Query.mk n h ((c.map turned).map turned) f i m d = _
  rw [e]

theorem rowMatches_exchanged_iff {Q : Query} {r k : Nat} :
    RowMatches Q.exchanged k r ↔ RowMatches Q r k := by
  refine ⟨fun h => ?_, rowMatches_exchanged⟩
  have := rowMatches_exchanged h
  rwa [exchanged_exchanged] at this

/-- The pairs reported are the matches. -/
theorem mem_needlePairs {Q : Query} {outs : Nat → Outcome} (hi : Q.incomplete = .compare ∨ Q.incomplete = .exact)
    (hm : Q.multiple = .all) (hfl : ∀ f ∈ Q.filters, f = .all)
    (ho : ∀ r, r < Q.needles.size → IsOutcome Q r (outs r)) (p : Int × Int) :
    p ∈ needlePairs Q.incomplete .drop outs Q.needles.size ↔ ∃ r k : Nat, p = ((r : Int) + 1, (k : Int) + 1) ∧
      r < Q.needles.size ∧ k < Q.haystack.size ∧ RowMatches Q r k := by
  have hnf : ∀ r, ¬ Flagged Q r := fun r h => by
    rcases hi with e | e
    · exact h.1.1 e
    · exact h.1.2 e
  have hsel : ∀ r k, Selected Q r k ↔ RowMatches Q r k := fun r k =>
    ⟨fun h => h.1, fun h => ⟨h, fun k' _ _ c ts b b' f hf _ _ hp => by
      rw [hfl f (List.mem_of_getElem? hf)] at hp
      exact hp⟩⟩
  unfold needlePairs
  simp only [List.mem_flatMap, List.mem_range, List.mem_map]
  constructor
  · rintro ⟨r, hr, v, hv, rfl⟩
    have h := ho r hr
    cases e : outs r with
    | incomplete =>
      rw [e] at h
      exact absurd h (hnf r)
    | unmatched =>
      rw [e] at hv
      cases hv
    | rows R =>
      rw [e] at h hv
      obtain ⟨_, S, _, ⟨_, hS⟩, hc⟩ := h
      rw [hm] at hc
      have hc : R = S := hc
      subst hc
      obtain ⟨k, hk, rfl⟩ := List.mem_map.1 hv
      exact ⟨r, k, rfl, hr, ((hS k).1 hk).1, (hsel r k).1 ((hS k).1 hk).2⟩
  · rintro ⟨r, k, rfl, hr, hk, hmatch⟩
    refine ⟨r, hr, (k : Int) + 1, ?_, rfl⟩
    have h := ho r hr
    cases e : outs r with
    | incomplete =>
      rw [e] at h
      exact absurd h (hnf r)
    | unmatched =>
      rw [e] at h
      exact absurd hmatch (h.2 k hk)
    | rows R =>
      rw [e] at h
      obtain ⟨_, S, _, ⟨_, hS⟩, hc⟩ := h
      rw [hm] at hc
      have hc : R = S := hc
      subst hc
      exact List.mem_map.2 ⟨k, (hS k).2 ⟨hk, (hsel r k).2 hmatch⟩, rfl⟩

/-- No pair is reported twice. -/
theorem nodup_needlePairs {Q : Query} {outs : Nat → Outcome} (hm : Q.multiple = .all)
    (hi : Q.incomplete = .compare ∨ Q.incomplete = .exact)
    (ho : ∀ r, r < Q.needles.size → IsOutcome Q r (outs r)) :
    (needlePairs Q.incomplete .drop outs Q.needles.size).Nodup := by
  unfold needlePairs
  refine List.nodup_flatMap.2 ⟨fun r hr => ?_, ?_⟩
  · have h := ho r (List.mem_range.1 hr)
    cases e : outs r with
    | incomplete => rcases hi with e | e <;> rw [e] <;> exact List.nodup_nil
    | unmatched => exact List.nodup_nil
    | rows R =>
      rw [e] at h
      obtain ⟨_, S, _, ⟨hS, _⟩, hc⟩ := h
      rw [hm] at hc
      have hc : R = S := hc
      subst hc
      show ((R.map (fun (r : Nat) => (r : Int) + 1)).map (fun v => ((r : Int) + 1, v))).Nodup
      rw [List.map_map]
      refine (List.pairwise_map.2 (hS.imp fun {a b} hab => ?_))
      intro h
      have := congrArg Prod.snd h
      simp only [Function.comp_apply] at this
      omega
  · refine (List.pairwise_lt_range).imp fun {a b} hab => ?_
    intro p h1 h2
    obtain ⟨v, _, rfl⟩ := List.mem_map.1 h1
    obtain ⟨w, _, h⟩ := List.mem_map.1 h2
    have := congrArg Prod.fst h
    simp only at this
    omega

/-- If all matches are asked for, missing values are compared or matched, and nothing is reported but
the matches, then exchanging needles and haystack with the conditions turned around gives the same
pairs, exchanged, in another order.  That both calls return, unless there are too many pairs, is in
`C50_locate_matches`. -/
theorem C50_exchange (Q : Query) (tss : List (List ATy)) (condition condition' filter : List Name)
    (h : MatchCall Q tss condition filter .drop)
    (hc : ArgGives conditionName condition' tss.length Q.exchanged.conditions)
    (hi : Q.incomplete = .compare ∨ Q.incomplete = .exact) (hm : Q.multiple = .all)
    (hfl : ∀ f ∈ Q.filters, f = .all) (tl : TL) (h0 : ∀ u, 0 ≤ tl u) (fuel : Nat)
    (hf : tss.length + 1 ≤ fuel) (hw : ∀ ts ∈ tss, ts.length ≤ fuel) (r r' : Matches)
    (e : vecLocateMatches fuel Q.needles Q.haystack condition filter Q.incomplete .drop .drop .all .none
      Q.nanDistinct tl (List.replicate 100001 0) = .ok (r, tl, List.replicate 100001 0))
    (e' : vecLocateMatches fuel Q.haystack Q.needles condition' filter Q.incomplete .drop .drop .all .none
      Q.nanDistinct tl (List.replicate 100001 0) = .ok (r', tl, List.replicate 100001 0)) :
    (r'.haystack.zip r'.needles).Perm (r.needles.zip r.haystack) := by
  have zipped : ∀ l : List (Int × Int), (l.map (·.1)).zip (l.map (·.2)) = l := by
    intro l
    induction l with
    | nil => rfl
    | cons a l ih => simp [ih]
  have hnf : ∀ (P : Query), (P.incomplete = .compare ∨ P.incomplete = .exact) → ∀ r, ¬ Flagged P r := by
    rintro P (e | e) r hr
    · exact hr.1.1 e
    · exact hr.1.2 e
  have hcall : MatchCall Q.exchanged tss condition' filter .drop := by
    refine ⟨h.haystack, h.needles, h.alike.symm, h.columns, h.complex, ?_, h.sizeH, h.sizeN, hc, h.filters,
      .inl hfl, h.incomplete, h.unmatched, ?_⟩
    · intro c op hop hne
      obtain ⟨op', hop', rfl⟩ := Option.map_eq_some_iff.1 (List.getElem?_map (f := turned) ▸ hop)
      exact (h.packed c op' hop' (fun e => hne (by rw [e]; rfl))).symm
    · intro hx
      have hx : Q.multiple = .first ∨ Q.multiple = .last := hx
      rw [hm] at hx
      rcases hx with hx | hx <;> cases hx
  have pairs : ∀ (P : Query) (cond : List Name) (s : Matches), MatchCall P tss cond filter .drop →
      (P.incomplete = .compare ∨ P.incomplete = .exact) → P.multiple = .all → (∀ f ∈ P.filters, f = .all) →
      vecLocateMatches fuel P.needles P.haystack cond filter P.incomplete .drop .drop .all .none
        P.nanDistinct tl (List.replicate 100001 0) = .ok (s, tl, List.replicate 100001 0) →
      (s.needles.zip s.haystack).Nodup ∧ ∀ p, p ∈ s.needles.zip s.haystack ↔
        ∃ r k : Nat, p = ((r : Int) + 1, (k : Int) + 1) ∧ r < P.needles.size ∧ k < P.haystack.size ∧
          RowMatches P r k := by
    intro P cond s hP hi hm hfl hs
    obtain ⟨outs, ho, hok⟩ := C50_locate_matches P tss cond filter .drop .drop .none hP
      (.inl fun r _ => hnf P hi r) tl h0 fuel hf hw
    rcases hok with ⟨s', es, h1, h2, _⟩ | ⟨es, _⟩
    · rw [hm, hs] at es
      cases es
      have e0 : remainingPairs .drop outs P.needles.size P.haystack.size = [] := rfl
      rw [e0, List.append_nil] at h1 h2
      rw [h1, h2, zipped]
      exact ⟨nodup_needlePairs hm hi ho, mem_needlePairs hi hm hfl ho⟩
    · rw [hm, hs] at es
      cases es
  obtain ⟨n1, m1⟩ := pairs Q condition r h hi hm hfl e
  obtain ⟨n2, m2⟩ := pairs Q.exchanged condition' r' hcall hi hm hfl e'
  have swapped : ∀ a b : List Int, b.zip a = (a.zip b).map Prod.swap := by
    intro a
    induction a with
    | nil => intro b; cases b <;> rfl
    | cons x a ih => intro b; cases b <;> simp [ih]
  have hswap : r'.haystack.zip r'.needles = (r'.needles.zip r'.haystack).map Prod.swap := swapped _ _
  rw [hswap]
  refine (List.perm_ext_iff_of_nodup (n2.map (Prod.swap_injective)) n1).2 fun p => ?_
  rw [List.mem_map, m1]
  constructor
  · rintro ⟨q, hq, rfl⟩
    obtain ⟨k, j, rfl, hk, hj, hmm⟩ := (m2 q).1 hq
    exact ⟨j, k, rfl, hj, hk, rowMatches_exchanged_iff.1 hmm⟩
  · rintro ⟨j, k, rfl, hj, hk, hmm⟩
    exact ⟨((k : Int) + 1, (j : Int) + 1), (m2 _).2 ⟨k, j, rfl, hk, hj, rowMatches_exchanged_iff.2 hmm⟩, rfl⟩

/-! ## Example -/

/-- All matches of equal integers and strings that are not larger. -/
def C50_all : Query := { C50_query with filters := [.all, .all] }

/-- `c("==", "<=")`. -/
def C50_turned : List Name := [some ['=', '='], some ['<', '=']]

/-- `"none"`. -/
def C50_none : List Name := [some ['n', 'o', 'n', 'e']]

example : MatchCall C50_all [[.int], [.chr]] C50_condition C50_none .drop ∧
    ArgGives conditionName C50_turned 2 C50_all.exchanged.conditions ∧
    (∀ f ∈ C50_all.filters, f = .all) := by
  have h := C50_call
  have hf : ∀ f ∈ C50_all.filters, f = .all := by decide
  refine ⟨⟨h.needles, h.haystack, h.alike, h.columns, h.complex, h.packed, h.sizeN, h.sizeH, h.conditions,
    .inl ⟨.all, rfl, rfl⟩, .inl hf, h.incomplete, (fun v hv => by cases hv), ?_⟩, .inr ⟨rfl, rfl⟩, hf⟩
  rintro (h | h) <;> cases h

example : C50_run (vecLocateMatches 3 C50_all.needles C50_all.haystack C50_condition C50_none
    C50_all.incomplete .drop .drop .all .none C50_all.nanDistinct exTl exStatic) =
    some ([1, 1, 2, 3, 3, 4], [2, 5, 3, 1, 3, 6], false) := by decide +kernel

example : C50_run (vecLocateMatches 3 C50_all.haystack C50_all.needles C50_turned C50_none
    C50_all.incomplete .drop .drop .all .none C50_all.nanDistinct exTl exStatic) =
    some ([1, 2, 3, 3, 5, 6], [3, 1, 2, 3, 1, 4], false) := by decide +kernel

end Vctrs
