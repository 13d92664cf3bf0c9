import Verif.Lemmas.MatchTop
import Verif.Props.ExOrder

/-!
# C50: matches between two data frames

`vec_locate_matches()` on vectors and data frames, with all options.  Columns may be packed data frames.  The rows to find
and the pairs to report are specified in `Verif/SpecMatch.lean`.
-/

namespace Vctrs

open Spec

/-- The result of `vec_locate_matches()`: the pairs to report and whether there is a warning, or an
error for one of the listed reasons. -/
def MatchOk (Q : Query) (condition filter : List Name) (noMatch remaining : MUnmatched)
    (relationship : MRelationship) (outs : Nat → Outcome) (tl : TL) (fuel : Nat) : Prop :=
  (∃ r : Matches, vecLocateMatches fuel Q.needles Q.haystack condition filter Q.incomplete noMatch
      remaining Q.multiple relationship Q.nanDistinct tl (List.replicate 100001 0) =
      .ok (r, tl, List.replicate 100001 0) ∧
    MatchResult Q noMatch remaining relationship outs Q.needles.size Q.haystack.size r) ∨
  (vecLocateMatches fuel Q.needles Q.haystack condition filter Q.incomplete noMatch remaining
      Q.multiple relationship Q.nanDistinct tl (List.replicate 100001 0) = .error .abort ∧
    Rejected Q.incomplete noMatch remaining Q.multiple relationship outs Q.needles.size
      Q.haystack.size)

/-- The arguments of `vec_locate_matches()`: tables with columns of the same types, which are vectors or
packed data frames, conditions and filters for the columns; there are no filters, or the conditions of
all columns but the last are `==`.  In packed columns with another condition, incomplete rows begin
with a missing element; this holds for all vectors (`missingFirst_vec`).  Complex elements are at
the begin of packed columns.  If only the first or the last match is asked for, the number of matches
still has to fit. -/
structure MatchCall (Q : Query) (tss : List (List ATy)) (condition filter : List Name)
    (noMatch : MUnmatched) : Prop where
  needles : IsTable tss Q.needles.size Q.needles
  haystack : IsTable tss Q.haystack.size Q.haystack
  alike : SameType Q.needles Q.haystack
  columns : tss ≠ []
  complex : ∀ ts ∈ tss, ∀ i : Nat, 0 < i → ts[i]? ≠ some .cpl
  packed : ∀ c op, Q.conditions[c]? = some op → op ≠ .eq →
    MissingFirst Q.needles c ∧ MissingFirst Q.haystack c
  sizeN : Q.needles.size ≤ intMax
  sizeH : Q.haystack.size ≤ intMax
  conditions : ArgGives conditionName condition tss.length Q.conditions
  filters : ArgGives filterName filter tss.length Q.filters
  filterLast : (∀ f ∈ Q.filters, f = .all) ∨ EqBeforeLast Q
  incomplete : ∀ v, Q.incomplete = .value v → IsInt v
  unmatched : ∀ v, noMatch = .value v → IsInt v
  few : Q.multiple = .first ∨ Q.multiple = .last → EqBeforeLast Q ∨ FewSelected Q

/-- `vec_locate_matches()` reports for every needle the selected rows of the haystack, except that an
incomplete needle may be taken for one without a match if some condition is `==`.  What is missing:
that incomplete needles are always reported as such, which does not hold, see
`C50_incomplete_pruned`; and filters together with other conditions in a column before the last,
see `C50_filter_before_condition`; and packed columns with other conditions, whose incomplete rows do
not begin with a missing element, see `C50_packed_missing`. -/
theorem C50_locate_matches_partial (Q : Query) (tss : List (List ATy)) (condition filter : List Name)
    (noMatch remaining : MUnmatched) (relationship : MRelationship)
    (h : MatchCall Q tss condition filter noMatch) (tl : TL) (h0 : ∀ u, 0 ≤ tl u) (fuel : Nat)
    (hf : tss.length + 1 ≤ fuel) (hw : ∀ ts ∈ tss, ts.length ≤ fuel) :
    ∃ outs : Nat → Outcome,
      (∀ r, r < Q.needles.size → IsOutcome Q r (outs r) ∨
        (outs r = .unmatched ∧ Flagged Q r ∧ .eq ∈ Q.conditions)) ∧
      MatchOk Q condition filter noMatch remaining relationship outs tl fuel := by
  obtain ⟨outs, h1, h2⟩ := vecLocateMatches_ok h.needles h.haystack h.alike h.columns h.complex h.packed
    h.sizeN h.sizeH h.conditions h.filters h.filterLast h.incomplete (noMatch := noMatch) (remaining := remaining)
    h.unmatched relationship h.few h0 hf hw
  refine ⟨outs, h1, ?_⟩
  rcases h2 with ⟨⟨r, s⟩, e1, e2, e3⟩ | ⟨e, e1, e2, e3⟩
  · left
    dsimp only at e2
    subst e2
    exact ⟨r, e1, e3⟩
  · right
    subst e2
    exact ⟨e1, e3⟩

/-- Without incomplete needles to report, or without `==`, the selected rows are reported for every
needle, and incomplete needles are reported as such. -/
theorem C50_locate_matches (Q : Query) (tss : List (List ATy)) (condition filter : List Name)
    (noMatch remaining : MUnmatched) (relationship : MRelationship)
    (h : MatchCall Q tss condition filter noMatch)
    (hc : (∀ r, r < Q.needles.size → ¬ Flagged Q r) ∨ .eq ∉ Q.conditions) (tl : TL)
    (h0 : ∀ u, 0 ≤ tl u) (fuel : Nat) (hf : tss.length + 1 ≤ fuel)
    (hw : ∀ ts ∈ tss, ts.length ≤ fuel) :
    ∃ outs : Nat → Outcome, (∀ r, r < Q.needles.size → IsOutcome Q r (outs r)) ∧
      MatchOk Q condition filter noMatch remaining relationship outs tl fuel := by
  obtain ⟨outs, h1, h2⟩ := C50_locate_matches_partial Q tss condition filter noMatch remaining
    relationship h tl h0 fuel hf hw
  refine ⟨outs, fun r hr => ?_, h2⟩
  rcases h1 r hr with h3 | ⟨_, h3, h4⟩
  · exact h3
  · rcases hc with hc | hc
    · exact absurd h3 (hc r hr)
    · exact absurd h4 hc

/-- The outcome for a needle that is incomplete, not without match. -/
noncomputable def flagAgain (Q : Query) (outs : Nat → Outcome) (r : Nat) : Outcome :=
  open Classical in if Flagged Q r then .incomplete else outs r

/-- Incomplete needles are reported as those without a match. -/
def SameReport (incomplete : MIncomplete) (noMatch : MUnmatched) : Prop :=
  (∃ v, incomplete = .value v ∧ noMatch = .value v) ∨ (incomplete = .drop ∧ noMatch = .drop) ∨
    (incomplete = .error ∧ noMatch = .error)

/-- If incomplete needles are reported as those without a match, then whatever the conditions the
selected rows are reported for every needle. -/
theorem C50_same_report (Q : Query) (tss : List (List ATy)) (condition filter : List Name)
    (noMatch remaining : MUnmatched) (relationship : MRelationship)
    (h : MatchCall Q tss condition filter noMatch) (hs : SameReport Q.incomplete noMatch) (tl : TL)
    (h0 : ∀ u, 0 ≤ tl u) (fuel : Nat) (hf : tss.length + 1 ≤ fuel)
    (hw : ∀ ts ∈ tss, ts.length ≤ fuel) :
    ∃ outs : Nat → Outcome, (∀ r, r < Q.needles.size → IsOutcome Q r (outs r)) ∧
      MatchOk Q condition filter noMatch remaining relationship outs tl fuel := by
  obtain ⟨outs, h1, h2⟩ := C50_locate_matches_partial Q tss condition filter noMatch remaining
    relationship h tl h0 fuel hf hw
  have flag : ∀ r, r < Q.needles.size → Flagged Q r → outs r = .incomplete ∨ outs r = .unmatched := by
    intro r hr hfl
    rcases h1 r hr with h3 | ⟨h3, _, _⟩
    · cases ho : outs r with
      | incomplete => exact .inl rfl
      | unmatched => exact .inr rfl
      | rows R =>
        rw [ho] at h3
        exact absurd hfl h3.1
    · exact .inr h3
  have pos : ∀ {r}, Flagged Q r → flagAgain Q outs r = .incomplete := fun hfl => if_pos hfl
  have neg : ∀ {r}, ¬ Flagged Q r → flagAgain Q outs r = outs r := fun hfl => if_neg hfl
  have found : ∀ r, r < Q.needles.size → (flagAgain Q outs r).found = (outs r).found := by
    intro r hr
    by_cases hfl : Flagged Q r
    · rw [pos hfl]
      rcases flag r hr hfl with e | e <;> rw [e] <;> rfl
    · rw [neg hfl]
  have values : ∀ r, r < Q.needles.size →
      (flagAgain Q outs r).values Q.incomplete noMatch = (outs r).values Q.incomplete noMatch := by
    intro r hr
    by_cases hfl : Flagged Q r
    · rw [pos hfl]
      rcases flag r hr hfl with e | e <;> rw [e]
      rcases hs with ⟨v, e1, e2⟩ | ⟨e1, e2⟩ | ⟨e1, e2⟩ <;> rw [e1, e2] <;> rfl
    · rw [neg hfl]
  have hpairs : needlePairs Q.incomplete noMatch (flagAgain Q outs) Q.needles.size =
      needlePairs Q.incomplete noMatch outs Q.needles.size := by
    unfold needlePairs
    refine List.flatMap_congr fun r hr => ?_
    rw [values r (List.mem_range.1 hr)]
  have hall : allFound (flagAgain Q outs) Q.needles.size = allFound outs Q.needles.size := by
    unfold allFound
    refine List.flatMap_congr fun r hr => ?_
    rw [found r (List.mem_range.1 hr)]
  have hrem : remainingPairs remaining (flagAgain Q outs) Q.needles.size Q.haystack.size =
      remainingPairs remaining outs Q.needles.size Q.haystack.size := by
    unfold remainingPairs
    rw [hall]
  have hsev : SeveralMatches (flagAgain Q outs) Q.needles.size ↔ SeveralMatches outs Q.needles.size := by
    unfold SeveralMatches
    refine exists_congr fun r => and_congr_right fun hr => ?_
    rw [found r hr]
  have hagain : FoundAgain (flagAgain Q outs) Q.needles.size ↔ FoundAgain outs Q.needles.size := by
    unfold FoundAgain
    refine exists_congr fun i => exists_congr fun j => exists_congr fun r => and_congr_right fun h1 =>
      and_congr_right fun h2 => ?_
    rw [found i (by omega), found j h2]
  have hmany : TooMany (flagAgain Q outs) Q.needles.size ↔ TooMany outs Q.needles.size := by
    unfold TooMany
    rw [List.map_congr_left fun r hr => by rw [found r (List.mem_range.1 hr)]]
  have hrej : Rejected Q.incomplete noMatch remaining Q.multiple relationship (flagAgain Q outs)
      Q.needles.size Q.haystack.size ↔ Rejected Q.incomplete noMatch remaining Q.multiple
      relationship outs Q.needles.size Q.haystack.size := by
    constructor
    · rintro (⟨e, i, hi, ho⟩ | ⟨e, i, hi, ho⟩ | ⟨e, ho⟩ | ⟨e, ho⟩ | ⟨e, i, hi, ho⟩ | ⟨e, ho⟩)
      · by_cases hfl : Flagged Q i
        · rcases flag i hi hfl with e' | e'
          · exact .incomplete e i hi e'
          · refine .unmatched ?_ i hi e'
            rcases hs with ⟨v, e1, _⟩ | ⟨e1, _⟩ | ⟨_, e2⟩
            · rw [e] at e1; cases e1
            · rw [e] at e1; cases e1
            · exact e2
        · rw [neg hfl] at ho
          exact .incomplete e i hi ho
      · by_cases hfl : Flagged Q i
        · rw [pos hfl] at ho; cases ho
        · rw [neg hfl] at ho
          exact .unmatched e i hi ho
      · exact .several e (hsev.1 ho)
      · exact .again e (hagain.1 ho)
      · exact .remaining e i hi (by rw [← hall]; exact ho)
      · exact .tooMany e (hmany.1 ho)
    · rintro (⟨e, i, hi, ho⟩ | ⟨e, i, hi, ho⟩ | ⟨e, ho⟩ | ⟨e, ho⟩ | ⟨e, i, hi, ho⟩ | ⟨e, ho⟩)
      · refine .incomplete e i hi ?_
        by_cases hfl : Flagged Q i
        · exact pos hfl
        · rw [neg hfl]; exact ho
      · by_cases hfl : Flagged Q i
        · refine .incomplete ?_ i hi (pos hfl)
          rcases hs with ⟨v, _, e2⟩ | ⟨_, e2⟩ | ⟨e1, _⟩
          · rw [e] at e2; cases e2
          · rw [e] at e2; cases e2
          · exact e1
        · exact .unmatched e i hi (by rw [neg hfl]; exact ho)
      · exact .several e (hsev.2 ho)
      · exact .again e (hagain.2 ho)
      · exact .remaining e i hi (by rw [hall]; exact ho)
      · exact .tooMany e (hmany.2 ho)
  have hwarn : Warned Q.multiple relationship (flagAgain Q outs) Q.needles.size ↔
      Warned Q.multiple relationship outs Q.needles.size := by
    constructor
    · rintro (⟨e, ho⟩ | ⟨e, ho, ha⟩)
      · exact .several e (hsev.1 ho)
      · exact .manyToMany e (hsev.1 ho) (hagain.1 ha)
    · rintro (⟨e, ho⟩ | ⟨e, ho, ha⟩)
      · exact .several e (hsev.2 ho)
      · exact .manyToMany e (hsev.2 ho) (hagain.2 ha)
  refine ⟨flagAgain Q outs, fun r hr => ?_, ?_⟩
  · by_cases hfl : Flagged Q r
    · rw [pos hfl]
      exact hfl
    · rw [neg hfl]
      rcases h1 r hr with h3 | ⟨_, h3, _⟩
      · exact h3
      · exact absurd h3 hfl
  · unfold MatchOk MatchResult
    rw [hpairs, hrem, hwarn, hrej]
    exact h2

/-! ## Columns of vectors -/

theorem row_vec {P : (ts : List ATy) → Row ts → Prop} {t : ATy} {us : List t.El} {r : Nat}
    (h : ∀ v, us[r]? = some v → P [t] (v, ())) : (ts : List ATy) → (a : Row ts) →
    HasRow ts [.vec (.atom t) us] r a → P ts a
  | [], _, hr => by
    have e : [Val.vec (.atom t) us] = [] := hr
    cases e
  | [_], (v, ()), ⟨_, _, e, hv, _⟩ => by
    cases e
    exact h v hv
  | _ :: _ :: _, (_, (_, _)), ⟨_, _, e, _, _, _, e', _⟩ => by
    cases e
    cases e'

/-- A column that is a vector. -/
theorem columnRow_vec {P : (ts : List ATy) → Row ts → Prop} {x : Val} {c r : Nat} {t : ATy} {us : List t.El}
    (hc : (topColumns x)[c]? = some (.vec (.atom t) us)) (h : ∀ v, us[r]? = some v → P [t] (v, ()))
    {ts : List ATy} {a : Row ts} (ha : ColumnRow x c ts r a) : P ts a := by
  obtain ⟨col, h1, h2⟩ := ha
  rw [hc] at h1
  cases h1
  exact row_vec h ts a h2

theorem columnRow_get {x : Val} {c r : Nat} {t : ATy} {us : List t.El}
    (hc : (topColumns x)[c]? = some (.vec (.atom t) us)) {a : Row [t]} (ha : ColumnRow x c [t] r a) :
    us[r]? = some a.1 := by
  obtain ⟨col, h1, xs, qs, e, h2, _⟩ := ha
  rw [hc] at h1
  cases h1
  cases e
  exact h2

/-- In a vector, incomplete rows begin with a missing element. -/
theorem missingFirst_vec {x : Val} {c : Nat} {t : ATy} {us : List t.El}
    (hc : (topColumns x)[c]? = some (.vec (.atom t) us)) : MissingFirst x c := by
  intro ts r a ha
  exact columnRow_vec (P := fun ts a => SomeMissing ts a → FirstMissing ts a) hc
    (fun v _ h => h.resolve_right fun h => h) ha

theorem bounds_vec {t : ATy} {us : List t.El} {n : Nat} (h : Sortable n (.vec (.atom t) us)) :
    IsBounds [t] n (.vec (.atom t) us) :=
  ⟨sized_of_sortable h, ⟨us, [], rfl, rfl⟩, by
    intro p hp
    simp only [leaves, List.mem_singleton] at hp
    subst hp
    exact h⟩

/-! ## Concrete queries -/

/-- The result without the shared state. -/
def C50_run (r : C (Matches × TL × List Nat)) : Option (List Int × List Int × Bool) :=
  match r with
  | .ok (o, _, _) => some (o.needles, o.haystack, o.warned)
  | .error _ => none

/-- A data frame with an integer and a string column. -/
def C50_table (a : List Int) (b : List Name) : Val :=
  .df a.length [.vec (.atom .int) a, .vec (.atom .chr) b]

/-- Needles with a missing integer. -/
def C50_needles : Val :=
  C50_table [1, 2, 2, naInt] [some ['b'], some ['a'], some ['c'], some ['a']]

/-- Haystack. -/
def C50_haystack : Val :=
  C50_table [2, 1, 2, 2, 1, naInt] [some ['b'], some ['a'], some ['a'], some ['d'], some ['a'], some []]

/-- Equal integers and strings that are not larger, the largest of these. -/
def C50_query : Query :=
  ⟨C50_needles, C50_haystack, [.eq, .gte], [.all, .max], .compare, .all, true⟩

/-- `c("==", ">=")`. -/
def C50_condition : List Name := [some ['=', '='], some ['>', '=']]

/-- `c("none", "max")`. -/
def C50_filter : List Name := [some ['n', 'o', 'n', 'e'], some ['m', 'a', 'x']]

theorem C50_table_ok {a : List Int} {b : List Name} (h : b.length = a.length) (ha : ∀ v ∈ a, IsInt v)
    (hb : ∀ s, some s ∈ b → ByteString s) : IsTable [[.int], [.chr]] (C50_table a b).size (C50_table a b) :=
  ⟨⟨_, _, rfl, bounds_vec ⟨rfl, ha⟩, _, _, rfl, bounds_vec ⟨h, hb⟩, rfl⟩, rfl⟩

/-- Complex elements only at the begin. -/
theorem C50_complex {tss : List (List ATy)} (h : tss.all (fun ts => (ts.drop 1).all (fun t => t != .cpl)) = true) :
    ∀ ts ∈ tss, ∀ i : Nat, 0 < i → ts[i]? ≠ some .cpl := by
  intro ts hts i hi he
  have h1 := List.all_eq_true.1 (List.all_eq_true.1 h ts hts) .cpl (by
    obtain ⟨j, rfl⟩ : ∃ j, i = j + 1 := ⟨i - 1, by omega⟩
    refine List.mem_of_getElem? (i := j) ?_
    rw [List.getElem?_drop, Nat.add_comm]
    exact he)
  simp at h1

theorem C50_strings {b : List Name} (h : b.all (fun s => match s with
    | none => true
    | some s => s.all (fun c => decide (0 < c.toNat ∧ c.toNat < 256))) = true) :
    ∀ s, some s ∈ b → ByteString s := by
  intro s hs
  have := List.all_eq_true.1 h _ hs
  intro c hc
  have := List.all_eq_true.1 this c hc
  simpa using this

theorem C50_call : MatchCall C50_query [[.int], [.chr]] C50_condition C50_filter (.value naInt) := by
  refine ⟨C50_table_ok rfl ?_ (C50_strings (by decide)), C50_table_ok rfl ?_ (C50_strings (by decide)),
    rfl, by simp, C50_complex (by decide), ?_, by decide, by decide, .inr ⟨rfl, rfl⟩, .inr ⟨rfl, rfl⟩,
    .inr ?_, ?_, ?_, ?_⟩
  · unfold IsInt; decide
  · unfold IsInt; decide
  · intro c op he _
    match c, he with
    | 0, _ => exact ⟨missingFirst_vec rfl, missingFirst_vec rfl⟩
    | 1, _ => exact ⟨missingFirst_vec rfl, missingFirst_vec rfl⟩
    | c + 2, he => cases he
  · intro c op hc he
    have hc' : c + 1 < 2 := hc
    have : c = 0 := by omega
    subst this
    cases he
    rfl
  · intro v hv; cases hv
  · intro v hv; cases hv; unfold IsInt; decide
  · rintro (h | h) <;> cases h

theorem C50_noFlag : ∀ r, r < C50_query.needles.size → ¬ Flagged C50_query r :=
  fun _ _ h => h.1.1 rfl

example : C50_run (vecLocateMatches 3 C50_query.needles C50_query.haystack C50_condition C50_filter
    C50_query.incomplete (.value naInt) .drop C50_query.multiple .none C50_query.nanDistinct exTl
    exStatic) = some ([1, 1, 2, 3, 4], [2, 5, 3, 1, 6], false) := by decide +kernel

/-- The same with incomplete needles reported as those without a match. -/
def C50_same : Query := { C50_query with incomplete := .value naInt }

example : MatchCall C50_same [[.int], [.chr]] C50_condition C50_filter (.value naInt) ∧
    SameReport C50_same.incomplete (.value naInt) := by
  have h := C50_call
  refine ⟨⟨h.needles, h.haystack, h.alike, h.columns, h.complex, h.packed, h.sizeN, h.sizeH, h.conditions, h.filters, ?_,
    fun v hv => by cases hv; unfold IsInt; decide, h.unmatched, ?_⟩, .inl ⟨_, rfl, rfl⟩⟩
  · rcases h.filterLast with h' | h'
    · exact .inl h'
    · exact .inr h'
  · rintro (h | h) <;> cases h

example : C50_run (vecLocateMatches 3 C50_same.needles C50_same.haystack C50_condition C50_filter
    C50_same.incomplete (.value naInt) (.value naInt) C50_same.multiple .warnManyToMany
    C50_same.nanDistinct exTl exStatic) =
    some ([1, 1, 2, 3, 4, naInt, naInt], [2, 5, 3, 1, naInt, 4, 6], false) := by decide +kernel

/-- Without `==`: dropped needles and the last of the matches. -/
def C50_range : Query :=
  ⟨.vec (.atom .int) ([3, naInt, 1, 2] : List Int), .vec (.atom .int) ([1, naInt, 2, 1] : List Int), [.gt],
    [.all], .drop, .last, false⟩

theorem C50_vec_ok {a : List Int} (ha : ∀ v ∈ a, IsInt v) :
    IsTable [[.int]] (Val.vec (.atom .int) a).size (.vec (.atom .int) a) :=
  ⟨⟨_, _, rfl, bounds_vec ⟨rfl, ha⟩, rfl⟩, rfl⟩

example : MatchCall C50_range [[.int]] [some ['>']] [some ['n', 'o', 'n', 'e']] .drop ∧
    .eq ∉ C50_range.conditions ∧ Flagged C50_range 1 := by
  refine ⟨⟨C50_vec_ok ?_, C50_vec_ok ?_, rfl, by simp, C50_complex (by decide), ?_, by decide, by decide,
    .inl ⟨.gt, rfl, rfl⟩, .inl ⟨.all, rfl, rfl⟩, .inl ?_, ?_, ?_, ?_⟩, ?_, ?_⟩
  · unfold IsInt; decide
  · unfold IsInt; decide
  · intro c op he _
    match c, he with
    | 0, _ => exact ⟨missingFirst_vec rfl, missingFirst_vec rfl⟩
    | c + 1, he => cases he
  · intro f hf
    have hf' : f ∈ [MFilter.all] := hf
    exact List.mem_singleton.1 hf'
  · intro v hv; cases hv
  · intro v hv; cases hv
  · intro _
    left
    intro c op hc
    have hc' : c + 1 < 1 := hc
    omega
  · intro h
    have h' : MOp.eq ∈ [MOp.gt] := h
    simp at h'
  · exact ⟨⟨by decide, by decide⟩, 0, [.int], (naInt, ()), ⟨_, rfl, _, _, rfl, rfl, rfl⟩, .inl rfl⟩

example : C50_run (vecLocateMatches 2 C50_range.needles C50_range.haystack [some ['>']]
    [some ['n', 'o', 'n', 'e']] C50_range.incomplete .drop .drop C50_range.multiple .none
    C50_range.nanDistinct exTl exStatic) = some ([1, 4], [4, 4], false) := by decide +kernel

/-! ## Invalid arguments -/

/-- Conditions or filters that are not one of the known strings for all columns or for each column,
and data frames without columns, are an error. -/
theorem C50_invalid (Q : Query) (condition filter : List Name) (noMatch remaining : MUnmatched)
    (relationship : MRelationship) (ha : Alike Q.needles Q.haystack)
    (h : (¬ ∃ ops, ArgGives conditionName condition (topColumns Q.needles).length ops) ∨
      (¬ ∃ fs, ArgGives filterName filter (topColumns Q.needles).length fs) ∨
      topColumns Q.needles = []) (tl : TL) (static : List Nat) (fuel : Nat) :
    vecLocateMatches fuel Q.needles Q.haystack condition filter Q.incomplete noMatch remaining
      Q.multiple relationship Q.nanDistinct tl static = .error .abort := by
  have hmc : matchColumns Q.needles Q.haystack = .ok (topColumns Q.needles, topColumns Q.haystack) := by
    revert ha
    cases Q.needles <;> cases Q.haystack <;> intro ha <;> first | rfl | cases ha
  unfold vecLocateMatches
  rw [hmc, ok_bind]
  dsimp only
  by_cases hc : ∃ ops, ArgGives conditionName condition (topColumns Q.needles).length ops
  · obtain ⟨ops, hc'⟩ := hc
    rw [parseByColumn_ok parseCondition_name hc', ok_bind]
    by_cases hf : ∃ fs, ArgGives filterName filter (topColumns Q.needles).length fs
    · obtain ⟨fs, hf'⟩ := hf
      rw [parseByColumn_ok parseFilter_name hf', ok_bind]
      rcases h with h | h | h
      · exact absurd ⟨ops, hc'⟩ h
      · exact absurd ⟨fs, hf'⟩ h
      · rw [if_pos (by rw [h]; rfl)]
    · rw [parseByColumn_bad parseFilter_cases hf, error_bind]
  · rw [parseByColumn_bad parseCondition_cases hc, error_bind]

example : ¬ ∃ ops, ArgGives conditionName [some ['=', '='], some ['=']] 2 ops := by
  rintro ⟨ops, ⟨v, h, _⟩ | ⟨h, _⟩⟩
  · simp at h
  · match ops, h with
    | [a, b], h =>
      simp only [List.map_cons, List.map_nil, List.cons.injEq, and_true] at h
      cases b <;> simp [conditionName] at h

/-! ## Incomplete needles that are not reported -/

/-- An incomplete needle, which is an error; it is smaller than all of the haystack. -/
def C50_pruned : Query :=
  ⟨.vec (.atom .int) ([naInt, 1, 2] : List Int), .vec (.atom .int) ([1] : List Int), [.eq], [.all], .error,
    .all, true⟩

/-- With `==`, parts of the needles are left out before it is known that they are incomplete
(src/match.c:920-940): `vec_locate_matches(c(NA, 1, 2), 1, incomplete = "error")` is not an error. -/
theorem C50_incomplete_pruned :
    MatchCall C50_pruned [[.int]] [some ['=', '=']] [some ['n', 'o', 'n', 'e']] (.value naInt) ∧
    (∀ outs : Nat → Outcome, (∀ r, r < 3 → IsOutcome C50_pruned r (outs r)) →
      Rejected .error (.value naInt) .drop .all .none outs 3 1) ∧
    C50_run (vecLocateMatches 2 C50_pruned.needles C50_pruned.haystack [some ['=', '=']]
      [some ['n', 'o', 'n', 'e']] .error (.value naInt) .drop .all .none true exTl exStatic) =
      some ([1, 2, 3], [naInt, 1, naInt], false) := by
  refine ⟨⟨C50_vec_ok ?_, C50_vec_ok ?_, rfl, by simp, C50_complex (by decide), ?_, by decide, by decide,
    .inl ⟨.eq, rfl, rfl⟩, .inl ⟨.all, rfl, rfl⟩, .inl ?_, ?_, ?_, ?_⟩, ?_, by decide +kernel⟩
  · unfold IsInt; decide
  · unfold IsInt; decide
  · intro c op he _
    match c, he with
    | 0, _ => exact ⟨missingFirst_vec rfl, missingFirst_vec rfl⟩
    | c + 1, he => cases he
  · intro f hf
    have hf' : f ∈ [MFilter.all] := hf
    exact List.mem_singleton.1 hf'
  · intro v hv; cases hv
  · intro v hv; cases hv; unfold IsInt; decide
  · rintro (h | h) <;> cases h
  · intro outs ho
    have hfl : Flagged C50_pruned 0 :=
      ⟨⟨by decide, by decide⟩, 0, [.int], (naInt, ()), ⟨_, rfl, _, _, rfl, rfl, rfl⟩, .inl rfl⟩
    refine .incomplete rfl 0 (by decide) ?_
    have h0 := ho 0 (by decide)
    cases h : outs 0 with
    | incomplete => rfl
    | unmatched => rw [h] at h0; exact absurd hfl h0.1
    | rows R => rw [h] at h0; exact absurd hfl h0.1

/-! ## Filters before the last column -/

/-- A data frame with two integer columns. -/
def C50_ints (a b : List Int) : Val := .df a.length [.vec (.atom .int) a, .vec (.atom .int) b]

/-- The largest value that is not larger, with an equal second value. -/
def C50_filtered : Query :=
  ⟨C50_ints [5] [1], C50_ints [3, 4] [1, 2], [.gte, .eq], [.max, .all], .compare, .all, true⟩

/-- The filter of a column is applied before the conditions of the columns that follow
(src/match.c:700-782): the first row of the haystack meets both conditions, but no match is
reported. -/
theorem C50_filter_before_condition :
    IsTable [[.int], [.int]] 1 C50_filtered.needles ∧ IsTable [[.int], [.int]] 2 C50_filtered.haystack ∧
    RowMatches C50_filtered 0 0 ∧ SelectedRows C50_filtered 0 [0] ∧
    C50_run (vecLocateMatches 3 C50_filtered.needles C50_filtered.haystack
      [some ['>', '='], some ['=', '=']] [some ['m', 'a', 'x'], some ['n', 'o', 'n', 'e']] .compare
      (.value naInt) .drop .all .none true exTl exStatic) = some ([1], [naInt], false) := by
  have table : ∀ (a b : List Int), b.length = a.length → (∀ v ∈ a, IsInt v) → (∀ v ∈ b, IsInt v) →
      IsTable [[.int], [.int]] a.length (C50_ints a b) := by
    intro a b h ha hb
    exact ⟨⟨_, _, rfl, bounds_vec ⟨rfl, ha⟩, _, _, rfl, bounds_vec ⟨h, hb⟩, rfl⟩, rfl⟩
  have small : ∀ {u v : Int}, ¬ NaSmaller false (u = naInt) (v = naInt) (u < v) →
      ¬ RowSmaller true [.int] (u, ()) (v, ()) := fun h h' => h (h'.resolve_right fun h => h.2)
  have present : ∀ {u : Int}, u ≠ naInt → ¬ SomeMissing [.int] (u, ()) :=
    fun h h' => h (h'.resolve_right fun h => h)
  have row0 : RowMatches C50_filtered 0 0 := by
    intro c ts a b op e1 e2 e3
    match c, e1, e2, e3 with
    | 0, e1, e2, e3 =>
      cases e3
      refine columnRow_vec (P := fun ts a => ∀ b, ColumnRow C50_filtered.haystack 0 ts 0 b →
        CellMatches true .compare .gte ts a b) (x := C50_filtered.needles) (c := 0) rfl ?_ e1 b e2
      rintro v hv ⟨w, _⟩ hb
      have hw := columnRow_get rfl hb
      cases hv
      cases hw
      refine .inl ⟨present (by decide), present (by decide), small ?_⟩
      unfold NaSmaller
      decide
    | 1, e1, e2, e3 =>
      cases e3
      refine columnRow_vec (P := fun ts a => ∀ b, ColumnRow C50_filtered.haystack 1 ts 0 b →
        CellMatches true .compare .eq ts a b) (x := C50_filtered.needles) (c := 1) rfl ?_ e1 b e2
      rintro v hv ⟨w, _⟩ hb
      have hw := columnRow_get rfl hb
      cases hv
      cases hw
      refine .inl ⟨present (by decide), present (by decide), small ?_, small ?_⟩ <;> unfold NaSmaller <;> decide
    | c + 2, ⟨_, e1, _⟩, _, _ => cases e1
  have row1 : ¬ RowMatches C50_filtered 0 1 := by
    intro h
    have h' := h 1 [.int] ((1 : Int), ()) ((2 : Int), ()) .eq ⟨_, rfl, _, _, rfl, rfl, rfl⟩
      ⟨_, rfl, _, _, rfl, rfl, rfl⟩ rfl
    have lt : NaSmaller false ((1 : Int) = naInt) ((2 : Int) = naInt) ((1 : Int) < 2) := by
      unfold NaSmaller
      decide
    rcases h' with ⟨_, _, h', _⟩ | ⟨h', _⟩
    · exact h' (.inl lt)
    · exact present (u := 1) (by decide) h'
  refine ⟨table [5] [1] rfl (by unfold IsInt; decide) (by unfold IsInt; decide),
    table [3, 4] [1, 2] rfl (by unfold IsInt; decide) (by unfold IsInt; decide), row0,
    ⟨List.pairwise_singleton _ _, fun k => ?_⟩, by decide +kernel⟩
  rw [List.mem_singleton]
  constructor
  · rintro rfl
    refine ⟨by decide, row0, fun k' hk' hm c ts b b' f e2 e3 e4 => ?_⟩
    have hk : k' < 2 := hk'
    have : k' = 0 := by
      rcases Nat.lt_succ_iff_lt_or_eq.1 hk with h | rfl
      · omega
      · exact absurd hm row1
    subst this
    match c, e2, e3, e4 with
    | 0, e2, e3, e4 =>
      cases e2
      refine columnRow_vec (P := fun ts b => ∀ b', ColumnRow C50_filtered.haystack 0 ts 0 b' →
        ¬ Preferred true .max ts b' b) (x := C50_filtered.haystack) (c := 0) rfl ?_ e3 b' e4
      rintro v hv ⟨w, _⟩ hb
      have hw := columnRow_get rfl hb
      cases hv
      cases hw
      refine small ?_
      unfold NaSmaller
      decide
    | 1, e2, _, _ =>
      cases e2
      exact fun h => h
    | c + 2, _, ⟨_, e1, _⟩, _ => cases e1
  · rintro ⟨hk, hs⟩
    have hk' : k < 2 := hk
    rcases Nat.lt_succ_iff_lt_or_eq.1 hk' with h | rfl
    · omega
    · exact absurd hs.1 row1

/-! ## Packed columns -/

/-- A data frame with one column, which is a data frame with two integer columns. -/
def C50_packed (a b : List Int) : Val := .df a.length [C50_ints a b]

theorem C50_packed_ok {a b : List Int} (h : b.length = a.length) (ha : ∀ v ∈ a, IsInt v)
    (hb : ∀ v ∈ b, IsInt v) : IsTable [[.int, .int]] (C50_packed a b).size (C50_packed a b) := by
  have h1 : Sortable a.length (.vec (.atom .int) a) := ⟨rfl, ha⟩
  have h2 : Sortable a.length (.vec (.atom .int) b) := ⟨h, hb⟩
  refine ⟨⟨_, _, rfl, ⟨.df _ ?_, ⟨a, _, rfl, b, [], rfl, rfl⟩, ?_⟩, rfl⟩, rfl⟩
  · intro p hp
    rw [List.mem_cons, List.mem_singleton] at hp
    rcases hp with rfl | rfl
    · exact sized_of_sortable h1
    · exact sized_of_sortable h2
  intro p hp
  have hp' : p ∈ [Val.vec (.atom .int) a, Val.vec (.atom .int) b] := hp
  rw [List.mem_cons, List.mem_singleton] at hp'
  rcases hp' with rfl | rfl
  · exact h1
  · exact h2

theorem row_ints {P : (ts : List ATy) → Row ts → Prop} {n : Nat} {us vs : List Int} {r : Nat}
    (h : ∀ v w : Int, us[r]? = some v → vs[r]? = some w → P [.int, .int] (v, w, ())) :
    (ts : List ATy) → (a : Row ts) →
    HasRow ts (leaves (.df n [.vec (.atom .int) us, .vec (.atom .int) vs])) r a → P ts a
  | [], _, hr => by
    have e : leaves (.df n [.vec (.atom .int) us, .vec (.atom .int) vs]) = [] := hr
    cases e
  | [_], (_, ()), ⟨_, _, e, _, e'⟩ => by
    cases e
    cases e'
  | [_, _], (v, w, ()), ⟨_, _, e, hv, _, _, e', hw, _⟩ => by
    cases e
    cases e'
    exact h v w hv hw
  | _ :: _ :: _ :: _, (_, _, _, _), ⟨_, _, e, _, _, _, e', _, _, _, e'', _⟩ => by
    cases e
    cases e'
    cases e''

/-- A packed column of two vectors of integers. -/
theorem columnRow_ints {P : (ts : List ATy) → Row ts → Prop} {x : Val} {c r n : Nat} {us vs : List Int}
    (hc : (topColumns x)[c]? = some (.df n [.vec (.atom .int) us, .vec (.atom .int) vs]))
    (h : ∀ v w : Int, us[r]? = some v → vs[r]? = some w → P [.int, .int] (v, w, ()))
    {ts : List ATy} {a : Row ts} (ha : ColumnRow x c ts r a) : P ts a := by
  obtain ⟨col, h1, h2⟩ := ha
  rw [hc] at h1
  cases h1
  exact row_ints h ts a h2

/-- Rows that are missing in part match each other with `==`. -/
def C50_parts : Query :=
  ⟨C50_packed [1, 1, 2] [1, naInt, 2], C50_packed [1, 1, 2] [naInt, 1, 1], [.eq], [.all], .compare, .all, true⟩

example : MatchCall C50_parts [[.int, .int]] [some ['=', '=']] [some ['n', 'o', 'n', 'e']] (.value naInt) ∧
    C50_run (vecLocateMatches 2 C50_parts.needles C50_parts.haystack [some ['=', '=']]
      [some ['n', 'o', 'n', 'e']] .compare (.value naInt) .drop .all .none true exTl exStatic) =
      some ([1, 2, 3], [2, 1, naInt], false) := by
  refine ⟨⟨C50_packed_ok rfl ?_ ?_, C50_packed_ok rfl ?_ ?_, rfl, by simp, C50_complex (by decide), ?_,
    by decide, by decide, .inl ⟨.eq, rfl, rfl⟩, .inl ⟨.all, rfl, rfl⟩, .inl ?_, ?_, ?_, ?_⟩, by decide +kernel⟩
  · unfold IsInt; decide
  · unfold IsInt; decide
  · unfold IsInt; decide
  · unfold IsInt; decide
  · intro c op he hne
    match c, he with
    | 0, he =>
      cases he
      exact absurd rfl hne
    | c + 1, he => cases he
  · intro f hf
    have hf' : f ∈ [MFilter.all] := hf
    exact List.mem_singleton.1 hf'
  · intro v hv; cases hv
  · intro v hv; cases hv; unfold IsInt; decide
  · rintro (h | h) <;> cases h

/-- A complete needle that is larger than the complete second row. -/
def C50_lost : Query :=
  ⟨C50_packed [9] [1], C50_packed [0, 1, 2, 3, 4] [naInt, 1, naInt, 1, 1], [.gt], [.all], .compare, .all, true⟩

/-- A complete needle, and an incomplete second row. -/
def C50_found : Query :=
  ⟨C50_packed [9] [1], C50_packed [0, 1, 2] [1, naInt, 1], [.gt], [.all], .compare, .all, true⟩

/-- With other conditions than `==`, the rows of a packed column that are incomplete are taken to be
at the begin of the sorted haystack, and one bound is found by their number (src/match.c:671-696,
1085-1102).  Incomplete rows that do not begin with a missing element are elsewhere.  Then complete rows
that match are not reported, and incomplete rows are reported that do not match. -/
theorem C50_packed_missing :
    (IsTable [[.int, .int]] 1 C50_lost.needles ∧ IsTable [[.int, .int]] 5 C50_lost.haystack ∧
      RowMatches C50_lost 0 1 ∧
      C50_run (vecLocateMatches 5 C50_lost.needles C50_lost.haystack [some ['>']]
        [some ['n', 'o', 'n', 'e']] .compare (.value naInt) .drop .all .none true exTl exStatic) =
        some ([1, 1], [4, 5], false)) ∧
    (IsTable [[.int, .int]] 1 C50_found.needles ∧ IsTable [[.int, .int]] 3 C50_found.haystack ∧
      ¬ RowMatches C50_found 0 1 ∧
      C50_run (vecLocateMatches 5 C50_found.needles C50_found.haystack [some ['>']]
        [some ['n', 'o', 'n', 'e']] .compare (.value naInt) .drop .all .none true exTl exStatic) =
        some ([1, 1, 1], [1, 2, 3], false)) := by
  have present : ∀ {u v : Int}, u ≠ naInt → v ≠ naInt → ¬ SomeMissing [.int, .int] (u, v, ()) := by
    rintro u v h h' (e | e | e)
    · exact h e
    · exact h' e
    · exact e
  refine ⟨⟨C50_packed_ok (a := [9]) (b := [1])
      rfl (by unfold IsInt; decide) (by unfold IsInt; decide),
    C50_packed_ok (a := [0, 1, 2, 3, 4]) (b := [naInt, 1, naInt, 1, 1])
      rfl (by unfold IsInt; decide) (by unfold IsInt; decide), ?_, by decide +kernel⟩,
    ⟨C50_packed_ok (a := [9]) (b := [1])
      rfl (by unfold IsInt; decide) (by unfold IsInt; decide),
    C50_packed_ok (a := [0, 1, 2]) (b := [1, naInt, 1])
      rfl (by unfold IsInt; decide) (by unfold IsInt; decide), ?_, by decide +kernel⟩⟩
  · intro c ts a b op e1 e2 e3
    match c, e1, e2, e3 with
    | 0, e1, e2, e3 =>
      cases e3
      refine columnRow_ints (P := fun ts a => ∀ b, ColumnRow C50_lost.haystack 0 ts 1 b →
        CellMatches true .compare .gt ts a b) (x := C50_lost.needles) (c := 0) rfl ?_ e1 b e2
      rintro v w hv hw ⟨v', w', _⟩ ⟨col, hcol, _, _, e, hv', _, _, e', hw', _⟩
      cases hcol
      cases e
      cases e'
      cases hv
      cases hw
      cases hv'
      cases hw'
      refine .inl ⟨present (by decide) (by decide), present (by decide) (by decide), .inl ?_⟩
      show NaSmaller false ((1 : Int) = naInt) ((9 : Int) = naInt) ((1 : Int) < 9)
      unfold NaSmaller
      decide
    | c + 1, ⟨_, e1, _⟩, _, _ => cases e1
  · intro h
    have h' := h 0 [.int, .int] ((9 : Int), (1 : Int), ()) ((1 : Int), naInt, ()) .gt
      ⟨_, rfl, _, _, rfl, rfl, _, _, rfl, rfl, rfl⟩ ⟨_, rfl, _, _, rfl, rfl, _, _, rfl, rfl, rfl⟩ rfl
    rcases h' with ⟨_, h', _⟩ | ⟨h', _⟩
    · exact h' (.inr (.inl rfl))
    · exact present (by decide) (by decide) h'

end Vctrs
