import Verif.Model.LocSize
import Verif.Props.C15Arg
import Verif.Props.C19
import Verif.Props.C90Loc

/-!
# C19: the size given to `vec_as_location()` and `num_as_location()`

The size is not checked to be a size.  For one that is not negative the locations are those of `vec_as_location()` in C19.  With a negative
or missing size `num_as_location()` can write out of bounds or return memory that was never written.
-/

namespace Vctrs

open Spec

/-- The given size is an integer, which may be missing. -/
theorem parseLocSize_ok {n : OptObj} (hok : OptOk n) {v : Int} (h : IntegersOf n [v]) : parseLocSize n = .ok v := by
  obtain ⟨x, rfl, h1, h2⟩ := h
  cases x with
  | int w =>
    have : w = [v] := List.map_injective_iff.2 (fun _ _ => intCell_inj) h2
    subst this
    rfl
  | lgl w =>
    rcases castTimes_ok hok with ⟨ts, h3, h4⟩ | ⟨h3, _⟩
    · cases integersOf_unique h3 ⟨_, rfl, h1, h2⟩
      unfold castTimes at h4
      unfold parseLocSize
      dsimp only at h4 ⊢
      cases hc : numCast (.lgl w) .int with
      | error e => rw [hc] at h4; cases h4
      | ok y =>
        rw [hc] at h4
        cases y with
        | int u => cases h4; rfl
        | _ => cases h4
    · exact absurd ⟨_, rfl, h1, h2⟩ (h3 [v])
  | dbl w =>
    rcases castTimes_ok hok with ⟨ts, h3, h4⟩ | ⟨h3, _⟩
    · cases integersOf_unique h3 ⟨_, rfl, h1, h2⟩
      unfold castTimes at h4
      unfold parseLocSize
      dsimp only at h4 ⊢
      cases hc : numCast (.dbl w) .int with
      | error e => rw [hc] at h4; cases h4
      | ok y =>
        rw [hc] at h4
        cases y with
        | int u => cases h4; rfl
        | _ => cases h4
    · exact absurd ⟨_, rfl, h1, h2⟩ (h3 [v])

theorem intAsLocationAny_nat (l : List Int) (n : Nat) (opts : LocOpts) :
    intAsLocationAny l (n : Int) opts = intAsLocation l n opts := by
  have h : intInvertLocationAny l (n : Int) opts = intInvertLocation l n opts := by
    unfold intInvertLocationAny
    rw [if_neg (by omega)]
    rfl
  unfold intAsLocationAny
  rw [h]
  rfl

/-- **C19** (from R objects): for documented options and a size that is an integer and not negative, `num_as_location()` gives the
locations of `vec_as_location()` with these options, to which the other theorems of C19 apply. -/
theorem C19_arguments (l : List Int) {n missing negative oob zero : OptObj} {k : Nat} {opts : LocOpts}
    (hok : OptOk n) (hn : IntegersOf n [(k : Int)]) (hm : FirstMeans locMissingStrings missing opts.missing)
    (hneg : FirstMeans locNegativeStrings negative opts.negative) (ho : FirstMeans locOobStrings oob opts.oob)
    (hz : FirstMeans locZeroStrings zero opts.zero) :
    ffiAsLocation l n missing negative oob zero = vecAsLocation (.int l) k none opts := by
  unfold ffiAsLocation
  rw [parseLocSize_ok hok hn, ok_bind]
  rcases C90_location missing negative oob zero with ⟨o, ⟨h1, h2, h3, h4⟩, h⟩ | ⟨h, _⟩
  · rw [h, ok_bind]
    have e1 := firstMeans_unique (table_unique (by decide)) hm h1
    have e2 := firstMeans_unique (table_unique (by decide)) hneg h2
    have e3 := firstMeans_unique (table_unique (by decide)) ho h3
    have e4 := firstMeans_unique (table_unique (by decide)) hz h4
    have : o = opts := by
      obtain ⟨a, b, c, d⟩ := o
      obtain ⟨a', b', c', d'⟩ := opts
      dsimp only at e1 e2 e3 e4
      subst e1 e2 e3 e4
      rfl
    rw [this, intAsLocationAny_nat]
    rfl
  · exact absurd ⟨hm, hneg, ho, hz⟩ (h opts)

theorem intScanAny_negative (l : List Int) {n : Int} (hn : n < 0) (opts : LocOpts) :
    intScanAny l n opts = intScan l 0 opts := by
  unfold intScanAny intScan
  congr 1
  funext i s
  cases rd l i with
  | error e => rfl
  | ok elt =>
    rw [ok_bind, ok_bind]
    by_cases h1 : elt = naInt
    · rw [if_pos h1, if_pos h1]
      cases opts.missing <;> rfl
    rw [if_neg h1, if_neg h1]
    by_cases h2 : elt = 0
    · rw [if_pos h2, if_pos h2]
      cases opts.zero <;> rfl
    rw [if_neg h2, if_neg h2]
    by_cases h3 : elt < 0
    · rw [if_pos h3, if_pos h3]
      unfold cAbs
      rw [if_neg h1, ok_bind, ok_bind, if_pos (by omega), if_pos (by omega)]
      cases opts.negative <;> cases opts.oob <;> rfl
    · rw [if_neg h3, if_neg h3, if_pos (by omega), if_pos (by omega)]
      cases opts.oob <;> rfl

/-- With a negative or missing size and `oob = "error"`, as in `vec_as_location()`, there is an error, or the result is that for
size 0. -/
theorem C19_negative_size_partial (l : List Int) {n : Int} (hn : n < 0) {opts : LocOpts} (ho : opts.oob = .error) :
    intAsLocationAny l n opts = .error .abort ∨ intAsLocationAny l n opts = intAsLocation l 0 opts := by
  unfold intAsLocationAny intAsLocation
  rw [intScanAny_negative l hn]
  cases intScan l 0 opts with
  | error e => exact .inr rfl
  | ok s =>
    rw [ok_bind, ok_bind, ho]
    by_cases hi : s.inv = true
    · left
      rw [if_pos hi]
      unfold intInvertLocationAny
      rw [if_pos hn]
    · right
      rw [if_neg hi, if_neg hi]

/-- Disagreement: with `oob = "extend"` and `zero = "ignore"`, two zeros before a positive location overflow the buffer of
`int_check_consecutive()`, for every size below -1 or missing. -/
theorem C19_negative_size_overflow {n : Int} (hn : n < -1) :
    intAsLocationAny [0, 0, 1] n { oob := .extend, zero := .ignore } = .error .ub := by
  have h : ¬ (0 : Int) ≤ n := by omega
  have h' : ¬ (-1 : Int) = n := by omega
  unfold intAsLocationAny
  rw [intScanAny_negative _ (by omega),
    show intScan [0, 0, 1] 0 { oob := .extend, zero := .ignore } = .ok ⟨0, 1, 0, false⟩ by decide, ok_bind]
  show (do intCheckConsecutiveAny [0, 0, 1] n 1; .ok [0, 0, 1] : C (List Int)) = _
  unfold intCheckConsecutiveAny
  simp [forN, forFrom, rd, wr, alloc, h, h', bind, Except.bind]

/-- Disagreement: with `oob = "remove"` and `zero = "ignore"`, a zero is neither counted nor copied by `int_filter_oob()`: the result has an
element that was never written, for every negative or missing size. -/
theorem C19_negative_size_unwritten {n : Int} (hn : n < 0) :
    intAsLocationAny [0, 1] n { oob := .remove, zero := .ignore } = .error .ub := by
  have h : ¬ (0 : Int) ≤ n := by omega
  have h' : ¬ (1 : Int) ≤ n := by omega
  unfold intAsLocationAny
  rw [intScanAny_negative _ (by omega),
    show intScan [0, 1] 0 { oob := .remove, zero := .ignore } = .ok ⟨0, 1, 0, false⟩ by decide, ok_bind]
  show intFilterOobAny [0, 1] n 1 = _
  unfold intFilterOobAny
  simp [forN, forFrom, rd, wr, alloc, cAbs, naInt, h, h', bind, Except.bind, initd]

/-- A cast to one integer gives that integer. -/
theorem castTimes_one {x : NumVec} (hok : OptOk (.num x)) {a : Int} (h : numCast x .int = .ok (.int [a])) :
    IntegersOf (.num x) [a] := by
  have e : castTimes (.num x) = .ok (some [a]) := by
    unfold castTimes
    dsimp only
    rw [h]
    rfl
  rcases castTimes_ok hok with ⟨ts, h1, h2⟩ | ⟨_, h2 | h2⟩
  · rw [e] at h2
    cases h2
    exact h1
  · rw [e] at h2; cases h2
  · rw [e] at h2; cases h2

/-- The size is read if and only if it is a single number that is an integer, or a missing value; anything else is an error. -/
theorem C19_size {n : OptObj} (hok : OptOk n) : (∃ v, IntegersOf n [v] ∧ parseLocSize n = .ok v) ∨
    ((∀ v, ¬ IntegersOf n [v]) ∧ (parseLocSize n = .error .abort ∨ parseLocSize n = .error .internal)) := by
  by_cases h : ∃ v, IntegersOf n [v]
  · obtain ⟨v, h⟩ := h
    exact .inl ⟨v, h, parseLocSize_ok hok h⟩
  · refine .inr ⟨fun v hv => h ⟨v, hv⟩, ?_⟩
    cases n with
    | null => exact .inr rfl
    | chr x => exact .inl rfl
    | other k => exact .inl rfl
    | num x =>
      cases x with
      | int w =>
        by_cases hl : w.length = 1
        · obtain ⟨a, rfl⟩ := List.length_eq_one_iff.1 hl
          exact absurd ⟨a, .int [a], rfl, hok, rfl⟩ h
        · right
          unfold parseLocSize
          dsimp only
          rw [ok_bind, if_pos hl]
      | lgl w =>
        unfold parseLocSize
        dsimp only
        rcases numCast_spec (.lgl w) .int hok with ⟨y, h1, h2, h3, h4⟩ | ⟨h1, _⟩
        · rw [h1]
          cases y with
          | int v =>
            by_cases hl : v.length = 1
            · obtain ⟨a, rfl⟩ := List.length_eq_one_iff.1 hl
              exact absurd ⟨a, castTimes_one hok h1⟩ h
            · right
              simp only [ok_bind]
              rw [if_pos hl]
          | lgl v => cases h3
          | dbl v => cases h3
        · rw [h1]
          exact .inl rfl
      | dbl w =>
        unfold parseLocSize
        dsimp only
        rcases numCast_spec (.dbl w) .int hok with ⟨y, h1, h2, h3, h4⟩ | ⟨h1, _⟩
        · rw [h1]
          cases y with
          | int v =>
            by_cases hl : v.length = 1
            · obtain ⟨a, rfl⟩ := List.length_eq_one_iff.1 hl
              exact absurd ⟨a, castTimes_one hok h1⟩ h
            · right
              simp only [ok_bind]
              rw [if_pos hl]
          | lgl v => cases h3
          | dbl v => cases h3
        · rw [h1]
          exact .inl rfl

/-- Disagreement: `NULL` and integers that are not a single number are an internal error. -/
theorem C19_size_internal : parseLocSize .null = .error .internal ∧
    ∀ v : List Int, v.length ≠ 1 → parseLocSize (.num (.int v)) = .error .internal := by
  refine ⟨rfl, fun v h => ?_⟩
  unfold parseLocSize
  dsimp only
  rw [ok_bind, if_pos h]

/-- `num_as_location(c(0L, 0L, 1L), n = -3L, oob = "extend", zero = "ignore")`, with the default of the other options. -/
theorem C19_overflow_witness :
    ffiAsLocation [0, 0, 1] (.num (.int [-3])) (.chr ⟨[some "propagate".toList, some "remove".toList, some "error".toList], none⟩)
      (.chr ⟨[some "invert".toList, some "error".toList, some "ignore".toList], none⟩) (.chr ⟨[some "extend".toList], none⟩)
      (.chr ⟨[some "ignore".toList], none⟩) = .error .ub := by decide

/-! ## Examples -/

example : OptOk (.num (.int [5])) ∧ IntegersOf (.num (.int [5])) [((5 : Nat) : Int)] ∧
    FirstMeans locOobStrings (.chr ⟨[some "remove".toList], none⟩) .remove :=
  ⟨by show ∀ v ∈ [(5 : Int)], naInt ≤ v ∧ v ≤ intMax; decide,
    ⟨.int [5], rfl, by decide, rfl⟩, _, _, _, rfl, "remove", by decide, rfl⟩
example : ffiAsLocation [2, 9, 0, 1] (.num (.int [5])) (.chr ⟨[some "propagate".toList], none⟩)
    (.chr ⟨[some "invert".toList], none⟩) (.chr ⟨[some "remove".toList], none⟩) (.chr ⟨[some "ignore".toList], none⟩) =
    .ok [2, 0, 1] := by decide
example : intAsLocationAny [0, naInt] (-4) {} = .ok [naInt] := by decide
example : intAsLocationAny [-1] (-4) {} = .error .abort := by decide
example : intAsLocationAny [1] naInt {} = .error .abort := by decide
example : parseLocSize (.num (.lgl [1])) = .ok 1 ∧ parseLocSize (.num (.lgl [1, 0])) = .error .internal := by decide

end Vctrs
