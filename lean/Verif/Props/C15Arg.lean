import Verif.Model.RepArg
import Verif.Props.C15
import Verif.Props.C90

/-!
# C15: `vec_rep()` and `vec_rep_each()` with any object for `times`
-/

namespace Vctrs

namespace Spec

/-- The object is a vector of numbers and missing values that are the integers `ts`; `naInt` is a missing value. -/
def IntegersOf (o : OptObj) (ts : List Int) : Prop :=
  ∃ x, o = .num x ∧ (∀ t ∈ ts, naInt ≤ t ∧ t ≤ intMax) ∧ cells x = ts.map intCell

end Spec

open Spec

variable {α : Type}

theorem integersOf_unique {o : OptObj} {ts us : List Int} (h : IntegersOf o ts) (h' : IntegersOf o us) : ts = us := by
  obtain ⟨x, rfl, _, h1⟩ := h
  obtain ⟨y, e, _, h2⟩ := h'
  cases e
  exact List.map_injective_iff.2 (fun _ _ => intCell_inj) (h1.symm.trans h2)

/-- The cast of `times` keeps its numbers, or fails. -/
theorem castTimes_ok {o : OptObj} (hok : OptOk o) : (∃ ts, IntegersOf o ts ∧ castTimes o = .ok (some ts)) ∨
    ((∀ ts, ¬ IntegersOf o ts) ∧ (castTimes o = .ok none ∨ castTimes o = .error .abort)) := by
  cases o with
  | null => exact .inr ⟨fun ts ⟨x, h, _⟩ => (by cases h), .inl rfl⟩
  | chr x => exact .inr ⟨fun ts ⟨x, h, _⟩ => (by cases h), .inr rfl⟩
  | other n => exact .inr ⟨fun ts ⟨x, h, _⟩ => (by cases h), .inr rfl⟩
  | num x =>
    unfold castTimes
    rcases numCast_spec x .int hok with ⟨y, h1, h2, h3, h4⟩ | ⟨h1, h2⟩
    · cases y with
      | int v => exact .inl ⟨v, ⟨x, rfl, h2, h4.symm⟩, by dsimp only; rw [h1, ok_bind]⟩
      | lgl v => cases h3
      | dbl v => cases h3
    · refine .inr ⟨fun ts ⟨x', hx, h3, h4⟩ => ?_, .inr ?_⟩
      · cases hx
        exact h2 ⟨.int ts, h3, rfl, h4.symm⟩
      · dsimp only
        rw [h1]
        rfl

/-- **C15** (any `times` of `vec_rep()`): it is a single number that is an integer, not negative, and the result fits; or there
is an error. -/
theorem C15_rep_times (x : List α) {times : OptObj} (hok : OptOk times) (hx : x.length ≤ 2147483647) :
    (∃ (t : Nat) (r : List α), IntegersOf times [(t : Int)] ∧ x.length * t ≤ 2147483647 ∧ ffiVecRep x times = .ok r ∧
      r.length = x.length * t ∧ ∀ k, k < r.length → r[k]? = x[k % x.length]?) ∨
    ((∀ t : Nat, IntegersOf times [(t : Int)] → 2147483647 < x.length * t) ∧
      ffiVecRep x times = .error .abort) := by
  unfold ffiVecRep
  rcases castTimes_ok hok with ⟨ts, h1, h2⟩ | ⟨h1, h2⟩
  · rw [h2, ok_bind]
    dsimp only
    by_cases hl : ts.length = 1
    · obtain ⟨t, rfl⟩ := List.length_eq_one_iff.1 hl
      rw [if_neg (fun h => h rfl), show rd [t] 0 = (.ok t : C Int) from rfl, ok_bind]
      have ht : naInt ≤ t ∧ t ≤ intMax := by
        obtain ⟨_, _, h, _⟩ := h1
        exact h t (by simp)
      have ht' : -2147483648 ≤ t ∧ t ≤ 2147483647 := by
        unfold naInt intMax at ht
        omega
      obtain ⟨hgood, hbad⟩ := C15_rep x t hx ht'
      by_cases h0 : 0 ≤ t
      · obtain ⟨n, rfl⟩ := Int.eq_ofNat_of_zero_le h0
        by_cases hn : x.length * n ≤ 2147483647
        · obtain ⟨r, e, e1, e2⟩ := hgood h0 (by exact_mod_cast hn)
          exact .inl ⟨n, r, h1, hn, e, by exact_mod_cast e1, e2⟩
        · refine .inr ⟨fun k hk => ?_, hbad (.inr ?_)⟩
          · have := integersOf_unique h1 hk
            simp only [List.cons.injEq, and_true] at this
            have : n = k := by omega
            subst this
            omega
          · have : 2147483647 < x.length * n := by omega
            exact_mod_cast this
      · refine .inr ⟨fun k hk => ?_, hbad (.inl (by omega))⟩
        have := integersOf_unique h1 hk
        simp only [List.cons.injEq, and_true] at this
        omega
    · rw [if_pos hl]
      refine .inr ⟨fun k hk => ?_, rfl⟩
      rw [integersOf_unique h1 hk] at hl
      exact absurd rfl hl
  · refine .inr ⟨fun t ht => absurd ht (h1 _), ?_⟩
    rcases h2 with h2 | h2 <;> rw [h2] <;> rfl

/-- **C15** (any `times` of `vec_rep_each()`): numbers that are integers, not negative, one for all or one for each element,
and the result fits; or there is an error. -/
theorem C15_each_times (x : List α) {times : OptObj} (hok : OptOk times) (hx : x.length ≤ 2147483647) :
    (∃ ts us, IntegersOf times us ∧ recycled us x.length = some ts ∧ (∀ t ∈ us, 0 ≤ t) ∧
      (ts.map Int.toNat).sum ≤ 2147483647 ∧ ffiVecRepEach x times = .ok (repEach ts x)) ∨
    ((∀ ts us, IntegersOf times us → recycled us x.length = some ts → (∀ t ∈ us, 0 ≤ t) →
      2147483647 < (ts.map Int.toNat).sum) ∧ ffiVecRepEach x times = .error .abort) := by
  unfold ffiVecRepEach
  rcases castTimes_ok hok with ⟨us, h1, h2⟩ | ⟨h1, h2⟩
  · rw [h2, ok_bind]
    dsimp only
    have ht' : ∀ t ∈ us, -2147483648 ≤ t ∧ t ≤ 2147483647 := by
      obtain ⟨_, _, h, _⟩ := h1
      intro t ht
      have := h t ht
      unfold naInt intMax at this
      omega
    obtain ⟨hgood, hbad⟩ := C15_rep_each x us hx ht'
    cases hr : recycled us x.length with
    | none =>
      refine .inr ⟨fun ts us' h hts _ => ?_, hbad (.inl hr)⟩
      rw [integersOf_unique h1 h, hts] at hr
      cases hr
    | some ts =>
      by_cases hneg : ∃ t ∈ us, t < 0
      · refine .inr ⟨fun ts us' h _ h0 => ?_, hbad (.inr (.inl hneg))⟩
        obtain ⟨t, ht, hlt⟩ := hneg
        rw [integersOf_unique h1 h] at ht
        exact absurd (h0 t ht) (by omega)
      · have hpos : ∀ t ∈ us, 0 ≤ t := fun t ht => by
          by_contra hc
          exact hneg ⟨t, ht, by omega⟩
        by_cases hs : (ts.map Int.toNat).sum ≤ 2147483647
        · exact .inl ⟨ts, us, h1, hr, hpos, hs, hgood ts hr hpos hs⟩
        · refine .inr ⟨fun ts' us' h hts _ => ?_, hbad (.inr (.inr ⟨ts, hr, by omega⟩))⟩
          rw [← integersOf_unique h1 h, hr] at hts
          cases hts
          omega
  · refine .inr ⟨fun ts us h => absurd h (h1 _), ?_⟩
    rcases h2 with h2 | h2 <;> rw [h2] <;> rfl

/-! ## Examples -/

example : OptOk (.num (.lgl [1, 0])) ∧ IntegersOf (.num (.lgl [1, 0])) [1, 0] :=
  ⟨by show ∀ v ∈ [(1 : Int), 0], v = 0 ∨ v = 1 ∨ v = naInt; decide, .lgl [1, 0], rfl, by unfold naInt intMax; decide, rfl⟩
example : ffiVecRep ['a', 'b'] (.num (.int [2])) = .ok ['a', 'b', 'a', 'b'] := by decide
example : ffiVecRep ['a', 'b'] (.num (.int [naInt])) = .error .abort := by decide
example : ffiVecRep ['a', 'b'] (.num (.int [1, 2])) = .error .abort := by decide
example : ffiVecRep ['a', 'b'] .null = .error .abort := rfl
example : ffiVecRepEach ['a', 'b'] (.num (.lgl [1, 0])) = .ok ['a'] := by decide
example : ffiVecRepEach ['a', 'b'] (.num (.int [2, 1])) = .ok ['a', 'a', 'b'] := by decide

end Vctrs
