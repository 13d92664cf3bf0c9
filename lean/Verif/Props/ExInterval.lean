import Verif.SpecInterval
import Verif.Props.ExOrder

/-! # Concrete data for the examples on intervals -/

namespace Vctrs

open Spec

/-- Starts of intervals. -/
def exIvStart : Val := .vec (.atom .int) ([5, naInt, 1, 3, 8, 1] : List Int)

/-- Ends of intervals. -/
def exIvStop : Val := .vec (.atom .int) ([6, naInt, 4, 5, 9, 2] : List Int)

theorem exIv_bounds {xs : List Int} {n : Nat} (h : xs.length = n) (hx : ∀ x ∈ xs, IsInt x) :
    IsBounds [.int] n (.vec (.atom .int) xs) := by
  refine ⟨.vec _ _ h, ⟨xs, [], rfl, rfl⟩, ?_⟩
  intro p hp
  have hp : p ∈ [Val.vec (.atom .int) xs] := hp
  rw [List.mem_singleton] at hp
  subst hp
  exact ⟨h, hx⟩

theorem exIv_row {xs : List Int} {i : Nat} {a : Int} {u : Unit}
    (h : HasRow [.int] (leaves (.vec (.atom .int) xs)) i (a, u)) : xs[i]? = some a := by
  obtain ⟨ys, qs, e, h1, _⟩ := h
  cases e
  exact h1

theorem exIv_intervals {xs ys : List Int} {n : Nat} (h : xs.length = n) (h' : ys.length = n)
    (hx : ∀ x ∈ xs, IsInt x) (hy : ∀ y ∈ ys, IsInt y)
    (hm : ∀ p ∈ xs.zip ys, p.1 = naInt ↔ p.2 = naInt) :
    IsIntervals [.int] n (.vec (.atom .int) xs) (.vec (.atom .int) ys) := by
  refine ⟨exIv_bounds h hx, exIv_bounds h' hy, ?_, ?_⟩
  · intro t ht
    rw [List.mem_singleton] at ht
    subst ht
    trivial
  · rintro i ⟨(a : Int), ⟨⟩⟩ ⟨(b : Int), ⟨⟩⟩ h1 h2
    have e1 := exIv_row h1
    have e2 := exIv_row h2
    have hz : (a, b) ∈ xs.zip ys := by
      refine List.mem_of_getElem? (i := i) ?_
      rw [List.getElem?_zip_eq_some]
      exact ⟨e1, e2⟩
    have := hm _ hz
    by_cases ha : a = naInt
    · exact .inl ⟨⟨ha, trivial⟩, ⟨this.1 ha, trivial⟩⟩
    · refine .inr ⟨?_, ?_⟩
      · rintro (h | h)
        · exact ha h
        · exact h
      · rintro (h | h)
        · exact ha (this.2 h)
        · exact h

theorem exIv : IsIntervals [.int] 6 exIvStart exIvStop :=
  exIv_intervals rfl rfl (by unfold IsInt; decide) (by unfold IsInt; decide) (by decide)

theorem exIv_valid : ValidIntervals [.int] exIvStart exIvStop := by
  rintro i ⟨(a : Int), ⟨⟩⟩ ⟨(b : Int), ⟨⟩⟩ ⟨h1, h2, h3⟩
  have e1 := exIv_row h1
  have e2 := exIv_row h2
  have ha : a ≠ naInt := fun h => h3 ⟨h, trivial⟩
  refine .inl ?_
  show a ≠ b ∧ (a = naInt ∨ (b ≠ naInt ∧ a < b))
  have hz : (a, b) ∈ ([5, naInt, 1, 3, 8, 1] : List Int).zip [6, naInt, 4, 5, 9, 2] := by
    refine List.mem_of_getElem? (i := i) ?_
    rw [List.getElem?_zip_eq_some]
    exact ⟨e1, e2⟩
  have key : ∀ p ∈ ([5, naInt, 1, 3, 8, 1] : List Int).zip [6, naInt, 4, 5, 9, 2], p.1 ≠ naInt →
      p.1 ≠ p.2 ∧ p.2 ≠ naInt ∧ p.1 < p.2 := by decide
  have := key _ hz ha
  exact ⟨this.1, .inr this.2⟩

end Vctrs
