import Verif.Lemmas.Size

/-!
# C01: vec_size_common
-/

namespace Vctrs

open Spec

variable {α : Type}

/-- `NULL`s are ignored and the common size is the one given by the recycling rule. -/
theorem C01_size_common (xs : List (Dot (Arg α))) (absent : Int)
    (hv : .scalar ∉ xs.flatMap Dot.flat) :
    (argSizes (xs.flatMap Dot.flat) = [] → vecSizeCommon xs absent = .ok absent) ∧
    (∀ n : Nat, CommonSize (argSizes (xs.flatMap Dot.flat)) n →
      vecSizeCommon xs absent = .ok n) ∧
    (SizeConflict (argSizes (xs.flatMap Dot.flat)) → vecSizeCommon xs absent = .error .abort) := by
  rcases vecSizeCommon_cases xs absent with h | ⟨_, ⟨h1, h2⟩ | ⟨m, h1, h2⟩ | ⟨h1, h2⟩⟩
  · exact absurd h.1 hv
  · refine ⟨fun _ => h2, fun n hn => ?_, ?_⟩
    · rw [h1] at hn; exact absurd hn.1 (by simp)
    · rintro ⟨s, hs, _⟩; rw [h1] at hs; simp at hs
  · refine ⟨fun h => ?_, fun n hn => ?_, fun h => absurd h (commonSize_not_conflict h1)⟩
    · rw [h] at h1; exact absurd h1.1 (by simp)
    · rw [commonSize_unique hn h1]; exact h2
  · refine ⟨fun h => ?_, fun n hn => absurd h1 (commonSize_not_conflict hn), fun _ => h2⟩
    obtain ⟨s, hs, _⟩ := h1
    rw [h] at hs; simp at hs

/-- It fails exactly when two sizes are in conflict (or an input is not a vector), never in
another way. -/
theorem C01_fails_iff (xs : List (Dot (Arg α))) (absent : Int) :
    ((∃ e, vecSizeCommon xs absent = .error e) ↔
      (.scalar ∈ xs.flatMap Dot.flat ∨ SizeConflict (argSizes (xs.flatMap Dot.flat)))) ∧
    (∀ e, vecSizeCommon xs absent = .error e → e = .abort) := by
  rcases vecSizeCommon_cases xs absent with ⟨h1, h2⟩ | ⟨hv, ⟨h1, h2⟩ | ⟨m, h1, h2⟩ | ⟨h1, h2⟩⟩
  · exact ⟨⟨fun _ => Or.inl h1, fun _ => ⟨_, h2⟩⟩, fun e h => by rw [h2] at h; cases h; rfl⟩
  · refine ⟨⟨fun ⟨e, h⟩ => (by rw [h2] at h; cases h), ?_⟩, fun e h => by rw [h2] at h; cases h⟩
    rintro (h | ⟨s, hs, _⟩)
    · exact absurd h hv
    · rw [h1] at hs; simp at hs
  · refine ⟨⟨fun ⟨e, h⟩ => (by rw [h2] at h; cases h), ?_⟩, fun e h => by rw [h2] at h; cases h⟩
    rintro (h | h)
    · exact absurd h hv
    · exact absurd h (commonSize_not_conflict h1)
  · exact ⟨⟨fun _ => Or.inr h1, fun _ => ⟨_, h2⟩⟩, fun e h => by rw [h2] at h; cases h; rfl⟩

/-- The order of the inputs and how they are spliced matters neither for the size nor for whether
there is an error. -/
theorem C01_perm (xs ys : List (Dot (Arg α))) (absent : Int)
    (h : (xs.flatMap Dot.flat).Perm (ys.flatMap Dot.flat)) :
    vecSizeCommon xs absent = vecSizeCommon ys absent := by
  have hs : (argSizes (xs.flatMap Dot.flat)).Perm (argSizes (ys.flatMap Dot.flat)) := by
    simp only [argSizes]; exact h.filterMap _
  rcases vecSizeCommon_cases ys absent with ⟨h1, h2⟩ | ⟨hv, h2⟩
  · rcases vecSizeCommon_cases xs absent with ⟨h3, h4⟩ | ⟨hv', _⟩
    · rw [h2, h4]
    · exact absurd (h.mem_iff.2 h1) hv'
  · obtain ⟨g1, g2, g3⟩ := C01_size_common xs absent (fun hh => hv (h.mem_iff.1 hh))
    rcases h2 with ⟨h1, h2⟩ | ⟨m, h1, h2⟩ | ⟨⟨s, hs1, t, ht, h1⟩, h2⟩
    · rw [h2]; exact g1 (by rw [h1] at hs; exact hs.eq_nil)
    · rw [h2]
      exact g2 m ⟨hs.mem_iff.2 h1.1, fun s hs' => h1.2 s (hs.mem_iff.1 hs')⟩
    · rw [h2]
      exact g3 ⟨s, hs.mem_iff.2 hs1, t, hs.mem_iff.2 ht, h1⟩

/-- The R function: a non-`NULL` input decides, otherwise `.absent` is used or required. -/
theorem C01_absent (xs : List (Dot (Arg α))) (absent : Option Int)
    (hv : .scalar ∉ xs.flatMap Dot.flat) :
    (argSizes (xs.flatMap Dot.flat) = [] → ffiSizeCommon xs absent =
      match absent with | some a => .ok a | none => .error .abort) ∧
    (∀ n : Nat, CommonSize (argSizes (xs.flatMap Dot.flat)) n → ffiSizeCommon xs absent = .ok n) ∧
    (SizeConflict (argSizes (xs.flatMap Dot.flat)) → ffiSizeCommon xs absent = .error .abort) := by
  obtain ⟨g1, g2, g3⟩ := C01_size_common xs (-1) hv
  refine ⟨fun h => ?_, fun n h => ?_, fun h => ?_⟩
  · simp only [ffiSizeCommon, g1 h, ok_bind]
    rw [if_pos (by omega)]
    cases absent <;> rfl
  · simp only [ffiSizeCommon, g2 n h, ok_bind]
    rw [if_neg (by omega)]
  · simp only [ffiSizeCommon, g3 h, error_bind]

example : ffiSizeCommon [.plain (.vec [1]), .plain .null, .box [.vec [4, 5, 6], .vec [7]]] none =
    .ok 3 := by decide +kernel
example : ffiSizeCommon [.plain (.vec [1]), .plain (.vec ([] : List Nat))] none = .ok 0 := by
  decide +kernel
example : ffiSizeCommon [.plain (.vec [1, 2]), .plain (.vec ([] : List Nat))] none =
    .error .abort := by decide +kernel
example : ffiSizeCommon [.plain (.null : Arg Nat)] (some 5) = .ok 5 := by decide +kernel
/-- Hypotheses of the theorems for the first example. -/
example : CommonSize (argSizes ([.plain (.vec [1]), .plain .null,
      .box [.vec [4, 5, 6], .vec [7]]].flatMap Dot.flat)) 3 ∧
    .scalar ∉ ([.plain (.vec [1]), .plain .null, .box [.vec [4, 5, 6], .vec [7]]] :
      List (Dot (Arg Nat))).flatMap Dot.flat := by
  refine ⟨⟨by decide +kernel, by decide +kernel⟩, by decide +kernel⟩
example : SizeConflict [1, 2, 0] := ⟨2, by simp, 0, by simp, by omega, by omega, by omega⟩

end Vctrs
