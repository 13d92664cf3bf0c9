import Verif.Lemmas.Subscript
import Verif.Spec

/-!
# C21: character subscripts find the first position with that name
-/

namespace Vctrs

open Spec

/-- The location found for a subscript element. -/
def NameLoc (names : List RStr) : RStr → Int → Prop
  | none, v => v = naInt
  | some s, v => ∃ i, FirstAt names (some s) i ∧ v = (i : Int) + 1

theorem chrLoc_spec {names : List RStr} {e : RStr} (h : e ≠ none → e ∈ names) :
    NameLoc names e (chrLoc names e) := by
  cases e with
  | none => simp [NameLoc, chrLoc]
  | some s =>
    have hm := h (by simp)
    simp only [NameLoc, chrLoc, reduceCtorEq, if_false, rMatch]
    cases hf : names.findIdx? (fun t => decide (t = some s)) with
    | none =>
      rw [List.findIdx?_eq_none_iff] at hf
      simpa using hf _ hm
    | some i =>
      rw [List.findIdx?_eq_some_iff_getElem] at hf
      obtain ⟨h1, h2, h3⟩ := hf
      refine ⟨i, ⟨?_, ?_⟩, rfl⟩
      · rw [List.getElem?_eq_getElem h1]; simpa using h2
      · intro j hj hc
        have hjl := (List.getElem?_eq_some_iff.1 hc).1
        have := h3 j hj
        rw [List.getElem?_eq_getElem hjl] at hc
        injection hc with hc
        simp [hc] at this

/-- **C21**: when every non-missing string is a non-empty existing name (and missing strings are not
errors), each element is located at the first position bearing that name, in order; missing strings
give missing locations or are removed. -/
theorem C21_first {sub names : List RStr} {n : Nat} {opts : LocOpts} (hs : sub.length ≤ intMax)
    (h1 : some "" ∉ sub) (h2 : ∀ s, some s ∈ sub → some s ∈ names)
    (h3 : opts.missing = .error → none ∉ sub) :
    ∃ out, vecAsLocation (.chr sub) n (some names) opts = .ok out ∧
      List.Forall₂ (NameLoc names)
        (if opts.missing = .remove then sub.filter Option.isSome else sub) out := by
  refine ⟨_, chrAsLocation_ok hs ?_, ?_⟩
  · rintro e he (h | ⟨h, h'⟩ | ⟨h, h'⟩)
    · exact h1 (h ▸ he)
    · exact h3 h' (h ▸ he)
    · cases e with
      | none => exact h rfl
      | some s => exact h' (h2 s he)
  · have : ∀ l : List RStr, (∀ e ∈ l, e ∈ sub) → List.Forall₂ (NameLoc names) l (l.map (chrLoc names)) := by
      intro l hl
      rw [List.forall₂_map_right_iff, List.forall₂_same]
      intro e he
      refine chrLoc_spec (fun hne => ?_)
      cases e with
      | none => exact absurd rfl hne
      | some s => exact h2 s (hl _ he)
    refine this _ ?_
    intro e he
    split at he
    · exact (List.mem_filter.1 he).1
    · exact he

example : vecAsLocation (.chr [some "b", none, some "a"]) 3 (some [some "a", some "b", some "a"]) {} =
    .ok [2, naInt, 1] := by decide
example : vecAsLocation (.chr [some "b", none, some "a"]) 3 (some [some "a", some "b", some "a"])
    { missing := .remove } = .ok [2, 1] := by decide

/-- **C21** (range): located names are within the names. -/
theorem C21_range {names : List RStr} {e : RStr} {v : Int} (h : NameLoc names e v) :
    v = naInt ∨ (1 ≤ v ∧ v ≤ (names.length : Int)) := by
  cases e with
  | none => exact Or.inl h
  | some s =>
    obtain ⟨i, ⟨h1, _⟩, rfl⟩ := h
    have := (List.getElem?_eq_some_iff.1 h1).1
    right; omega

example : NameLoc [some "a", some "b"] (some "b") 2 := ⟨1, ⟨rfl, by decide⟩, rfl⟩

/-- **C21** (errors): no names, an empty string, an unknown name, or a missing string under
`missing = "error"`. -/
theorem C21_error {sub : List RStr} {names : Option (List RStr)} {n : Nat} {opts : LocOpts}
    (h : names = none ∨ some "" ∈ sub ∨ (opts.missing = .error ∧ none ∈ sub) ∨
      ∃ nms s, names = some nms ∧ some s ∈ sub ∧ some s ∉ nms) :
    vecAsLocation (.chr sub) n names opts = .error .abort := by
  cases names with
  | none => rfl
  | some nms =>
    refine chrAsLocation_err ?_
    rcases h with h | h | ⟨h, h'⟩ | ⟨nms', s, h, h', h''⟩
    · cases h
    · exact ⟨_, h, Or.inl rfl⟩
    · exact ⟨_, h', Or.inr (Or.inl ⟨rfl, h⟩)⟩
    · injection h with h
      subst h
      exact ⟨_, h', Or.inr (Or.inr ⟨by simp, h''⟩)⟩

example : vecAsLocation (.chr [some "a", some "c"]) 2 (some [some "a", some "b"]) {} = .error .abort :=
  C21_error (Or.inr (Or.inr (Or.inr ⟨_, "c", rfl, by simp, by simp⟩)))

end Vctrs
