import Verif.Lemmas.Compare
import Verif.Model.OptionsOrder
import Verif.Props.C90
import Verif.SpecOrder

/-!
# C90: options of orders and of intervals
-/

namespace Vctrs

namespace Spec

/-- Documented strings of `missing`: are missing intervals grouped. -/
def intervalMissingStrings : List (String × Bool) := [("group", true), ("drop", false)]

end Spec

open Spec

theorem strcmp_zero_iff (s t : List Char) : strcmp s t = 0 ↔ s = t := (strcmp_spec s t).2.2

theorem direction_parsed (s : Name) : Parsed (IsDirection s) .abort (parseDirectionOne s) := by
  cases s with
  | none => exact .inr ⟨fun d h => (by cases h), rfl⟩
  | some s =>
    unfold parseDirectionOne
    dsimp only
    by_cases h1 : s = "asc".toList
    · exact .inl ⟨false, by subst h1; rfl, if_pos ((strcmp_zero_iff _ _).2 h1)⟩
    · rw [if_neg (fun h => h1 ((strcmp_zero_iff _ _).1 h))]
      by_cases h2 : s = "desc".toList
      · exact .inl ⟨true, by subst h2; rfl, if_pos ((strcmp_zero_iff _ _).2 h2)⟩
      · refine .inr ⟨fun d h => ?_, if_neg (fun h => h2 ((strcmp_zero_iff _ _).1 h))⟩
        cases d
        · exact h1 (Option.some.inj h)
        · exact h2 (Option.some.inj h)

theorem naValue_parsed (s : Name) : Parsed (IsNaValue s) .abort (parseNaValueOne s) := by
  cases s with
  | none => exact .inr ⟨fun d h => (by cases h), rfl⟩
  | some s =>
    unfold parseNaValueOne
    dsimp only
    by_cases h1 : s = "largest".toList
    · exact .inl ⟨true, by subst h1; rfl, if_pos ((strcmp_zero_iff _ _).2 h1)⟩
    · rw [if_neg (fun h => h1 ((strcmp_zero_iff _ _).1 h))]
      by_cases h2 : s = "smallest".toList
      · exact .inl ⟨false, by subst h2; rfl, if_pos ((strcmp_zero_iff _ _).2 h2)⟩
      · refine .inr ⟨fun d h => ?_, if_neg (fun h => h2 ((strcmp_zero_iff _ _).1 h))⟩
        cases d
        · exact h2 (Option.some.inj h)
        · exact h1 (Option.some.inj h)

theorem parseArg_parsed {f : Name → C Bool} {R : Name → Bool → Prop} (h : ∀ s, Parsed (R s) .abort (f s)) (l : List Name) :
    Parsed (List.Forall₂ R l) .abort (parseArg f l) := by
  have := columns_loop h l l [] [] rfl rfl
  simp only [List.length_nil, List.map_nil, List.nil_append] at this
  unfold parseArg forN alloc
  rcases this with ⟨as, g1, g2⟩ | ⟨g1, g2⟩
  · rw [g2, ok_bind, initd_map_some]
    exact .inl ⟨as, g1, rfl⟩
  · rw [g2]
    exact .inr ⟨g1, rfl⟩

/-- **C90** (`direction` of `vec_order_radix()`, `vec_rank()` and others): strings, each of them documented; their number is
not checked here. -/
theorem C90_order_direction (o : OptObj) :
    Parsed (fun ds => ∃ l dim, o = .chr ⟨l, dim⟩ ∧ List.Forall₂ IsDirection l ds) .abort (parseOrderDirection o) := by
  cases o with
  | chr x =>
    rcases parseArg_parsed direction_parsed x.elts with ⟨ds, h1, h2⟩ | ⟨h1, h2⟩
    · exact .inl ⟨ds, ⟨_, _, rfl, h1⟩, h2⟩
    · refine .inr ⟨?_, h2⟩
      rintro ds ⟨l, dim, h, h3⟩
      cases h
      exact h1 ds h3
  | _ => exact .inr ⟨fun ds ⟨l, dim, h, _⟩ => (by cases h), rfl⟩

/-- **C90** (`na_value` of the same functions). -/
theorem C90_order_na_value (o : OptObj) :
    Parsed (fun ds => ∃ l dim, o = .chr ⟨l, dim⟩ ∧ List.Forall₂ IsNaValue l ds) .abort (parseOrderNaValue o) := by
  cases o with
  | chr x =>
    rcases parseArg_parsed naValue_parsed x.elts with ⟨ds, h1, h2⟩ | ⟨h1, h2⟩
    · exact .inl ⟨ds, ⟨_, _, rfl, h1⟩, h2⟩
    · refine .inr ⟨?_, h2⟩
      rintro ds ⟨l, dim, h, h3⟩
      cases h
      exact h1 ds h3
  | _ => exact .inr ⟨fun ds ⟨l, dim, h, _⟩ => (by cases h), rfl⟩

/-- **C90** (`missing` of `vec_interval_groups()` and others): exactly the documented strings. -/
theorem C90_interval_missing (o : OptObj) :
    Parsed (fun v => ∃ s, IsString o s ∧ Means intervalMissingStrings (some s) v) .abort (parseIntervalMissing o) :=
  string_option (fun _ => rfl) rfl

example : parseOrderDirection (.chr ⟨[some "asc".toList, some "desc".toList], none⟩) = .ok [false, true] := by decide
example : List.Forall₂ IsDirection [some "asc".toList, some "desc".toList] [false, true] := .cons rfl (.cons rfl .nil)
example : parseOrderDirection (.chr ⟨[some "asc".toList, none], none⟩) = .error .abort := by decide
example : parseOrderNaValue (.chr ⟨[some "smallest".toList], none⟩) = .ok [false] := by decide
example : parseOrderNaValue (.num (.lgl [1])) = .error .abort := rfl
example : parseIntervalMissing (.chr ⟨[some "drop".toList], none⟩) = .ok false := by decide

end Vctrs
