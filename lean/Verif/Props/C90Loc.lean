import Verif.Model.OptionsLoc
import Verif.Props.C90

/-!
# C90: options of `vec_as_location()`, `vec_as_subscript()`, `vec_expand_grid()`, `vec_rank()` and `vec_order_radix()`

The documentation is in R/subscript-loc.R:33-115, R/subscript.R:13-25, R/expand.R:31-37, R/rank.R:36-43 and
R/order.R:48-50.  A vector of strings stands for its first string: the defaults of `vec_as_location()` are such vectors.
-/

namespace Vctrs

namespace Spec

/-- Documented strings of `missing`. -/
def locMissingStrings : List (String × LocMissing) :=
  [("propagate", .propagate), ("remove", .remove), ("error", .error)]

/-- Documented strings of `negative`. -/
def locNegativeStrings : List (String × LocNegative) := [("invert", .invert), ("error", .error), ("ignore", .ignore)]

/-- Documented strings of `oob`. -/
def locOobStrings : List (String × LocOob) := [("error", .error), ("remove", .remove), ("extend", .extend)]

/-- Documented strings of `zero`. -/
def locZeroStrings : List (String × LocZero) := [("remove", .remove), ("error", .error), ("ignore", .ignore)]

/-- Documented strings of `logical`, `numeric` and `character`. -/
def typeActionStrings : List (String × TypeAction) := [("cast", .cast), ("error", .error)]

/-- Documented strings of `.vary`. -/
def varyStrings : List (String × Vary) := [("slowest", .slowest), ("fastest", .fastest)]

/-- Documented strings of `incomplete` of `vec_rank()`: is the rank missing. -/
def rankIncompleteStrings : List (String × Bool) := [("rank", false), ("na", true)]

/-- The first string of the option has the meaning `a`. -/
def FirstMeans {α : Type} (table : List (String × α)) (o : OptObj) (a : α) : Prop :=
  ∃ s l dim, o = .chr ⟨s :: l, dim⟩ ∧ Means table s a

/-- `TRUE` or `FALSE`. -/
def IsFlag (o : OptObj) (b : Bool) : Prop := o = .num (.lgl [if b then 1 else 0])

end Spec

open Spec

variable {α β : Type}

theorem first_option {table : List (String × α)} {o : OptObj} {g : C α} (hna : ∀ t a, (t, a) ∈ table → t ≠ "NA")
    (hg : g = (do
      let s ← firstCString o
      strcmpReturn .abort s (table.map (fun p => (p.1.toList, p.2))))) :
    Parsed (FirstMeans table o) .abort g := by
  subst hg
  cases o with
  | chr x =>
    obtain ⟨elts, dim⟩ := x
    match elts with
    | [] => exact .inr ⟨fun a ⟨s, l, d, h, _⟩ => (by simp at h), rfl⟩
    | none :: l =>
      refine .inr ⟨fun a ⟨s, l, d, h, t, _, e⟩ => ?_, ?_⟩
      · cases h
        cases e
      · rw [show firstCString (.chr ⟨none :: l, dim⟩) = .ok "NA".toList from rfl, ok_bind]
        rcases strcmpReturn_map .abort "NA".toList table with ⟨t, a, h1, h2, _⟩ | ⟨_, h2⟩
        · exact absurd (String.toList_inj.1 h2).symm (hna t a h1)
        · exact h2
    | some s :: l =>
      rw [show firstCString (.chr ⟨some s :: l, dim⟩) = .ok s from rfl, ok_bind]
      rcases strcmpReturn_map .abort s table with ⟨t, a, h1, rfl, h2⟩ | ⟨h1, h2⟩
      · exact .inl ⟨a, ⟨_, l, dim, rfl, t, h1, rfl⟩, h2⟩
      · refine .inr ⟨fun a ⟨s', l', d', h, t, ht, e'⟩ => ?_, h2⟩
        cases h
        exact h1 t a ht (by simpa using e')
  | _ => exact .inr ⟨fun a ⟨s, l, d, h, _⟩ => (by cases h), rfl⟩

theorem not_na {table : List (String × α)} (h : "NA" ∉ table.map (·.1)) : ∀ t a, (t, a) ∈ table → t ≠ "NA" := by
  rintro t a hm rfl
  exact h (List.mem_map.2 ⟨_, hm, rfl⟩)

/-- **C90** (`missing` of `vec_as_location()`). -/
theorem C90_loc_missing (o : OptObj) : Parsed (FirstMeans locMissingStrings o) .abort (parseLocMissing o) :=
  first_option (not_na (by decide)) rfl

/-- **C90** (`negative`). -/
theorem C90_loc_negative (o : OptObj) : Parsed (FirstMeans locNegativeStrings o) .abort (parseLocNegative o) :=
  first_option (not_na (by decide)) rfl

/-- **C90** (`oob`). -/
theorem C90_loc_oob (o : OptObj) : Parsed (FirstMeans locOobStrings o) .abort (parseLocOob o) :=
  first_option (not_na (by decide)) rfl

/-- **C90** (`zero`). -/
theorem C90_loc_zero (o : OptObj) : Parsed (FirstMeans locZeroStrings o) .abort (parseLocZero o) :=
  first_option (not_na (by decide)) rfl

/-- One option after another: all have a meaning, or there is an error. -/
theorem parsed_bind {P : α → Prop} {Q : α → β → Prop} {e : Err} {x : C α} {f : α → C β} (hx : Parsed P e x)
    (hu : ∀ a b, P a → P b → a = b) (hf : ∀ a, P a → Parsed (Q a) e (f a)) :
    Parsed (fun b => ∃ a, P a ∧ Q a b) e (x >>= f) := by
  rcases hx with ⟨a, ha, rfl⟩ | ⟨hn, rfl⟩
  · rw [ok_bind]
    rcases hf a ha with ⟨b, hb, h⟩ | ⟨hb, h⟩
    · exact .inl ⟨b, ⟨a, ha, hb⟩, h⟩
    · refine .inr ⟨fun b ⟨a', ha', hb'⟩ => ?_, h⟩
      cases hu a a' ha ha'
      exact hb b hb'
  · exact .inr ⟨fun b ⟨a, ha, _⟩ => hn a ha, rfl⟩

theorem firstMeans_unique {table : List (String × α)} {o : OptObj}
    (ht : ∀ t a b, (t, a) ∈ table → (t, b) ∈ table → a = b) {a b : α} (ha : FirstMeans table o a)
    (hb : FirstMeans table o b) : a = b := by
  obtain ⟨s, l, d, rfl, t, h1, h2⟩ := ha
  obtain ⟨s', l', d', h, t', h1', h2'⟩ := hb
  cases h
  rw [h2] at h2'
  cases String.toList_inj.1 (Option.some.inj h2')
  exact ht t a b h1 h1'

theorem table_unique {table : List (String × α)} (h : (table.map (·.1)).Nodup) :
    ∀ t a b, (t, a) ∈ table → (t, b) ∈ table → a = b := by
  induction table with
  | nil => intro t a b ha; cases ha
  | cons p l ih =>
    intro t a b ha hb
    rw [List.map_cons, List.nodup_cons] at h
    rcases List.mem_cons.1 ha with h1 | h1 <;> rcases List.mem_cons.1 hb with h2 | h2
    · rw [← h1] at h2
      exact (Prod.mk.inj h2).2.symm
    · subst h1
      exact absurd (List.mem_map_of_mem (f := (·.1)) h2) h.1
    · subst h2
      exact absurd (List.mem_map_of_mem (f := (·.1)) h1) h.1
    · exact ih h.2 t a b h1 h2

/-- **C90** (all options of `vec_as_location()`): every option is read into its own field; an undocumented string in any of
them is an error. -/
theorem C90_location (missing negative oob zero : OptObj) :
    Parsed (fun opts : LocOpts => FirstMeans locMissingStrings missing opts.missing ∧
      FirstMeans locNegativeStrings negative opts.negative ∧ FirstMeans locOobStrings oob opts.oob ∧
      FirstMeans locZeroStrings zero opts.zero) .abort (parseLocOpts missing negative oob zero) := by
  have h := parsed_bind (C90_loc_missing missing)
    (fun a b => firstMeans_unique (table_unique (by decide)))
    fun m _ => parsed_bind (C90_loc_negative negative)
      (fun a b => firstMeans_unique (table_unique (by decide)))
      fun n _ => parsed_bind (C90_loc_oob oob)
        (fun a b => firstMeans_unique (table_unique (by decide)))
        fun o _ => parsed_bind (C90_loc_zero zero)
          (fun a b => firstMeans_unique (table_unique (by decide)))
          (Q := fun z opts => opts = LocOpts.mk n o z m) (f := fun z => .ok ⟨n, o, z, m⟩)
          fun z _ => .inl ⟨_, rfl, rfl⟩
  rcases h with ⟨opts, ⟨m, hm, n, hn, o, ho, z, hz, e⟩, h⟩ | ⟨hno, h⟩
  · subst e
    exact .inl ⟨_, ⟨hm, hn, ho, hz⟩, h⟩
  · exact .inr ⟨fun opts ⟨hm, hn, ho, hz⟩ => hno opts ⟨_, hm, _, hn, _, ho, _, hz, rfl⟩, h⟩

/-- **C90** (`logical`, `numeric` or `character` of `vec_as_subscript()`). -/
theorem C90_type_action (o : OptObj) : Parsed (FirstMeans typeActionStrings o) .abort (parseTypeAction o) :=
  first_option (not_na (by decide)) rfl

/-- **C90** (all options of `vec_as_subscript()`). -/
theorem C90_subscript (logical numeric character : OptObj) :
    Parsed (fun opts : TypeOpts => FirstMeans typeActionStrings logical opts.logical ∧
      FirstMeans typeActionStrings numeric opts.numeric ∧
      FirstMeans typeActionStrings character opts.character) .abort (parseTypeOpts logical numeric character) := by
  have h := parsed_bind (C90_type_action logical)
    (fun a b => firstMeans_unique (table_unique (by decide)))
    fun l _ => parsed_bind (C90_type_action numeric)
      (fun a b => firstMeans_unique (table_unique (by decide)))
      fun n _ => parsed_bind (C90_type_action character)
        (fun a b => firstMeans_unique (table_unique (by decide)))
        (Q := fun c opts => opts = TypeOpts.mk l n c) (f := fun c => .ok ⟨l, n, c⟩)
        fun c _ => .inl ⟨_, rfl, rfl⟩
  rcases h with ⟨opts, ⟨l, hl, n, hn, c, hc, e⟩, h⟩ | ⟨hno, h⟩
  · subst e
    exact .inl ⟨_, ⟨hl, hn, hc⟩, h⟩
  · exact .inr ⟨fun opts ⟨hl, hn, hc⟩ => hno opts ⟨_, hl, _, hn, _, hc, rfl⟩, h⟩

/-- **C90** (`.vary` of `vec_expand_grid()`); the error cannot be reached from R. -/
theorem C90_vary (o : OptObj) :
    Parsed (fun v => ∃ s, IsString o s ∧ Means varyStrings (some s) v) .internal (parseVary o) :=
  string_option (fun _ => rfl) rfl

/-- **C90** (`incomplete` of `vec_rank()`); the error cannot be reached from R. -/
theorem C90_rank_incomplete (o : OptObj) :
    Parsed (fun v => ∃ s, IsString o s ∧ Means rankIncompleteStrings (some s) v) .internal (parseRankIncomplete o) :=
  string_option (fun _ => rfl) rfl

theorem flag_parsed {o : OptObj} (hok : OptOk o) {f : OptObj → C Bool}
    (hother : (∀ x, o ≠ .num (.lgl x)) → f o = .error .abort)
    (hlen : ∀ x, x.length ≠ 1 → f (.num (.lgl x)) = .error .abort) (hna : f (.num (.lgl [naInt])) = .error .abort)
    (h0 : f (.num (.lgl [0])) = .ok false) (h1 : f (.num (.lgl [1])) = .ok true) : Parsed (IsFlag o) .abort (f o) := by
  by_cases ho : ∃ x, o = .num (.lgl x)
  · obtain ⟨x, rfl⟩ := ho
    by_cases hl : x.length = 1
    · obtain ⟨v, rfl⟩ := List.length_eq_one_iff.1 hl
      have hv : v = 0 ∨ v = 1 ∨ v = naInt := hok v (by simp)
      rcases hv with rfl | rfl | rfl
      · exact .inl ⟨false, rfl, h0⟩
      · exact .inl ⟨true, rfl, h1⟩
      · refine .inr ⟨fun b hb => ?_, hna⟩
        unfold IsFlag naInt at hb
        cases b <;> simp at hb
    · refine .inr ⟨fun b hb => ?_, hlen x hl⟩
      have : x = [if b then 1 else 0] := by
        unfold IsFlag at hb
        simpa using hb
      rw [this] at hl
      exact hl rfl
  · exact .inr ⟨fun b hb => ho ⟨_, hb⟩, hother fun x hx => ho ⟨x, hx⟩⟩

/-- **C90** (`nan_distinct` of orders and ranks): `TRUE` or `FALSE`. -/
theorem C90_nan_distinct {o : OptObj} (hok : OptOk o) : Parsed (IsFlag o) .abort (parseNanDistinct o) := by
  refine flag_parsed hok (fun h => ?_) (fun x hx => ?_) rfl rfl rfl
  · unfold parseNanDistinct
    split
    · exact absurd rfl (h _)
    · rfl
  · simp only [parseNanDistinct, ne_eq, hx, not_false_eq_true, if_true]

/-- **C90** (other flags: `abutting`, `na_equal`, `.unpack` and `nan_distinct` of `vec_locate_matches()`). -/
theorem C90_flag {o : OptObj} (hok : OptOk o) : Parsed (IsFlag o) .abort (rArgAsBool o) := by
  refine flag_parsed hok (fun h => ?_) (fun x hx => ?_) rfl rfl rfl
  · unfold rArgAsBool
    split
    · exact absurd rfl (h _)
    · rfl
  · simp only [rArgAsBool, if_neg hx]
    rfl

/-! ## Examples -/

example : parseLocOpts (.chr ⟨[some "propagate".toList, some "remove".toList, some "error".toList], none⟩)
    (.chr ⟨[some "ignore".toList], none⟩) (.chr ⟨[some "extend".toList], none⟩) (.chr ⟨[some "error".toList], none⟩) =
    .ok { negative := .ignore, oob := .extend, zero := .error, missing := .propagate } := rfl
example : FirstMeans locMissingStrings (.chr ⟨[some "propagate".toList, none], none⟩) .propagate :=
  ⟨_, _, _, rfl, "propagate", by decide, rfl⟩
example : (parseLocZero (.chr ⟨[none], none⟩)) = .error .abort := by decide
example : (parseLocOob (.chr ⟨[some "ignore".toList], none⟩)) = .error .abort := by decide
example : parseTypeAction (.chr ⟨[some "cast".toList, some "error".toList], none⟩) = .ok .cast := by decide
example : parseVary (.chr ⟨[some "fastest".toList], none⟩) = .ok .fastest := by decide
example : parseRankIncomplete (.chr ⟨[some "na".toList], none⟩) = .ok true := by decide
example : OptOk (.num (.lgl [1])) ∧ IsFlag (.num (.lgl [1])) true ∧ parseNanDistinct (.num (.lgl [1])) = .ok true ∧
    rArgAsBool (.num (.lgl [0, 1])) = .error .abort :=
  ⟨by intro v hv; cases List.mem_singleton.1 hv; decide, rfl, rfl, rfl⟩

end Vctrs
