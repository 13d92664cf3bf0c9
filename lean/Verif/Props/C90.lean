import Verif.Model.Options
import Verif.Props.C43

/-!
# C90: options are the documented ones, or an error

The documentation is in R/match.R:48-170, R/rank.R:20-40 and R/fill.R:10-30.
-/

namespace Vctrs

namespace Spec

/-- The option is a single string. -/
def IsString (o : OptObj) (s : List Char) : Prop := ∃ dim, o = .chr ⟨[some s], dim⟩

/-- The option is a single number, or a missing value, that an integer `v` can hold. -/
def IsInteger (o : OptObj) (v : Int) : Prop :=
  ∃ x, o = .num x ∧ naInt ≤ v ∧ v ≤ intMax ∧ cells x = [intCell v]

/-- The elements are those an R object may hold. -/
def OptOk : OptObj → Prop
  | .num x => NumOk x
  | _ => True

/-- Documented strings of `incomplete`. -/
def incompleteStrings : List (String × MIncomplete) :=
  [("compare", .compare), ("match", .exact), ("drop", .drop), ("error", .error)]

/-- Documented strings of `no_match` and `remaining`. -/
def unmatchedStrings : List (String × MUnmatched) := [("drop", .drop), ("error", .error)]

/-- Documented strings of `multiple`, with the two deprecated ones. -/
def multipleStrings : List (String × MMultiple) :=
  [("all", .all), ("any", .any), ("first", .first), ("last", .last), ("warning", .warning), ("error", .error)]

/-- Documented strings of `relationship`. -/
def relationshipStrings : List (String × MRelationship) :=
  [("none", .none), ("one-to-one", .oneToOne), ("one-to-many", .oneToMany), ("many-to-one", .manyToOne),
    ("many-to-many", .manyToMany), ("warn-many-to-many", .warnManyToMany)]

/-- Documented strings of `condition`. -/
def conditionStrings : List (String × MOp) := [("==", .eq), (">", .gt), (">=", .gte), ("<", .lt), ("<=", .lte)]

/-- Documented strings of `filter`. -/
def filterStrings : List (String × MFilter) := [("none", .all), ("min", .min), ("max", .max)]

/-- Documented strings of `ties`. -/
def tiesStrings : List (String × Ties) := [("min", .min), ("max", .max), ("sequential", .sequential), ("dense", .dense)]

/-- Documented strings of `direction`: down, and leading values too. -/
def fillStrings : List (String × (Bool × Bool)) :=
  [("down", (true, false)), ("up", (false, false)), ("downup", (true, true)), ("updown", (false, true))]

/-- The string has the meaning `a`. -/
def Means {α : Type} (table : List (String × α)) (s : Name) (a : α) : Prop := ∃ t, (t, a) ∈ table ∧ s = some t.toList

/-- The result is what the option means, or the error `e` if it means nothing. -/
def Parsed {α : Type} (means : α → Prop) (e : Err) (r : C α) : Prop :=
  (∃ a, means a ∧ r = .ok a) ∨ ((∀ a, ¬ means a) ∧ r = .error e)

/-- One string for all columns, or one per column. -/
def ColumnStrings {α : Type} (table : List (String × α)) (l : List Name) (nCols : Nat) (as : List α) : Prop :=
  (∃ s a, l = [s] ∧ Means table s a ∧ as = List.replicate nCols a) ∨
  (l.length ≠ 1 ∧ l.length = nCols ∧ List.Forall₂ (Means table) l as)

end Spec

open Spec

variable {α : Type}

theorem strcmpReturn_map (e : Err) (s : List Char) (l : List (String × α)) :
    (∃ t a, (t, a) ∈ l ∧ s = t.toList ∧ strcmpReturn e s (l.map (fun p => (p.1.toList, p.2))) = .ok a) ∨
    ((∀ t a, (t, a) ∈ l → s ≠ t.toList) ∧ strcmpReturn e s (l.map (fun p => (p.1.toList, p.2))) = .error e) := by
  induction l with
  | nil => exact .inr ⟨fun t a h => (by cases h), rfl⟩
  | cons p l ih =>
    obtain ⟨t, a⟩ := p
    rw [List.map_cons, strcmpReturn]
    by_cases h : s = t.toList
    · exact .inl ⟨t, a, by simp, h, by rw [if_pos h]⟩
    · rw [if_neg h]
      rcases ih with ⟨t', a', h1, h2, h3⟩ | ⟨h1, h2⟩
      · exact .inl ⟨t', a', by simp [h1], h2, h3⟩
      · refine .inr ⟨fun t' a' hm => ?_, h2⟩
        rcases List.mem_cons.1 hm with hm | hm
        · cases hm; exact h
        · exact h1 t' a' hm

theorem asRString_ok (o : OptObj) :
    (∃ s, IsString o s ∧ asRString o = .ok (some s)) ∨ ((∀ s, ¬ IsString o s) ∧ asRString o = .ok none) := by
  cases o with
  | chr x =>
    obtain ⟨elts, dim⟩ := x
    match elts with
    | [] => exact .inr ⟨fun s ⟨d, h⟩ => (by simp at h), rfl⟩
    | [none] => exact .inr ⟨fun s ⟨d, h⟩ => (by simp at h), rfl⟩
    | [some s] => exact .inl ⟨s, ⟨dim, rfl⟩, rfl⟩
    | a :: b :: l =>
      refine .inr ⟨fun s ⟨d, h⟩ => by simp at h, ?_⟩
      unfold asRString
      dsimp only
      rw [if_neg (by simp)]
  | _ => exact .inr ⟨fun s ⟨d, h⟩ => (by cases h), rfl⟩

theorem isString_inj {o : OptObj} {s t : List Char} (h : IsString o s) (h' : IsString o t) : s = t := by
  obtain ⟨d, rfl⟩ := h
  obtain ⟨d', h⟩ := h'
  simp at h
  exact h.1

theorem string_option {table : List (String × α)} {e : Err} {o : OptObj} {f : List Char → C α} {g : C α}
    (hf : ∀ s, f s = strcmpReturn e s (table.map (fun p => (p.1.toList, p.2)))) (hg : g = (do
      match ← asRString o with
      | none => .error e
      | some s => f s)) :
    Parsed (fun a => ∃ s, IsString o s ∧ Means table (some s) a) e g := by
  rcases asRString_ok o with ⟨s, hs, h⟩ | ⟨hs, h⟩
  · rw [h, ok_bind] at hg
    rw [hg]
    dsimp only
    rw [hf]
    rcases strcmpReturn_map e s table with ⟨t, a, h1, rfl, h2⟩ | ⟨h1, h2⟩
    · exact .inl ⟨a, ⟨_, hs, t, h1, rfl⟩, h2⟩
    · refine .inr ⟨fun a ⟨s', hs', t, ht, e'⟩ => ?_, h2⟩
      cases isString_inj hs hs'
      exact h1 t a ht (by simpa using e')
  · rw [h, ok_bind] at hg
    rw [hg]
    exact .inr ⟨fun a ⟨s, hs', _⟩ => hs s hs', rfl⟩

/-- **C90** (`multiple`): exactly the documented strings are accepted and mean what is documented. -/
theorem C90_multiple (o : OptObj) :
    Parsed (fun m => ∃ s, IsString o s ∧ Means multipleStrings (some s) m) .abort (parseMultiple o) :=
  string_option (fun _ => rfl) rfl

/-- **C90** (`relationship`). -/
theorem C90_relationship (o : OptObj) :
    Parsed (fun m => ∃ s, IsString o s ∧ Means relationshipStrings (some s) m) .abort (parseRelationship o) :=
  string_option (fun _ => rfl) rfl

/-- **C90** (`ties`); the error cannot be reached from R. -/
theorem C90_ties (o : OptObj) :
    Parsed (fun m => ∃ s, IsString o s ∧ Means tiesStrings (some s) m) .internal (parseTies o) :=
  string_option (fun _ => rfl) rfl

theorem cells_length (x : NumVec) : (cells x).length = numSize x := by
  cases x <;> simp [cells, numSize]

theorem optIntGet_ok {o : OptObj} (hok : OptOk o) (hl : o.length = 1) :
    (∃ v, IsInteger o v ∧ optIntGet o = .ok v) ∨ ((∀ v, ¬ IsInteger o v) ∧ optIntGet o = .error .abort) := by
  cases o with
  | null => cases hl
  | chr x => exact .inr ⟨fun v ⟨x, h, _⟩ => (by cases h), rfl⟩
  | other n => exact .inr ⟨fun v ⟨x, h, _⟩ => (by cases h), rfl⟩
  | num x =>
    unfold optIntGet
    rcases numCast_spec x .int hok with ⟨y, h1, h2, h3, h4⟩ | ⟨h1, h2⟩
    · cases y with
      | int v =>
        have hlen : v.length = 1 := by
          have := congrArg List.length h4
          rw [cells_length, cells_length] at this
          exact this.trans hl
        obtain ⟨n, rfl⟩ : ∃ n, v = [n] := by
          match v, hlen with
          | [n], _ => exact ⟨n, rfl⟩
        have hn := h2 n (by simp)
        refine .inl ⟨n, ⟨x, rfl, hn.1, hn.2, h4.symm⟩, ?_⟩
        dsimp only
        rw [h1, ok_bind]
        rfl
      | lgl v => cases h3
      | dbl v => cases h3
    · refine .inr ⟨fun v ⟨x', hx, h3, h4, h5⟩ => ?_, ?_⟩
      · cases hx
        exact h2 ⟨.int [v], by intro w hw; cases List.mem_singleton.1 hw; exact ⟨h3, h4⟩, rfl, h5.symm⟩
      · dsimp only
        rw [h1]
        rfl

/-- What an option that is a string or an integer means. -/
def Spec.ValueMeans (table : List (String × α)) (value : Int → α) (o : OptObj) (a : α) : Prop :=
  (∃ s, IsString o s ∧ Means table (some s) a) ∨ (∃ v, IsInteger o v ∧ a = value v)

theorem isString_length {o : OptObj} {s : List Char} (h : IsString o s) : o.length = 1 := by
  obtain ⟨d, rfl⟩ := h
  rfl

theorem isInteger_length {o : OptObj} {v : Int} (h : IsInteger o v) : o.length = 1 := by
  obtain ⟨x, rfl, _, _, h⟩ := h
  have := congrArg List.length h
  rw [cells_length] at this
  exact this

theorem isInteger_not_string {o : OptObj} {v : Int} {s : List Char} (h : IsInteger o v) : ¬ IsString o s := by
  obtain ⟨x, rfl, _⟩ := h
  rintro ⟨d, h⟩
  cases h

theorem value_option {table : List (String × α)} {value : Int → α} {o : OptObj} (hok : OptOk o) {f : List Char → C α}
    {g : C α} (hf : ∀ s, f s = strcmpReturn .abort s (table.map (fun p => (p.1.toList, p.2)))) (hg : g = (do
      if o.length ≠ 1 then .error .abort
      else do
        match ← asRString o with
        | some s => f s
        | none => do
          let v ← optIntGet o
          .ok (value v))) :
    Parsed (ValueMeans table value o) .abort g := by
  rw [hg]
  by_cases hl : o.length = 1
  · rw [if_neg (by simpa using hl)]
    rcases asRString_ok o with ⟨s, hs, h⟩ | ⟨hs, h⟩
    · rw [h, ok_bind]
      dsimp only
      rw [hf]
      rcases strcmpReturn_map .abort s table with ⟨t, a, h1, rfl, h2⟩ | ⟨h1, h2⟩
      · exact .inl ⟨a, .inl ⟨_, hs, t, h1, rfl⟩, h2⟩
      · refine .inr ⟨?_, h2⟩
        rintro a (⟨s', hs', t, ht, e'⟩ | ⟨v, hv, _⟩)
        · cases isString_inj hs hs'
          exact h1 t a ht (by simpa using e')
        · exact isInteger_not_string hv hs
    · rw [h, ok_bind]
      dsimp only
      rcases optIntGet_ok hok hl with ⟨v, hv, h1⟩ | ⟨hv, h1⟩
      · rw [h1, ok_bind]
        exact .inl ⟨_, .inr ⟨v, hv, rfl⟩, rfl⟩
      · rw [h1]
        refine .inr ⟨?_, rfl⟩
        rintro a (⟨s, hs', _⟩ | ⟨v, hv', _⟩)
        · exact hs s hs'
        · exact hv v hv'
  · rw [if_pos hl]
    refine .inr ⟨?_, rfl⟩
    rintro a (⟨s, hs', _⟩ | ⟨v, hv', _⟩)
    · exact hl (isString_length hs')
    · exact hl (isInteger_length hv')

/-- **C90** (`incomplete`): the documented strings and every number that is an integer. -/
theorem C90_incomplete {o : OptObj} (hok : OptOk o) :
    Parsed (ValueMeans incompleteStrings .value o) .abort (parseIncomplete o) :=
  value_option hok (fun _ => rfl) rfl

/-- **C90** (`no_match` and `remaining`). -/
theorem C90_unmatched {o : OptObj} (hok : OptOk o) :
    Parsed (ValueMeans unmatchedStrings .value o) .abort (parseUnmatched o) := by
  have := value_option (table := unmatchedStrings.reverse) (value := .value) hok (f := _) (g := parseUnmatched o)
    (fun _ => rfl) rfl
  have e : ∀ a, ValueMeans unmatchedStrings.reverse .value o a ↔ ValueMeans unmatchedStrings .value o a := by
    intro a
    simp [ValueMeans, Means]
  rcases this with ⟨a, h1, h2⟩ | ⟨h1, h2⟩
  · exact .inl ⟨a, (e a).1 h1, h2⟩
  · exact .inr ⟨fun a h => h1 a ((e a).2 h), h2⟩

/-! ## Strings for columns -/

theorem means_condition (s : Name) : Parsed (Means conditionStrings s) .abort (parseConditionOne s) := by
  cases s with
  | none => exact .inr ⟨fun a ⟨t, _, h⟩ => (by cases h), rfl⟩
  | some s =>
    have e : parseConditionOne (some s) = strcmpReturn .abort s (conditionStrings.map (fun p => (p.1.toList, p.2))) := by
      unfold parseConditionOne
      simp only [conditionStrings, List.map_cons, List.map_nil, strcmpReturn, Option.some.injEq]
    rw [e]
    rcases strcmpReturn_map .abort s conditionStrings with ⟨t, a, h1, rfl, h2⟩ | ⟨h1, h2⟩
    · exact .inl ⟨a, ⟨t, h1, rfl⟩, h2⟩
    · exact .inr ⟨fun a ⟨t, ht, e'⟩ => h1 t a ht (by simpa using e'), h2⟩

theorem means_filter (s : Name) : Parsed (Means filterStrings s) .abort (parseFilterOne s) := by
  cases s with
  | none => exact .inr ⟨fun a ⟨t, _, h⟩ => (by cases h), rfl⟩
  | some s =>
    have e : parseFilterOne (some s) = strcmpReturn .abort s (filterStrings.map (fun p => (p.1.toList, p.2))) := by
      unfold parseFilterOne
      simp only [filterStrings, List.map_cons, List.map_nil, strcmpReturn, Option.some.injEq]
    rw [e]
    rcases strcmpReturn_map .abort s filterStrings with ⟨t, a, h1, rfl, h2⟩ | ⟨h1, h2⟩
    · exact .inl ⟨a, ⟨t, h1, rfl⟩, h2⟩
    · exact .inr ⟨fun a ⟨t, ht, e'⟩ => h1 t a ht (by simpa using e'), h2⟩

theorem columns_loop {one : Name → C α} {means : Name → α → Prop} (h1 : ∀ s, Parsed (means s) .abort (one s))
    (xs l pre : List Name) (acc : List α) (hx : xs = pre ++ l) (ha : acc.length = pre.length) :
    (∃ as, List.Forall₂ means l as ∧ forFrom (fun i ops => do
      let elt ← rd xs i
      let op ← one elt
      wr ops i (some op)) pre.length l.length (acc.map some ++ List.replicate l.length none) =
        .ok ((acc ++ as).map some)) ∨
    ((∀ as, ¬ List.Forall₂ means l as) ∧ forFrom (fun i ops => do
      let elt ← rd xs i
      let op ← one elt
      wr ops i (some op)) pre.length l.length (acc.map some ++ List.replicate l.length none) = .error .abort) := by
  induction l generalizing pre acc with
  | nil => exact .inl ⟨[], .nil, by simp [forFrom]⟩
  | cons y l ih =>
    simp only [List.length_cons, forFrom]
    rw [rd_of_getElem? (a := y) (by rw [hx]; simp), ok_bind]
    rcases h1 y with ⟨a, hm, ho⟩ | ⟨hm, ho⟩
    · rw [ho, ok_bind, wr_ok (by simp; omega), ok_bind]
      have e : (List.map some acc ++ List.replicate (l.length + 1) none).set pre.length (some a) =
          (acc ++ [a]).map some ++ List.replicate l.length none := by
        rw [List.set_append_right _ _ (by simp; omega), ← ha]
        simp [List.replicate_succ]
      rw [e]
      have := ih (pre ++ [y]) (acc ++ [a]) (by rw [hx]; simp) (by simp [ha])
      rw [List.length_append] at this
      rcases this with ⟨as, g1, g2⟩ | ⟨g1, g2⟩
      · exact .inl ⟨a :: as, .cons hm g1, by simpa using g2⟩
      · refine .inr ⟨fun as h => ?_, g2⟩
        cases h with
        | cons _ h => exact g1 _ h
    · rw [ho]
      refine .inr ⟨fun as h => ?_, rfl⟩
      cases h with
      | cons h _ => exact hm _ h

theorem fill_loop (a : α) (n : Nat) : (do
    let ops ← forN n (fun i ops => wr ops i (some a)) (alloc α n)
    initd ops) = .ok (List.replicate n a) := by
  have key : ∀ k i (acc : List α), acc.length = i → forFrom (fun i ops => wr ops i (some a)) i k
      (acc.map some ++ List.replicate k none) = .ok ((acc ++ List.replicate k a).map some) := by
    intro k
    induction k with
    | zero => intro i acc _; simp [forFrom]
    | succ k ih =>
      intro i acc ha
      rw [forFrom, wr_ok (by simp; omega), ok_bind]
      have e : (List.map some acc ++ List.replicate (k + 1) none).set i (some a) =
          (acc ++ [a]).map some ++ List.replicate k none := by
        rw [List.set_append_right _ _ (by simp; omega), ← ha]
        simp [List.replicate_succ]
      rw [e, ih (i + 1) (acc ++ [a]) (by simp [ha]), List.append_assoc]
      rfl
  have := key n 0 [] rfl
  unfold forN alloc
  rw [List.map_nil, List.nil_append, List.nil_append] at this
  rw [this, ok_bind, initd_map_some]

/-- The strings have one element per row. -/
def Spec.RowStrings (x : ChrObj) : Prop :=
  match x.dim with
  | some (d :: _) => d = x.elts.length
  | _ => True

theorem size_of_rowStrings {x : ChrObj} (h : RowStrings x) : x.size = .ok x.elts.length := by
  obtain ⟨elts, dim⟩ := x
  match dim, h with
  | none, _ => rfl
  | some [], _ => rfl
  | some (d :: _), h => exact congrArg Except.ok h

theorem columns_option {table : List (String × α)} {one : Name → C α} (h1 : ∀ s, Parsed (Means table s) .abort (one s))
    (o : OptObj) (nCols : Nat) (h : ∀ x, o = .chr x → RowStrings x) :
    Parsed (fun as => ∃ x, o = .chr x ∧ ColumnStrings table x.elts nCols as) .abort (parseColumns one o nCols) := by
  cases o with
  | chr x =>
    have hx := h x rfl
    unfold parseColumns
    dsimp only
    rw [size_of_rowStrings hx, ok_bind]
    by_cases hl : x.elts.length = 1
    · rw [if_pos hl]
      obtain ⟨s, hs⟩ := List.length_eq_one_iff.1 hl
      rw [hs, show rd [s] 0 = (.ok s : C Name) from rfl, ok_bind]
      rcases h1 s with ⟨a, hm, ho⟩ | ⟨hm, ho⟩
      · rw [ho, ok_bind]
        exact .inl ⟨List.replicate nCols a, ⟨x, rfl, .inl ⟨s, a, hs, hm, rfl⟩⟩, fill_loop a nCols⟩
      · rw [ho]
        refine .inr ⟨?_, rfl⟩
        rintro as ⟨x', hx', ⟨s', a, hs', hm', _⟩ | ⟨hn, _⟩⟩
        · cases hx'
          rw [hs] at hs'
          cases hs'
          exact hm a hm'
        · cases hx'
          exact hn hl
    · rw [if_neg hl]
      by_cases hc : x.elts.length = nCols
      · rw [if_pos hc]
        have := columns_loop h1 x.elts x.elts [] [] rfl rfl
        simp only [List.length_nil, List.map_nil, List.nil_append] at this
        unfold forN alloc
        rw [← hc]
        rcases this with ⟨as, g1, g2⟩ | ⟨g1, g2⟩
        · rw [g2, ok_bind, initd_map_some]
          exact .inl ⟨as, ⟨x, rfl, .inr ⟨hl, rfl, g1⟩⟩, rfl⟩
        · rw [g2]
          refine .inr ⟨?_, rfl⟩
          rintro as ⟨x', hx', ⟨s', a, hs', _⟩ | ⟨_, _, hf⟩⟩
          · cases hx'
            exact hl (by rw [hs']; rfl)
          · cases hx'
            exact g1 as hf
      · rw [if_neg hc]
        refine .inr ⟨?_, rfl⟩
        rintro as ⟨x', hx', ⟨s', a, hs', _⟩ | ⟨_, hc', _⟩⟩
        · cases hx'
          exact hl (by rw [hs']; rfl)
        · cases hx'
          exact hc hc'
  | _ => exact .inr ⟨fun as ⟨x, h, _⟩ => (by cases h), rfl⟩

/-- **C90** (`condition`, partial): one documented string, or one per column, for strings with one element per row.
Missing: arrays of strings, see `C90_condition_out_of_bounds`. -/
theorem C90_condition_partial (o : OptObj) (nCols : Nat) (h : ∀ x, o = .chr x → RowStrings x) :
    Parsed (fun ops => ∃ x, o = .chr x ∧ ColumnStrings conditionStrings x.elts nCols ops) .abort
      (parseColumns parseConditionOne o nCols) :=
  columns_option means_condition o nCols h

/-- **C90** (`filter`, partial), as `C90_condition_partial`. -/
theorem C90_filter_partial (o : OptObj) (nCols : Nat) (h : ∀ x, o = .chr x → RowStrings x) :
    Parsed (fun fs => ∃ x, o = .chr x ∧ ColumnStrings filterStrings x.elts nCols fs) .abort
      (parseColumns parseFilterOne o nCols) :=
  columns_option means_filter o nCols h

/-- Disagreement: strings with a row per column but no cells are read out of bounds, for any number of columns. -/
theorem C90_condition_out_of_bounds (one : Name → C α) (n : Nat) :
    parseColumns one (.chr ⟨[], some [n + 1, 0]⟩) (n + 1) = .error .ub := by
  unfold parseColumns
  dsimp only
  rw [show (ChrObj.mk [] (some [n + 1, 0])).size = .ok (n + 1) from rfl, ok_bind]
  by_cases h : n + 1 = 1
  · rw [if_pos h]
    rfl
  · rw [if_neg h, if_pos rfl]
    rfl

/-- Disagreement: four strings, one of them undocumented, are accepted for two columns if they are a matrix. -/
theorem C90_condition_wrong :
    parseColumns parseConditionOne (.chr ⟨[some "==".toList, some "<".toList, some "==".toList, some "x".toList],
      some [2, 2]⟩) 2 = .ok [.eq, .lt] := by decide

/-! ## Filling -/

/-- **C90** (`direction` of `vec_fill_missing()`): the first string must be documented. -/
theorem C90_fill_direction (o : OptObj) :
    Parsed (fun d => ∃ s l dim, o = .chr ⟨s :: l, dim⟩ ∧ Means fillStrings s d) .abort (parseFillDirection o) := by
  cases o with
  | chr x =>
    obtain ⟨elts, dim⟩ := x
    match elts with
    | [] => exact .inr ⟨fun d ⟨s, l, dim, h, _⟩ => (by simp at h), rfl⟩
    | none :: l =>
      refine .inr ⟨fun d ⟨s, l, dim, h, t, _, e⟩ => ?_, rfl⟩
      cases h
      cases e
    | some s :: l =>
      have e : parseFillDirection (.chr ⟨some s :: l, dim⟩) =
          strcmpReturn .abort s (fillStrings.map (fun p => (p.1.toList, p.2))) := by
        unfold parseFillDirection
        dsimp only
        rw [if_neg (by simp)]
        rfl
      rw [e]
      rcases strcmpReturn_map .abort s fillStrings with ⟨t, a, h1, rfl, h2⟩ | ⟨h1, h2⟩
      · exact .inl ⟨a, ⟨_, l, dim, rfl, t, h1, rfl⟩, h2⟩
      · refine .inr ⟨fun a ⟨s', l', dim', h, t, ht, e'⟩ => ?_, h2⟩
        cases h
        exact h1 t a ht (by simpa using e')
  | _ => exact .inr ⟨fun d ⟨s, l, dim, h, _⟩ => (by cases h), rfl⟩

/-- **C90** (`max_fill`): `NULL`, or a single positive number that is an integer. -/
theorem C90_max_fill {o : OptObj} (hok : OptOk o) :
    Parsed (fun m => (o = .null ∧ m = none) ∨ ∃ n : Nat, 0 < n ∧ IsInteger o n ∧ m = some n) .abort
      (parseMaxFill o) := by
  cases o with
  | null => exact .inl ⟨none, .inl ⟨rfl, rfl⟩, rfl⟩
  | chr x =>
    refine .inr ⟨?_, rfl⟩
    rintro m (⟨h, _⟩ | ⟨n, _, ⟨x, h, _⟩, _⟩) <;> cases h
  | other k =>
    refine .inr ⟨?_, rfl⟩
    rintro m (⟨h, _⟩ | ⟨n, _, ⟨x, h, _⟩, _⟩) <;> cases h
  | num x =>
    unfold parseMaxFill
    dsimp only
    rcases numCast_spec x .int hok with ⟨y, h1, h2, h3, h4⟩ | ⟨h1, h2⟩
    · cases y with
      | int v =>
        rw [h1, ok_bind]
        dsimp only
        have hlen : v.length = (cells x).length := by
          have := congrArg List.length h4
          simpa [cells] using this
        by_cases hl : v.length = 1
        · rw [if_pos hl]
          obtain ⟨n, rfl⟩ := List.length_eq_one_iff.1 hl
          have hn := h2 n (by simp)
          rw [show rd [n] 0 = (.ok n : C Int) from rfl, ok_bind]
          by_cases hp : n ≠ naInt ∧ n > 0
          · rw [if_pos hp]
            refine .inl ⟨_, .inr ⟨n.toNat, by omega, ⟨x, rfl, ?_, ?_, ?_⟩, rfl⟩, rfl⟩
            · omega
            · omega
            · rw [Int.toNat_of_nonneg (by omega)]
              exact h4.symm
          · rw [if_neg hp]
            refine .inr ⟨?_, rfl⟩
            rintro m (⟨h, _⟩ | ⟨k, hk, ⟨x', hx', _, _, hc⟩, _⟩)
            · cases h
            · cases hx'
              rw [← h4] at hc
              have hc' : intCell n = intCell (k : Int) := by simpa [cells] using hc
              have hna : (k : Int) ≠ naInt := by unfold naInt; omega
              unfold intCell at hc'
              rw [if_neg hna] at hc'
              by_cases hn' : n = naInt
              · rw [if_pos hn'] at hc'
                cases hc'
              · rw [if_neg hn'] at hc'
                have := Int.eq_of_mul_eq_mul_right (ne_of_gt unit_pos) (Option.some.inj hc')
                exact hp ⟨hn', by omega⟩
        · rw [if_neg hl]
          refine .inr ⟨?_, rfl⟩
          rintro m (⟨h, _⟩ | ⟨k, hk, ⟨x', hx', _, _, hc⟩, _⟩)
          · cases h
          · cases hx'
            rw [hc] at hlen
            exact hl hlen
      | lgl v => cases h3
      | dbl v => cases h3
    · rw [h1]
      refine .inr ⟨?_, rfl⟩
      rintro m (⟨h, _⟩ | ⟨k, hk, ⟨x', hx', g1, g2, hc⟩, _⟩)
      · cases h
      · cases hx'
        exact h2 ⟨.int [k], by intro w hw; cases List.mem_singleton.1 hw; exact ⟨g1, g2⟩, rfl, hc.symm⟩

/-! ## Examples -/

example : parseIncomplete (.chr ⟨[some "drop".toList], none⟩) = .ok .drop := by decide
example : parseIncomplete (.num (.int [7])) = .ok (.value 7) := rfl
example : OptOk (.num (.int [7])) ∧ IsInteger (.num (.int [7])) 7 :=
  ⟨by intro v hv; cases List.mem_singleton.1 hv; decide, .int [7], rfl, by decide, by decide, rfl⟩
example : parseUnmatched (.chr ⟨[some "compare".toList], none⟩) = .error .abort := by decide
example : parseUnmatched (.num (.lgl [naInt])) = .ok (.value naInt) := rfl
example : parseRelationship (.chr ⟨[some "one-to-many".toList], none⟩) = .ok .oneToMany := by decide
example : parseMultiple (.chr ⟨[none], none⟩) = .error .abort := rfl
example : RowStrings ⟨[some "<".toList, some ">=".toList], some [2, 1]⟩ ∧
    parseColumns parseConditionOne (.chr ⟨[some "<".toList, some ">=".toList], some [2, 1]⟩) 2 = .ok [.lt, .gte] :=
  ⟨rfl, by decide⟩
example : parseColumns parseFilterOne (.chr ⟨[some "max".toList], none⟩) 3 = .ok [.max, .max, .max] := by decide
example : parseFillDirection (.chr ⟨[some "updown".toList, none], none⟩) = .ok (false, true) := by decide
example : parseMaxFill (.num (.int [2])) = .ok (some 2) := by decide
example : parseMaxFill (.num (.int [0])) = .error .abort := by decide

end Vctrs
