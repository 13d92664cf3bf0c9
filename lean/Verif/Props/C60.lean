import Verif.Lemmas.TableUnique
import Verif.Props.C59

/-!
# C60: data_frame() and df_list()
-/

namespace Vctrs

open Spec

theorem dfList_rows {xs : List NVal} {size : Option Nat} {n : Nat} (hs : RowCount xs size n)
    (hr : ∀ m ∈ xs.filterMap rowsOf, size ≠ none → m = n ∨ m = 1) :
    ∀ m ∈ xs.filterMap rowsOf, m = n ∨ m = 1 := by
  intro m hm
  rcases hs with rfl | ⟨_, h | ⟨h, _⟩⟩
  · exact hr m hm nofun
  · exact h.2 m hm
  · rw [h] at hm; cases hm

/-! A column of one element named `x`, `NULL`, and the unnamed data frame of two rows of C59. -/

def exIns : List NVal := [.vec (.atom .int) ([9] : List Int) none, .null, exTab]

def exInNames : List Name := [some ['x'], some ['z'], some []]

theorem exIns_input : ∀ x ∈ exIns, IsInput x := by
  intro x hx
  simp only [exIns, List.mem_cons, List.not_mem_nil, or_false] at hx
  rcases hx with rfl | rfl | rfl
  · exact Or.inr ⟨1, .vec rfl nofun⟩
  · exact Or.inl rfl
  · exact Or.inr ⟨2, exTab_isTab⟩

theorem exIns_rows : RowCount exIns none 2 :=
  Or.inr ⟨rfl, Or.inl ⟨by decide, by decide⟩⟩

/-- **C60** (`df_list()`): the columns of the inputs in order, recycled to the number of rows, with
the repaired names. -/
theorem C60_df_list (h : Name → BitVec 32) {xs : List NVal} {names : Option (List Name)} {nms : List Name}
    {size : Option Nat} {n : Nat} {unpack : Bool} {repair : NameRepair}
    (hx : ∀ x ∈ xs, IsInput x) (hnm : InputNames xs names nms) (hs : RowCount xs size n) (hn : n ≤ 2147483647)
    (hr : ∀ m ∈ xs.filterMap rowsOf, size ≠ none → m = n ∨ m = 1)
    (hf : ∀ outs, Columns n unpack (nms.zip xs) outs → FitsRepair repair (outs.map (·.1))) :
    ∃ cols cn outs, ffiDfList h xs names size unpack repair = .ok (cols, cn) ∧
      Columns n unpack (nms.zip xs) outs ∧ cols = outs.map (·.2) ∧ Repaired repair (outs.map (·.1)) cn := by
  obtain ⟨e, hl⟩ := hnm.eq
  subst e
  obtain ⟨r, h1, outs, h2, h3, h4⟩ := dfList_ok h hx hl hn (dfList_rows hs hr) hf
  refine ⟨r.1, r.2, outs, ?_, h2, h3, h4⟩
  rw [ffiDfList, sizeOrCommon_ok hs, ok_bind, h1]

/-- Names to be made unique: the hypothesis on their length holds. -/
example : ∃ cols cn outs, ffiDfList exHash exIns (some exInNames) none false .unique = .ok (cols, cn) ∧
      Columns 2 false (exInNames.zip exIns) outs ∧ cols = outs.map (·.2) ∧ UniqueRepair (outs.map (·.1)) cn := by
  refine C60_df_list exHash exIns_input (Or.inl ⟨rfl, rfl⟩) exIns_rows (by decide) (fun _ _ h => absurd rfl h) ?_
  intro outs ho
  have e : outs.map (·.1) = [some ['x'], some []] := by
    simp only [exInNames, exIns, List.zip_cons_cons, List.zip_nil_right] at ho
    cases ho with
    | one _ _ ho =>
      cases ho with
      | null ho =>
        cases ho with
        | flat h _ _ => cases h
        | one _ _ ho => cases ho; rfl
      | one _ hr _ =>
        rcases hr with ⟨hr, _⟩ | ⟨hr, _⟩ <;> cases hr
  rw [e]
  refine ⟨by decide, ?_⟩
  intro s hs
  simp only [List.mem_cons, Option.some.injEq, List.not_mem_nil, or_false] at hs
  rcases hs with rfl | rfl <;> simp

/-- **C60** (`data_frame()`): the same columns in a data frame of that many rows without row names;
unnamed data frames are unpacked. -/
theorem C60_data_frame (h : Name → BitVec 32) {xs : List NVal} {names : Option (List Name)} {nms : List Name}
    {size : Option Nat} {n : Nat} {repair : NameRepair}
    (hx : ∀ x ∈ xs, IsInput x) (hnm : InputNames xs names nms) (hs : RowCount xs size n) (hn : n ≤ 2147483647)
    (hr : ∀ m ∈ xs.filterMap rowsOf, size ≠ none → m = n ∨ m = 1)
    (hf : ∀ outs, Columns n true (nms.zip xs) outs → FitsRepair repair (outs.map (·.1))) :
    ∃ cols cn outs, ffiDataFrame h xs names size repair = .ok (.df n cn cols none) ∧
      Columns n true (nms.zip xs) outs ∧ cols = outs.map (·.2) ∧ Repaired repair (outs.map (·.1)) cn := by
  obtain ⟨e, hl⟩ := hnm.eq
  subst e
  obtain ⟨r, h1, outs, h2, h3, h4⟩ := dfList_ok h hx hl hn (dfList_rows hs hr) hf
  refine ⟨r.1, r.2, outs, ?_, h2, h3, h4⟩
  rw [ffiDataFrame, sizeOrCommon_ok hs, ok_bind, h1, ok_bind, Int.toNat_natCast]

example : ∃ cols cn outs, ffiDataFrame exHash exIns (some exInNames) none .none = .ok (.df 2 cn cols none) ∧
      Columns 2 true (exInNames.zip exIns) outs ∧ cols = outs.map (·.2) ∧ cn = outs.map (·.1) :=
  C60_data_frame exHash exIns_input (Or.inl ⟨rfl, rfl⟩) exIns_rows (by decide) (fun _ _ h => absurd rfl h)
    (fun _ _ => trivial)

/-- The names of the columns and the first column. -/
def exColNames : NVal → Option (List Name)
  | .df _ cn _ _ => some cn
  | _ => none

example : exShow exColNames (ffiDataFrame exHash exIns (some exInNames) none .unique) =
      .ok (some [some ['x'], some ['a'], some ['b']]) ∧
    exShow exFirst (ffiDataFrame exHash exIns (some exInNames) none .unique) = .ok (some [9, 9]) ∧
    exShow NVal.width (ffiDataFrame exHash exIns (some exInNames) none .unique) = .ok 3 ∧
    exShow NVal.vnames (ffiDataFrame exHash exIns (some exInNames) none .unique) = .ok none := by
  refine ⟨?_, ?_, ?_, ?_⟩ <;> decide +kernel

/-- **C60** (errors): inputs of conflicting sizes, or of a size that is neither 1 nor the one given,
are an error. -/
theorem C60_error (h : Name → BitVec 32) {xs : List NVal} {names : Option (List Name)} {size : Option Nat}
    {unpack : Bool} {repair : NameRepair} (hx : ∀ x ∈ xs, IsInput x)
    (hb : (size = none ∧ SizeConflict (xs.filterMap rowsOf)) ∨
      ∃ n, size = some n ∧ n ≤ 2147483647 ∧ ∃ m ∈ xs.filterMap rowsOf, m ≠ n ∧ m ≠ 1) :
    ffiDfList h xs names size unpack repair = .error .abort ∧
    ffiDataFrame h xs names size repair = .error .abort := by
  rcases hb with ⟨rfl, hb⟩ | ⟨n, rfl, hn, hb⟩
  · rw [ffiDfList, ffiDataFrame, sizeOrCommon_bad hb]; exact ⟨rfl, rfl⟩
  · have := nvalRecycleAll_bad h hx hn hb
    simp only [ffiDfList, ffiDataFrame, sizeOrCommon, ok_bind, dfList, this, error_bind, and_self]

example : ffiDataFrame exHash [.vec (.atom .int) ([1, 2, 3] : List Int) none, exTab] none none .none = .error .abort :=
  (C60_error (unpack := true) exHash (by
    intro x hx
    simp only [List.mem_cons, List.not_mem_nil, or_false] at hx
    rcases hx with rfl | rfl
    · exact Or.inr ⟨3, .vec rfl nofun⟩
    · exact Or.inr ⟨2, exTab_isTab⟩) (Or.inl ⟨rfl, 3, by decide, 2, by decide, by decide⟩)).2

/-- **C60** (the result is determined): there is only one list of columns and names of this kind. -/
theorem C60_determined {n : Nat} {unpack : Bool} {repair : NameRepair} {ins outs outs' : List (Name × NVal)}
    {cn cn' : List Name} (h1 : Columns n unpack ins outs) (h2 : Columns n unpack ins outs')
    (h3 : Repaired repair (outs.map (·.1)) cn) (h4 : Repaired repair (outs'.map (·.1)) cn') :
    outs = outs' ∧ cn = cn' := by
  have e := h1.unique _ h2
  subst e
  exact ⟨rfl, h3.unique h4⟩

example : Columns 2 true [(some ['x'], .vec (.atom .int) ([9] : List Int) none), (some [], .null)]
    [(some ['x'], .vec (.atom .int) ([9, 9] : List Int) none)] := by
  refine .one (Or.inr (Or.inl (by decide))) (Or.inr ⟨rfl, by decide, .vec ⟨rfl, ?_, ?_⟩ (Or.inl ⟨rfl, rfl⟩)⟩) (.null .nil)
  · intro k hk
    rw [List.getElem?_replicate] at hk
    split at hk <;> simp at hk
  · intro k i hk
    match k, hk with
    | 0, hk => cases hk; exact ⟨(9 : Int), rfl, rfl⟩
    | 1, hk => cases hk; exact ⟨(9 : Int), rfl, rfl⟩
    | k + 2, hk => cases hk

end Vctrs
