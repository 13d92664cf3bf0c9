import Verif.Lemmas.Equal

/-! # C25: `vec_equal(na_equal = TRUE)` as an equivalence relation

It is one on atomic vectors and on data frames of them.  On list elements it never returns NA, is
reflexive and transitive, but not symmetric: `vec_equal_attrib` runs through the attributes of `x`
only. -/

namespace Vctrs

open Spec

/-- The result is never NA. -/
theorem C25_never_missing (x y : Val) (h : Compat x y) (hs : SupportedVal x) :
    ∃ out : List Bool, vecEqual true x y = .ok (out.map some) ∧ out.length = x.size := by
  obtain ⟨out, h1, h2, -⟩ := vecEqual_true h (cellsTotal_of_supported true h hs)
  exact ⟨out, h1, h2⟩

/-- On vectors and data frames without lists the result is TRUE exactly at the rows that are the
same; all lists whose elements hold equally many attributes are covered as well. -/
theorem C25_same (x y : Val) (h : Compat x y) (hs : SupportedVal x)
    (ha : ∀ i, SameAttrCount x y i) :
    ∃ out : List Bool, vecEqual true x y = .ok (out.map some) ∧ out.length = x.size ∧
      ∀ i, i < x.size → (out[i]? = some true ↔ SameRow x i y i) := by
  obtain ⟨out, h1, h2, h3⟩ := vecEqual_true h (cellsTotal_of_supported true h hs)
  exact ⟨out, h1, h2, fun i hi => (h3 i hi).trans (cells_same h hi (ha i))⟩

/-- The case without lists. -/
theorem C25_same_atomic (x y : Val) (h : Compat x y) (hl : NoList x) :
    ∃ out : List Bool, vecEqual true x y = .ok (out.map some) ∧ out.length = x.size ∧
      ∀ i, i < x.size → (out[i]? = some true ↔ SameRow x i y i) :=
  C25_same x y h hl.supported (fun i => hl.sameAttrCount y i)

/-- Reflexivity, on all values, lists included. -/
theorem C25_reflexive (x : Val) (h : Flat x) :
    vecEqual true x x = .ok (List.replicate x.size (some true)) := by
  have hc : ∀ (c i : Nat) (p q : Val), (columns x)[c]? = some p → (columns x)[c]? = some q →
      i < x.size → cellEqual true p q i = .ok (some true) := by
    intro c i p q hp hq hi
    rw [hp] at hq
    cases hq
    obtain ⟨t, xs, ys, rfl, -, hlx, -⟩ := h.cols c p p hp hp
    have hxa := List.getElem?_eq_getElem (l := xs) (i := i) (by omega)
    rw [cellEqual_vec hxa hxa]
    cases t with
    | atom t => exact (congrArg (fun b => Except.ok (some b)) (equalNaEqual_refl t _))
    | list => exact equalScalar_list_refl _
  obtain ⟨out, h1, h2, h3⟩ := vecEqual_true h
    (fun c i p q hp hq hi => ⟨_, hc c i p q hp hq hi⟩)
  rw [h1]
  congr 1
  apply List.ext_getElem?
  intro i
  by_cases hi : i < x.size
  · have := (h3 i hi).2 (fun c p q hp hq => hc c i p q hp hq hi)
    simp [this, hi]
  · rw [List.getElem?_eq_none (by simp; omega), List.getElem?_eq_none (by simp; omega)]

/-- C25 asks for `vecEqual true x y = vecEqual true y x` for all compatible `x` and `y`.  This is
the case of list elements that hold equally many attributes on both sides, and of everything
that is not a list (missing: the other lists, for which it is false by
`C25_not_symmetric`). -/
theorem C25_symmetric_partial (x y : Val) (h : Compat x y) (hs : SupportedVal x)
    (hs' : SupportedVal y) (ha : ∀ i, SameAttrCount x y i) :
    vecEqual true x y = vecEqual true y x := by
  obtain ⟨out, h1, h2, h3⟩ := C25_same x y h hs ha
  obtain ⟨out', h1', h2', h3'⟩ := C25_same y x h.symm hs' (fun i => (ha i).symm)
  have hsz := h.size
  rw [h1, h1']
  congr 2
  apply List.ext_getElem
  · omega
  intro i hi hi'
  have e1 := h3 i (by omega)
  have e2 := h3' i (by omega)
  rw [List.getElem?_eq_getElem hi, Option.some_inj] at e1
  rw [List.getElem?_eq_getElem hi', Option.some_inj] at e2
  rw [Bool.eq_iff_iff, e1, e2]
  exact ⟨SameRow.symm, SameRow.symm⟩

/-- Symmetry on atomic vectors and data frames of atomic vectors. -/
theorem C25_symmetric_atomic (x y : Val) (h : Compat x y) (hl : NoList x) :
    vecEqual true x y = vecEqual true y x :=
  C25_symmetric_partial x y h hl.supported (h.noList hl).supported
    (fun i => hl.sameAttrCount y i)

/-- Transitivity, on all values, lists included. -/
theorem C25_transitive (x y z : Val) (hxy : Compat x y) (hyz : Compat y z)
    (hs : SupportedVal x) (hs' : SupportedVal y) :
    ∃ a b c : List Bool, vecEqual true x y = .ok (a.map some) ∧
      vecEqual true y z = .ok (b.map some) ∧ vecEqual true x z = .ok (c.map some) ∧
      ∀ i : Nat, a[i]? = some true → b[i]? = some true → c[i]? = some true := by
  obtain ⟨a, ha, la, ha'⟩ := vecEqual_true hxy (cellsTotal_of_supported true hxy hs)
  obtain ⟨b, hb, lb, hb'⟩ := vecEqual_true hyz (cellsTotal_of_supported true hyz hs')
  have hxz := hxy.trans hyz
  obtain ⟨c, hc, lc, hc'⟩ := vecEqual_true hxz (cellsTotal_of_supported true hxz hs)
  refine ⟨a, b, c, ha, hb, hc, ?_⟩
  intro i hai hbi
  have hi : i < x.size := by rw [← la]; exact (List.getElem?_eq_some_iff.1 hai).1
  have hsz := hxy.size
  have hsz' := hyz.size
  refine (hc' i hi).2 (fun k p q hp hq => ?_)
  have hky : k < (columns y).length := by
    rw [← hxy.ncol]; exact (List.getElem?_eq_some_iff.1 hp).1
  have hm := List.getElem?_eq_getElem hky
  have e1 := (ha' i hi).1 hai k p _ hp hm
  have e2 := (hb' i (by omega)).1 hbi k _ q hm hq
  obtain ⟨t, xs, ys, rfl, h2, h3, h4⟩ := hxy.cols k p _ hp hm
  obtain ⟨u, ys', zs, h5, rfl, h6, h7⟩ := hyz.cols k _ q hm hq
  rw [h2] at h5 e1 e2
  cases h5
  have gx := List.getElem?_eq_getElem (l := xs) (i := i) (by omega)
  have gy := List.getElem?_eq_getElem (l := ys) (i := i) (by omega)
  have gz := List.getElem?_eq_getElem (l := zs) (i := i) (by omega)
  rw [cellEqual_vec gx gy] at e1
  rw [cellEqual_vec gy gz] at e2
  rw [cellEqual_vec gx gz]
  exact equalScalar_trans _ _ _ _ e1 e2

/-! ## Examples -/

/-- A data frame with a double and a string column:
`(0, NA, NaN)`, `("a", NA, "b")`. -/
def C25_x : Val := .df 3 [.vec (.atom .dbl) [(0x0#64 : Dbl), (naReal : Dbl), (rNaN : Dbl)],
  .vec (.atom .chr) [(some ['a'] : Name), (none : Name), (some ['b'] : Name)]]

/-- The same with `-0`, an NA with another payload, and a number instead of the NaN. -/
def C25_y : Val := .df 3 [.vec (.atom .dbl) [(0x8000000000000000#64 : Dbl),
  (0xFFFF0000000007A2#64 : Dbl), (0x3FF0000000000000#64 : Dbl)],
  .vec (.atom .chr) [(some ['a'] : Name), (none : Name), (some ['b'] : Name)]]

theorem C25_compat : Compat C25_x C25_y where
  kind := trivial
  size := rfl
  ncol := rfl
  cols c p q hp hq := by
    match c, hp, hq with
    | 0, hp, hq => cases hp; cases hq; exact ⟨_, _, _, rfl, rfl, rfl, rfl⟩
    | 1, hp, hq => cases hp; cases hq; exact ⟨_, _, _, rfl, rfl, rfl, rfl⟩
    | _ + 2, hp, hq => simp [C25_x, columns] at hp

theorem C25_nolist : NoList C25_x := by
  intro xs h
  simp only [C25_x, columns, List.mem_cons, List.not_mem_nil, or_false] at h
  rcases h with h | h <;> cases h

example : vecEqual true C25_x C25_y = .ok [some true, some true, some false] := by decide

example : ∃ out : List Bool, vecEqual true C25_x C25_y = .ok (out.map some) ∧ out.length = 3 ∧
    ∀ i, i < 3 → (out[i]? = some true ↔ SameRow C25_x i C25_y i) :=
  C25_same_atomic C25_x C25_y C25_compat C25_nolist

/-- `list(1L)`. -/
def C25_bare : Val := .vec .list [.vec .int [(1 : Int)] .nil]

/-- `list(structure(1L, a = 2L))`. -/
def C25_attr : Val := .vec .list [.vec .int [(1 : Int)] (.cons 7 (.vec .int [(2 : Int)] .nil) .nil)]

theorem C25_list_compat : Compat C25_bare C25_attr where
  kind := trivial
  size := rfl
  ncol := rfl
  cols c p q hp hq := by
    match c, hp, hq with
    | 0, hp, hq => cases hp; cases hq; exact ⟨_, _, _, rfl, rfl, rfl, rfl⟩
    | _ + 1, hp, hq => simp [C25_bare, columns] at hp

/-- Symmetry fails on list elements: `vec_equal(list(1L), list(structure(1L, a = 2L)))` is TRUE
and the other way around it is FALSE (src/equal.c:389-414). -/
theorem C25_not_symmetric : Compat C25_bare C25_attr ∧ SupportedVal C25_bare ∧
    SupportedVal C25_attr ∧ vecEqual true C25_bare C25_attr = .ok [some true] ∧
    vecEqual true C25_attr C25_bare = .ok [some false] := by
  refine ⟨C25_list_compat, ?_, ?_, by decide +kernel, by decide +kernel⟩
  · intro xs h
    simp only [C25_bare, columns, List.mem_cons, List.not_mem_nil, or_false] at h
    cases h
    exact ⟨trivial, trivial⟩
  · intro xs h
    simp only [C25_attr, columns, List.mem_cons, List.not_mem_nil, or_false] at h
    cases h
    exact ⟨⟨trivial, trivial⟩, trivial⟩

/-- A list compared with itself, as in `C25_reflexive`. -/
example : Flat C25_attr ∧ vecEqual true C25_attr C25_attr = .ok [some true] :=
  ⟨C25_list_compat.symm.trans C25_list_compat, by decide +kernel⟩

end Vctrs
