import Verif.Lemmas.TableUnique
import Verif.Props.C60

/-!
# C61: vec_cbind()
-/

namespace Vctrs

open Spec

/-- **C61**: `vec_cbind()` has the columns `data_frame()` has, with names repaired as asked, and the
row names of the first data frame that has some. -/
theorem C61_cbind (h : Name → BitVec 32) {xs : List NVal} {names : Option (List Name)} {nms : List Name}
    {size : Option Nat} {n : Nat} {repair : NameRepair}
    (hx : ∀ x ∈ xs, IsInput x) (hnm : InputNames xs names nms) (hs : RowCount xs size n) (hn : n ≤ 2147483647)
    (hr : ∀ m ∈ xs.filterMap rowsOf, size ≠ none → m = n ∨ m = 1)
    (hf : ∀ outs, Columns n true (nms.zip xs) outs → FitsRepair repair (outs.map (·.1))) :
    ∃ cols cn rn outs, vecCbind h xs names size repair = .ok (.df n cn cols rn) ∧
      Columns n true (nms.zip xs) outs ∧ cols = outs.map (·.2) ∧ Repaired repair (outs.map (·.1)) cn ∧
      BoundRowNames n xs rn :=
  vecCbind_ok h hx hnm hs hn (dfList_rows hs hr) hf

/-! The inputs of C60 and a second data frame, of one row, whose row name is not used. -/

def exIns2 : List NVal := exIns ++
  [.df 1 [some ['d']] [.vec (.atom .int) ([5] : List Int) none] (some [some ['o']])]

theorem exIns2_input : ∀ x ∈ exIns2, IsInput x := by
  intro x hx
  rcases List.mem_append.1 hx with hx | hx
  · exact exIns_input x hx
  · simp only [List.mem_cons, List.not_mem_nil, or_false] at hx
    subst hx
    refine Or.inr ⟨1, .df rfl ?_ ?_⟩
    · intro p hp
      simp only [List.mem_cons, List.not_mem_nil, or_false] at hp
      subst hp
      exact .vec rfl nofun
    · intro l hl
      cases hl
      refine ⟨rfl, ?_⟩
      intro s hs
      simp only [List.mem_cons, Option.some.injEq, List.not_mem_nil, or_false] at hs
      subst hs; simp

example : ∃ cols cn rn outs, vecCbind exHash exIns2 (some (exInNames ++ [some ['k']])) none .none =
      .ok (.df 2 cn cols rn) ∧
      Columns 2 true ((exInNames ++ [some ['k']]).zip exIns2) outs ∧ cols = outs.map (·.2) ∧ cn = outs.map (·.1) ∧
      BoundRowNames 2 exIns2 rn :=
  C61_cbind exHash exIns2_input (Or.inl ⟨rfl, rfl⟩) (Or.inr ⟨rfl, Or.inl ⟨by decide, by decide⟩⟩) (by decide)
    (fun _ _ h => absurd rfl h) (fun _ _ => trivial)

example : exShow exColNames (vecCbind exHash exIns2 (some (exInNames ++ [some ['k']])) none .unique) =
      .ok (some [some ['x'], some ['a'], some ['b'], some ['k']]) ∧
    exShow exFirst (vecCbind exHash exIns2 (some (exInNames ++ [some ['k']])) none .unique) = .ok (some [9, 9]) ∧
    exShow NVal.vnames (vecCbind exHash exIns2 (some (exInNames ++ [some ['k']])) none .unique) =
      .ok (some [some ['r'], some ['s']]) := by
  refine ⟨?_, ?_, ?_⟩ <;> decide +kernel

/-- **C61** (errors): conflicting sizes, or a size other than 1 and the one given, are an error. -/
theorem C61_error (h : Name → BitVec 32) {xs : List NVal} {names : Option (List Name)} {nms : List Name}
    {size : Option Nat} {repair : NameRepair} (hx : ∀ x ∈ xs, IsInput x) (hnm : InputNames xs names nms)
    (hb : (size = none ∧ SizeConflict (xs.filterMap rowsOf)) ∨
      ∃ n, size = some n ∧ n ≤ 2147483647 ∧ ∃ m ∈ xs.filterMap rowsOf, m ≠ n ∧ m ≠ 1) :
    vecCbind h xs names size repair = .error .abort :=
  vecCbind_bad h hx hnm hb

example : vecCbind exHash exIns2 none (some 3) .none = .error .abort :=
  C61_error exHash exIns2_input (Or.inr ⟨rfl, rfl⟩) (Or.inr ⟨3, rfl, by decide, 2, by decide, by decide⟩)

/-- **C61** (as `data_frame()`): for inputs without row names the two functions agree. -/
theorem C61_data_frame (h : Name → BitVec 32) {xs : List NVal} {names : Option (List Name)} {nms : List Name}
    {size : Option Nat} {n : Nat} {repair : NameRepair}
    (hx : ∀ x ∈ xs, IsInput x) (hnm : InputNames xs names nms) (hs : RowCount xs size n) (hn : n ≤ 2147483647)
    (hr : ∀ m ∈ xs.filterMap rowsOf, size ≠ none → m = n ∨ m = 1)
    (hf : ∀ outs, Columns n true (nms.zip xs) outs → FitsRepair repair (outs.map (·.1)))
    (hrn : NoRowNames xs) :
    ∃ y, vecCbind h xs names size repair = .ok y ∧ ffiDataFrame h xs names size repair = .ok y := by
  obtain ⟨cols, cn, rn, outs, h1, h2, h3, h4, h5⟩ := C61_cbind h hx hnm hs hn hr hf
  obtain ⟨cols', cn', outs', h6, h7, h8, h9⟩ := C60_data_frame h hx hnm hs hn hr hf
  have e := h2.unique _ h7
  subst e h3 h8
  have e2 := h4.unique h9
  subst e2
  have e3 : rn = none := by
    rcases h5 with ⟨_, h5⟩ | ⟨pre, m, cn, cols, l, post, res, h5, _⟩
    · exact h5
    · have := hrn _ (by rw [h5]; exact List.mem_append_right _ (List.mem_cons_self)) _ _ _ _ rfl
      cases this
  subst e3
  exact ⟨_, h1, h6⟩

example : ∃ y, vecCbind exHash (exIns.take 2) (some (exInNames.take 2)) none .none = .ok y ∧
    ffiDataFrame exHash (exIns.take 2) (some (exInNames.take 2)) none .none = .ok y := by
  refine C61_data_frame exHash (fun x hx => exIns_input x (List.mem_of_mem_take hx)) (Or.inl ⟨rfl, rfl⟩)
    (n := 1) (Or.inr ⟨rfl, Or.inl ⟨by decide, by decide⟩⟩) (by decide) (fun _ _ h => absurd rfl h) (fun _ _ => trivial) ?_
  intro x hx
  simp only [exIns, List.take, List.mem_cons, List.not_mem_nil, or_false] at hx
  rcases hx with rfl | rfl <;> nofun

end Vctrs
