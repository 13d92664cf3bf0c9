import Verif.Model.ListDim
import Verif.Props.C73
import Verif.Props.C47

/-!
# C89: functions on lists and lists with dimensions

Every cell of a list is an element, whatever the dimensions.
-/

namespace Vctrs

variable {α β : Type}

namespace Spec

/-- The list has one cell per row: no dimensions, one dimension or one column. -/
def CellPerRow (x : DimList β) : Prop :=
  match x.dim with
  | none => True
  | some [] => True
  | some (d :: _) => d = x.elts.length

/-- What `list_sizes()` should give: the size of every cell. -/
def CellSizes (vsize : β → C Nat) (x : DimList β) (sizes : List Nat) : Prop :=
  List.Forall₂ (fun e n => vsize e = .ok n) x.elts sizes

end Spec

open Spec

theorem rows_of_cellPerRow {x : DimList β} (h : CellPerRow x) : x.rows = x.elts.length := by
  obtain ⟨elts, dim⟩ := x
  cases dim with
  | none => rfl
  | some d =>
    cases d with
    | nil => rfl
    | cons d ds => exact h

theorem dim_sizes_loop {vsize : β → C Nat} {l : List β} {sizes : List Nat}
    (h : List.Forall₂ (fun e n => vsize e = .ok n) l sizes) (xs pre : List β) (acc : List Nat) (hx : xs = pre ++ l)
    (ha : acc.length = pre.length) :
    forFrom (fun i out => do
      let e ← rd xs i
      let n ← vsize e
      wr out i (some n)) pre.length l.length (acc.map some ++ List.replicate l.length none) =
      .ok ((acc ++ sizes).map some) := by
  induction h generalizing pre acc with
  | nil => simp [forFrom]
  | @cons y n l ns hy _ ih =>
    rw [List.length_cons, forFrom, rd_of_getElem? (a := y) (by rw [hx]; simp), ok_bind, hy, ok_bind,
      wr_ok (by simp; omega), ok_bind]
    have e : (List.map some acc ++ List.replicate (l.length + 1) none).set pre.length (some n) =
        (acc ++ [n]).map some ++ List.replicate l.length none := by
      rw [List.set_append_right _ _ (by simp; omega), ← ha]
      simp [List.replicate_succ]
    have := ih (pre ++ [y]) (acc ++ [n]) (by rw [hx]; simp) (by simp [ha])
    rw [e]
    simpa using this

/-- **C89** (`list_sizes()`, partial): one size per element if the list has one cell per row.  Missing: any other list,
see `C89_sizes_wrong`. -/
theorem C89_sizes_partial {vsize : β → C Nat} {x : DimList β} {sizes : List Nat} (h1 : CellPerRow x)
    (h : CellSizes vsize x sizes) : dimListSizes vsize x = .ok sizes := by
  unfold dimListSizes
  have := dim_sizes_loop h x.elts [] [] rfl rfl
  dsimp only
  rw [rows_of_cellPerRow h1]
  simp only [forN, alloc]
  simp only [List.length_nil, List.map_nil, List.nil_append] at this
  rw [this, ok_bind, initd_map_some]

/-- **C89** (`list_all_size()`): `TRUE` exactly if every cell has the size, for all dimensions. -/
theorem C89_all_size {vsize : β → C Nat} {x : DimList β} {sizes : List Nat} (size : Nat)
    (h : CellSizes vsize x sizes) : dimListAllSize vsize x size = .ok (decide (∀ n ∈ sizes, n = size)) := by
  unfold dimListAllSize
  have key : ∀ (l : List β) (ns : List Nat), List.Forall₂ (fun e n => vsize e = .ok n) l ns →
      ∀ pre : List β, x.elts = pre ++ l →
      forBrkFrom (fun i out => do
        let e ← rd x.elts i
        let n ← vsize e
        if n ≠ size then .ok (.brk false) else .ok (.next out)) pre.length l.length true =
        .ok (decide (∀ n ∈ ns, n = size)) := by
    intro l ns hl
    induction hl with
    | nil => intro pre _; simp [forBrkFrom]
    | @cons y n l ns hy _ ih =>
      intro pre hx
      rw [List.length_cons, forBrkFrom, rd_of_getElem? (a := y) (by rw [hx]; simp), ok_bind, hy, ok_bind]
      by_cases hn : n = size
      · rw [if_neg (by simpa using hn)]
        have := ih (pre ++ [y]) (by rw [hx]; simp)
        rw [List.length_append] at this
        refine Eq.trans this ?_
        simp [hn]
      · rw [if_pos hn]
        simp [hn]
  exact key x.elts sizes h [] rfl

/-- **C89** (`list_sizes()` and `list_all_size()`, partial): they agree if the list has one cell per row. -/
theorem C89_agree_partial {vsize : β → C Nat} {x : DimList β} {sizes : List Nat} (size : Nat) (h1 : CellPerRow x)
    (h : CellSizes vsize x sizes) :
    ∃ s, dimListSizes vsize x = .ok s ∧ dimListAllSize vsize x size = .ok (decide (∀ n ∈ s, n = size)) :=
  ⟨sizes, C89_sizes_partial h1 h, C89_all_size size h⟩

/-- Disagreement: of a 2 x 2 list only the sizes of the first column are given, and `list_all_size()` disagrees. -/
theorem C89_sizes_wrong : ∃ (x : DimList (List Nat)) (sizes : List Nat),
    CellSizes (fun e => .ok e.length) x sizes ∧ x.dim = some [2, 2] ∧ x.elts.length = 4 ∧
    dimListSizes (fun e => .ok e.length) x = .ok [1, 1] ∧ sizes = [1, 1, 2, 0] ∧
    dimListAllSize (fun e => .ok e.length) x 1 = .ok false :=
  ⟨⟨[[5], [6], [7, 8], []], some [2, 2]⟩, [1, 1, 2, 0],
    .cons rfl (.cons rfl (.cons rfl (.cons rfl .nil))), rfl, rfl, rfl, rfl, rfl⟩

/-- Disagreement: with rows but no cells, `list_sizes()`, `list_drop_empty()` and `list_unchop()` read out of bounds. -/
theorem C89_out_of_bounds (vsize : β → C Nat) (nil : β) (na : α) (v : List α) (d : Nat) :
    dimListSizes vsize ⟨[], some [d + 1, 0]⟩ = .error .ub ∧
    dimDropEmpty vsize nil ⟨[], some [d + 1, 0]⟩ = .error .ub ∧
    dimUnchop na ⟨[some v], none⟩ ⟨[], some [1, 0]⟩ = .error .ub :=
  ⟨rfl, rfl, rfl⟩

/-- **C89** (`list_drop_empty()`, partial): exactly the empty elements are dropped if the list has no dimensions.
Missing: arrays, see `C89_drop_empty_wrong`. -/
theorem C89_drop_empty_partial {vsize : β → C Nat} {nil : β} {xs : List β} {sizes : List Nat}
    (h : CellSizes vsize ⟨xs, none⟩ sizes) (hn : xs.length ≤ intMax) :
    dimDropEmpty vsize nil ⟨xs, none⟩ =
      .ok ⟨((xs.zip sizes).filter (fun p => p.2 ≠ 0)).map (fun p => p.1), none⟩ := by
  have hz : ∀ (l : List β) (ns : List Nat), l.length = ns.length → 0 ∉ ns →
      ((l.zip ns).filter (fun p => p.2 ≠ 0)).map (fun p => p.1) = l := by
    intro l
    induction l with
    | nil => intro ns _ _; rfl
    | cons y l ih =>
      intro ns hl h0
      cases ns with
      | nil => cases hl
      | cons n ns =>
        rw [List.mem_cons, not_or] at h0
        rw [List.zip_cons_cons, List.filter_cons_of_pos (by simpa using Ne.symm h0.1), List.map_cons,
          ih ns (by simpa using hl) h0.2]
  have hlen : xs.length = sizes.length := h.length_eq
  have e : dimDropEmpty vsize nil ⟨xs, none⟩ = (do
      let r ← listDropEmpty vsize nil xs none
      .ok ⟨(match r with | none => xs | some p => p.1), none⟩) := by
    unfold dimDropEmpty listDropEmpty
    rw [show dimFirstEmpty vsize ⟨xs, none⟩ = firstEmpty vsize xs from rfl]
    cases firstEmpty vsize xs with
    | error e => rfl
    | ok i =>
      simp only [ok_bind]
      rw [show (DimList.mk xs none).rows = xs.length from rfl]
      by_cases hi : i = xs.length
      · rw [if_pos hi, if_pos hi, ok_bind]
      · rw [if_neg hi, if_neg hi]
        rw [show dimKeepMask vsize ⟨xs, none⟩ i = keepMask vsize xs i from rfl]
        cases keepMask vsize xs i with
        | error e => rfl
        | ok keep =>
          simp only [ok_bind]
          rw [show nameStrings none = none from rfl]
          cases vecAsLocation (.lgl (keep.map some)) xs.length none {} with
          | error e => rfl
          | ok loc =>
            simp only [ok_bind]
            unfold dimListSlice
            dsimp only
            cases sliceBase nil xs (.locs loc) with
            | error e => rfl
            | ok out => rfl
  rcases C73_drop_empty (nil := nil) (names := none) h hn (fun l hl => by cases hl) with ⟨h0, hd⟩ | ⟨h0, hd⟩
  · rw [e, hd, ok_bind]
    dsimp only
    rw [hz xs sizes hlen h0]
  · rw [e, hd, ok_bind]

/-- Disagreement: of a 2 x 2 list whole rows are dropped by the first column: a non-empty element is lost, an empty one
stays. -/
theorem C89_drop_empty_wrong : ∃ x : DimList (List Nat), x.dim = some [2, 2] ∧ x.elts.length = 4 ∧ [7, 8] ∈ x.elts ∧
    dimDropEmpty (fun e => .ok e.length) [] x = .ok ⟨[[6], []], some [1, 2]⟩ :=
  ⟨⟨[[], [6], [7, 8], []], some [2, 2]⟩, rfl, rfl, by simp, rfl⟩

/-- **C89** (`list_unchop()` with indices, partial): every cell is written at its locations, as for plain lists (C47),
if both lists have one cell per row.  Missing: other lists, see `C89_unchop_wrong`. -/
theorem C89_unchop_partial (na : α) {xs : DimList (Option (List α))} {indices : DimList RSubscript}
    {locs : List (List Int)} {vals : List (List α)} (h1 : CellPerRow xs) (h2 : CellPerRow indices)
    (hx : ∃ x ∈ xs.elts, x ≠ none) (hl : xs.elts.length = indices.elts.length)
    (h : List.Forall₂ (IndexIs locs.flatten.length) indices.elts locs) (hn : locs.flatten.length ≤ intMax)
    (hv : List.Forall₂ (fun p v => Recycles p.1 p.2.length v) (unchopPairs xs.elts locs) vals) :
    ∃ out, dimUnchop na xs indices = .ok (some out) ∧ out.length = locs.flatten.length ∧
      let ls := ((unchopPairs xs.elts locs).map Prod.snd).flatten
      (∀ p i, LastOccurrence (fun i => ls[i]?) ls.length p i → out[p]? = vals.flatten[i]?) ∧
      (∀ p : Nat, p < out.length → (p : Int) + 1 ∉ ls → out[p]? = some na) := by
  obtain ⟨out, ho, hr⟩ := C47_unchop na hx hl h hn hv
  refine ⟨out, ?_, hr⟩
  rw [← ho]
  unfold dimUnchop listUnchop
  dsimp only
  rw [rows_of_cellPerRow h1, rows_of_cellPerRow h2]

/-- Disagreement: of a 1 x 2 list only the first cell is written, without an error, while `list_unchop()` without indices
combines both. -/
theorem C89_unchop_wrong : ∃ (xs : DimList (Option (List Nat))) (indices : DimList RSubscript),
    xs.dim = some [1, 2] ∧ indices.dim = some [1, 2] ∧
    dimUnchop 0 xs indices = .ok (some [5]) ∧ dimUnchopNull 0 xs = .ok (some [5, 6]) :=
  ⟨⟨[some [5], some [6]], some [1, 2]⟩, ⟨[.int [1], .int [1]], some [1, 2]⟩, rfl, rfl, rfl, rfl⟩

/-- A 2 x 1 list has one cell per row. -/
example : CellPerRow (⟨[[1], [2, 3]], some [2, 1]⟩ : DimList (List Nat)) ∧
    CellSizes (fun e : List Nat => .ok e.length) ⟨[[1], [2, 3]], some [2, 1]⟩ [1, 2] :=
  ⟨rfl, .cons rfl (.cons rfl .nil)⟩

example : dimListSizes (fun e : List Nat => .ok e.length) ⟨[[1], [2, 3]], some [2, 1]⟩ = .ok [1, 2] := rfl

example : dimDropEmpty (fun e : List Nat => .ok e.length) [] ⟨[[1], [], [2, 3]], none⟩ = .ok ⟨[[1], [2, 3]], none⟩ :=
  rfl

example : dimUnchop 0 ⟨[some [5], some [6, 7]], some [2, 1]⟩ ⟨[.int [3], .int [1, 2]], none⟩ = .ok (some [6, 7, 5]) :=
  rfl

end Vctrs
