import Verif.Lemmas.SetOps
import Verif.Props.Ex

/-! # C09: set operations -/

namespace Vctrs

open Spec

variable {α : Type} {ops : PolyOps α}

/-- `b` is a member of `x` up to the equality. -/
def Spec.Mem (eq : α → α → Bool) (b : α) (x : List α) : Prop := ∃ a ∈ x, eq a b = true

/-- No two elements at different positions are equal. -/
def Spec.Distinct (eq : α → α → Bool) (x : List α) : Prop :=
  x.Pairwise (fun a b => eq a b = false)

theorem filter_nub_mem (he : EqvHash ops) (x : List α) (r : α → Bool)
    (hr : ∀ a b, ops.eq a b = true → r a = r b) (b : α) :
    Mem ops.eq b ((nub ops.eq x).filter r) ↔ Mem ops.eq b x ∧ r b = true := by
  constructor
  · rintro ⟨a, ha, hab⟩
    rw [List.mem_filter] at ha
    exact ⟨⟨a, mem_nub_of_mem ha.1, hab⟩, by rw [← hr a b hab]; exact ha.2⟩
  · rintro ⟨⟨a, ha, hab⟩, hb⟩
    obtain ⟨c, hc, hca⟩ := nub_covers he.refl he.trans x a ha
    have hcb := he.trans _ _ _ hca hab
    exact ⟨c, List.mem_filter.2 ⟨hc, by rw [hr c b hcb]; exact hb⟩, hcb⟩

theorem any_congr (he : EqvHash ops) (y : List α) (a b : α) (h : ops.eq a b = true) :
    y.any (fun c => ops.eq a c) = y.any (fun c => ops.eq b c) := by
  apply Bool.eq_iff_iff.2
  simp only [List.any_eq_true]
  constructor
  · rintro ⟨c, hc, h1⟩; exact ⟨c, hc, he.trans _ _ _ (he.symm _ _ h) h1⟩
  · rintro ⟨c, hc, h1⟩; exact ⟨c, hc, he.trans _ _ _ h h1⟩

theorem any_iff_mem (he : EqvHash ops) (y : List α) (b : α) :
    y.any (fun c => ops.eq b c) = true ↔ Mem ops.eq b y := by
  rw [List.any_eq_true]
  constructor
  · rintro ⟨c, hc, h⟩; exact ⟨c, hc, he.symm _ _ h⟩
  · rintro ⟨c, hc, h⟩; exact ⟨c, hc, he.symm _ _ h⟩

theorem any_flip (he : EqvHash ops) (x : List α) (b : α) :
    x.any (fun a => ops.eq a b) = x.any (fun a => ops.eq b a) := by
  congr 1
  funext a
  apply Bool.eq_iff_iff.2
  exact ⟨he.symm _ _, he.symm _ _⟩

/-- Intersection: the first occurrences of `x` (in order) that are members of `y`. -/
theorem C09_intersect (he : EqvHash ops) (x y : List α) (hn : x.length ≤ 2147483647) :
    ∃ out, setIntersect ops x y = .ok out ∧ out.Sublist (nub ops.eq x) ∧ Distinct ops.eq out ∧
      ∀ b, Mem ops.eq b out ↔ Mem ops.eq b x ∧ Mem ops.eq b y := by
  refine ⟨_, setIntersect_ok he x y hn, List.filter_sublist,
    (nub_pairwise ops.eq x).sublist List.filter_sublist, ?_⟩
  intro b
  rw [filter_nub_mem he x _ (any_congr he y), any_iff_mem he]

/-- Difference: the first occurrences of `x` (in order) that are not members of `y`. -/
theorem C09_difference (he : EqvHash ops) (x y : List α) (hn : x.length ≤ 2147483647) :
    ∃ out, setDifference ops x y = .ok out ∧ out.Sublist (nub ops.eq x) ∧ Distinct ops.eq out ∧
      ∀ b, Mem ops.eq b out ↔ Mem ops.eq b x ∧ ¬ Mem ops.eq b y := by
  refine ⟨_, setDifference_ok he x y hn, List.filter_sublist,
    (nub_pairwise ops.eq x).sublist List.filter_sublist, ?_⟩
  intro b
  rw [filter_nub_mem he x _ (fun a b h => by rw [any_congr he y a b h]), ← any_iff_mem he y]
  simp

/-- Union: the first occurrences in `x` followed by `y`. -/
theorem C09_union (he : EqvHash ops) (x y : List α) (hn : x.length ≤ 2147483647)
    (hm : y.length ≤ 2147483647) :
    ∃ out, setUnion ops x y = .ok out ∧ out = nub ops.eq (x ++ y) ∧ Distinct ops.eq out ∧
      ∀ b, Mem ops.eq b out ↔ Mem ops.eq b x ∨ Mem ops.eq b y := by
  refine ⟨_, setUnion_ok he x y hn hm, rfl, nub_pairwise ops.eq _, ?_⟩
  intro b
  have := filter_nub_mem he (x ++ y) (fun _ => true) (by simp) b
  rw [List.filter_eq_self.2 (by simp)] at this
  rw [this]
  unfold Mem
  constructor
  · rintro ⟨⟨a, ha, h⟩, _⟩
    rcases List.mem_append.1 ha with h' | h'
    · exact Or.inl ⟨a, h', h⟩
    · exact Or.inr ⟨a, h', h⟩
  · rintro (⟨a, ha, h⟩ | ⟨a, ha, h⟩)
    · exact ⟨⟨a, List.mem_append_left _ ha, h⟩, rfl⟩
    · exact ⟨⟨a, List.mem_append_right _ ha, h⟩, rfl⟩

/-- Symmetric difference: first occurrences of `x` not in `y`, then first occurrences of `y`
not in `x`. -/
theorem C09_symmetric_difference (he : EqvHash ops) (x y : List α)
    (hn : x.length ≤ 2147483647) (hm : y.length ≤ 2147483647) :
    ∃ out ox oy, setSymmetricDifference ops x y = .ok out ∧ out = ox ++ oy ∧
      ox.Sublist (nub ops.eq x) ∧ oy.Sublist (nub ops.eq y) ∧ Distinct ops.eq out ∧
      (∀ b, Mem ops.eq b ox ↔ Mem ops.eq b x ∧ ¬ Mem ops.eq b y) ∧
      (∀ b, Mem ops.eq b oy ↔ Mem ops.eq b y ∧ ¬ Mem ops.eq b x) ∧
      ∀ b, Mem ops.eq b out ↔ (Mem ops.eq b x ∧ ¬ Mem ops.eq b y) ∨
        (Mem ops.eq b y ∧ ¬ Mem ops.eq b x) := by
  have hx : ∀ b, Mem ops.eq b ((nub ops.eq x).filter (fun a => !y.any (fun b => ops.eq a b))) ↔
      Mem ops.eq b x ∧ ¬ Mem ops.eq b y := by
    intro b
    rw [filter_nub_mem he x _ (fun a b h => by rw [any_congr he y a b h]), ← any_iff_mem he y]
    simp
  have hy : ∀ b, Mem ops.eq b ((nub ops.eq y).filter (fun b => !x.any (fun a => ops.eq a b))) ↔
      Mem ops.eq b y ∧ ¬ Mem ops.eq b x := by
    intro b
    rw [filter_nub_mem he y _ (fun a b h => by
      rw [any_flip he, any_flip he, any_congr he x a b h]), any_flip he, ← any_iff_mem he x]
    simp
  refine ⟨_, _, _, setSymmetricDifference_ok he x y hn hm, rfl, List.filter_sublist,
    List.filter_sublist, ?_, hx, hy, ?_⟩
  · unfold Distinct
    rw [List.pairwise_append]
    refine ⟨(nub_pairwise ops.eq x).sublist List.filter_sublist,
      (nub_pairwise ops.eq y).sublist List.filter_sublist, ?_⟩
    intro a ha b hb
    cases hab : ops.eq a b with
    | false => rfl
    | true =>
      exfalso
      have h1 := (hx a).1 ⟨a, ha, he.refl a⟩
      have h2 := (hy b).1 ⟨b, hb, he.refl b⟩
      obtain ⟨c, hc, hca⟩ := h1.1
      exact h2.2 ⟨c, hc, he.trans _ _ _ hca hab⟩
  · intro b
    rw [← hx, ← hy]
    unfold Mem
    constructor
    · rintro ⟨a, ha, h⟩
      rcases List.mem_append.1 ha with h' | h'
      · exact Or.inl ⟨a, h', h⟩
      · exact Or.inr ⟨a, h', h⟩
    · rintro (⟨a, ha, h⟩ | ⟨a, ha, h⟩)
      · exact ⟨a, List.mem_append_left _ ha, h⟩
      · exact ⟨a, List.mem_append_right _ ha, h⟩

example : setIntersect exOps10 [3, 2, 13, 5, 7] [15, 3, 15] = .ok [3, 5] := by decide +kernel
example : setDifference exOps10 [3, 2, 13, 5, 12] [15, 3, 15] = .ok [2] := by decide +kernel
example : setUnion exOps10 [3, 2, 13] [15, 3, 5, 12, 4] = .ok [3, 2, 15, 4] := by decide +kernel
example : setSymmetricDifference exOps10 [3, 2, 13, 1] [15, 3, 5, 4, 11] = .ok [2, 15, 4] := by
  decide +kernel

end Vctrs
