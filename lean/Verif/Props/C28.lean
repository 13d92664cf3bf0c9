import Verif.Lemmas.Compare

/-! # C28: `vec_compare()` is a total order consistent with `vec_equal()` -/

namespace Vctrs

open Spec

/-- The result holds -1, 0 or 1 for every row: -1 if the row of `x` comes first in lexicographic
order of the columns, 1 if that of `y` does, 0 if they are the same. -/
theorem C28_order (x y : Val) (n : Nat) (h : Comparable n x y) :
    ∃ out : List Int, vecCompare true x y = .ok (out.map some) ∧ out.length = n ∧
      ∀ (i : Nat) (r : Int), out[i]? = some r → (r = -1 ∨ r = 0 ∨ r = 1) ∧
        (r = -1 ↔ RowLt x y i) ∧ (r = 1 ↔ RowLt y x i) ∧ (r = 0 ↔ RowSame x y i) := by
  obtain ⟨hx, -⟩ := h.size
  have hrow : ∀ i : Nat, ∃ r : Int, i < n → rowCmp true x y i = some r ∧
      (r = -1 ∨ r = 0 ∨ r = 1) ∧ (r = -1 ↔ RowLt x y i) ∧ (r = 1 ↔ RowLt y x i) ∧
      (r = 0 ↔ RowSame x y i) := by
    intro i
    by_cases hi : i < n
    · obtain ⟨r, hr⟩ := rowCmp_spec hi h
      exact ⟨r, fun _ => hr⟩
    · exact ⟨0, fun e => absurd e hi⟩
  choose f hf using hrow
  refine ⟨(List.range n).map f, ?_, by simp, ?_⟩
  · rw [vecCompare_ok true (by rw [hx]; exact h), hx, List.map_map]
    congr 1
    apply List.map_congr_left
    intro i hi
    exact (hf i (List.mem_range.1 hi)).1
  · intro i r hr
    rw [List.getElem?_map] at hr
    by_cases hi : i < n
    · rw [List.getElem?_range hi] at hr
      cases hr
      exact (hf i hi).2
    · rw [List.getElem?_eq_none (by simp; omega)] at hr
      cases hr

/-- Antisymmetry: comparing the other way around changes the sign. -/
theorem C28_antisymmetric (x y : Val) (n : Nat) (h : Comparable n x y) :
    ∃ out : List Int, vecCompare true x y = .ok (out.map some) ∧
      vecCompare true y x = .ok (out.map (fun r => some (-r))) := by
  obtain ⟨a, ha, la, ha'⟩ := C28_order x y n h
  obtain ⟨b, hb, lb, hb'⟩ := C28_order y x n h.symm
  refine ⟨a, ha, ?_⟩
  rw [hb]
  congr 1
  apply List.ext_getElem
  · simp; omega
  intro i hi hi'
  simp only [List.length_map] at hi hi'
  simp only [List.getElem_map, Option.some_inj]
  obtain ⟨ra, a1, a2, a3⟩ := ha' i _ (List.getElem?_eq_getElem hi')
  obtain ⟨rb, b1, b2, b3⟩ := hb' i _ (List.getElem?_eq_getElem hi)
  rcases ra with e | e | e
  · rw [b2.2 (a1.1 e), e]; rfl
  · have hs : RowSame y x i := fun j p q hp hq => atLeaf_symm (a3.1 e j q p hq hp)
    rw [b3.2 hs, e]; rfl
  · rw [b1.2 (a2.1 e), e]

/-- Transitivity: with `x <= y` and `y <= z` in a row also `x <= z`, strictly if one of them is
strict. -/
theorem C28_transitive (x y z : Val) (n : Nat) (hxy : Comparable n x y) (hyz : Comparable n y z) :
    ∃ a b c : List Int, vecCompare true x y = .ok (a.map some) ∧
      vecCompare true y z = .ok (b.map some) ∧ vecCompare true x z = .ok (c.map some) ∧
      ∀ (i : Nat) (r s : Int), a[i]? = some r → b[i]? = some s → r ≤ 0 → s ≤ 0 →
        ∃ t, c[i]? = some t ∧ t ≤ 0 ∧ (r < 0 ∨ s < 0 → t < 0) ∧ (r = 0 → s = 0 → t = 0) := by
  have hxz := hxy.trans hyz
  obtain ⟨a, ha, la, ha'⟩ := C28_order x y n hxy
  obtain ⟨b, hb, lb, hb'⟩ := C28_order y z n hyz
  obtain ⟨c, hc, lc, hc'⟩ := C28_order x z n hxz
  refine ⟨a, b, c, ha, hb, hc, ?_⟩
  intro i r s hr hs hr0 hs0
  have hi := (List.getElem?_eq_some_iff.1 hr).1
  have hci := List.getElem?_eq_getElem (l := c) (i := i) (by omega)
  refine ⟨_, hci, ?_⟩
  obtain ⟨r1, r2, r3, r4⟩ := ha' i r hr
  obtain ⟨s1, s2, s3, s4⟩ := hb' i s hs
  obtain ⟨-, t2, -, t4⟩ := hc' i _ hci
  have l1 := comparable_leaves hxy
  have l2 := comparable_leaves hyz
  have r1' : r = -1 ∨ r = 0 := by omega
  have s1' : s = -1 ∨ s = 0 := by omega
  rcases r1' with er | er <;> rcases s1' with es | es
  · have := t2.2 (rowLt_trans l1 l2 (r2.1 er) (s2.1 es)); omega
  · have := t2.2 (rowLt_same l2 l1 (r2.1 er) (s4.1 es)); omega
  · have := t2.2 (rowSame_lt l1 (r4.1 er) (s2.1 es)); omega
  · have := t4.2 (rowSame_trans l1 (r4.1 er) (s4.1 es)); omega

/-- 0 exactly where `vec_equal(na_equal = TRUE)` is TRUE.  `Compat` says that the columns are
vectors, as they are once `vec_equal()` has taken the proxy. -/
theorem C28_equal (x y : Val) (n : Nat) (h : Comparable n x y) (hc : Compat x y) :
    ∃ (a : List Int) (b : List Bool), vecCompare true x y = .ok (a.map some) ∧
      vecEqual true x y = .ok (b.map some) ∧ a.length = b.length ∧
      ∀ i, i < n → (a[i]? = some 0 ↔ b[i]? = some true) := by
  obtain ⟨a, ha, la, ha'⟩ := C28_order x y n h
  obtain ⟨hx, hy⟩ := h.size
  have hleaves : ∀ {x y : Val}, Compat x y → leaves x = columns x := by
    intro x y hc
    cases x with
    | vec t xs => rfl
    | df m cols =>
      have hl : ∀ l : List Val, (∀ p ∈ l, ∃ t xs, p = .vec t xs) → leavesAll l = l := by
        intro l
        induction l with
        | nil => intro _; rfl
        | cons p l ih =>
          intro hp
          obtain ⟨t, xs, rfl⟩ := hp p (by simp)
          simp only [leavesAll, leaves]
          rw [ih (fun q hq => hp q (by simp [hq]))]
          rfl
      refine hl cols (fun p hp => ?_)
      obtain ⟨k, hk⟩ := List.mem_iff_getElem?.1 hp
      have hk' := (List.getElem?_eq_some_iff.1 hk).1
      have hn : cols.length = (columns y).length := hc.ncol
      obtain ⟨t, xs, ys, e, -⟩ := hc.cols k p _ hk (List.getElem?_eq_getElem (by omega))
      exact ⟨t, xs, e⟩
  have ex := hleaves hc
  have ey := hleaves hc.symm
  have hnl : NoList x := by
    intro xs hm
    rw [← ex] at hm
    obtain ⟨k, hk⟩ := List.mem_iff_getElem?.1 hm
    have hl := comparable_leaves h
    have hk' := (List.getElem?_eq_some_iff.1 hk).1
    obtain ⟨t, ws, ys, e, -⟩ := comparable_leaf h k _ _ hk (List.getElem?_eq_getElem (by omega))
    cases e
  obtain ⟨b, hb, lb, hb'⟩ := vecEqual_true hc (cellsTotal_of_supported true hc hnl.supported)
  refine ⟨a, b, ha, hb, by omega, fun i hi => ?_⟩
  have hai := List.getElem?_eq_getElem (l := a) (i := i) (by omega)
  have h0 := (ha' i _ hai).2.2.2
  rw [hai, Option.some_inj, h0, hb' i (by omega), cells_same hc (by omega) (hnl.sameAttrCount y i)]
  constructor
  · intro hs c t xs ys u v hxs hys hu hv
    rw [← ex] at hxs
    rw [← ey] at hys
    obtain ⟨t', xs', ys', e1, e2, -⟩ := comparable_leaf h c _ _ hxs hys
    have hat := hs c _ _ hxs hys
    cases e1
    exact (atLeaf_vec hu hv).1 hat
  · intro hs j p q hp hq
    obtain ⟨t, xs, ys, rfl, rfl, -, l1, l2, -⟩ := comparable_leaf h j p q hp hq
    rw [ex] at hp
    rw [ey] at hq
    have gx := List.getElem?_eq_getElem (l := xs) (i := i) (by omega)
    have gy := List.getElem?_eq_getElem (l := ys) (i := i) (by omega)
    exact (atLeaf_vec gx gy).2 (hs j (.atom t) xs ys _ _ hp hq gx gy)

/-- With `na_equal = FALSE` the result is NA exactly where a missing value is met before the rows
differ; everywhere else it is that of `na_equal = TRUE`. -/
theorem C28_propagate (x y : Val) (n : Nat) (h : Comparable n x y) :
    ∃ (out : List (Option Int)) (eq : List Int), vecCompare false x y = .ok out ∧
      vecCompare true x y = .ok (eq.map some) ∧ out.length = n ∧ eq.length = n ∧
      ∀ i, i < n → (RowUndecided x y i → out[i]? = some none) ∧
        (¬ RowUndecided x y i → out[i]? = some eq[i]?) := by
  obtain ⟨hx, -⟩ := h.size
  obtain ⟨eq, he, le, -⟩ := C28_order x y n h
  have hf := vecCompare_ok false (by rw [hx]; exact h)
  have ht := vecCompare_ok true (by rw [hx]; exact h)
  rw [hx] at hf ht
  refine ⟨_, eq, hf, he, by simp, le, fun i hi => ?_⟩
  obtain ⟨h1, h2⟩ := rowCmp_propagate hi h
  rw [List.getElem?_map, List.getElem?_range hi]
  refine ⟨fun hu => ?_, fun hu => ?_⟩
  · rw [Option.map_some, h1 hu]
  · rw [Option.map_some, h2 hu]
    rw [he] at ht
    injection ht with ht
    have := congrArg (fun l => l[i]?) ht
    simp only [List.getElem?_map, List.getElem?_range hi, Option.map_some] at this
    rw [← this, List.getElem?_eq_getElem (show i < eq.length by omega)]
    rfl

/-! ## Examples -/

/-- Columns `(0, NaN, NA)` and a data frame of `("b", "b", "a")` and `(1L, 2L, NA)`. -/
def C28_x : Val := .df 3 [.vec (.atom .dbl) [(0x0#64 : Dbl), (rNaN : Dbl), (naReal : Dbl)],
  .df 3 [.vec (.atom .chr) [(some ['b'] : Name), (some ['b'] : Name), (some ['a'] : Name)],
    .vec (.atom .int) [(1 : Int), (2 : Int), naInt]]]

/-- Columns `(-0, NA, NA)` and a data frame of `("ba", "a", "a")` and `(1L, 2L, 3L)`. -/
def C28_y : Val := .df 3 [.vec (.atom .dbl) [(0x8000000000000000#64 : Dbl), (naReal : Dbl),
    (naReal : Dbl)],
  .df 3 [.vec (.atom .chr) [(some ['b', 'a'] : Name), (some ['a'] : Name), (some ['a'] : Name)],
    .vec (.atom .int) [(1 : Int), (2 : Int), (3 : Int)]]]

theorem C28_comparable : Comparable 3 C28_x C28_y := by
  have hi1 : IntsFit .int [(1 : Int), (2 : Int), naInt] := by
    intro (x : Int) hx
    have hx' : x ∈ [(1 : Int), 2, naInt] := hx
    simp only [List.mem_cons, List.not_mem_nil, or_false] at hx'
    rcases hx' with rfl | rfl | rfl <;> exact ⟨by decide, by decide⟩
  have hi2 : IntsFit .int [(1 : Int), (2 : Int), (3 : Int)] := by
    intro (x : Int) hx
    have hx' : x ∈ [(1 : Int), 2, 3] := hx
    simp only [List.mem_cons, List.not_mem_nil, or_false] at hx'
    rcases hx' with rfl | rfl | rfl <;> exact ⟨by decide, by decide⟩
  refine .df _ _ (.cons _ _ _ _ (.vec .dbl _ _ trivial rfl rfl trivial trivial)
    (.cons _ _ _ _ (.df _ _ (.cons _ _ _ _ (.vec .chr _ _ trivial rfl rfl trivial trivial)
      (.cons _ _ _ _ (.vec .int _ _ trivial rfl rfl hi1 hi2) .nil))) .nil))

example : vecCompare true C28_x C28_y = .ok [some (-1), some (-1), some (-1)] := by decide +kernel

example : vecCompare true C28_y C28_x = .ok [some 1, some 1, some 1] := by decide +kernel

example : vecCompare false C28_x C28_y = .ok [some (-1), none, none] := by decide +kernel

example : ∃ out : List Int, vecCompare true C28_x C28_y = .ok (out.map some) ∧ out.length = 3 ∧
    ∀ (i : Nat) (r : Int), out[i]? = some r → (r = -1 ∨ r = 0 ∨ r = 1) ∧
      (r = -1 ↔ RowLt C28_x C28_y i) ∧ (r = 1 ↔ RowLt C28_y C28_x i) ∧
      (r = 0 ↔ RowSame C28_x C28_y i) :=
  C28_order C28_x C28_y 3 C28_comparable

/-- Flat data frames for `C28_equal`: `("a", NA)` against `("a", "")`. -/
def C28_u : Val := .df 2 [.vec (.atom .chr) [(some ['a'] : Name), (none : Name)]]

/-- See `C28_u`. -/
def C28_v : Val := .df 2 [.vec (.atom .chr) [(some ['a'] : Name), (some [] : Name)]]

example : Comparable 2 C28_u C28_v ∧ Compat C28_u C28_v ∧
    vecCompare true C28_u C28_v = .ok [some 0, some (-1)] ∧
    vecEqual true C28_u C28_v = .ok [some true, some false] := by
  refine ⟨.df _ _ (.cons _ _ _ _ (.vec .chr _ _ trivial rfl rfl trivial trivial) .nil),
    ⟨trivial, rfl, rfl, fun c p q hp hq => ?_⟩, by decide +kernel, by decide +kernel⟩
  match c, hp, hq with
  | 0, hp, hq => cases hp; cases hq; exact ⟨_, _, _, rfl, rfl, rfl, rfl⟩
  | _ + 1, hp, _ => simp [C28_u, columns] at hp

end Vctrs
