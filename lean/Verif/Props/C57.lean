import Verif.Lemmas.Proxy

/-! # C57: proxies flatten data frames -/

namespace Vctrs

open Spec

/-- The proxy of a value is the data frame of the vectors found in it from left to right, or the
vector itself if there is only one. -/
theorem C57_proxy (x : Val) : proxyVal x = .ok (match leaves x with
    | [p] => p
    | ps => .df x.size ps) := by
  rw [proxyVal_ok]
  congr 1

/-- The width computed by `df_flatten_info()` is the number of columns `df_flatten()` returns, and
flattening leaves the vectors and their order alone. -/
theorem C57_flatten (n : Nat) (cols : List Val) :
    ∃ out, dfFlatten n cols = .ok (.df n out) ∧ (dfFlattenInfo cols).2 = (out.length : Int) ∧
      out = leaves (.df n cols) ∧ ∀ p ∈ out, ∃ t xs, p = .vec t xs := by
  refine ⟨leavesAll cols, dfFlatten_ok n cols, ?_, rfl, fun p hp => ?_⟩
  · simp [dfFlattenInfo, flatWidthCols_eq]
  · have := leavesAll_vec cols p hp
    cases p with
    | vec t xs => exact ⟨t, xs, rfl⟩
    | df m c => cases this

/-- Two values whose vectors match one by one in type, all of size `n`. -/
structure LeavesMatch (n : Nat) (x y : Val) : Prop where
  len : (leaves x).length = (leaves y).length
  cols : ∀ (k : Nat) (p q : Val), (leaves x)[k]? = some p → (leaves y)[k]? = some q →
    ∃ (t : ATy) (xs ys : List t.El), p = .vec (.atom t) xs ∧ q = .vec (.atom t) ys ∧
      xs.length = n ∧ ys.length = n

theorem packed_compat {n : Nat} {lx ly : List Val} (hlen : lx.length = ly.length)
    (h : ∀ (k : Nat) (p q : Val), lx[k]? = some p → ly[k]? = some q →
      ∃ (t : ATy) (xs ys : List t.El), p = .vec (.atom t) xs ∧ q = .vec (.atom t) ys ∧
        xs.length = n ∧ ys.length = n) :
    Compat (packLeaves n lx) (packLeaves n ly) ∧ (packLeaves n lx).size = n ∧
      (packLeaves n ly).size = n ∧ columns (packLeaves n lx) = lx ∧
      columns (packLeaves n ly) = ly := by
  match lx, ly, hlen, h with
  | [], [], _, h =>
    exact ⟨⟨trivial, rfl, rfl, fun c p q hp _ => by simp [packLeaves, columns] at hp⟩,
      rfl, rfl, rfl, rfl⟩
  | [p], [q], _, h =>
    obtain ⟨t, xs, ys, rfl, rfl, h1, h2⟩ := h 0 p q rfl rfl
    refine ⟨⟨trivial, h1.trans h2.symm, rfl, fun c p' q' hp hq => ?_⟩, h1, h2, rfl, rfl⟩
    match c, hp, hq with
    | 0, hp, hq =>
      cases hp; cases hq
      exact ⟨.atom t, xs, ys, rfl, rfl, rfl, rfl⟩
    | c + 1, hp, _ => simp [packLeaves, columns] at hp
  | p :: p' :: lx, q :: q' :: ly, hlen, h =>
    refine ⟨⟨trivial, rfl, hlen, fun c u v hp hq => ?_⟩, rfl, rfl, rfl, rfl⟩
    obtain ⟨t, xs, ys, e1, e2, h1, h2⟩ := h c u v hp hq
    exact ⟨.atom t, xs, ys, e1, e2, h1, h2⟩

/-- `vec_equal(na_equal = TRUE)` of nested data frames: TRUE exactly at the rows that are the same
in every vector. -/
theorem C57_equal (x y : Val) (n : Nat) (hx : x.size = n) (hy : y.size = n)
    (h : LeavesMatch n x y) :
    ∃ out : List Bool, rEqual true x y = .ok (out.map some) ∧ out.length = n ∧
      ∀ i, i < n → (out[i]? = some true ↔ RowSame x y i) := by
  obtain ⟨hc, s1, s2, c1, c2⟩ := packed_compat h.len h.cols
  have hnl : NoList (packLeaves n (leaves x)) := by
    intro xs hm
    rw [c1] at hm
    obtain ⟨k, hk⟩ := List.mem_iff_getElem?.1 hm
    have hk' := (List.getElem?_eq_some_iff.1 hk).1
    have hl := h.len
    obtain ⟨t, ws, ys, e, -⟩ := h.cols k _ _ hk (List.getElem?_eq_getElem (by omega))
    cases e
  obtain ⟨out, h1, h2, h3⟩ := vecEqual_true hc (cellsTotal_of_supported true hc hnl.supported)
  refine ⟨out, ?_, by omega, fun i hi => ?_⟩
  · unfold rEqual
    rw [proxyVal_ok, ok_bind, proxyVal_ok, ok_bind, hx, hy]
    exact h1
  · rw [h3 i (by omega), cells_same hc (by omega) (hnl.sameAttrCount _ i)]
    constructor
    · intro hs j p q hp hq
      obtain ⟨t, xs, ys, rfl, rfl, l1, l2⟩ := h.cols j p q hp hq
      have gx := List.getElem?_eq_getElem (l := xs) (i := i) (by omega)
      have gy := List.getElem?_eq_getElem (l := ys) (i := i) (by omega)
      exact (atLeaf_vec gx gy).2 (hs j (.atom t) xs ys _ _ (by rw [c1]; exact hp)
        (by rw [c2]; exact hq) gx gy)
    · intro hs c t xs ys u v hxs hys hu hv
      rw [c1] at hxs
      rw [c2] at hys
      obtain ⟨t', xs', ys', e1, e2, -⟩ := h.cols c _ _ hxs hys
      have hat := hs c _ _ hxs hys
      cases e1
      exact (atLeaf_vec hu hv).1 hat

/-- A packed pair of values that can be compared can be compared. -/
theorem packed_comparable {n : Nat} {x y : Val} (h : Comparable n x y) :
    Comparable n (packLeaves n (leaves x)) (packLeaves n (leaves y)) := by
  have hl := comparable_leaves h
  have hall : ∀ lx ly : List Val, lx.length = ly.length →
      (∀ (k : Nat) (p q : Val), lx[k]? = some p → ly[k]? = some q → Comparable n p q) →
      ComparableAll n lx ly := by
    intro lx
    induction lx with
    | nil =>
      intro ly hlen _
      cases ly with
      | nil => exact .nil
      | cons q ly => cases hlen
    | cons p lx ih =>
      intro ly hlen hk
      cases ly with
      | nil => cases hlen
      | cons q ly =>
        exact .cons _ _ _ _ (hk 0 p q rfl rfl) (ih ly (by simpa using hlen)
          (fun k p' q' hp hq => hk (k + 1) p' q' (by simpa using hp) (by simpa using hq)))
  have hleaf : ∀ (k : Nat) (p q : Val), (leaves x)[k]? = some p → (leaves y)[k]? = some q →
      Comparable n p q := by
    intro k p q hp hq
    obtain ⟨t, xs, ys, rfl, rfl, ho, h1, h2, i1, i2⟩ := comparable_leaf h k p q hp hq
    exact .vec t xs ys ho h1 h2 i1 i2
  generalize leaves x = lx at hl hleaf
  generalize leaves y = ly at hl hleaf
  match lx, ly, hl, hleaf with
  | [], [], _, _ => exact .df _ _ .nil
  | [p], [q], _, hleaf => exact hleaf 0 p q rfl rfl
  | p :: p' :: lx, q :: q' :: ly, hl, hleaf => exact .df _ _ (hall _ _ hl hleaf)

/-- `vec_compare()` gives the same with and without flattening. -/
theorem C57_compare (naEqual : Bool) (x y : Val) (n : Nat) (h : Comparable n x y) :
    rCompare naEqual x y = vecCompare naEqual x y := by
  obtain ⟨hx, hy⟩ := h.size
  unfold rCompare
  rw [proxyVal_ok, ok_bind, proxyVal_ok, ok_bind, hx, hy]
  have hp := packed_comparable h
  obtain ⟨sx, -⟩ := hp.size
  rw [vecCompare_ok naEqual (by rw [sx]; exact hp), vecCompare_ok naEqual (by rw [hx]; exact h), sx, hx]
  congr 1
  apply List.map_congr_left
  intro i _
  unfold rowCmp
  rw [leaves_pack n _ (leaves_vec x), leaves_pack n _ (leaves_vec y)]

/-! ## Examples -/

/-- Nested three deep, with an empty data frame in it. -/
def C57_x : Val := .df 2 [.df 2 [], .df 2 [.vec (.atom .int) [(1 : Int), (2 : Int)],
  .df 2 [.vec (.atom .chr) [(some ['a'] : Name), (none : Name)]]],
  .vec (.atom .int) [(3 : Int), (4 : Int)]]

example : proxyVal C57_x = .ok (.df 2 [.vec (.atom .int) [(1 : Int), (2 : Int)],
    .vec (.atom .chr) [(some ['a'] : Name), (none : Name)],
    .vec (.atom .int) [(3 : Int), (4 : Int)]]) := by rfl

/-- One vector only: unwrapped. -/
example : proxyVal (.df 1 [.df 1 [.df 1 []], .df 1 [.vec (.atom .int) [(1 : Int)]]]) =
    .ok (.vec (.atom .int) [(1 : Int)]) := by rfl

/-- The nesting may differ. -/
example : rEqual true (.df 1 [.df 1 [.vec (.atom .int) [(1 : Int)]], .vec (.atom .int) [naInt]])
    (.df 1 [.vec (.atom .int) [(1 : Int)], .df 1 [.vec (.atom .int) [naInt]]]) =
    .ok [some true] := by decide +kernel

theorem C57_match : LeavesMatch 2 C57_x C57_x := by
  refine ⟨rfl, fun k p q hp hq => ?_⟩
  rw [hp] at hq
  cases hq
  match k, hp with
  | 0, hp => cases hp; exact ⟨_, _, _, rfl, rfl, rfl, rfl⟩
  | 1, hp => cases hp; exact ⟨_, _, _, rfl, rfl, rfl, rfl⟩
  | 2, hp => cases hp; exact ⟨_, _, _, rfl, rfl, rfl, rfl⟩
  | k + 3, hp => simp [C57_x, leaves, leavesAll] at hp

example : ∃ out : List Bool, rEqual true C57_x C57_x = .ok (out.map some) ∧ out.length = 2 ∧
    ∀ i, i < 2 → (out[i]? = some true ↔ RowSame C57_x C57_x i) :=
  C57_equal C57_x C57_x 2 rfl rfl C57_match

end Vctrs
