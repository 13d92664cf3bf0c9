import Verif.Lemmas.MatchJoint
import Verif.Props.C34

/-! # C51: joint ranks of needles and haystack compare as the values do

`C51_vector` is about vectors.  Full statement for data frames: as `C51_partial`, without the
hypothesis that only the first of the vectors is complex; where it fails `vec_order_info()` does
not return (C34), see `C51_out_of_bounds`. -/

namespace Vctrs

open Spec

theorem sortKeys_asc : (cs : List Val) →
    (cs.zip ((List.replicate cs.length false).zip (List.replicate cs.length false))).flatMap
      (fun c => (leaves c.1).map (fun p => (c.2.1, c.2.2, p))) =
    (leavesAll cs).map (fun p => (false, false, p))
  | [] => rfl
  | c :: cs => by
      simp only [List.length_cons, List.replicate_succ, List.zip_cons_cons, List.flatMap_cons,
        sortKeys_asc cs, leavesAll, List.map_append]

theorem jointOrder_ok {ts : List ATy} {n : Nat} {x : Val} (hx : IsBounds ts n x) (hn : n ≤ intMax)
    (hc : ∀ i : Nat, 0 < i → ts[i]? ≠ some .cpl) (nd : Bool) {tl : TL} (h0 : ∀ u, 0 ≤ tl u)
    {fuel : Nat} (hf : ts.length ≤ fuel) {K : Type} [LinearOrder K] {k : Row ts → K}
    (hk : ∀ a b, k a < k b ↔ RowSmaller nd ts a b) {row : Nat → Row ts}
    (hrow : ∀ i, i < n → HasRow ts (leaves x) i (row i)) :
    Ret (vecOrderInfo fuel (packLeaves x.size (leaves x)) chrsAsc chrsSmallest nd true true tl
      (List.replicate 100001 0)) (fun r => r.2 = (tl, List.replicate 100001 0) ∧
        ∃ B gs mx, KeyGroups (fun i => k (row i)) n B gs ∧
          r.1 = ⟨B.flatten.map (fun (i : Nat) => (i : Int) + 1), some (B.map List.length, mx)⟩) := by
  set p := packLeaves x.size (leaves x) with hp
  have hl : leaves p = leaves x := hx.pack_leaves
  have hz : p.size = n := hx.pack_size
  have hcx : ∀ {ts : List ATy} {ps : List Val}, HasTypes ts ps → ∀ (i : Nat) (q : Val),
      ps[i]? = some q → ts[i]? ≠ some .cpl → ¬ IsComplex q := by
    intro ts
    induction ts with
    | nil =>
      intro ps hps i q hq _
      have e : ps = [] := hps
      subst e
      simp at hq
    | cons t ts ih =>
      rintro ps ⟨xs, qs, rfl, hqs⟩ i q hq hi
      cases i with
      | zero =>
        simp only [List.getElem?_cons_zero, Option.some.injEq, ne_eq] at hq hi
        subst hq
        cases t <;> first | exact id | exact absurd rfl hi
      | succ i => exact ih hqs i q (by simpa using hq) (by simpa using hi)
  refine (vecOrderInfo_ok (ds := List.replicate (columns p).length false)
    (ns := List.replicate (columns p).length false) nd true (by rw [hz]; exact hn)
    (by rw [hl, hz]; exact hx.sortable) (by
      rw [hl]
      intro i q hi hq
      exact hcx hx.types i q hq (hc i hi)) ⟨by simp, .inl ⟨_, false, rfl, rfl, by simp⟩⟩
    ⟨by simp, .inl ⟨_, false, rfl, rfl, by simp⟩⟩ h0 rfl (fun _ => by
      rw [hl, hx.types.length]; exact hf)).mono ?_
  rintro ⟨⟨o, groups⟩, tl', static'⟩ ⟨h1, h2, B, hB, h3, h4⟩
  dsimp only at h1 h2 h3 h4 ⊢
  rw [if_pos rfl] at h4
  subst h1 h2 h3 h4
  rw [hz] at hB
  have hsk : sortKeys p (List.replicate (columns p).length false)
      (List.replicate (columns p).length false) = (leaves x).map (fun q => (false, false, q)) := by
    unfold sortKeys
    rw [sortKeys_asc, leavesAll_columns, hl]
  obtain ⟨gs, hgs⟩ := hB.keyGroups (k := fun i => k (row i)) (by
    intro i j hi hj
    rw [hsk, hk]
    exact rowBefore_smaller nd (hrow i hi) (hrow j hj))
  exact ⟨rfl, B, gs, _, hgs, rfl⟩

theorem elt_nonempty : (t : ATy) → Nonempty t.El
  | .lgl => ⟨(0 : Int)⟩
  | .int => ⟨(0 : Int)⟩
  | .dbl => ⟨(0 : Dbl)⟩
  | .cpl => ⟨((0, 0) : Dbl × Dbl)⟩
  | .chr => ⟨(none : Name)⟩
  | .raw => ⟨(0 : BitVec 8)⟩

theorem row_nonempty : (ts : List ATy) → Nonempty (Row ts)
  | [] => ⟨()⟩
  | t :: ts => by
      obtain ⟨a⟩ := elt_nonempty t
      obtain ⟨r⟩ := row_nonempty ts
      exact ⟨(a, r)⟩

theorem joint_ok {ts : List ATy} {n m : Nat} {x y : Val} (hx : IsBounds ts n x)
    (hy : IsBounds ts m y) (ht : SameType x y) (hn : n ≤ intMax) (hm : m ≤ intMax)
    (hc : ∀ i : Nat, 0 < i → ts[i]? ≠ some .cpl) (nd : Bool) {tl : TL} (h0 : ∀ u, 0 ≤ tl u)
    {fuel : Nat} (hf : ts.length ≤ fuel) :
    ∃ p q : List Int, vecJointXtfrm fuel x y nd tl (List.replicate 100001 0) =
        .ok ((p, q), tl, List.replicate 100001 0) ∧ p.length = n ∧ q.length = m ∧
      (∀ v, v ∈ p ∨ v ∈ q → IsInt v ∧ v ≠ naInt) ∧
      RanksCompare nd ts x x p p ∧ RanksCompare nd ts x y p q ∧
      RanksCompare nd ts y x q p ∧ RanksCompare nd ts y y q q := by
  obtain ⟨K, _, k, hk⟩ := rowSmaller_key nd ts
  have rows : ∀ {n : Nat} {z : Val}, IsBounds ts n z →
      ∃ row : Nat → Row ts, ∀ i, i < n → HasRow ts (leaves z) i (row i) := by
    intro n z hz
    have h : ∀ i, i < n → ∃ r, HasRow ts (leaves z) i r := fun i hi =>
      HasTypes.row hz.types (fun p hp => sized_of_sortable (hz.sortable p hp)) hi
    classical
    obtain ⟨d⟩ := row_nonempty ts
    refine ⟨fun i => if hi : i < n then Classical.choose (h i hi) else d, ?_⟩
    intro i hi
    dsimp only
    rw [dif_pos hi]
    exact Classical.choose_spec (h i hi)
  obtain ⟨rx, hrx⟩ := rows hx
  obtain ⟨ry, hry⟩ := rows hy
  have hcmp : ∀ i j, i < n → j < m → ∃ c, jointCompare nd (packLeaves x.size (leaves x)) i
      (packLeaves y.size (leaves y)) j = .ok c ∧
      OrdCmp (k (rx i) < k (ry j)) (k (ry j) < k (rx i)) c := by
    intro i j hi hj
    rw [hk, hk]
    exact jointCompare_ok hx hy (hrx i hi) (hry j hj)
  obtain ⟨⟨xi, tl', st'⟩, hxo, e1, Bx, gx, mx, hgx, e2⟩ := jointOrder_ok hx hn hc nd h0 hf hk hrx
  obtain ⟨⟨yi, tl'', st''⟩, hyo, e3, By, gy, my, hgy, e4⟩ := jointOrder_ok hy hm hc nd h0 hf hk hry
  dsimp only at e1 e2 e3 e4
  cases e1
  cases e3
  subst e2 e4
  obtain ⟨D, hD, hmerge⟩ := jointMerge_ok hgx hgy hn hm hcmp
  have hcard : D.card ≤ n + m := by
    classical
    have h1 : D ⊆ (gx ++ gy).toFinset := by
      intro p hp
      rw [List.mem_toFinset, List.mem_append]
      exact (hD p).1 hp
    have h2 := (Finset.card_le_card h1).trans (List.toFinset_card_le _)
    rw [List.length_append] at h2
    have := hgx.count
    have := hgy.count
    omega
  have hint : ∀ c ∈ D, IsInt (keyRank (naInt + 1) D c) ∧ keyRank (naInt + 1) D c ≠ naInt := by
    intro c hc
    have h1 : D.filter (· < c) ⊂ D := by
      rw [Finset.ssubset_iff_of_subset (Finset.filter_subset _ _)]
      exact ⟨c, hc, by simp⟩
    have h2 := Finset.card_lt_card h1
    unfold IsInt keyRank naInt
    unfold intMax at *
    omega
  refine ⟨(List.range n).map (fun r => keyRank (naInt + 1) D (k (rx r))),
    (List.range m).map (fun r => keyRank (naInt + 1) D (k (ry r))), ?_, by simp, by simp, ?_, ?_⟩
  · unfold vecJointXtfrm
    rw [jointProxy_ok x y ht hx.sortable, ok_bind]
    dsimp only
    rw [hxo, ok_bind]
    dsimp only
    rw [hyo, ok_bind]
    dsimp only
    rw [hx.sized.size, hy.sized.size] at *
    rw [hmerge]
    rfl
  · rintro v (hv | hv)
    · obtain ⟨i, hi, rfl⟩ := List.mem_map.1 hv
      exact hint _ ((hD _).2 (.inl (hgx.mem (List.mem_range.1 hi))))
    · obtain ⟨i, hi, rfl⟩ := List.mem_map.1 hv
      exact hint _ ((hD _).2 (.inr (hgy.mem (List.mem_range.1 hi))))
  · have main : ∀ {z w : Val} {l o : Nat} {rz rw : Nat → Row ts},
        (∀ i, i < l → HasRow ts (leaves z) i (rz i)) → (∀ i, i < o → HasRow ts (leaves w) i (rw i)) →
        (∀ i, i < l → k (rz i) ∈ D) →
        RanksCompare nd ts z w ((List.range l).map (fun r => keyRank (naInt + 1) D (k (rz r))))
          ((List.range o).map (fun r => keyRank (naInt + 1) D (k (rw r)))) := by
      intro z w l o rz rw hz hw hmem i j a b r s ha hb hr hs
      rw [List.getElem?_map, Option.map_eq_some_iff] at ha hb
      obtain ⟨i', hi', rfl⟩ := ha
      obtain ⟨j', hj', rfl⟩ := hb
      obtain ⟨h1, e1⟩ := List.getElem?_eq_some_iff.1 hi'
      obtain ⟨h2, e2⟩ := List.getElem?_eq_some_iff.1 hj'
      simp only [List.getElem_range] at e1 e2
      subst e1 e2
      rw [List.length_range] at h1 h2
      rw [keyRank_lt (hmem i h1), hk, hasRow_unique hr (hz i h1), hasRow_unique hs (hw j h2)]
    have mx : ∀ i, i < n → k (rx i) ∈ D := fun i hi => (hD _).2 (.inl (hgx.mem hi))
    have my : ∀ i, i < m → k (ry i) ∈ D := fun i hi => (hD _).2 (.inr (hgy.mem hi))
    exact ⟨main hrx hrx mx, main hrx hry mx, main hry hrx my, main hry hry my⟩

/-- `vec_joint_xtfrm()` on data frames of one type: the ranks are integers other than `NA`, and
compare as the rows do, within each of the data frames and across them. -/
theorem C51_partial (ts : List ATy) (x y : Val) (hx : IsBounds ts x.size x)
    (hy : IsBounds ts y.size y) (ht : SameType x y) (hn : x.size ≤ intMax) (hm : y.size ≤ intMax)
    (hc : ∀ i : Nat, 0 < i → ts[i]? ≠ some .cpl) (nanDistinct : Bool) (tl : TL)
    (h0 : ∀ u, 0 ≤ tl u) (fuel : Nat) (hf : ts.length ≤ fuel) :
    ∃ p q : List Int, vecJointXtfrm fuel x y nanDistinct tl (List.replicate 100001 0) =
        .ok ((p, q), tl, List.replicate 100001 0) ∧ p.length = x.size ∧ q.length = y.size ∧
      (∀ v, v ∈ p ∨ v ∈ q → IsInt v ∧ v ≠ naInt) ∧
      RanksCompare nanDistinct ts x x p p ∧ RanksCompare nanDistinct ts x y p q ∧
      RanksCompare nanDistinct ts y x q p ∧ RanksCompare nanDistinct ts y y q q :=
  joint_ok hx hy ht hn hm hc nanDistinct h0 hf

/-- `vec_joint_xtfrm()` on vectors of one type: the ranks are integers other than `NA`, and compare
as the elements do, within each of the vectors and across them.  This is without exception. -/
theorem C51_vector (t : ATy) (xs ys : List t.El)
    (hx : Sortable xs.length (.vec (.atom t) xs)) (hy : Sortable ys.length (.vec (.atom t) ys))
    (hn : xs.length ≤ intMax) (hm : ys.length ≤ intMax) (nanDistinct : Bool) (tl : TL)
    (h0 : ∀ u, 0 ≤ tl u) :
    ∃ p q : List Int, vecJointXtfrm 1 (.vec (.atom t) xs) (.vec (.atom t) ys) nanDistinct tl
        (List.replicate 100001 0) = .ok ((p, q), tl, List.replicate 100001 0) ∧
      p.length = xs.length ∧ q.length = ys.length ∧
      (∀ v, v ∈ p ∨ v ∈ q → IsInt v ∧ v ≠ naInt) ∧
      (∀ (i j : Nat) (a b : Int) (u v : t.El), p[i]? = some a → p[j]? = some b → xs[i]? = some u →
        xs[j]? = some v → (a < b ↔ Smaller false nanDistinct t u v)) ∧
      (∀ (i j : Nat) (a b : Int) (u v : t.El), p[i]? = some a → q[j]? = some b → xs[i]? = some u →
        ys[j]? = some v → (a < b ↔ Smaller false nanDistinct t u v) ∧
          (b < a ↔ Smaller false nanDistinct t v u)) ∧
      (∀ (i j : Nat) (a b : Int) (u v : t.El), q[i]? = some a → q[j]? = some b → ys[i]? = some u →
        ys[j]? = some v → (a < b ↔ Smaller false nanDistinct t u v)) := by
  have bounds : ∀ {zs : List t.El}, Sortable zs.length (.vec (.atom t) zs) →
      IsBounds [t] zs.length (.vec (.atom t) zs) := fun {zs} h =>
    ⟨sized_of_sortable h, ⟨zs, [], rfl, rfl⟩, by
      intro p hp
      simp only [leaves, List.mem_singleton] at hp
      subst hp
      exact h⟩
  obtain ⟨p, q, h1, h2, h3, h4, h5, h6, h7, h8⟩ := joint_ok (bounds hx) (bounds hy) rfl hn hm
    (by intro i hi; cases i with
      | zero => omega
      | succ i => simp) nanDistinct h0 (Nat.le_refl 1)
  have single : ∀ {zs ws : List t.El} {p q : List Int},
      RanksCompare nanDistinct [t] (.vec (.atom t) zs) (.vec (.atom t) ws) p q →
      ∀ (i j : Nat) (a b : Int) (u v : t.El), p[i]? = some a → q[j]? = some b → zs[i]? = some u →
        ws[j]? = some v → (a < b ↔ Smaller false nanDistinct t u v) := by
    intro zs ws p q h i j a b u v ha hb hu hv
    rw [h i j a b (u, ()) (v, ()) ha hb ⟨zs, [], rfl, hu, rfl⟩ ⟨ws, [], rfl, hv, rfl⟩]
    exact ⟨fun h => h.resolve_right (fun h => h.2), .inl⟩
  exact ⟨p, q, h1, h2, h3, h4, single h5, fun i j a b u v ha hb hu hv =>
    ⟨single h6 i j a b u v ha hb hu hv, single h7 j i b a v u hb ha hv hu⟩, single h8⟩

/-- The ranks without the shared state. -/
def C51_run (r : C ((List Int × List Int) × TL × List Nat)) : Option (List Int × List Int) :=
  match r with
  | .ok (o, _, _) => some o
  | .error _ => none

/-- The example of src/match-joint.c:66-76, with a missing value. -/
def C51_x : List Int := [20, 15, 10, naInt]

/-- The other vector. -/
def C51_y : List Int := [30, 12, 20, 12]

example : Sortable C51_x.length (.vec (.atom .int) C51_x) ∧
    Sortable C51_y.length (.vec (.atom .int) C51_y) := by
  refine ⟨⟨rfl, ?_⟩, rfl, ?_⟩ <;> unfold IsInt <;> decide

example : C51_run (vecJointXtfrm 1 (.vec (.atom .int) C51_x) (.vec (.atom .int) C51_y) true exTl
    exStatic) = some ([-2147483643, -2147483644, -2147483646, -2147483647],
      [-2147483642, -2147483645, -2147483643, -2147483645]) := by decide +kernel

/-- A data frame with a string and a double column. -/
def C51_df (s : List Name) (d : List Dbl) : Val :=
  .df s.length [.vec (.atom .chr) s, .df s.length [.vec (.atom .dbl) d]]

/-- Needles: NA and NaN are distinct. -/
def C51_dfX : Val := C51_df [some ['b'], some ['a'], none] [rNaN, naReal, 0]

/-- Haystack. -/
def C51_dfY : Val := C51_df [some ['b'], some ['a'], some ['b']] [naReal, naReal, 0x3FF0000000000000#64]

example : IsBounds [.chr, .dbl] C51_dfX.size C51_dfX ∧ IsBounds [.chr, .dbl] C51_dfY.size C51_dfY ∧
    SameType C51_dfX C51_dfY := by
  refine ⟨⟨?_, ⟨_, _, rfl, _, _, rfl, rfl⟩, ?_⟩, ⟨?_, ⟨_, _, rfl, _, _, rfl, rfl⟩, ?_⟩, rfl⟩
  · exact .df _ (by
      intro p hp
      simp only [List.mem_cons, List.not_mem_nil, or_false] at hp
      rcases hp with rfl | rfl
      · exact .vec _ _ rfl
      · exact .df _ (by
          intro p hp
          simp only [List.mem_cons, List.not_mem_nil, or_false] at hp
          subst hp
          exact .vec _ _ rfl))
  · intro p hp
    simp only [C51_dfX, C51_df, leaves, leavesAll, List.append_nil, List.cons_append, List.nil_append,
      List.mem_cons, List.not_mem_nil, or_false] at hp
    rcases hp with rfl | rfl
    · refine ⟨rfl, ?_⟩
      unfold ByteString
      intro s hs
      simp only [List.mem_cons, Option.some.injEq, List.not_mem_nil, or_false, reduceCtorEq] at hs
      rcases hs with rfl | rfl <;> decide
    · rfl
  · exact .df _ (by
      intro p hp
      simp only [List.mem_cons, List.not_mem_nil, or_false] at hp
      rcases hp with rfl | rfl
      · exact .vec _ _ rfl
      · exact .df _ (by
          intro p hp
          simp only [List.mem_cons, List.not_mem_nil, or_false] at hp
          subst hp
          exact .vec _ _ rfl))
  · intro p hp
    simp only [C51_dfY, C51_df, leaves, leavesAll, List.append_nil, List.cons_append, List.nil_append,
      List.mem_cons, List.not_mem_nil, or_false] at hp
    rcases hp with rfl | rfl
    · refine ⟨rfl, ?_⟩
      unfold ByteString
      intro s hs
      simp only [List.mem_cons, Option.some.injEq, List.not_mem_nil, or_false] at hs
      rcases hs with rfl | rfl | rfl <;> decide
    · rfl

example : C51_run (vecJointXtfrm 2 C51_dfX C51_dfY true exTl exStatic) =
    some ([-2147483644, -2147483646, -2147483647], [-2147483645, -2147483646, -2147483643]) := by
  decide +kernel

/-- Without the distinction, NaN is tied with NA. -/
example : C51_run (vecJointXtfrm 2 C51_dfX C51_dfY false exTl exStatic) =
    some ([-2147483645, -2147483646, -2147483647], [-2147483645, -2147483646, -2147483644]) := by
  decide +kernel

/-- Data frames that cannot be ordered (C34) have no joint ranks. -/
theorem C51_out_of_bounds : (∀ p ∈ leaves C34_three, Sortable 6 p) ∧ SameType C34_three C34_three ∧
    vecJointXtfrm 10 C34_three C34_three true exTl exStatic = .error .ub := by
  refine ⟨C34_out_of_bounds.1, rfl, ?_⟩
  unfold vecJointXtfrm
  rw [jointProxy_ok (n := 6) _ _ rfl C34_out_of_bounds.1, ok_bind]
  dsimp only
  have e : packLeaves C34_three.size (leaves C34_three) = C34_three := rfl
  have h : vecOrderInfo 10 C34_three chrsAsc chrsSmallest true true true exTl exStatic = .error .ub :=
    C34_out_of_bounds.2
  rw [e, h]
  rfl

end Vctrs
