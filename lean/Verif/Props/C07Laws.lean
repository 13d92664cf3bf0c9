import Verif.Props.C04
import Verif.Props.C05
import Verif.Props.C06
import Verif.Props.C07
import Verif.Props.C08
import Verif.Props.C10
import Verif.Props.C12

/-!
# Laws between matching, unique values, duplicates, groups and counts
-/

namespace Vctrs

open Spec

variable {α : Type} {ops : PolyOps α}

theorem isFirstEq_unique {eq : α → α → Bool} {x : List α} {y : α} {i j : Nat} (hi : IsFirstEq eq x y i)
    (hj : IsFirstEq eq x y j) : i = j := by
  obtain ⟨a, ha, hay, hmin⟩ := hi
  obtain ⟨b, hb, hby, hmin'⟩ := hj
  rcases Nat.lt_trichotomy i j with h | h | h
  · have := hmin' i a h ha; rw [hay] at this; simp at this
  · exact h
  · have := hmin j b h hb; rw [hby] at this; simp at this

/-- `vec_match(x, x)` is `vec_duplicate_id(x)`. -/
theorem C07_self (he : EqvHash ops) (incomplete : α → Bool) (x : List α) (hn : x.length ≤ 2147483647) :
    ∃ ids, duplicateId ops x = .ok ids ∧ vecMatch ops incomplete true x x = .ok (ids.map some) := by
  obtain ⟨ids, h1, h2, h3⟩ := C06_duplicate_id he x hn
  obtain ⟨out, g1, g2, g3⟩ := C07_match he incomplete x x hn
  refine ⟨ids, h1, ?_⟩
  rw [g1]
  congr 1
  apply List.ext_getElem
  · simp [g2, h2]
  · intro i hi hi'
    have hx : i < x.length := by omega
    have hid : i < ids.length := by omega
    rw [List.getElem_map]
    exact ((g3 i _ _ (List.getElem?_eq_getElem hi) (List.getElem?_eq_getElem hx)).2 _).2
      (h3 i _ _ (List.getElem?_eq_getElem hid) (List.getElem?_eq_getElem hx))

theorem isFirstEq_class (he : EqvHash ops) {x : List α} {a : α} (h : a ∈ x) :
    IsFirstEq ops.eq (nub ops.eq x) a (classOf ops.eq x a) := by
  obtain ⟨b, hb, hba⟩ := classOf_getElem he h
  refine ⟨b, hb, hba, ?_⟩
  intro j c hj hc
  have hlt : j < (nub ops.eq x).length := (List.getElem?_eq_some_iff.1 hc).1
  have := List.not_of_lt_findIdx (p := fun b => ops.eq b a) (xs := nub ops.eq x) (i := j) hj
  rw [(List.getElem?_eq_some_iff.1 hc).2] at this
  simpa using this

theorem nubEq_length_le (eq : α → α → Bool) (x : List α) : (nub eq x).length ≤ x.length := by
  induction x with
  | nil => simp [nub]
  | cons a l ih =>
    unfold nub
    have := List.length_filter_le (fun b => !eq a b) (nub eq l)
    simp only [List.length_cons]
    omega

/-- `vec_match(x, vec_unique(x))` is `vec_group_id(x)`; and slicing the unique values at these locations gives
the elements of `x`. -/
theorem C07_unique (he : EqvHash ops) (incomplete : α → Bool) (x : List α) (hn : x.length ≤ 2147483647) :
    ∃ u ids n y, vecUnique ops x = .ok u ∧ groupId ops x = .ok (ids, n) ∧ n = u.length ∧
      vecMatch ops incomplete true x u = .ok (ids.map some) ∧ sliceLoc u ids = .ok y ∧
      y.length = x.length ∧
      ∀ (i : Nat) (a b : α), x[i]? = some a → y[i]? = some b → ops.eq b a = true := by
  have hu := C04_unique he x hn
  obtain ⟨out, g1, g2, g3⟩ := C07_match he incomplete x (nub ops.eq x)
    (Nat.le_trans (nubEq_length_le _ _) hn)
  have hget : ∀ a ∈ x, ∃ b, (nub ops.eq x)[classOf ops.eq x a]? = some b ∧ ops.eq b a = true :=
    fun a ha => classOf_getElem he ha
  have hs : ∀ l : List α, (∀ a ∈ l, a ∈ x) → ∃ y,
      sliceLoc (nub ops.eq x) (l.map (fun a => classOf ops.eq x a + 1)) = .ok y ∧ y.length = l.length ∧
      ∀ (i : Nat) (a b : α), l[i]? = some a → y[i]? = some b → ops.eq b a = true := by
    intro l hl
    refine ⟨l.pmap (fun a (ha : a ∈ x) => (nub ops.eq x)[classOf ops.eq x a]'(classOf_lt he ha)) hl, ?_, by simp, ?_⟩
    · have h := sliceLoc_ok (nub ops.eq x) (l.map (classOf ops.eq x))
        (l.pmap (fun a (ha : a ∈ x) => (nub ops.eq x)[classOf ops.eq x a]'(classOf_lt he ha)) hl) (by
          apply List.ext_getElem
          · simp
          · intro i h1 h2
            simp only [List.length_map] at h1
            simp [List.getElem?_eq_getElem (classOf_lt he (hl _ (List.getElem_mem h1)))])
      rwa [List.map_map] at h
    · intro i a b ha hb
      obtain ⟨hi, rfl⟩ := List.getElem?_eq_some_iff.1 ha
      rw [List.getElem?_eq_getElem (by simpa using hi)] at hb
      simp only [List.getElem_pmap, Option.some.injEq] at hb
      obtain ⟨c, hc, hca⟩ := hget l[i] (hl _ (List.getElem_mem hi))
      rw [← hb, (List.getElem?_eq_some_iff.1 hc).2]
      exact hca
  obtain ⟨y, y1, y2, y3⟩ := hs x (fun a h => h)
  refine ⟨_, _, _, y, hu, groupId_ok he x hn, rfl, ?_, y1, y2, y3⟩
  rw [g1]
  congr 1
  apply List.ext_getElem
  · simp [g2]
  · intro i hi hi'
    have hx : i < x.length := by omega
    simp only [List.getElem_map]
    exact ((g3 i _ _ (List.getElem?_eq_getElem hi) (List.getElem?_eq_getElem hx)).2 _).2
      ⟨_, rfl, isFirstEq_class he (List.getElem_mem hx)⟩

theorem nub_of_pairwise (eq : α → α → Bool) {l : List α} (h : l.Pairwise (fun a b => eq a b = false)) :
    nub eq l = l := by
  induction l with
  | nil => rfl
  | cons a l ih =>
    rw [List.pairwise_cons] at h
    rw [nub, ih h.2, List.filter_eq_self.2 (fun b hb => by simp [h.1 b hb])]

/-- The unique values are unique: applied again, `vec_unique()` returns them, `vec_unique_loc()` all
locations, `vec_duplicate_any()` `FALSE`. -/
theorem C04_idempotent (he : EqvHash ops) (x : List α) (hn : x.length ≤ 2147483647) :
    ∃ u, vecUnique ops x = .ok u ∧ vecUnique ops u = .ok u ∧
      uniqueLoc ops u = .ok ((List.range u.length).map (· + 1)) ∧ duplicatedAny ops u = .ok false := by
  have hp := nub_pairwise ops.eq x
  have hl := Nat.le_trans (nubEq_length_le ops.eq x) hn
  have hnn := nub_of_pairwise ops.eq hp
  refine ⟨_, C04_unique he x hn, ?_, ?_, ?_⟩
  · rw [C04_unique he _ hl, hnn]
  · rw [uniqueLoc_ok he _ hl]
    have : firsts ops (nub ops.eq x) (nub ops.eq x).length = List.range (nub ops.eq x).length := by
      refine List.Sublist.eq_of_length List.filter_sublist ?_
      have := firsts_length (ops := ops) (nub ops.eq x)
      rw [hnn] at this
      rw [List.length_range]
      exact this
    rw [this]
  · obtain ⟨b, h1, h2⟩ := C05_duplicate_any he _ hl
    rw [h1]
    cases b with
    | false => rfl
    | true =>
      obtain ⟨i, j, y, z, hij, hy, hz, hyz⟩ := h2.1 rfl
      obtain ⟨hi, rfl⟩ := List.getElem?_eq_some_iff.1 hy
      obtain ⟨hj, rfl⟩ := List.getElem?_eq_some_iff.1 hz
      have := (List.pairwise_iff_getElem.1 hp) i j hi hj hij
      rw [this] at hyz
      cases hyz

/-- The first locations of the groups of `vec_group_loc(x)` are `vec_unique_loc(x)`. -/
theorem C12_unique_loc (he : EqvHash ops) (x : List α) (hn : x.length ≤ 2147483647) :
    ∃ keys locs loc, groupLoc ops x = .ok (keys, locs) ∧ uniqueLoc ops x = .ok loc ∧
      vecUnique ops x = .ok keys ∧ locs.map List.head? = loc.map some := by
  obtain ⟨keys, locs, h1, h2, h3, h4, h5, _, h7⟩ := C12_group_loc he x hn
  obtain ⟨loc, g1, g2, g3⟩ := C04_unique_loc he x hn
  refine ⟨keys, locs, loc, h1, g1, by rw [C04_unique he x hn, h2], ?_⟩
  have at_ : ∀ {k : Nat} {g : List Nat}, locs[k]? = some g → ∃ key, keys[k]? = some key := by
    intro k g hg
    have := (List.getElem?_eq_some_iff.1 hg).1
    exact ⟨_, List.getElem?_eq_getElem (by omega)⟩
  have hfm : locs.map List.head? = (locs.filterMap List.head?).map some := by
    have : ∀ l : List (List Nat), (∀ g ∈ l, g ≠ []) → l.map List.head? = (l.filterMap List.head?).map some := by
      intro l hl
      induction l with
      | nil => rfl
      | cons g l ih =>
        have hg := hl g List.mem_cons_self
        cases g with
        | nil => exact absurd rfl hg
        | cons a g =>
          rw [List.map_cons, List.filterMap_cons_some (f := List.head?) (b := a) rfl, List.map_cons,
            ih (fun g h => hl g (List.mem_cons_of_mem _ h))]
          rfl
    refine this locs (fun g hg => ?_)
    obtain ⟨k, hk⟩ := List.mem_iff_getElem?.1 hg
    obtain ⟨key, hkey⟩ := at_ hk
    exact (h4 k key g hkey hk).2.1
  rw [hfm]
  congr 1
  have min : ∀ {g : List Nat} {a l : Nat}, g.Pairwise (· < ·) → g.head? = some a → l ∈ g → a ≤ l := by
    intro g a l hp ha hl
    cases g with
    | nil => cases ha
    | cons b g =>
      cases ha
      rcases List.mem_cons.1 hl with rfl | h
      · exact Nat.le_refl _
      · exact Nat.le_of_lt ((List.pairwise_cons.1 hp).1 l h)
  refine List.Perm.eq_of_pairwise (le := (· < ·)) (fun a b _ _ p q => absurd q (Nat.lt_asymm p)) h7 g2 ?_
  rw [List.perm_ext_iff_of_nodup (h7.imp Nat.ne_of_lt) (g2.imp Nat.ne_of_lt)]
  intro l
  rw [g3, List.mem_filterMap]
  constructor
  · rintro ⟨g, hg, hl⟩
    obtain ⟨k, hk⟩ := List.mem_iff_getElem?.1 hg
    obtain ⟨key, hkey⟩ := at_ hk
    obtain ⟨e1, _, e3⟩ := h4 k key g hkey hk
    obtain ⟨j, a, rfl, ha, hka⟩ := (e3 l).1 (List.mem_of_mem_head? hl)
    refine ⟨j, rfl, a, ha, ?_⟩
    intro j' b hj hb
    cases hba : ops.eq b a with
    | false => rfl
    | true =>
      have := min e1 hl ((e3 (j' + 1)).2 ⟨j', b, rfl, hb, he.trans _ _ _ hka (he.symm _ _ hba)⟩)
      omega
  · rintro ⟨i, rfl, b, hb, hno⟩
    have hi := (List.getElem?_eq_some_iff.1 hb).1
    obtain ⟨k, ⟨g, hk, hm⟩, _⟩ := h5 (i + 1) (by omega) (by omega)
    obtain ⟨key, hkey⟩ := at_ hk
    obtain ⟨e1, e2, e3⟩ := h4 k key g hkey hk
    refine ⟨g, List.mem_of_getElem? hk, ?_⟩
    cases hh : g.head? with
    | none => rw [List.head?_eq_none_iff] at hh; exact absurd hh e2
    | some l =>
      obtain ⟨j, a, rfl, ha, hka⟩ := (e3 l).1 (List.mem_of_mem_head? hh)
      obtain ⟨_, b', he', hb', hkb⟩ := (e3 (i + 1)).1 hm
      cases he'
      rw [hb] at hb'
      cases hb'
      have hle := min e1 hh hm
      rcases Nat.lt_or_eq_of_le hle with h | h
      · have := hno j a (by omega) ha
        rw [he.trans _ _ _ (he.symm _ _ hka) hkb] at this
        cases this
      · rw [h]

/-- The location `l` is in group `k` exactly if `vec_group_id()` there is `k`, and then `vec_duplicate_id()`
there is the first location of the group. -/
theorem C12_ids (he : EqvHash ops) (x : List α) (hn : x.length ≤ 2147483647) :
    ∃ keys locs ids n dup, groupLoc ops x = .ok (keys, locs) ∧ groupId ops x = .ok (ids, n) ∧
      duplicateId ops x = .ok dup ∧ n = locs.length ∧
      ∀ (k : Nat) (g : List Nat), locs[k]? = some g → ∀ l : Nat, l ∈ g ↔
        ∃ i, l = i + 1 ∧ ids[i]? = some (k + 1) ∧ dup[i]? = g.head? := by
  obtain ⟨dup, d1, d2, d3⟩ := C06_duplicate_id he x hn
  refine ⟨_, _, _, _, dup, groupLoc_ok he x hn, groupId_ok he x hn, d1, by simp, ?_⟩
  intro k g hg l
  rw [List.getElem?_map] at hg
  have hk : k < (nub ops.eq x).length := by
    rcases Nat.lt_or_ge k (nub ops.eq x).length with h | h
    · exact h
    · rw [List.getElem?_eq_none (by simpa using h)] at hg
      cases hg
  rw [List.getElem?_range hk] at hg
  simp only [Option.map_some, Option.some.injEq] at hg
  subst hg
  simp only [List.mem_map, List.mem_filter, List.mem_range, beq_iff_eq, List.getElem?_map]
  constructor
  · rintro ⟨i, ⟨hi, hc⟩, rfl⟩
    have ha : x[i]? = some x[i] := List.getElem?_eq_getElem hi
    rw [cls_of ha] at hc
    refine ⟨i, rfl, by rw [ha]; simp [hc], ?_⟩
    have hdi : i < dup.length := by omega
    obtain ⟨j, hj, hf⟩ := d3 i _ _ (List.getElem?_eq_getElem hdi) ha
    rw [List.getElem?_eq_getElem hdi, hj, List.head?_map]
    obtain ⟨b, hb, hbe, hmin⟩ := hf
    have hjl := (List.getElem?_eq_some_iff.1 hb).1
    have : ((List.range x.length).filter (fun j => cls ops x j == k)).head? = some j := by
      rw [List.head?_filter, List.find?_range_eq_some]
      refine ⟨by simp [cls_of hb, classOf_congr he x hbe, hc], List.mem_range.2 hjl, ?_⟩
      intro j' hj'
      have hx' : x[j']? = some x[j'] := List.getElem?_eq_getElem (by omega)
      have hne := hmin j' _ hj' hx'
      rw [cls_of hx']
      simp only [Bool.not_eq_true', beq_eq_false_iff_ne, ne_eq]
      intro hcc
      rw [← hc] at hcc
      rw [(classOf_eq_iff he (List.getElem_mem _) (List.getElem_mem _)).1 hcc] at hne
      cases hne
    rw [this]
    rfl
  · rintro ⟨i, rfl, hid, _⟩
    cases hx : x[i]? with
    | none => rw [hx] at hid; cases hid
    | some a =>
      rw [hx] at hid
      simp only [Option.map_some, Option.some.injEq, Nat.add_right_cancel_iff] at hid
      exact ⟨i, ⟨(List.getElem?_eq_some_iff.1 hx).1, by rw [cls_of hx, hid]⟩, rfl⟩

theorem countP_range (P : α → Bool) (x : List α) :
    x.countP P = (List.range x.length).countP (fun j => (x[j]?).any P) := by
  induction x with
  | nil => rfl
  | cons a l ih =>
    rw [List.length_cons, List.range_succ_eq_map, List.countP_cons, List.countP_cons, List.countP_map, ih]
    simp only [List.getElem?_cons_zero, Option.any_some]
    rfl

/-- `vec_count(x)` counts the groups of `vec_group_loc(x)`: beside the first location of each is its size, and
there are no others. -/
theorem C08_groups (he : EqvHash ops) (x : List α) (hn : x.length ≤ 2147483647) :
    ∃ keys locs loc count, groupLoc ops x = .ok (keys, locs) ∧ vecCount ops x = .ok (loc, count) ∧
      loc.length = locs.length ∧ ∀ (k : Nat) (g : List Nat), locs[k]? = some g →
        ∃ j : Nat, loc[j]? = g.head? ∧ count[j]? = some g.length := by
  obtain ⟨keys, locs, u, h1, h2, _, h4⟩ := C12_unique_loc he x hn
  obtain ⟨loc, count, g1, g2, g3, g4, g5, _⟩ := C08_count he x hn
  obtain ⟨u', u1, u2, u3⟩ := C04_unique_loc he x hn
  rw [h2] at u1
  cases u1
  have hperm : loc.Perm u := by
    rw [List.perm_ext_iff_of_nodup g2 (u2.imp Nat.ne_of_lt)]
    intro l
    rw [g3, u3]
  refine ⟨keys, locs, loc, count, h1, g1, ?_, ?_⟩
  · rw [hperm.length_eq, ← List.length_map (f := some) (as := u), ← h4, List.length_map]
  · intro k g hk
    have hhead : u[k]?.map some = some g.head? := by
      rw [← List.getElem?_map, ← h4, List.getElem?_map, hk]; rfl
    obtain ⟨l, hul, hl⟩ : ∃ l, u[k]? = some l ∧ some l = g.head? := by
      cases hu : u[k]? with
      | none => rw [hu] at hhead; cases hhead
      | some l => rw [hu] at hhead; exact ⟨l, rfl, by simpa using hhead⟩
    obtain ⟨j, hj⟩ := List.mem_iff_getElem?.1 (hperm.mem_iff.2 (List.mem_of_getElem? hul))
    refine ⟨j, by rw [hj, hl], ?_⟩
    obtain ⟨i, rfl, a, ha, _⟩ := (u3 l).1 (List.mem_of_getElem? hul)
    rw [g5 j i a hj ha]
    congr 1
    rw [groupLoc_ok he x hn] at h1
    cases h1
    rw [List.getElem?_map] at hk
    have hlt : k < (nub ops.eq x).length := by
      rcases Nat.lt_or_ge k (nub ops.eq x).length with h | h
      · exact h
      · rw [List.getElem?_eq_none (by simpa using h)] at hk
        cases hk
    rw [List.getElem?_range hlt] at hk
    simp only [Option.map_some, Option.some.injEq] at hk
    subst hk
    have hm : i + 1 ∈ ((List.range x.length).filter (fun j => cls ops x j == k)).map (· + 1) :=
      List.mem_of_mem_head? hl.symm
    simp only [List.mem_map, List.mem_filter, List.mem_range, beq_iff_eq, Nat.add_right_cancel_iff,
      exists_eq_right] at hm
    rw [cls_of ha] at hm
    rw [countP_range, List.length_map, ← List.countP_eq_length_filter]
    apply List.countP_congr
    intro j' hj'
    have hx' : x[j']? = some (x[j']'(List.mem_range.1 hj')) := List.getElem?_eq_getElem _
    rw [hx', cls_of hx', ← hm.2, beq_iff_eq]
    simp only [Option.any_some]
    rw [classOf_eq_iff he (List.getElem_mem _) (List.mem_of_getElem? ha)]
    exact ⟨he.symm _ _, he.symm _ _⟩

/-! ## Examples -/

example : duplicateId exOps10 [14, 2, 4, 7, 12, 9] = .ok [1, 2, 1, 4, 2, 6] ∧
    vecMatch exOps10 (fun _ => false) true [14, 2, 4, 7, 12, 9] [14, 2, 4, 7, 12, 9] =
      .ok [some 1, some 2, some 1, some 4, some 2, some 6] ∧
    vecMatch exOps10 (fun _ => false) true [14, 2, 4, 7, 12, 9] [14, 2, 7, 9] =
      .ok [some 1, some 2, some 1, some 3, some 2, some 4] ∧
    groupId exOps10 [14, 2, 4, 7, 12, 9] = .ok ([1, 2, 1, 3, 2, 4], 4) := by decide +kernel

end Vctrs
