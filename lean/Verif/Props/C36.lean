import Verif.Props.C34

/-! # C36: vec_locate_sorted_groups partitions rows into sorted groups

Full statement: as `C36_partial`, without the hypothesis that only the first of the vectors to
group by is complex; where it fails `vec_order_info_impl()` does not return (C34). -/

namespace Vctrs

open Spec

/-- The groups of tied rows: `keys` has a location of each, in strictly increasing order, every row
is tied with a key, and the locations of a group are those of the rows tied with its key, in
increasing order. -/
def SortedGroups (before : Nat → Nat → Prop) (n : Nat) (keys : List Int) (locs : List (List Int)) :
    Prop :=
  ∃ ks : List Nat, keys = ks.map (fun (k : Nat) => (k : Int) + 1) ∧ (∀ k ∈ ks, k < n) ∧
    ks.Pairwise before ∧ (∀ i, i < n → ∃ k ∈ ks, ¬ before i k ∧ ¬ before k i) ∧
    locs.length = ks.length ∧
    ∀ (g k : Nat) (loc : List Int), ks[g]? = some k → locs[g]? = some loc →
      ∃ l : List Nat, loc = l.map (fun (i : Nat) => (i : Int) + 1) ∧ l.Pairwise (· < ·) ∧
        ∀ i, i ∈ l ↔ i < n ∧ ¬ before i k ∧ ¬ before k i

theorem Spec.TieGroups.sortedGroups {before : Nat → Nat → Prop} {n : Nat} {B : List (List Nat)}
    (h : TieGroups before n B) {keys : List Int} (hk : keys.map some =
      B.map (fun b => b.head?.map (fun (i : Nat) => (i : Int) + 1))) :
    SortedGroups before n keys (B.map (fun b => b.map (fun (i : Nat) => (i : Int) + 1))) := by
  have hmem : ∀ i, i < n ↔ ∃ b ∈ B, i ∈ b := by
    intro i
    rw [← List.mem_flatten, h.perm.mem_iff, List.mem_range]
  obtain ⟨ks, hks⟩ : ∃ ks : List Nat, B.map List.head? = ks.map some := by
    have hne := h.nonempty
    clear h hk hmem
    induction B with
    | nil => exact ⟨[], rfl⟩
    | cons b B ih =>
      obtain ⟨ks, h⟩ := ih (fun c hc => hne c (by simp [hc]))
      cases b with
      | nil => exact absurd rfl (hne [] (by simp))
      | cons k b => exact ⟨k :: ks, by simp [h]⟩
  have hlen : ks.length = B.length := by
    have := congrArg List.length hks
    simpa using this.symm
  have hget : ∀ (g k : Nat), ks[g]? = some k → ∃ b, B[g]? = some b ∧ k ∈ b := by
    intro g k hg
    have := congrArg (fun l => l[g]?) hks
    simp only [List.getElem?_map, hg] at this
    cases hb : B[g]? with
    | none => simp [hb] at this
    | some b =>
      simp only [hb, Option.map_some, Option.some.injEq] at this
      exact ⟨b, rfl, List.mem_of_mem_head? this⟩
  have hord : ∀ (g g' k k' : Nat), g < g' → ks[g]? = some k → ks[g']? = some k' →
      before k k' := by
    intro g g' k k' hlt hk hk'
    obtain ⟨b, hb, hkb⟩ := hget g k hk
    obtain ⟨b', hb', hkb'⟩ := hget g' k' hk'
    obtain ⟨h1, rfl⟩ := List.getElem?_eq_some_iff.1 hb
    obtain ⟨h2, rfl⟩ := List.getElem?_eq_some_iff.1 hb'
    exact List.pairwise_iff_getElem.1 h.sorted g g' h1 h2 hlt k hkb k' hkb'
  have htie : ∀ (g k : Nat) (b : List Nat), ks[g]? = some k → B[g]? = some b → ∀ i,
      i ∈ b ↔ i < n ∧ ¬ before i k ∧ ¬ before k i := by
    intro g k b hg hb i
    obtain ⟨b0, hb0, hkb⟩ := hget g k hg
    rw [hb] at hb0
    cases hb0
    have hbB := List.mem_of_getElem? hb
    constructor
    · intro hi
      exact ⟨(hmem i).2 ⟨b, hbB, hi⟩, h.tied b hbB i hi k hkb, h.tied b hbB k hkb i hi⟩
    · rintro ⟨hin, h1, h2⟩
      obtain ⟨b', hb'B, hib'⟩ := (hmem i).1 hin
      obtain ⟨g', hg'⟩ := List.getElem?_of_mem hb'B
      obtain ⟨l1, e1⟩ := List.getElem?_eq_some_iff.1 hb
      obtain ⟨l2, e2⟩ := List.getElem?_eq_some_iff.1 hg'
      rcases Nat.lt_trichotomy g g' with hlt | heq | hgt
      · have := List.pairwise_iff_getElem.1 h.sorted g g' l1 l2 hlt
        rw [e1, e2] at this
        exact absurd (this k hkb i hib') h2
      · subst heq
        rw [hb] at hg'
        cases hg'
        exact hib'
      · have := List.pairwise_iff_getElem.1 h.sorted g' g l2 l1 hgt
        rw [e1, e2] at this
        exact absurd (this i hib' k hkb) h1
  refine ⟨ks, ?_, ?_, ?_, ?_, by simpa using hlen.symm, ?_⟩
  · have e : keys.map some = (ks.map (fun (k : Nat) => (k : Int) + 1)).map some := by
      have e2 : B.map (fun b => b.head?.map (fun (i : Nat) => (i : Int) + 1)) =
          (B.map List.head?).map (Option.map (fun (i : Nat) => (i : Int) + 1)) := by
        rw [List.map_map]; rfl
      rw [hk, e2, hks, List.map_map, List.map_map]
      rfl
    exact (List.map_injective_iff.2 (fun a b h => by simpa using h)) e
  · intro k hk
    obtain ⟨g, hg⟩ := List.getElem?_of_mem hk
    obtain ⟨b, hb, hkb⟩ := hget g k hg
    exact (hmem k).2 ⟨b, List.mem_of_getElem? hb, hkb⟩
  · rw [List.pairwise_iff_getElem]
    intro g g' h1 h2 hlt
    exact hord g g' _ _ hlt (List.getElem?_eq_getElem h1) (List.getElem?_eq_getElem h2)
  · intro i hi
    obtain ⟨b, hb, hib⟩ := (hmem i).1 hi
    obtain ⟨g, hg⟩ := List.getElem?_of_mem hb
    have hgl := (List.getElem?_eq_some_iff.1 hg).1
    have hkg : ks[g]? = some ks[g] := List.getElem?_eq_getElem (by omega)
    exact ⟨ks[g], List.getElem_mem _, ((htie g _ b hkg hg i).1 hib).2⟩
  · intro g k loc hg hl
    rw [List.getElem?_map] at hl
    cases hb : B[g]? with
    | none => simp [hb] at hl
    | some b =>
      simp only [hb, Option.map_some, Option.some.injEq] at hl
      exact ⟨b, hl.symm, h.increasing b (List.mem_of_getElem? hb), htie g k b hg hb⟩

/-- `vec_locate_sorted_groups()`: locations of the keys and of the groups. -/
theorem C36_partial (x : Val) (hn : x.size ≤ intMax) (hs : ∀ p ∈ leaves x, Sortable x.size p)
    (hc : ∀ (i : Nat) (p : Val), 0 < i → (leaves x)[i]? = some p → ¬ IsComplex p)
    (direction naValue : List Name) (ds ns : List Bool)
    (hd : ForColumns IsDirection direction (columns x).length ds)
    (hna : ForColumns IsNaValue naValue (columns x).length ns) (nanDistinct : Bool) (tl : TL)
    (h0 : ∀ u, 0 ≤ tl u) (fuel : Nat) (hf : (leaves x).length ≤ fuel) :
    ∃ (keys : List Int) (locs : List (List Int)),
      vecLocateSortedGroups fuel x direction naValue nanDistinct tl (List.replicate 100001 0) =
        .ok ((keys, locs), tl, List.replicate 100001 0) ∧
      SortedGroups (RowBefore nanDistinct (sortKeys x ds ns)) x.size keys locs := by
  obtain ⟨⟨⟨keys, locs⟩, tl', st'⟩, h, h1, h2, B, hB, h3, h4⟩ :=
    vecLocateSortedGroups_ok nanDistinct hn hs hc hd hna h0 (static := List.replicate 100001 0) rfl
      (fun _ => hf)
  dsimp only at h1 h2 h3 h4
  subst h1 h2 h3
  exact ⟨keys, _, h, hB.sortedGroups h4⟩

/-- The key of a group is the first of its rows. -/
theorem C36_first_partial (x : Val) (hn : x.size ≤ intMax) (hs : ∀ p ∈ leaves x, Sortable x.size p)
    (hc : ∀ (i : Nat) (p : Val), 0 < i → (leaves x)[i]? = some p → ¬ IsComplex p)
    (direction naValue : List Name) (ds ns : List Bool)
    (hd : ForColumns IsDirection direction (columns x).length ds)
    (hna : ForColumns IsNaValue naValue (columns x).length ns) (nanDistinct : Bool) (tl : TL)
    (h0 : ∀ u, 0 ≤ tl u) (fuel : Nat) (hf : (leaves x).length ≤ fuel) :
    ∃ (keys : List Int) (locs : List (List Int)),
      vecLocateSortedGroups fuel x direction naValue nanDistinct tl (List.replicate 100001 0) =
        .ok ((keys, locs), tl, List.replicate 100001 0) ∧ keys.length = locs.length ∧
      ∀ (g : Nat) (k : Int) (loc : List Int), keys[g]? = some k → locs[g]? = some loc →
        loc[0]? = some k ∧ ∀ i ∈ loc, k ≤ i := by
  obtain ⟨⟨⟨keys, locs⟩, tl', st'⟩, h, h1, h2, B, hB, h3, h4⟩ :=
    vecLocateSortedGroups_ok nanDistinct hn hs hc hd hna h0 (static := List.replicate 100001 0) rfl
      (fun _ => hf)
  dsimp only at h1 h2 h3 h4
  subst h1 h2 h3
  have hlen : keys.length = B.length := by simpa using congrArg List.length h4
  refine ⟨keys, _, h, by simpa using hlen, fun g k loc hk hl => ?_⟩
  have hg := congrArg (fun l => l[g]?) h4
  simp only [List.getElem?_map, hk, Option.map_some] at hg
  rw [List.getElem?_map] at hl
  cases hb : B[g]? with
  | none => rw [hb] at hl; cases hl
  | some b =>
    rw [hb] at hl hg
    cases hl
    have hinc := hB.increasing b (List.mem_of_getElem? hb)
    cases b with
    | nil => simp at hg
    | cons i b =>
      simp only [Option.map_some, List.head?_cons, Option.some.injEq] at hg
      refine ⟨by simp [hg], fun j hj => ?_⟩
      simp only [List.map_cons, List.mem_cons, List.mem_map] at hj
      rcases hj with rfl | ⟨j, hj, rfl⟩
      · omega
      · have := (List.pairwise_cons.1 hinc).1 j hj
        omega

/-- The result without the shared state. -/
def C36_run (r : C ((List Int × List (List Int)) × TL × List Nat)) :
    Option (List Int × List (List Int)) :=
  match r with
  | .ok (g, _, _) => some g
  | .error _ => none

/-- A column with an integer and one of strings, with ties. -/
def C36_x : Val := .df 6 [.vec (.atom .int) ([2, 1, 2, 1, 2, 1] : List Int),
  .vec (.atom .chr) [some ['b'], none, some ['a'], some ['c'], some ['b'], none]]

example : (leaves C36_x).length = 2 ∧ ∀ (i : Nat) (p : Val), 0 < i → (leaves C36_x)[i]? = some p →
    ¬ IsComplex p := by
  refine ⟨rfl, ?_⟩
  intro i p hi hp
  match i with
  | 1 => cases hp; exact id
  | i + 2 => simp [C36_x, leaves, leavesAll] at hp

example : C36_run (vecLocateSortedGroups 4 C36_x exAsc exSmallest true exTl exStatic) =
    some ([2, 4, 3, 1], [[2, 6], [4], [3], [1, 5]]) := by decide +kernel

end Vctrs
