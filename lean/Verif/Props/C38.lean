import Verif.Lemmas.IntervalGroups
import Verif.Props.ExInterval

/-! # C38: vec_interval_groups merges exactly the overlapping intervals -/

namespace Vctrs

open Spec

section
variable {ts : List ATy} {n : Nat} {start stop : Val} {K : Type} [LinearOrder K] {k : Row ts → K}
  {s e : Nat → Row ts} {ms q : List Nat} {abutting group locations : Bool} {r : IntervalGroups}
  {G Gm : List Grp} {S E : Val}

theorem mergedGroups (h : IsIntervals ts n start stop)
    (hk : Keyed ts n start stop K k s e) (hq : Sorted ts n k s e false ms q)
    (hG : GroupsFound k s e ms q abutting group locations r G Gm) (hR : GroupsResult ts s e G Gm S E)
    (hS : SameType S start) (hE : SameType E stop) :
    MergedGroups ts start stop abutting group (G ++ Gm).length S E := by
  have src : ∀ {i x y}, IsInterval ts start stop i x y ↔ i ∈ q ∧ x = s i ∧ y = e i :=
    isInterval_source h hk hq
  have res : ∀ {j x y}, IsInterval ts S E j x y ↔ ∃ g, G[j]? = some g ∧ x = s g.first ∧ y = e g.last :=
    isInterval_result hq hG hR
  have grp : ∀ i ∈ q, ∃ (j : Nat) (g : Grp), G[j]? = some g ∧ i ∈ g.mem := by
    intro i hi
    rw [← hG.split] at hi
    obtain ⟨g, hg, hi⟩ := List.mem_flatMap.1 hi
    obtain ⟨j, hj⟩ := List.getElem?_of_mem hg
    exact ⟨j, g, hj, hi⟩
  refine ⟨⟨hR.starts, hR.stops, h.ordered, ?_⟩, hS, hE, ?_, ?_, ?_, ?_, ?_⟩
  · intro j x y h1 h2
    by_cases hx : ts = []
    · subst hx
      exact .inl ⟨trivial, trivial⟩
    · have hj := hasRow_lt hR.starts hx h1
      have hg := List.getElem?_eq_getElem hj
      obtain ⟨r1, r2⟩ := hR.row j _ hg
      have e1 := hasRow_unique h1 r1
      have e2 := hasRow_unique h2 r2
      rw [e1, e2]
      rcases List.mem_append.1 (List.mem_of_getElem? hg) with hm | hm
      · have hok := hG.ok _ hm
        exact .inr ⟨(hq.complete _ (hG.mem_q hm hok.first_mem)).2.1,
          (hq.complete _ (hG.mem_q hm hok.last_mem)).2.2⟩
      · exact .inl (hG.missing_of hq hm)
  · intro r
    constructor
    · rintro ⟨j, x, y, hI, h1, h2⟩
      obtain ⟨g, hg, rfl, rfl⟩ := res.1 hI
      have hm := List.mem_of_getElem? hg
      rw [← hk.key] at h1 h2
      obtain ⟨i, hi, h3, h4⟩ := (hG.ok g hm).cover (k r) (not_lt.1 h1) h2
      refine ⟨i, _, _, src.2 ⟨hG.mem_q hm hi, rfl, rfl⟩, ?_, ?_⟩
      · rw [← hk.key]
        exact not_lt.2 h3
      · rw [← hk.key]
        exact h4
    · rintro ⟨i, x, y, hI, h1, h2⟩
      obtain ⟨hi, rfl, rfl⟩ := src.1 hI
      obtain ⟨j, g, hg, him⟩ := grp i hi
      have hm := List.mem_of_getElem? hg
      rw [← hk.key] at h1 h2
      have hin := (hG.ok g hm).inside i him
      refine ⟨j, _, _, res.2 ⟨g, hg, rfl, rfl⟩, ?_, ?_⟩
      · rw [← hk.key]
        exact not_lt.2 (le_trans hin.1 (not_lt.1 h1))
      · rw [← hk.key]
        exact lt_of_lt_of_le h2 hin.2
  · intro i j x y x' y' hij h1 h2
    obtain ⟨g, hg, rfl, rfl⟩ := res.1 h1
    obtain ⟨g', hg', rfl, rfl⟩ := res.1 h2
    have hs := hG.sep
    rw [List.pairwise_iff_getElem] at hs
    obtain ⟨hi, ei⟩ := List.getElem?_eq_some_iff.1 hg
    obtain ⟨hj, ej⟩ := List.getElem?_eq_some_iff.1 hg'
    have := hs i j hi hj hij
    rw [ei, ej] at this
    unfold Grp.Sep at this
    cases abutting with
    | false =>
      show ¬ RowsLt ts _ _
      rw [← hk.key]
      exact not_lt.2 this
    | true =>
      show RowsLt ts _ _
      rw [← hk.key]
      exact this
  · intro ha r
    constructor
    · rintro ⟨j, x, y, hI, h1, h2⟩
      obtain ⟨g, hg, rfl, rfl⟩ := res.1 hI
      have hm := List.mem_of_getElem? hg
      rw [← hk.key] at h1 h2
      obtain ⟨i, hi, h3, h4⟩ := (hG.ok g hm).joined ha (k r) h1 h2
      exact ⟨i, _, _, src.2 ⟨hG.mem_q hm hi, rfl, rfl⟩, (hk.key _ _).1 h3, (hk.key _ _).1 h4⟩
    · rintro ⟨i, x, y, hI, h1, h2⟩
      obtain ⟨hi, rfl, rfl⟩ := src.1 hI
      obtain ⟨j, g, hg, him⟩ := grp i hi
      have hm := List.mem_of_getElem? hg
      rw [← hk.key] at h1 h2
      have hin := (hG.ok g hm).inside i him
      exact ⟨j, _, _, res.2 ⟨g, hg, rfl, rfl⟩, (hk.key _ _).1 (lt_of_le_of_lt hin.1 h1),
        (hk.key _ _).1 (lt_of_lt_of_le h2 hin.2)⟩
  · intro hv j x y hI
    obtain ⟨g, hg, rfl, rfl⟩ := res.1 hI
    have hm := List.mem_of_getElem? hg
    have hok := hG.ok g hm
    have h1 := hv _ _ _ (src.2 ⟨hG.mem_q hm hok.first_mem, rfl, rfl⟩)
    rw [← hk.key] at h1 ⊢
    exact lt_of_lt_of_le h1 (hok.inside _ hok.first_mem).2
  · intro j
    rw [isMissing_result hq hG hR, List.length_append]
    have hms : (∃ i, IsMissingInterval ts start stop i) ↔ ms ≠ [] := by
      constructor
      · rintro ⟨i, hi⟩ e
        have := (isMissing_source h hk hq).1 hi
        rw [e] at this
        simp at this
      · intro hne
        obtain ⟨i, hi⟩ := List.exists_mem_of_ne_nil _ hne
        exact ⟨i, (isMissing_source h hk hq).2 hi⟩
    rw [hms]
    rcases hG.missing with ⟨e, h1⟩ | ⟨h1, g, e, h2, _⟩
    · constructor
      · rintro ⟨_, h2⟩
        exact absurd e h2
      · rintro ⟨h2, _, h3⟩
        rcases h1 with h1 | h1
        · rw [h1] at h2
          simp at h2
        · exact absurd h1 h3
    · have hne : ms ≠ [] := List.ne_nil_of_mem h2
      rw [e]
      simp only [List.length_singleton]
      constructor
      · rintro ⟨rfl, _⟩
        exact ⟨h1, rfl, hne⟩
      · rintro ⟨_, h3, _⟩
        exact ⟨by omega, by simp⟩

end

/-- `vec_interval_groups()`: the merged intervals are sorted and disjoint, and have gaps between them
if abutting intervals are merged; they cover the points that the given intervals cover.  If abutting
intervals are not merged, the points inside (not at the start) stay the same, so that only
overlapping intervals are merged.  Missing intervals become one, which comes last, or none. -/
theorem C38_groups (ts : List ATy) (n : Nat) (start stop : Val) (h : IsIntervals ts n start stop)
    (hn : n ≤ intMax) (abutting group : Bool) (missing : Name)
    (hm : missing = some (if group then "group".toList else "drop".toList)) (tl : TL)
    (h0 : ∀ u, 0 ≤ tl u) (fuel : Nat) (hf : 2 * ts.length ≤ fuel) :
    ∃ (S E : Val) (m : Nat),
      intervalGroups fuel start stop abutting missing tl (List.replicate 100001 0) =
        .ok ((S, E), tl, List.replicate 100001 0) ∧
      MergedGroups ts start stop abutting group m S E := by
  obtain ⟨K, _, k, hkey⟩ := rows_key ts h.ordered
  obtain ⟨s, hs⟩ := h.starts.rows
  obtain ⟨e, he⟩ := h.stops.rows
  have hk : Keyed ts n start stop K k s e := ⟨hkey, hs, he⟩
  obtain ⟨ms, q, r, G, Gm, hq, hG, hr⟩ := intervalGroupInfo_ok h hn hk abutting group false h0 hf
  obtain ⟨S, E, h1, h2, hR, hS, hE⟩ := groupsResult h hk hq hG
  refine ⟨S, E, _, ?_, mergedGroups h hk hq hG hR hS hE⟩
  have hp : parseMissing missing = .ok group := parseMissing_ok hm
  unfold intervalGroups
  rw [hp, ok_bind, hr, ok_bind]
  dsimp only
  rw [h1, ok_bind, h2]
  rfl

/-- `vec_interval_locate_groups()` has the same intervals, and for each one the rows that it
contains: every row is in one group, or every row that is not missing if missing intervals are
dropped. -/
theorem C38_locate_groups (ts : List ATy) (n : Nat) (start stop : Val)
    (h : IsIntervals ts n start stop) (hn : n ≤ intMax) (abutting group : Bool) (missing : Name)
    (hm : missing = some (if group then "group".toList else "drop".toList)) (tl : TL)
    (h0 : ∀ u, 0 ≤ tl u) (fuel : Nat) (hf : 2 * ts.length ≤ fuel) :
    ∃ (S E : Val) (locs : List (List Nat)),
      intervalLocateGroups fuel start stop abutting missing tl (List.replicate 100001 0) =
        .ok ((S, E, locs.map (fun l => l.map (fun (i : Nat) => (i : Int) + 1))), tl,
          List.replicate 100001 0) ∧
      MergedGroups ts start stop abutting group locs.length S E ∧
      locs.flatten.Nodup ∧
      (∀ i, i ∈ locs.flatten ↔ i < n ∧ (group = true ∨ ¬ IsMissingInterval ts start stop i)) ∧
      ∀ (j : Nat) (l : List Nat), locs[j]? = some l → l ≠ [] ∧ ∀ i ∈ l,
        ContainedIn ts start stop i S E j ∨
          (IsMissingInterval ts start stop i ∧ IsMissingInterval ts S E j) := by
  obtain ⟨K, _, k, hkey⟩ := rows_key ts h.ordered
  obtain ⟨s, hs⟩ := h.starts.rows
  obtain ⟨e, he⟩ := h.stops.rows
  have hk : Keyed ts n start stop K k s e := ⟨hkey, hs, he⟩
  obtain ⟨ms, q, r, G, Gm, hq, hG, hr⟩ := intervalGroupInfo_ok h hn hk abutting group true h0 hf
  obtain ⟨S, E, h1, h2, hR, hS, hE⟩ := groupsResult h hk hq hG
  have hp : parseMissing missing = .ok group := parseMissing_ok hm
  have hnd : (ms ++ q).Nodup := hq.perm.nodup_iff.2 List.nodup_range
  have hfl : ((G ++ Gm).map Grp.mem).flatten = q ++ members Gm := by
    rw [List.map_append, List.flatten_append]
    congr 1
    rw [← hG.split]
    exact List.flatMap_def.symm
  refine ⟨S, E, (G ++ Gm).map Grp.mem, ?_, ?_, ?_, ?_, ?_⟩
  · unfold intervalLocateGroups
    rw [hp, ok_bind, hr, ok_bind]
    dsimp only
    rw [h1, ok_bind, h2, ok_bind, hG.pushed.2.2, if_pos rfl, List.map_map]
    rfl
  · rw [List.length_map]
    exact mergedGroups h hk hq hG hR hS hE
  · rw [hfl]
    rcases hG.missing with ⟨em, _⟩ | ⟨_, g, em, _, _, em'⟩
    · rw [em]
      simpa [members] using (List.nodup_append.1 hnd).2.1
    · rw [em]
      have : members [g] = ms := by simp [members, em']
      rw [this]
      exact (List.perm_append_comm.nodup_iff).1 hnd
  · intro i
    rw [hfl, isMissing_source h hk hq]
    have hmem : i < n ↔ i ∈ ms ∨ i ∈ q := by
      rw [← List.mem_append, hq.perm.mem_iff, List.mem_range]
    have hdis : i ∈ ms → i ∉ q := fun hi hi' => (List.nodup_append.1 hnd).2.2 i hi i hi' rfl
    rw [hmem]
    rcases hG.missing with ⟨em, hc⟩ | ⟨hc, g, em, _, _, em'⟩
    · rw [em]
      simp only [members, List.flatMap_nil, List.append_nil]
      constructor
      · intro hi
        exact ⟨.inr hi, .inr (fun hi' => hdis hi' hi)⟩
      · rintro ⟨hi | hi, hor⟩
        · rcases hor with ht | hor
          · rcases hc with hc | hc
            · rw [hc] at ht
              simp at ht
            · rw [hc] at hi
              simp at hi
          · exact absurd hi hor
        · exact hi
    · rw [em]
      have : members [g] = ms := by simp [members, em']
      rw [this, List.mem_append]
      constructor
      · intro hi
        exact ⟨hi.symm, .inl hc⟩
      · rintro ⟨hi, _⟩
        exact hi.symm
  · intro j l hl
    rw [List.getElem?_map, Option.map_eq_some_iff] at hl
    obtain ⟨g, hg, rfl⟩ := hl
    by_cases hlt : j < G.length
    · rw [List.getElem?_append_left hlt] at hg
      have hm := List.mem_of_getElem? hg
      have hok := hG.ok g hm
      refine ⟨List.ne_nil_of_mem hok.first_mem, fun i hi => .inl ?_⟩
      refine ⟨_, _, _, _, (isInterval_source h hk hq).2 ⟨hG.mem_q hm hi, rfl, rfl⟩,
        (isInterval_result hq hG hR).2 ⟨g, hg, rfl, rfl⟩, ?_, ?_⟩
      · rw [← hkey]
        exact not_lt.2 (hok.inside i hi).1
      · rw [← hkey]
        exact not_lt.2 (hok.inside i hi).2
    · rw [List.getElem?_append_right (by omega)] at hg
      have hm := List.mem_of_getElem? hg
      rcases hG.missing with ⟨em, _⟩ | ⟨_, g', em, h3, _, em'⟩
      · rw [em] at hm
        simp at hm
      · rw [em] at hm
        rw [List.mem_singleton] at hm
        subst hm
        rw [em']
        refine ⟨List.ne_nil_of_mem h3, fun i hi => .inr ⟨(isMissing_source h hk hq).2 hi, ?_⟩⟩
        refine (isMissing_result hq hG hR).2 ⟨?_, by rw [em]; simp⟩
        rw [em] at hg
        have := (List.getElem?_eq_some_iff.1 hg).1
        simp at this
        omega

/-! ## Examples -/

/-- The locations of the result. -/
def C38_run (r : C ((Val × Val × List (List Int)) × TL × List Nat)) :
    Option (List Int × List Int × List (List Int)) :=
  match r with
  | .ok ((.vec (.atom .int) (s : List Int), .vec (.atom .int) (e : List Int), l), _, _) => some (s, e, l)
  | _ => none

example := C38_groups [.int] 6 exIvStart exIvStop exIv (by decide) true true
  (some "group".toList) rfl exTl exTl_ok 2 (by decide)

example : C38_run (intervalLocateGroups 2 exIvStart exIvStop true (some "group".toList) exTl exStatic) =
    some ([1, 8, naInt], [6, 9, naInt], [[6, 3, 4, 1], [5], [2]]) := by decide +kernel

example : C38_run (intervalLocateGroups 2 exIvStart exIvStop false (some "drop".toList) exTl exStatic) =
    some ([1, 5, 8], [5, 6, 9], [[6, 3, 4], [1], [5]]) := by decide +kernel

end Vctrs
