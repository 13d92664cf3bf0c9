import Verif.Lemmas.IntervalGroups
import Verif.Props.ExInterval

/-! # C40: vec_interval_locate_containers returns the maximal intervals -/

namespace Vctrs

open Spec

section
variable {ts : List ATy} {n : Nat} {start stop : Val} {K : Type} [LinearOrder K] {k : Row ts → K}
  {s e : Nat → Row ts} {ms q : List Nat}

/-- The containers `cs` of the rows `done`, the last of which is `c`. -/
structure Containers (k : Row ts → K) (s e : Nat → Row ts) (done cs : List Nat) (c : Nat) : Prop where
  last : c ∈ cs
  sub : ∀ i ∈ cs, i ∈ done
  max : ∀ i ∈ cs, k (s i) ≤ k (s c) ∧ k (e i) ≤ k (e c)
  all : ∀ i ∈ done, ∃ c ∈ cs, k (s c) ≤ k (s i) ∧ k (e i) ≤ k (e c)
  sorted : cs.Pairwise (fun i j => k (s i) < k (s j) ∧ k (e i) < k (e j))

theorem containerRound_ok (h : IsIntervals ts n start stop) (hk : Keyed ts n start stop K k s e)
    (hq : Sorted ts n k s e true ms q) {i : Nat} {done cs rest : List Nat} {c j : Nat}
    (hsp : q = done ++ j :: rest) (hi : i = ms.length + done.length)
    (hc : Containers k s e done cs c) :
    Ret (containerRound (locs1 (ms ++ q)) (packLeaves start.size (leaves start))
      (packLeaves stop.size (leaves stop)) i ((c : Int), locs1 cs)) (fun r => ∃ (cs' : List Nat) (c' : Nat),
        r = ((c' : Int), locs1 cs') ∧ Containers k s e (done ++ [j]) cs' c') := by
  have hjq : j ∈ q := by rw [hsp]; simp
  have hcd := hc.sub _ hc.last
  have hcq : c ∈ q := by rw [hsp]; simp [hcd]
  have hn : ∀ x ∈ q, x < n := fun x hx => hq.lt (by simp [hx])
  have hj : (ms ++ q)[i]? = some j := by
    rw [hsp, hi, ← List.append_assoc, List.getElem?_append_right (by simp)]
    simp
  have hord : k (s c) < k (s j) ∨ (k (s c) = k (s j) ∧ k (e j) ≤ k (e c)) := by
    have := hq.sorted
    rw [hsp, List.pairwise_append] at this
    exact this.2.2 c hcd j (by simp)
  unfold containerRound
  refine Ret.bind_eq (locs1_get hj) ?_
  rw [add_sub_one]
  dsimp only
  obtain ⟨x, hx, hx'⟩ := polyCompare_key hk.key h.ordered h.starts h.starts
    (hk.rowS _ (hn _ hcq)) (hk.rowS _ (hn _ hjq))
  obtain ⟨y, hy, hy'⟩ := polyCompare_key hk.key h.ordered h.stops h.stops
    (hk.rowE _ (hn _ hcq)) (hk.rowE _ (hn _ hjq))
  have hle : k (s c) ≤ k (s j) := by
    rcases hord with h | h
    · exact le_of_lt h
    · exact le_of_eq h.1
  have hx1 : x ≠ 1 := fun h => absurd (hx'.gt.1 h) (not_lt.2 hle)
  rw [hx, ok_bind, if_pos hx1, hy, ok_bind, ok_bind]
  by_cases hin : y = -1
  · rw [if_neg (by simp [hin])]
    have hb := hy'.lt.1 hin
    have ha : k (s c) < k (s j) := by
      rcases hord with h | h
      · exact h
      · exact absurd hb (not_lt.2 h.2)
    refine Ret.ok ⟨cs ++ [j], j, by simp [locs1], by simp, ?_, ?_, ?_, ?_⟩
    · intro i hi
      rcases List.mem_append.1 hi with hi | hi
      · exact List.mem_append_left _ (hc.sub i hi)
      · exact List.mem_append_right _ hi
    · intro i hi
      rcases List.mem_append.1 hi with hi | hi
      · exact ⟨le_trans (hc.max i hi).1 hle, le_trans (hc.max i hi).2 (le_of_lt hb)⟩
      · rw [List.mem_singleton] at hi
        subst hi
        exact ⟨le_refl _, le_refl _⟩
    · intro i hi
      rcases List.mem_append.1 hi with hi | hi
      · obtain ⟨c', hc', h1⟩ := hc.all i hi
        exact ⟨c', by simp [hc'], h1⟩
      · rw [List.mem_singleton] at hi
        subst hi
        exact ⟨i, by simp, le_refl _, le_refl _⟩
    · rw [List.pairwise_append]
      refine ⟨hc.sorted, by simp, ?_⟩
      intro i hi j' hj'
      rw [List.mem_singleton] at hj'
      subst hj'
      exact ⟨lt_of_le_of_lt (hc.max i hi).1 ha, lt_of_le_of_lt (hc.max i hi).2 hb⟩
  · rw [if_pos (by simp [hin])]
    have hb : k (e j) ≤ k (e c) := not_lt.1 (fun h => hin (hy'.lt.2 h))
    refine Ret.ok ⟨cs, c, rfl, hc.last, ?_, hc.max, ?_, hc.sorted⟩
    · intro i hi
      exact List.mem_append_left _ (hc.sub i hi)
    · intro i hi
      rcases List.mem_append.1 hi with hi | hi
      · exact hc.all i hi
      · rw [List.mem_singleton] at hi
        subst hi
        exact ⟨c, hc.last, hle, hb⟩

theorem containersOrdered_ok (h : IsIntervals ts n start stop) (hk : Keyed ts n start stop K k s e)
    (hq : Sorted ts n k s e true ms q) :
    Ret (containersOrdered (locs1 (ms ++ q)) (packLeaves start.size (leaves start))
      (packLeaves stop.size (leaves stop)) n) (fun r => ∃ cs mm, r = locs1 (cs ++ mm) ∧
        (∀ i ∈ cs, i ∈ q) ∧ (∀ i ∈ q, ∃ c ∈ cs, k (s c) ≤ k (s i) ∧ k (e i) ≤ k (e c)) ∧
        cs.Pairwise (fun i j => k (s i) < k (s j) ∧ k (e i) < k (e j)) ∧
        ((mm = [] ∧ ms = []) ∨ ∃ i ∈ ms, mm = [i])) := by
  have hlen := hq.length
  unfold containersOrdered
  refine Ret.bind_eq (skipMissingAny_ok h hk hq) ?_
  dsimp only
  refine Ret.bind (P := fun si => (q = [] ∧ si = ((-1, []), n)) ∨ (∃ j rest, q = j :: rest ∧
    si = (((j : Int), locs1 [j]), ms.length + 1))) ?_ ?_
  · match hqq : q with
    | [] =>
      have e1 : ms.length = n := by simpa using hlen
      rw [if_neg (by omega), e1]
      exact Ret.ok (.inl ⟨rfl, rfl⟩)
    | j :: rest =>
      rw [List.length_cons] at hlen
      have hj : (ms ++ j :: rest)[ms.length]? = some j := by simp
      rw [if_pos (by omega), locs1_get hj, ok_bind, add_sub_one]
      exact Ret.ok (.inr ⟨j, rest, rfl, rfl⟩)
  rintro ⟨st, i⟩ hsi
  dsimp only at hsi ⊢
  refine Ret.bind (P := fun st => ∃ cs, st.2 = locs1 cs ∧ (∀ i ∈ cs, i ∈ q) ∧
      (∀ i ∈ q, ∃ c ∈ cs, k (s c) ≤ k (s i) ∧ k (e i) ≤ k (e c)) ∧
      cs.Pairwise (fun i j => k (s i) < k (s j) ∧ k (e i) < k (e j))) ?_ ?_
  · rcases hsi with ⟨h1, h2⟩ | ⟨j, rest, hqq, h2⟩
    · cases h2
      rw [Nat.sub_self]
      refine Ret.ok ⟨[], rfl, by simp, ?_, by simp⟩
      rw [h1]
      simp
    · cases h2
      have hln : ms.length + 1 ≤ n := by rw [hqq, List.length_cons] at hlen; omega
      refine (Ret.forFrom (i := ms.length + 1) (fun i (st : Int × List Int) => ∃ (done rest cs : List Nat) (c : Nat), q = done ++ rest ∧
        i = ms.length + done.length ∧ st = ((c : Int), locs1 cs) ∧ Containers k s e done cs c)
        ⟨[j], rest, [j], j, hqq, rfl, rfl, by simp, by simp, by simp, by simp, by simp⟩ ?_).mono ?_
      · rintro i st h1 h2 ⟨done, rest, cs, c, hsp, hi, rfl, hc⟩
        match rest, hsp with
        | [], hsp =>
          have := congrArg List.length hsp
          simp at this
          omega
        | x :: rest', hsp =>
          refine (containerRound_ok h hk hq hsp hi hc).mono ?_
          rintro r ⟨cs', c', e1, hc'⟩
          exact ⟨done ++ [x], rest', cs', c', by rw [hsp]; simp, by rw [hi]; simp; omega, e1, hc'⟩
      · rintro st ⟨done, rest, cs, c, hsp, hi, rfl, hc⟩
        have h3 := congrArg List.length hsp
        simp at h3
        have hr : rest = [] := by
          apply List.eq_nil_of_length_eq_zero
          omega
        subst hr
        rw [List.append_nil] at hsp
        subst hsp
        exact ⟨cs, rfl, hc.sub, hc.all, hc.sorted⟩
  rintro ⟨c, out⟩ ⟨cs, hst, h1, h2, h3⟩
  dsimp only at hst ⊢
  subst hst
  by_cases hm : ms = []
  · subst hm
    rw [if_neg (by simp)]
    exact Ret.ok ⟨cs, [], by simp, h1, h2, h3, .inl ⟨rfl, rfl⟩⟩
  · have hpos : 0 < ms.length := List.length_pos_iff.2 hm
    have hj : (ms ++ q)[0]? = some ms[0] := by
      rw [List.getElem?_append_left hpos]
      exact List.getElem?_eq_getElem hpos
    rw [if_pos (by simpa using hpos), locs1_get hj, ok_bind]
    exact Ret.ok ⟨cs, [ms[0]], by simp [locs1], h1, h2, h3, .inr ⟨_, List.getElem_mem _, rfl⟩⟩

end

/-- `vec_interval_locate_containers()`: the rows `cs`, in ascending order, and the row of one missing
interval if there are any.  Every interval is contained in one of `cs`, and none of `cs` is
contained in another. -/
theorem C40_containers (ts : List ATy) (n : Nat) (start stop : Val) (h : IsIntervals ts n start stop)
    (hn : n ≤ intMax) (tl : TL) (h0 : ∀ u, 0 ≤ tl u) (fuel : Nat) (hf : 2 * ts.length ≤ fuel) :
    ∃ cs mm : List Nat,
      intervalLocateContainers fuel start stop tl (List.replicate 100001 0) =
        .ok ((cs ++ mm).map (fun (i : Nat) => (i : Int) + 1), tl, List.replicate 100001 0) ∧
      (∀ c ∈ cs, ∃ x y, IsInterval ts start stop c x y) ∧
      (∀ i x y, IsInterval ts start stop i x y →
        ∃ c ∈ cs, ContainedIn ts start stop i start stop c) ∧
      (∀ (j j' c c' : Nat), j ≠ j' → cs[j]? = some c → cs[j']? = some c' →
        ¬ ContainedIn ts start stop c start stop c') ∧
      (∀ (j j' c c' : Nat) (x y x' y' : Row ts), j < j' → cs[j]? = some c → cs[j']? = some c' →
        IsInterval ts start stop c x y → IsInterval ts start stop c' x' y' → RowsLt ts x x') ∧
      ((mm = [] ∧ ∀ i, ¬ IsMissingInterval ts start stop i) ∨
        ∃ i, IsMissingInterval ts start stop i ∧ mm = [i]) := by
  obtain ⟨K, _, k, hkey⟩ := rows_key ts h.ordered
  obtain ⟨s, hs⟩ := h.starts.rows
  obtain ⟨e, he⟩ := h.stops.rows
  have hk : Keyed ts n start stop K k s e := ⟨hkey, hs, he⟩
  obtain ⟨ms, q, ho, hq⟩ := intervalOrder_ok h hn hk (direction := containerDirection)
    (naValue := containerNaValue) (desc := true) (na := true)
    ⟨rfl, .inr ⟨rfl, by
      intro i a v h1 h2
      match i with
      | 0 => cases h1; cases h2; rfl
      | 1 => cases h1; cases h2; rfl
      | i + 2 => simp at h2⟩⟩
    ⟨rfl, .inr ⟨rfl, by
      intro i a v h1 h2
      match i with
      | 0 => cases h1; cases h2; rfl
      | 1 => cases h1; cases h2; rfl
      | i + 2 => simp at h2⟩⟩ h0 hf
  obtain ⟨r, hr, cs, mm, rfl, h1, h2, h3, h4⟩ := containersOrdered_ok h hk hq
  have src : ∀ {i x y}, IsInterval ts start stop i x y ↔ i ∈ q ∧ x = s i ∧ y = e i :=
    isInterval_source h hk hq
  have hlt : ∀ (j j' c c' : Nat), j < j' → cs[j]? = some c → cs[j']? = some c' →
      k (s c) < k (s c') ∧ k (e c) < k (e c') := by
    intro j j' c c' hjj hc hc'
    obtain ⟨hj, ej⟩ := List.getElem?_eq_some_iff.1 hc
    obtain ⟨hj', ej'⟩ := List.getElem?_eq_some_iff.1 hc'
    have := (List.pairwise_iff_getElem.1 h3) j j' hj hj' hjj
    rw [ej, ej'] at this
    exact this
  refine ⟨cs, mm, ?_, ?_, ?_, ?_, ?_, ?_⟩
  · unfold intervalLocateContainers
    rw [proxyVal_ok, ok_bind, proxyVal_ok, ok_bind]
    dsimp only
    rw [h.starts.pack_size, h.stops.pack_size, if_neg (by simp), ho, ok_bind]
    dsimp only
    exact bind_eq_of hr rfl
  · intro c hc
    exact ⟨_, _, src.2 ⟨h1 c hc, rfl, rfl⟩⟩
  · intro i x y hI
    obtain ⟨hi, rfl, rfl⟩ := src.1 hI
    obtain ⟨c, hc, h5, h6⟩ := h2 i hi
    refine ⟨c, hc, _, _, _, _, hI, src.2 ⟨h1 c hc, rfl, rfl⟩, ?_, ?_⟩
    · rw [← hkey]
      exact not_lt.2 h5
    · rw [← hkey]
      exact not_lt.2 h6
  · rintro j j' c c' hne hc hc' ⟨x, y, x', y', hI, hI', h5, h6⟩
    obtain ⟨_, rfl, rfl⟩ := src.1 hI
    obtain ⟨_, rfl, rfl⟩ := src.1 hI'
    rw [← hkey] at h5 h6
    rcases Nat.lt_or_gt_of_ne hne with hl | hl
    · exact h5 (hlt j j' c c' hl hc hc').1
    · exact h6 (hlt j' j c' c hl hc' hc).2
  · intro j j' c c' x y x' y' hl hc hc' hI hI'
    obtain ⟨_, rfl, rfl⟩ := src.1 hI
    obtain ⟨_, rfl, rfl⟩ := src.1 hI'
    exact (hkey _ _).1 (hlt j j' c c' hl hc hc').1
  · rcases h4 with ⟨h5, h6⟩ | ⟨i, hi, h5⟩
    · refine .inl ⟨h5, fun i hi => ?_⟩
      have := (isMissing_source h hk hq).1 hi
      rw [h6] at this
      simp at this
    · exact .inr ⟨i, (isMissing_source h hk hq).2 hi, h5⟩

/-! ## Examples -/

/-- The locations of the result. -/
def C40_run (r : C (List Int × TL × List Nat)) : Option (List Int) :=
  match r with
  | .ok (l, _, _) => some l
  | _ => none

example := C40_containers [.int] 6 exIvStart exIvStop exIv (by decide) exTl exTl_ok 2 (by decide)

example : C40_run (intervalLocateContainers 2 exIvStart exIvStop exTl exStatic) =
    some [3, 4, 1, 5, 2] := by decide +kernel

end Vctrs
