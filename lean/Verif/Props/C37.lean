import Verif.Lemmas.RankCount
import Verif.Props.C29
import Verif.Props.C36

/-! # C37: vec_rank implements the four tie methods

Full statement: as `C37_partial`, without the hypothesis that only the first of the vectors to
rank by is complex; where it fails `vec_order_info_impl()` does not return (C34), see
`C37_out_of_bounds`. -/

namespace Vctrs

open Spec

theorem rankAll_ok {x : Val} (hn : x.size ≤ intMax) (hs : ∀ p ∈ leaves x, Sortable x.size p)
    (hc : ∀ (i : Nat) (p : Val), 0 < i → (leaves x)[i]? = some p → ¬ IsComplex p)
    {direction naValue : List Name} {ds ns : List Bool}
    (hd : ForColumns IsDirection direction (columns x).length ds)
    (hna : ForColumns IsNaValue naValue (columns x).length ns) (nanDistinct : Bool) {tl : TL}
    (h0 : ∀ u, 0 ≤ tl u) (ties : Ties) {fuel : Nat} (hf : (leaves x).length ≤ fuel) :
    Ret (rankAll fuel x ties direction naValue nanDistinct tl (List.replicate 100001 0)) (fun r =>
      r.2 = (tl, List.replicate 100001 0) ∧ r.1.length = x.size ∧
      ∀ (i : Nat) (v : Int), r.1[i]? = some v →
        IsRank (RowBefore nanDistinct (sortKeys x ds ns)) (fun j => j < x.size) i v ties) := by
  unfold rankAll
  refine Ret.bind (vecOrderInfo_ok nanDistinct true hn hs hc hd hna h0 rfl (fun _ => hf)) ?_
  rintro ⟨⟨o, groups⟩, tl', static'⟩ ⟨h1, h2, B, hB, h3, h4⟩
  dsimp only at h1 h2 h3 h4 ⊢
  rw [if_pos rfl] at h4
  subst h1 h2 h3 h4
  dsimp only
  refine Ret.bind (rankSwitch_ok hB.perm ties) (fun buf hb => ?_)
  refine Ret.bind_eq hb (Ret.ok ⟨rfl, by simp, ?_⟩)
  intro i v hv
  dsimp only at hv
  rw [List.getElem?_map, Option.map_eq_some_iff] at hv
  obtain ⟨i', hi', rfl⟩ := hv
  obtain ⟨hlt, e⟩ := List.getElem?_eq_some_iff.1 hi'
  simp only [List.getElem_range] at e
  subst e
  exact isRank_rankVal hB (fun a b ha hb => rowBefore_asymm hs ha hb) ties (by simpa using hlt)

/-- `vec_rank()`: every element has its rank among the elements, or among the complete elements if
incomplete ones are to have `NA`.  They then do not count. -/
theorem C37_partial (x : Val) (hn : x.size ≤ intMax) (hz : Sized x.size x)
    (hs : ∀ p ∈ leaves x, Sortable x.size p)
    (hc : ∀ (i : Nat) (p : Val), 0 < i → (leaves x)[i]? = some p → ¬ IsComplex p)
    (direction naValue : List Name) (ds ns : List Bool)
    (hd : ForColumns IsDirection direction (columns x).length ds)
    (hna : ForColumns IsNaValue naValue (columns x).length ns) (nanDistinct : Bool) (tl : TL)
    (h0 : ∀ u, 0 ≤ tl u) (ties : Ties) (incompleteNa : Bool) (fuel : Nat)
    (hf : (leaves x).length ≤ fuel) :
    ∃ out : List Int,
      vecRank fuel x ties incompleteNa direction naValue nanDistinct tl (List.replicate 100001 0) =
        .ok (out, tl, List.replicate 100001 0) ∧ out.length = x.size ∧
      ∀ (i : Nat) (v : Int), out[i]? = some v →
        (incompleteNa = true ∧ ¬ CompleteAt x i → v = naInt) ∧
        (incompleteNa = false ∨ CompleteAt x i →
          IsRank (RowBefore nanDistinct (sortKeys x ds ns))
            (fun j => j < x.size ∧ (incompleteNa = false ∨ CompleteAt x j)) i v ties) := by
  cases incompleteNa with
  | false =>
    obtain ⟨⟨out, rest⟩, h, h1, h2, h3⟩ := rankAll_ok hn hs hc hd hna nanDistinct h0 ties hf
    dsimp only at h1 h2 h3
    subst h1
    refine ⟨out, by unfold vecRank; exact h, h2, fun i v hv => ⟨fun h => by simp at h, fun _ => ?_⟩⟩
    exact IsRank.congr (hr := h3 i v hv) (fun j => by simp)
  | true =>
    obtain ⟨w, hw, hlen, hval⟩ := C29_detect_complete x x.size hz
    have hpos : ∀ j, j ∈ truePos w ↔ j < x.size ∧ CompleteAt x j := by
      intro j
      rw [mem_truePos]
      constructor
      · intro h
        have hj : j < x.size := by rw [← hlen]; exact (List.getElem?_eq_some_iff.1 h).1
        exact ⟨hj, (hval j hj).1 h⟩
      · rintro ⟨hj, h⟩
        exact (hval j hj).2 h
    unfold vecRank
    simp only [if_true]
    rw [hw, ok_bind]
    by_cases hall : w.all (fun b => b) = true
    · rw [if_pos hall]
      have hcomp : ∀ j, j < x.size → CompleteAt x j := by
        intro j hj
        refine (hval j hj).1 ?_
        have hj' : j < w.length := by omega
        rw [List.getElem?_eq_getElem hj']
        have := List.all_eq_true.1 hall _ (List.getElem_mem hj')
        rw [this]
      obtain ⟨⟨out, rest⟩, h, h1, h2, h3⟩ := rankAll_ok hn hs hc hd hna nanDistinct h0 ties hf
      dsimp only at h1 h2 h3
      subst h1
      refine ⟨out, h, h2, fun i v hv => ?_⟩
      have hi : i < x.size := by rw [← h2]; exact (List.getElem?_eq_some_iff.1 hv).1
      refine ⟨fun hh => absurd (hcomp i hi) hh.2, fun _ => ?_⟩
      refine IsRank.congr (hr := h3 i v hv) (fun j => ?_)
      exact ⟨fun hj => ⟨hj, Or.inr (hcomp j hj)⟩, fun hj => hj.1⟩
    · rw [if_neg hall]
      have hl : ∀ i ∈ truePos w, i < x.size := fun i hi => ((hpos i).1 hi).1
      have hsz : (pick (truePos w) x).size = (truePos w).length := hz.pick_size hl
      have hle : (truePos w).length ≤ x.size := by
        unfold truePos
        refine (List.length_filter_le _ _).trans ?_
        simp [hlen]
      have hs' : ∀ p ∈ leaves (pick (truePos w) x), Sortable (pick (truePos w) x).size p := by
        intro p hp
        rw [leaves_pick] at hp
        obtain ⟨q, hq, rfl⟩ := List.mem_map.1 hp
        rw [hsz]
        exact sortable_pick (hs q hq) hl
      have hc' : ∀ (i : Nat) (p : Val), 0 < i → (leaves (pick (truePos w) x))[i]? = some p →
          ¬ IsComplex p := by
        intro i p hi hp
        rw [leaves_pick, List.getElem?_map, Option.map_eq_some_iff] at hp
        obtain ⟨q, hq, rfl⟩ := hp
        rw [isComplex_pick]
        exact hc i q hi hq
      have hcl : (columns (pick (truePos w) x)).length = (columns x).length := by
        rw [columns_pick, List.length_map]
      obtain ⟨⟨rank, rest⟩, h, h1, h2, h3⟩ := rankAll_ok (x := pick (truePos w) x) (by omega) hs' hc'
        (hcl ▸ hd) (hcl ▸ hna) nanDistinct h0 ties (fuel := fuel) (by
          rw [leaves_pick, List.length_map]; exact hf)
      dsimp only at h1 h2 h3
      subst h1
      obtain ⟨⟨buf, j⟩, hb, out, ho, h4, h5, h6⟩ := rankSpread_ok (w := w) (rank := rank)
        (by rw [h2, hsz])
      dsimp only at ho
      rw [rSlice_lgl hz hn hlen, ok_bind, h, ok_bind, ← hlen, hb, ok_bind]
      dsimp only
      rw [ho, ok_bind]
      refine ⟨out, rfl, h4, fun i v hv => ?_⟩
      have hi : i < w.length := by rw [← h4]; exact (List.getElem?_eq_some_iff.1 hv).1
      constructor
      · rintro ⟨_, hnc⟩
        have hf : w[i]? = some false := by
          rw [List.getElem?_eq_getElem hi]
          cases hb : w[i] with
          | false => rfl
          | true => exact absurd ((hval i (by omega)).1 (by rw [List.getElem?_eq_getElem hi, hb])) hnc
        rw [h5 i hf] at hv
        cases hv
        rfl
      · intro hci
        have hci : CompleteAt x i := hci.resolve_left (by simp)
        obtain ⟨a, ha⟩ := List.mem_iff_getElem?.1 ((hpos i).2 ⟨by omega, hci⟩)
        rw [h6 a i ha] at hv
        have hR := h3 a v hv
        rw [hsz] at hR
        have := IsRank.pick (truePos_sorted w) (before := RowBefore nanDistinct (sortKeys x ds ns))
          (fun a b i j ha hb => rowBefore_pick (fun p hp => sized_of_sortable (hs p hp)) hl ha hb) ha hR
        refine IsRank.congr (hr := this) (fun j => ?_)
        rw [hpos j]
        simp [hlen]

/-- The same for an atomic vector, where nothing else is asked for. -/
theorem C37_vector (t : ATy) (xs : List t.El) (hs : Sortable xs.length (.vec (.atom t) xs))
    (hn : xs.length ≤ intMax) (direction naValue : Name) (desc naLargest : Bool)
    (hd : IsDirection direction desc) (hna : IsNaValue naValue naLargest) (nanDistinct : Bool)
    (tl : TL) (h0 : ∀ u, 0 ≤ tl u) (ties : Ties) (incompleteNa : Bool) :
    ∃ out : List Int,
      vecRank 1 (.vec (.atom t) xs) ties incompleteNa [direction] [naValue] nanDistinct tl
        (List.replicate 100001 0) = .ok (out, tl, List.replicate 100001 0) ∧
      out.length = xs.length ∧
      ∀ (i : Nat) (v : Int) (a : t.El), out[i]? = some v → xs[i]? = some a →
        (incompleteNa = true ∧ MissingAtom t a → v = naInt) ∧
        (incompleteNa = false ∨ ¬ MissingAtom t a →
          IsRank (fun i j => ∃ a b, xs[i]? = some a ∧ xs[j]? = some b ∧
              Before desc naLargest nanDistinct t a b)
            (fun j => ∃ b, xs[j]? = some b ∧ (incompleteNa = false ∨ ¬ MissingAtom t b)) i v ties) := by
  have hcomp : ∀ (i : Nat) (a : t.El), xs[i]? = some a →
      (CompleteAt (.vec (.atom t) xs) i ↔ ¬ MissingAtom t a) := by
    intro i a ha
    unfold CompleteAt
    simp only [leaves, List.mem_singleton, forall_eq]
    refine not_congr ?_
    constructor
    · rintro ⟨b, hb, hm⟩
      have hb' : xs[i]? = some b := hb
      rw [ha] at hb'
      cases hb'
      exact hm
    · intro hm
      exact ⟨a, ha, hm⟩
  obtain ⟨out, h1, h2, h3⟩ := C37_partial (.vec (.atom t) xs) hn (.vec _ _ rfl) (by
      intro p hp
      simp only [leaves, List.mem_singleton] at hp
      subst hp
      exact hs) (by
      intro i p hi hp
      cases i with
      | zero => omega
      | succ i => simp [leaves] at hp) [direction] [naValue] [desc] [naLargest] (ForColumns.one hd)
      (ForColumns.one hna) nanDistinct tl h0 ties incompleteNa 1 (by simp [leaves])
  refine ⟨out, h1, h2, fun i v a hv ha => ?_⟩
  obtain ⟨h4, h5⟩ := h3 i v hv
  refine ⟨fun hh => h4 ⟨hh.1, fun hcc => (hcomp i a ha).1 hcc hh.2⟩, fun hh => ?_⟩
  have hr := h5 (hh.imp id (hcomp i a ha).2)
  have e1 : RowBefore nanDistinct (sortKeys (.vec (.atom t) xs) [desc] [naLargest]) =
      (fun i j => ∃ a b, xs[i]? = some a ∧ xs[j]? = some b ∧
        Before desc naLargest nanDistinct t a b) := by
    funext i j
    refine propext (rowBefore_single.trans ⟨?_, ?_⟩)
    · rintro ⟨t', xs', a, b, he, ha, hb, h⟩
      cases he
      exact ⟨a, b, ha, hb, h⟩
    · rintro ⟨a, b, ha, hb, h⟩
      exact ⟨t, xs, a, b, rfl, ha, hb, h⟩
  rw [e1] at hr
  refine IsRank.congr (hr := hr) (fun j => ?_)
  constructor
  · rintro ⟨hj, hcj⟩
    exact ⟨xs[j], List.getElem?_eq_getElem hj,
      hcj.imp id (hcomp j _ (List.getElem?_eq_getElem hj)).1⟩
  · rintro ⟨b, hb, hm⟩
    exact ⟨(List.getElem?_eq_some_iff.1 hb).1, hm.imp id (hcomp j b hb).2⟩

/-! ## Examples -/

/-- The result without the shared state. -/
def C37_run (r : C (List Int × TL × List Nat)) : Option (List Int) :=
  match r with
  | .ok (out, _, _) => some out
  | .error _ => none

/-- 2, NA, 1, 2, NA, 5 as integers. -/
def C37_x : List Int := [2, naInt, 1, 2, naInt, 5]

example : Sortable C37_x.length (.vec (.atom .int) C37_x) := by
  refine ⟨rfl, ?_⟩
  unfold IsInt
  decide

example : C37_run (vecRank 1 (.vec (.atom .int) C37_x) .min false exAsc exLargest true exTl exStatic) =
    some [2, 5, 1, 2, 5, 4] := by decide +kernel
example : C37_run (vecRank 1 (.vec (.atom .int) C37_x) .max false exAsc exLargest true exTl exStatic) =
    some [3, 6, 1, 3, 6, 4] := by decide +kernel
example : C37_run (vecRank 1 (.vec (.atom .int) C37_x) .dense false exAsc exLargest true exTl exStatic) =
    some [2, 4, 1, 2, 4, 3] := by decide +kernel
example : C37_run (vecRank 1 (.vec (.atom .int) C37_x) .sequential false exAsc exLargest true exTl
    exStatic) = some [2, 5, 1, 3, 6, 4] := by decide +kernel
example : C37_run (vecRank 1 (.vec (.atom .int) C37_x) .dense true exDesc exLargest true exTl exStatic) =
    some [2, naInt, 3, 2, naInt, 1] := by decide +kernel

/-- A data frame with an incomplete row. -/
example : C37_run (vecRank 4 C36_x .sequential true exAsc exSmallest true exTl exStatic) =
    some [3, naInt, 2, 1, 4, naInt] := by decide +kernel

/-- A data frame that cannot be ordered (C34) cannot be ranked. -/
theorem C37_out_of_bounds : (∀ p ∈ leaves C34_three, Sortable 6 p) ∧
    vecRank 10 C34_three .min false exAsc exSmallest true exTl exStatic = .error .ub := by
  refine ⟨C34_out_of_bounds.1, ?_⟩
  unfold vecRank rankAll
  rw [if_neg (by simp), C34_out_of_bounds.2]
  rfl

end Vctrs
