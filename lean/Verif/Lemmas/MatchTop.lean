import Verif.Lemmas.MatchDf
import Verif.Props.C29
import Verif.Props.C51

/-!
# Matching of vectors and data frames
-/

namespace Vctrs

open Spec

/-! ## Missing elements are the smallest -/

theorem dblSmaller_missing (nd : Bool) {a b : Dbl} (ha : IsNaN a) (hb : ¬ IsNaN b) :
    DblSmaller false nd a b := .inl (.inr (.inr ⟨rfl, ha, hb⟩))

theorem cplPart_missing {x y : Dbl} (h : IsNaN x ∨ IsNaN y) : IsNaN (cplPart x y) := by
  unfold cplPart
  split
  · assumption
  · split
    · assumption
    · rename_i h1 h2
      exact absurd h (by simp only [h1, h2, or_self, not_false_eq_true])

theorem cplPart_complete {x y : Dbl} (h : ¬ (IsNaN x ∨ IsNaN y)) : ¬ IsNaN (cplPart x y) := by
  unfold cplPart
  have h1 : ¬ IsNaN x := fun e => h (.inl e)
  have h2 : ¬ IsNaN y := fun e => h (.inr e)
  rw [if_neg h1, if_neg h2]
  exact h1

theorem missing_smaller (nd : Bool) : (t : ATy) → (a b : t.El) → MissingAtom t a →
    ¬ MissingAtom t b → Smaller false nd t a b
  | .lgl, _, _, ha, hb => .inr (.inr ⟨rfl, ha, hb⟩)
  | .int, _, _, ha, hb => .inr (.inr ⟨rfl, ha, hb⟩)
  | .dbl, _, _, ha, hb => dblSmaller_missing nd ha hb
  | .cpl, _, _, ha, hb => .inl (dblSmaller_missing nd (cplPart_missing ha) (cplPart_complete hb))
  | .chr, _, _, ha, hb => .inr (.inr ⟨rfl, ha, hb⟩)
  | .raw, _, _, ha, _ => absurd ha (fun h => h)

/-! ## Thresholds -/

/-- If missing values have smaller ranks, a threshold tells them from the others. -/
theorem threshold_exists : ∀ (L : List (Int × Prop)),
    (∀ x ∈ L, ∀ y ∈ L, x.2 → ¬ y.2 → x.1 < y.1) → ∃ T : Int, ∀ x ∈ L, (T ≤ x.1 ↔ ¬ x.2)
  | [], _ => ⟨0, fun x hx => by cases hx⟩
  | a :: L, h => by
    obtain ⟨T, hT⟩ := threshold_exists L fun x hx y hy =>
      h x (List.mem_cons_of_mem _ hx) y (List.mem_cons_of_mem _ hy)
    by_cases ha : a.2
    · refine ⟨max T (a.1 + 1), fun x hx => ?_⟩
      rcases List.mem_cons.1 hx with rfl | hx
      · exact ⟨fun h => by omega, fun h => absurd ha h⟩
      · constructor
        · intro h1
          exact (hT x hx).1 (by omega)
        · intro h1
          have h2 := (hT x hx).2 h1
          have h3 := h a List.mem_cons_self x (List.mem_cons_of_mem _ hx) ha h1
          omega
    · refine ⟨min T a.1, fun x hx => ?_⟩
      rcases List.mem_cons.1 hx with rfl | hx
      · exact ⟨fun _ => ha, fun _ => by omega⟩
      · constructor
        · intro h1 h2
          have h3 := h x (List.mem_cons_of_mem _ hx) a List.mem_cons_self h2 ha
          have h4 := mt (hT x hx).1 (fun h => h h2)
          omega
        · intro h1
          have := (hT x hx).2 h1
          omega

/-! ## Incomplete rows -/

theorem tied_missing (nd : Bool) : {ts : List ATy} → {a b : Row ts} → ¬ RowSmaller nd ts a b →
    ¬ RowSmaller nd ts b a → SomeMissing ts a → SomeMissing ts b
  | [], _, _, _, _, h => h
  | t :: _, (a, r), (b, s), h1, h2, h => by
    have e1 : ¬ Smaller false nd t a b := fun e => h1 (.inl e)
    have e2 : ¬ Smaller false nd t b a := fun e => h2 (.inl e)
    rcases h with h | h
    · by_cases hb : MissingAtom t b
      · exact .inl hb
      · exact absurd (missing_smaller nd t a b h hb) e1
    · exact .inr (tied_missing nd (fun e => h1 (.inr ⟨e2, e⟩)) (fun e => h2 (.inr ⟨e1, e⟩)) h)

theorem firstMissing_smaller (nd : Bool) : {ts : List ATy} → {a b : Row ts} → FirstMissing ts a →
    ¬ SomeMissing ts b → RowSmaller nd ts a b
  | [], _, _, h, _ => h
  | t :: _, (a, _), (b, _), h, hb => .inl (missing_smaller nd t a b h fun e => hb (.inl e))

theorem noneMissing_cell : {ts : List ATy} → {ps : List Val} → {i : Nat} → {a : Row ts} →
    HasRow ts ps i a → (noneMissing ps i = true ↔ ¬ SomeMissing ts a)
  | [], ps, _, _, h => by
    have e : ps = [] := h
    subst e
    exact ⟨fun _ h => h, fun _ => rfl⟩
  | t :: ts, _, i, (a, r), ⟨xs, qs, e, ha, hr⟩ => by
    subst e
    have ih := noneMissing_cell hr
    have h1 : cellMissing (.vec (.atom t) xs) i = true ↔ MissingAtom t a := by
      rw [cellMissing_iff]
      constructor
      · rintro ⟨b, hb, hm⟩
        have e : a = b := Option.some.inj (ha.symm.trans hb)
        subst e
        exact hm
      · exact fun hm => ⟨a, ha, hm⟩
    unfold noneMissing at ih ⊢
    rw [List.all_cons, Bool.and_eq_true, ih, Bool.not_eq_true', ← Bool.not_eq_true, h1]
    show _ ↔ ¬ (_ ∨ _)
    rw [not_or]

theorem row_types_eq : {ts us : List ATy} → {ps : List Val} → {i : Nat} → {a : Row us} →
    HasTypes ts ps → HasRow us ps i a → us = ts
  | [], [], _, _, _, _, _ => rfl
  | [], _ :: _, _, _, _, h, ⟨_, _, e, _⟩ => by
    rw [show _ = [] from h] at e
    cases e
  | _ :: _, [], _, _, _, ⟨_, _, e, _⟩, h => by
    rw [show _ = [] from h] at e
    cases e
  | _ :: _, _ :: _, _, _, (_, _), ⟨_, _, e, h⟩, ⟨_, _, e', _, h'⟩ => by
    rw [e] at e'
    cases e'
    rw [row_types_eq h h']

/-- The joint ranks of two columns, and which of these are of complete rows. -/
structure JointCol (nd : Bool) (ts : List ATy) (x y : Val) (n m : Nat) (p q : List Int) (K : Int → Bool) :
    Prop where
  boundsX : IsBounds ts n x
  boundsY : IsBounds ts m y
  lenP : p.length = n
  lenQ : q.length = m
  isInt : ∀ v, v ∈ p ∨ v ∈ q → IsInt v
  lt : RanksCompare nd ts x y p q
  gt : RanksCompare nd ts y x q p
  ltQ : RanksCompare nd ts y y q q
  missP : ∀ (i : Nat) (a : Int) (u : Row ts), p[i]? = some a → HasRow ts (leaves x) i u →
    (K a = true ↔ ¬ SomeMissing ts u)
  missQ : ∀ (i : Nat) (a : Int) (u : Row ts), q[i]? = some a → HasRow ts (leaves y) i u →
    (K a = true ↔ ¬ SomeMissing ts u)

/-- Incomplete rows of a column begin with a missing element. -/
def LeadMissing (ts : List ATy) (x : Val) : Prop :=
  ∀ (i : Nat) (u : Row ts), HasRow ts (leaves x) i u → SomeMissing ts u → FirstMissing ts u

theorem bounds_row {ts : List ATy} {n : Nat} {x : Val} (h : IsBounds ts n x) {i : Nat} (hi : i < n) :
    ∃ r, HasRow ts (leaves x) i r :=
  HasTypes.row h.types (fun p hp => sized_of_sortable (h.sortable p hp)) hi

theorem jointCol_ok {ts : List ATy} {n m : Nat} {x y : Val} (hx : IsBounds ts n x)
    (hy : IsBounds ts m y) (ht : SameType x y) (hn : n ≤ intMax) (hm : m ≤ intMax)
    (hc : ∀ i : Nat, 0 < i → ts[i]? ≠ some .cpl) (nd : Bool) {tl : TL} (h0 : ∀ u, 0 ≤ tl u)
    {fuel : Nat} (hf : ts.length ≤ fuel) :
    ∃ (p q : List Int) (K : Int → Bool), vecJointXtfrm fuel x y nd tl (List.replicate 100001 0) =
        .ok ((p, q), tl, List.replicate 100001 0) ∧ JointCol nd ts x y n m p q K ∧
      (LeadMissing ts x → LeadMissing ts y → ∀ a b, a ≤ b → K a = true → K b = true) := by
  obtain ⟨p, q, h1, h2, h3, h4, h5, h6, h7, h8⟩ := joint_ok hx hy ht hn hm hc nd h0 hf
  classical
  let L : List (Int × Prop) :=
    (List.range n).map (fun i => (p.getD i 0, ∃ u, HasRow ts (leaves x) i u ∧ SomeMissing ts u)) ++
    (List.range m).map (fun i => (q.getD i 0, ∃ u, HasRow ts (leaves y) i u ∧ SomeMissing ts u))
  have inX : ∀ {i : Nat} {a : Int} {u : Row ts}, p[i]? = some a → HasRow ts (leaves x) i u →
      (a, SomeMissing ts u) ∈ L := by
    intro i a u ha hu
    refine List.mem_append_left _ (List.mem_map.2 ⟨i, List.mem_range.2 ?_, ?_⟩)
    · rw [← h2]; exact (List.getElem?_eq_some_iff.1 ha).1
    · rw [List.getD_eq_getElem?_getD, ha]
      refine Prod.ext rfl (propext ⟨?_, fun h => ⟨u, hu, h⟩⟩)
      rintro ⟨v, hv, h⟩
      rwa [hasRow_unique hu hv]
  have inY : ∀ {i : Nat} {a : Int} {u : Row ts}, q[i]? = some a → HasRow ts (leaves y) i u →
      (a, SomeMissing ts u) ∈ L := by
    intro i a u ha hu
    refine List.mem_append_right _ (List.mem_map.2 ⟨i, List.mem_range.2 ?_, ?_⟩)
    · rw [← h3]; exact (List.getElem?_eq_some_iff.1 ha).1
    · rw [List.getD_eq_getElem?_getD, ha]
      refine Prod.ext rfl (propext ⟨?_, fun h => ⟨u, hu, h⟩⟩)
      rintro ⟨v, hv, h⟩
      rwa [hasRow_unique hu hv]
  have split : ∀ z ∈ L, ∃ (i : Nat) (u : Row ts), z.2 = SomeMissing ts u ∧
      ((p[i]? = some z.1 ∧ HasRow ts (leaves x) i u) ∨ (q[i]? = some z.1 ∧ HasRow ts (leaves y) i u)) := by
    intro z hz
    rcases List.mem_append.1 hz with hz | hz
    · obtain ⟨i, hi, rfl⟩ := List.mem_map.1 hz
      rw [List.mem_range] at hi
      obtain ⟨u, hu⟩ := bounds_row hx hi
      refine ⟨i, u, propext ⟨?_, fun h => ⟨u, hu, h⟩⟩, .inl ⟨?_, hu⟩⟩
      · rintro ⟨v, hv, h⟩
        rwa [hasRow_unique hu hv]
      · have := List.getElem?_eq_getElem (l := p) (i := i) (by omega)
        rw [this, List.getD_eq_getElem?_getD, this]
        rfl
    · obtain ⟨i, hi, rfl⟩ := List.mem_map.1 hz
      rw [List.mem_range] at hi
      obtain ⟨u, hu⟩ := bounds_row hy hi
      refine ⟨i, u, propext ⟨?_, fun h => ⟨u, hu, h⟩⟩, .inr ⟨?_, hu⟩⟩
      · rintro ⟨v, hv, h⟩
        rwa [hasRow_unique hu hv]
      · have := List.getElem?_eq_getElem (l := q) (i := i) (by omega)
        rw [this, List.getD_eq_getElem?_getD, this]
        rfl
  have compare : ∀ z ∈ L, ∀ w ∈ L, ∃ u v : Row ts, z.2 = SomeMissing ts u ∧ w.2 = SomeMissing ts v ∧
      (z.1 < w.1 ↔ RowSmaller nd ts u v) ∧ (w.1 < z.1 ↔ RowSmaller nd ts v u) ∧
      (LeadMissing ts x → LeadMissing ts y → SomeMissing ts u → FirstMissing ts u) := by
    intro z hz w hw
    obtain ⟨i, u, e1, e2⟩ := split z hz
    obtain ⟨j, v, d1, d2⟩ := split w hw
    refine ⟨u, v, e1, d1, ?_, ?_, fun l1 l2 h => ?_⟩
    · rcases e2 with ⟨a, b⟩ | ⟨a, b⟩ <;> rcases d2 with ⟨c, d⟩ | ⟨c, d⟩
      · exact h5 i j _ _ u v a c b d
      · exact h6 i j _ _ u v a c b d
      · exact h7 i j _ _ u v a c b d
      · exact h8 i j _ _ u v a c b d
    · rcases e2 with ⟨a, b⟩ | ⟨a, b⟩ <;> rcases d2 with ⟨c, d⟩ | ⟨c, d⟩
      · exact h5 j i _ _ v u c a d b
      · exact h7 j i _ _ v u c a d b
      · exact h6 j i _ _ v u c a d b
      · exact h8 j i _ _ v u c a d b
    · rcases e2 with ⟨_, b⟩ | ⟨_, b⟩
      · exact l1 i u b h
      · exact l2 i u b h
  have finish : ∀ K : Int → Bool, (∀ z ∈ L, (K z.1 = true ↔ ¬ z.2)) → JointCol nd ts x y n m p q K :=
    fun K hK => ⟨hx, hy, h2, h3, fun v hv => (h4 v hv).1, h6, h7, h8,
      fun i a u ha hu => hK _ (inX ha hu), fun i a u ha hu => hK _ (inY ha hu)⟩
  by_cases hl : LeadMissing ts x ∧ LeadMissing ts y
  · obtain ⟨T, hT⟩ := threshold_exists L (by
      intro z hz w hw m1 m2
      obtain ⟨u, v, e1, e2, e3, _, e5⟩ := compare z hz w hw
      rw [e1] at m1
      rw [e2] at m2
      exact e3.2 (firstMissing_smaller nd (e5 hl.1 hl.2 m1) m2))
    refine ⟨p, q, fun a => decide (T ≤ a), h1, finish _ fun z hz => ?_, fun _ _ a b hab ha => ?_⟩
    · rw [decide_eq_true_iff]; exact hT z hz
    · rw [decide_eq_true_iff] at ha ⊢; omega
  · refine ⟨p, q, fun a => decide (∃ z ∈ L, z.1 = a ∧ ¬ z.2), h1, finish _ fun z hz => ?_,
      fun l1 l2 => absurd ⟨l1, l2⟩ hl⟩
    rw [decide_eq_true_iff]
    constructor
    · rintro ⟨w, hw, e, hm⟩ hz'
      obtain ⟨u, v, e1, e2, e3, e4, _⟩ := compare z hz w hw
      rw [e1] at hz'
      rw [e2] at hm
      exact hm (tied_missing nd (fun h => by have := e3.2 h; omega) (fun h => by have := e4.2 h; omega) hz')
    · exact fun h => ⟨z, hz, rfl, h⟩

/-- A condition on ranks is the condition on the rows. -/
theorem cellHit_iff {nd : Bool} {inc : MIncomplete} {op : MOp} {ts : List ATy} {K : Int → Bool} {a b : Int}
    {u v : Row ts} (hup : op ≠ .eq → ∀ a b, a ≤ b → K a = true → K b = true)
    (hlt : a < b ↔ RowSmaller nd ts u v) (hgt : b < a ↔ RowSmaller nd ts v u)
    (hu : K a = true ↔ ¬ SomeMissing ts u) (hv : K b = true ↔ ¬ SomeMissing ts v) :
    CellHit op inc K a b ↔ CellMatches nd inc op ts u v := by
  have hu' : K a = false ↔ SomeMissing ts u := by
    rw [← Bool.not_eq_true, hu, Classical.not_not]
  have hv' : K b = false ↔ SomeMissing ts v := by
    rw [← Bool.not_eq_true, hv, Classical.not_not]
  unfold CellHit CellMatches Compares
  dsimp only
  rw [← hu, ← hv, ← hu', ← hv', ← hlt, ← hgt]
  have same : b = a ↔ ¬ a < b ∧ ¬ b < a := by omega
  have key : (K a = true ∧ (match (generalizing := false) op with
      | .eq => b = a
      | .gt => K b = true ∧ b < a
      | .gte => K b = true ∧ b ≤ a
      | .lt => a < b
      | .lte => a ≤ b)) ↔ (K a = true ∧ K b = true ∧ (match (generalizing := false) op with
      | .eq => ¬ a < b ∧ ¬ b < a
      | .gt => b < a
      | .gte => ¬ a < b
      | .lt => a < b
      | .lte => ¬ b < a)) := by
    refine and_congr_right fun hk => ?_
    cases op with
    | eq =>
      dsimp only
      rw [← same]
      exact ⟨fun e => ⟨by rw [e]; exact hk, e⟩, fun h => h.2⟩
    | gt => exact Iff.rfl
    | gte =>
      dsimp only
      rw [Int.not_lt]
    | lt => exact ⟨fun h => ⟨hup (by simp) a b (by omega) hk, h⟩, fun h => h.2⟩
    | lte =>
      dsimp only
      rw [Int.not_lt]
      exact ⟨fun h => ⟨hup (by simp) a b h hk, h⟩, fun h => h.2⟩
  refine or_congr key ?_
  rw [← same]
  refine and_congr_right fun hk => ?_
  exact ⟨fun h => ⟨by rw [h.1]; exact hk, h⟩, fun h => h.2⟩

/-! ## Columns -/

/-- What is known of column `c`. -/
def ColumnOk (nd : Bool) (n m : Nat) (xs ys : List Val) (p q : List (List Int)) (K : List (Int → Bool))
    (c : Nat) (ts : List ATy) : Prop :=
  ∃ (x y : Val) (pc qc : List Int) (Kc : Int → Bool), xs[c]? = some x ∧ ys[c]? = some y ∧
    p[c]? = some pc ∧ q[c]? = some qc ∧ K[c]? = some Kc ∧ JointCol nd ts x y n m pc qc Kc ∧
    (LeadMissing ts x → LeadMissing ts y → ∀ a b, a ≤ b → Kc a = true → Kc b = true)

theorem jointCols_ok (nd : Bool) {n m : Nat} (hn : n ≤ intMax) (hm : m ≤ intMax) {tl : TL}
    (h0 : ∀ u, 0 ≤ tl u) {fuel : Nat} : ∀ (tss : List (List ATy)) (xs ys : List Val),
    HasColumns n tss xs → HasColumns m tss ys → emptiedAll xs = emptiedAll ys →
    (∀ ts ∈ tss, ∀ i : Nat, 0 < i → ts[i]? ≠ some .cpl) → (∀ ts ∈ tss, ts.length ≤ fuel) →
    ∃ (p q : List (List Int)) (K : List (Int → Bool)),
      jointXtfrmCols fuel nd xs ys tl (List.replicate 100001 0) =
        .ok ((p, q), tl, List.replicate 100001 0) ∧ p.length = tss.length ∧ q.length = tss.length ∧
      ∀ (c : Nat) (ts : List ATy), tss[c]? = some ts → ColumnOk nd n m xs ys p q K c ts
  | [], xs, ys, hx, hy, _, _, _ => by
    have e1 : xs = [] := hx
    have e2 : ys = [] := hy
    subst e1 e2
    exact ⟨[], [], [], rfl, rfl, rfl, fun c t h => by simp at h⟩
  | ts :: tss, xs, ys, ⟨x, xs', e1, bx, hx⟩, ⟨y, ys', e2, by', hy⟩, ht, hc, hf => by
    subst e1 e2
    have ht' : emptied x :: emptiedAll xs' = emptied y :: emptiedAll ys' := ht
    rw [List.cons.injEq] at ht'
    obtain ⟨p, q, K, h1, h2, h3⟩ := jointCol_ok bx by' ht'.1 hn hm (hc ts List.mem_cons_self) nd h0
      (hf ts List.mem_cons_self)
    obtain ⟨ps, qs, Ks, g1, g2, g3, g4⟩ := jointCols_ok nd hn hm h0 (fuel := fuel) tss xs' ys' hx hy ht'.2
      (fun t h => hc t (List.mem_cons_of_mem _ h)) (fun t h => hf t (List.mem_cons_of_mem _ h))
    refine ⟨p :: ps, q :: qs, K :: Ks, ?_, by simp [g2], by simp [g3], ?_⟩
    · unfold jointXtfrmCols
      rw [h1, ok_bind]
      dsimp only
      rw [g1, ok_bind]
    · intro c u hc
      cases c with
      | zero =>
        rw [List.getElem?_cons_zero, Option.some_inj] at hc
        subst hc
        exact ⟨x, y, p, q, K, rfl, rfl, rfl, rfl, rfl, h2, h3⟩
      | succ c =>
        rw [List.getElem?_cons_succ] at hc
        exact g4 c u hc

theorem hasColumns_length {n : Nat} : ∀ {tss : List (List ATy)} {ps : List Val}, HasColumns n tss ps →
    ps.length = tss.length
  | [], _, h => by rw [show _ = [] from h]; rfl
  | _ :: _, _, ⟨_, _, e, _, h⟩ => by rw [e, List.length_cons, List.length_cons, hasColumns_length h]

theorem hasColumns_sized {n : Nat} : ∀ {tss : List (List ATy)} {ps : List Val}, HasColumns n tss ps →
    ∀ p ∈ ps, Sized n p
  | [], _, h, p, hp => by
    rw [show _ = [] from h] at hp
    cases hp
  | _ :: _, _, ⟨_, _, e, hb, h⟩, p, hp => by
    rw [e] at hp
    rcases List.mem_cons.1 hp with rfl | hp
    · exact hb.sized
    · exact hasColumns_sized h p hp

theorem detectCompleteCols_ok {n : Nat} : ∀ (xs : List Val), (∀ p ∈ xs, Sized n p) →
    detectCompleteCols xs = .ok (xs.map (fun x => (List.range n).map (noneMissing (leaves x))))
  | [], _ => rfl
  | x :: xs, h => by
    have h1 := h x List.mem_cons_self
    unfold detectCompleteCols rDetectComplete
    rw [proxyVal_ok, ok_bind, h1.size, vecDetectComplete_pack n _ (sized_leaves x h1), ok_bind,
      detectCompleteCols_ok xs fun p hp => h p (List.mem_cons_of_mem _ hp), ok_bind]
    rfl

/-! ## Arguments -/

theorem mapM_names {α : Type} {one : Name → C α} {name : α → Name} (h : ∀ v, one (name v) = .ok v) :
    ∀ vs : List α, (vs.map name).mapM one = .ok vs
  | [] => rfl
  | v :: vs => by
    rw [List.map_cons, List.mapM_cons, h v, ok_bind, mapM_names h vs, ok_bind]
    rfl

theorem parseByColumn_ok {α : Type} {one : Name → C α} {name : α → Name}
    (h : ∀ v, one (name v) = .ok v) {arg : List Name} {n : Nat} {vs : List α}
    (ha : ArgGives name arg n vs) : parseByColumn one arg n = .ok vs := by
  rcases ha with ⟨v, rfl, rfl⟩ | ⟨rfl, hl⟩
  · unfold parseByColumn
    dsimp only
    rw [h v, ok_bind]
  · match vs, hl with
    | [], hl => 
      subst hl
      rfl
    | [v], hl =>
      subst hl
      show (one (name v) >>= fun a => _) = _
      rw [h v, ok_bind]
      rfl
    | v :: w :: vs, hl =>
      unfold parseByColumn
      simp only [List.map_cons]
      rw [if_pos (by simpa using hl)]
      exact mapM_names h (v :: w :: vs)

theorem mapM_not_names {α : Type} {one : Name → C α} {name : α → Name}
    (h : ∀ s, (∃ v, s = name v ∧ one s = .ok v) ∨ ((∀ v, s ≠ name v) ∧ one s = .error .abort)) :
    ∀ arg : List Name, (¬ ∃ vs : List α, arg = vs.map name) → arg.mapM one = .error .abort
  | [], hn => absurd ⟨[], rfl⟩ hn
  | s :: arg, hn => by
    rw [List.mapM_cons]
    rcases h s with ⟨v, rfl, e⟩ | ⟨_, e⟩
    · rw [e, ok_bind, mapM_not_names h arg (by
        rintro ⟨vs, rfl⟩
        exact hn ⟨v :: vs, rfl⟩)]
      rfl
    · rw [e]
      rfl

theorem parseByColumn_bad {α : Type} {one : Name → C α} {name : α → Name}
    (h : ∀ s, (∃ v, s = name v ∧ one s = .ok v) ∨ ((∀ v, s ≠ name v) ∧ one s = .error .abort))
    {arg : List Name} {n : Nat} (hn : ¬ ∃ vs : List α, ArgGives name arg n vs) :
    parseByColumn one arg n = .error .abort := by
  match arg with
  | [] =>
    unfold parseByColumn
    dsimp only
    split
    · rename_i e
      exact absurd ⟨[], .inr ⟨rfl, e⟩⟩ hn
    · rfl
  | [s] =>
    unfold parseByColumn
    dsimp only
    rcases h s with ⟨v, rfl, _⟩ | ⟨_, e⟩
    · exact absurd ⟨_, .inl ⟨v, rfl, rfl⟩⟩ hn
    · rw [e]
      rfl
  | s :: u :: arg =>
    unfold parseByColumn
    dsimp only
    split
    · rename_i e
      refine mapM_not_names h _ ?_
      rintro ⟨vs, hv⟩
      exact hn ⟨vs, .inr ⟨hv, by rw [← e, hv, List.length_map]⟩⟩
    · rfl

theorem parseCondition_cases (s : Name) : (∃ op, s = conditionName op ∧ parseConditionOne s = .ok op) ∨
    ((∀ op, s ≠ conditionName op) ∧ parseConditionOne s = .error .abort) := by
  by_cases h : ∃ op, s = conditionName op
  · obtain ⟨op, rfl⟩ := h
    exact .inl ⟨op, rfl, by cases op <;> rfl⟩
  · have hn : ∀ op, s ≠ conditionName op := fun op e => h ⟨op, e⟩
    refine .inr ⟨hn, ?_⟩
    unfold parseConditionOne
    exact (if_neg (hn .eq)).trans ((if_neg (hn .gt)).trans ((if_neg (hn .gte)).trans
      ((if_neg (hn .lt)).trans (if_neg (hn .lte)))))

theorem parseFilter_cases (s : Name) : (∃ f, s = filterName f ∧ parseFilterOne s = .ok f) ∨
    ((∀ f, s ≠ filterName f) ∧ parseFilterOne s = .error .abort) := by
  by_cases h : ∃ f, s = filterName f
  · obtain ⟨f, rfl⟩ := h
    exact .inl ⟨f, rfl, by cases f <;> rfl⟩
  · have hn : ∀ f, s ≠ filterName f := fun f e => h ⟨f, e⟩
    refine .inr ⟨hn, ?_⟩
    unfold parseFilterOne
    exact (if_neg (hn .all)).trans ((if_neg (hn .min)).trans (if_neg (hn .max)))

theorem parseCondition_name (op : MOp) : parseConditionOne (conditionName op) = .ok op := by
  cases op <;> rfl

theorem parseFilter_name (f : MFilter) : parseFilterOne (filterName f) = .ok f := by
  cases f <;> rfl

theorem argGives_length {α : Type} {name : α → Name} {arg : List Name} {n : Nat} {vs : List α}
    (ha : ArgGives name arg n vs) : vs.length = n := by
  rcases ha with ⟨v, rfl, rfl⟩ | ⟨rfl, hl⟩
  · simp
  · exact hl

/-! ## Ranks and elements -/

/-- Column `c` in ranks is column `c` in rows. -/
structure ColView (Q : Query) (A : RankArgs) (c : Nat) (ts : List ATy) (op : MOp) (f : MFilter) :
    Prop where
  needles : ∀ us r (a : Row us), ColumnRow Q.needles c us r a → us = ts
  haystack : ∀ us r (a : Row us), ColumnRow Q.haystack c us r a → us = ts
  rowN : ∀ r, r < A.n → ∃ u, ColumnRow Q.needles c ts r u
  rowH : ∀ r, r < A.m → ∃ u, ColumnRow Q.haystack c ts r u
  cond : Q.conditions[c]? = some op
  opEq : A.op c = op
  filt : Q.filters[c]? = some f
  flEq : A.fl c = f
  hit : ∀ r k u v, r < A.n → k < A.m → ColumnRow Q.needles c ts r u → ColumnRow Q.haystack c ts k v →
    (CellHit op A.inc (A.K c) (A.XN c r) (A.XH c k) ↔ CellMatches Q.nanDistinct Q.incomplete op ts u v)
  best : ∀ k k' v v', k < A.m → k' < A.m → ColumnRow Q.haystack c ts k v → ColumnRow Q.haystack c ts k' v' →
    (FilterLe f (A.XH c k) (A.XH c k') ↔ ¬ Preferred Q.nanDistinct f ts v' v)
  missN : ∀ r u, r < A.n → ColumnRow Q.needles c ts r u → (A.K c (A.XN c r) = true ↔ ¬ SomeMissing ts u)
  missH : ∀ r u, r < A.m → ColumnRow Q.haystack c ts r u → (A.K c (A.XH c r) = true ↔ ¬ SomeMissing ts u)
  up : op ≠ .eq → ∀ a b, a ≤ b → A.K c a = true → A.K c b = true

/-- The ranks `A` are those of the query. -/
structure QueryView (Q : Query) (A : RankArgs) : Prop where
  cols : ∀ c, c < A.nc → ∃ ts op f, ColView Q A c ts op f
  len : (topColumns Q.needles).length = A.nc
  lenH : (topColumns Q.haystack).length = A.nc
  pos : 0 < A.nc
  inc : A.inc = Q.incomplete
  mu : A.mu = Q.multiple
  sizeN : Q.needles.size = A.n
  sizeH : Q.haystack.size = A.m
  filters : (∀ c, c < A.nc → A.fl c = .all) ∨ ∀ c, c + 1 < A.nc → A.op c = .eq

theorem columnRow_lt {x : Val} {c : Nat} {ts : List ATy} {r : Nat} {a : Row ts} (h : ColumnRow x c ts r a) :
    c < (topColumns x).length := by
  obtain ⟨col, h, _⟩ := h
  exact (List.getElem?_eq_some_iff.1 h).1

theorem QueryView.rowMatches {Q : Query} {A : RankArgs} (h : QueryView Q A) {r k : Nat} (hr : r < A.n)
    (hk : k < A.m) : RankHit A r k ↔ RowMatches Q r k := by
  constructor
  · intro hit c ts a b op e1 e2 e3
    have hc : c < A.nc := by rw [← h.len]; exact columnRow_lt e1
    obtain ⟨ts', op', f', hv⟩ := h.cols c hc
    have d1 := hv.needles ts r a e1
    have d3 := hv.cond
    rw [e3] at d3
    cases d3
    subst d1
    have := hit c hc
    rw [hv.opEq] at this
    exact (hv.hit r k a b hr hk e1 e2).1 this
  · intro hit c hc
    obtain ⟨ts, op, f, hv⟩ := h.cols c hc
    obtain ⟨u, hu⟩ := hv.rowN r hr
    obtain ⟨v, hv'⟩ := hv.rowH k hk
    rw [hv.opEq]
    exact (hv.hit r k _ _ hr hk hu hv').2 (hit c ts _ _ op hu hv' hv.cond)

theorem QueryView.selected {Q : Query} {A : RankArgs} (h : QueryView Q A) {r k : Nat} (hr : r < A.n)
    (hk : k < A.m) : RankBest A r k ↔ Selected Q r k := by
  have hpos := h.pos
  constructor
  · rintro ⟨h1, h2⟩
    refine ⟨(h.rowMatches hr hk).1 h1, fun k' hk' hm c ts b b' f e2 e3 e4 => ?_⟩
    rw [h.sizeH] at hk'
    have hm' := (h.rowMatches hr hk').2 hm
    have hc : c < A.nc := by rw [← h.lenH]; exact columnRow_lt e3
    obtain ⟨ts', op', f', hv⟩ := h.cols c hc
    have d1 := hv.haystack ts k b e3
    have d2 := hv.filt
    rw [e2] at d2
    cases d2
    subst d1
    rw [← hv.best k k' b b' hk hk' e3 e4]
    by_cases hlast : c = A.nc - 1
    · subst hlast
      have := h2 k' hk' hm'
      rw [hv.flEq] at this
      exact this
    · rcases h.filters with hf | hf
      · have := hf c hc
        rw [hv.flEq] at this
        rw [this]
        trivial
      · have e1 := h1 c hc
        have e2 := hm' c hc
        rw [hf c (by omega)] at e1 e2
        rw [cellHit_eq e1, cellHit_eq e2]
        cases f
        · trivial
        · exact Int.le_refl _
        · exact Int.le_refl _
  · rintro ⟨h1, h2⟩
    refine ⟨(h.rowMatches hr hk).2 h1, fun k' hk' hm => ?_⟩
    obtain ⟨ts, op, f, hv⟩ := h.cols (A.nc - 1) (by omega)
    obtain ⟨v, e1⟩ := hv.rowH k hk
    obtain ⟨v', e2⟩ := hv.rowH k' hk'
    rw [hv.flEq, hv.best k k' _ _ hk hk' e1 e2]
    exact h2 k' (by rw [h.sizeH]; exact hk') ((h.rowMatches hr hk').1 hm) _ ts _ _ f hv.filt e1 e2

theorem QueryView.flagged {Q : Query} {A : RankArgs} (h : QueryView Q A) {r : Nat} (hr : r < A.n) :
    RankLacks A r ↔ Flagged Q r := by
  have hsig : A.inc.signals = true ↔ Q.incomplete ≠ .compare ∧ Q.incomplete ≠ .exact := by
    rw [h.inc]
    cases Q.incomplete <;> simp [MIncomplete.signals]
  unfold RankLacks Flagged
  rw [hsig]
  refine and_congr Iff.rfl ?_
  constructor
  · rintro ⟨c, hc, hm⟩
    obtain ⟨ts, op, f, hv⟩ := h.cols c hc
    obtain ⟨u, hu⟩ := hv.rowN r hr
    refine ⟨c, ts, u, hu, Classical.byContradiction fun hn => ?_⟩
    rw [(hv.missN r u hr hu).2 hn] at hm
    cases hm
  · rintro ⟨c, ts, a, e1, e3⟩
    have hc : c < A.nc := by rw [← h.len]; exact columnRow_lt e1
    obtain ⟨ts', op', f', hv⟩ := h.cols c hc
    have d1 := hv.needles ts r a e1
    subst d1
    refine ⟨c, hc, ?_⟩
    rw [← Bool.not_eq_true]
    exact fun hn => (hv.missN r a hr e1).1 hn e3

theorem QueryView.rows {Q : Query} {A : RankArgs} (h : QueryView Q A) {r : Nat} (hr : r < A.n)
    (S : List Nat) : RankRows A r S ↔ SelectedRows Q r S := by
  unfold RankRows SelectedRows
  rw [h.sizeH]
  refine and_congr Iff.rfl (forall_congr' fun k => iff_congr Iff.rfl ?_)
  exact and_congr_right fun hk => h.selected hr hk

/-- What is known of the outcome for a needle. -/
theorem QueryView.outcome {Q : Query} {A : RankArgs} (h : QueryView Q A) {r : Nat} (hr : r < A.n)
    {o : Outcome} (ho : RankOut A r o) :
    IsOutcome Q r o ∨ (o = .unmatched ∧ Flagged Q r ∧ .eq ∈ Q.conditions) := by
  cases o with
  | incomplete => exact .inl ((h.flagged hr).1 ho)
  | unmatched =>
    rcases ho with ⟨h1, d, d1, d2⟩ | ⟨h1, h2⟩
    · obtain ⟨ts, op, f, hv⟩ := h.cols d d1
      refine .inr ⟨rfl, (h.flagged hr).1 h1, ?_⟩
      rw [← d2, hv.opEq]
      exact List.mem_of_getElem? hv.cond
    · refine .inl ⟨fun hf => h1 ((h.flagged hr).2 hf), fun k hk hm => ?_⟩
      rw [h.sizeH] at hk
      exact h2 k hk ((h.rowMatches hr hk).2 hm)
  | rows R =>
    obtain ⟨h1, S, s1, s2, s3⟩ := ho
    rw [h.mu] at s3
    exact .inl ⟨fun hf => h1 ((h.flagged hr).2 hf), S, s1, (h.rows hr S).1 s2, s3⟩

theorem list_eq_range {α : Type} (l : List α) (d : α) {n : Nat} (h : l.length = n) :
    l = (List.range n).map (fun i => l.getD i d) := by
  subst h
  refine List.ext_getElem? fun i => ?_
  rw [List.getElem?_map]
  by_cases hi : i < l.length
  · rw [List.getElem?_range hi, Option.map_some, List.getD_eq_getElem?_getD,
      List.getElem?_eq_getElem hi]
    rfl
  · rw [List.getElem?_eq_none (by omega), List.getElem?_eq_none (by simp; omega)]
    rfl

theorem getD_of_getElem? {α : Type} {l : List α} {i : Nat} {a d : α} (h : l[i]? = some a) :
    l.getD i d = a := by
  rw [List.getD_eq_getElem?_getD, h]
  rfl

/-- The ranks, which of them are of complete rows, and options. -/
def rankArgs (Q : Query) (n m : Nat) (p q : List (List Int)) (K : List (Int → Bool)) : RankArgs :=
  ⟨p.length, n, m, fun c r => (p.getD c []).getD r 0, fun c r => (q.getD c []).getD r 0,
    fun c => K.getD c (fun _ => true), fun c => Q.conditions.getD c .eq, fun c => Q.filters.getD c .all,
    Q.incomplete, Q.multiple⟩

theorem colView_ok {Q : Query} {n m : Nat} {p q : List (List Int)} {K : List (Int → Bool)} {c : Nat}
    {ts : List ATy}
    (h : ColumnOk Q.nanDistinct n m (topColumns Q.needles) (topColumns Q.haystack) p q K c ts)
    (hc : c < Q.conditions.length) (hf : c < Q.filters.length)
    (hl : ∀ op, Q.conditions[c]? = some op → op ≠ .eq →
      MissingFirst Q.needles c ∧ MissingFirst Q.haystack c) :
    ∃ op f, ColView Q (rankArgs Q n m p q K) c ts op f := by
  obtain ⟨x, y, pc, qc, Kc, e1, e2, e3, e4, e5, hj, hup⟩ := h
  have c1 := List.getElem?_eq_getElem hc
  have f1 := List.getElem?_eq_getElem hf
  have rowsN : ∀ {us : List ATy} {r : Nat} {a : Row us}, ColumnRow Q.needles c us r a →
      HasRow us (leaves x) r a := by
    rintro us r a ⟨col, h1, h2⟩
    rw [e1] at h1
    cases h1
    exact h2
  have rowsH : ∀ {us : List ATy} {r : Nat} {a : Row us}, ColumnRow Q.haystack c us r a →
      HasRow us (leaves y) r a := by
    rintro us r a ⟨col, h1, h2⟩
    rw [e2] at h1
    cases h1
    exact h2
  have hN : ∀ r, r < n → pc[r]? = some ((rankArgs Q n m p q K).XN c r) := by
    intro r hr
    have := List.getElem?_eq_getElem (l := pc) (i := r) (by rw [hj.lenP]; exact hr)
    rw [this]
    unfold rankArgs
    dsimp only
    rw [getD_of_getElem? e3, getD_of_getElem? this]
  have hH : ∀ r, r < m → qc[r]? = some ((rankArgs Q n m p q K).XH c r) := by
    intro r hr
    have := List.getElem?_eq_getElem (l := qc) (i := r) (by rw [hj.lenQ]; exact hr)
    rw [this]
    unfold rankArgs
    dsimp only
    rw [getD_of_getElem? e4, getD_of_getElem? this]
  have hK : (rankArgs Q n m p q K).K c = Kc := getD_of_getElem? e5
  have hup' : Q.conditions[c] ≠ .eq → ∀ a b, a ≤ b → Kc a = true → Kc b = true := by
    intro hne
    obtain ⟨l1, l2⟩ := hl _ c1 hne
    exact hup (fun i u hu hs => l1 ts i u ⟨x, e1, hu⟩ hs) (fun i u hu hs => l2 ts i u ⟨y, e2, hu⟩ hs)
  refine ⟨_, _, fun us r a h => row_types_eq hj.boundsX.types (rowsN h),
    fun us r a h => row_types_eq hj.boundsY.types (rowsH h), ?_, ?_, c1, getD_of_getElem? c1, f1,
    getD_of_getElem? f1, ?_, ?_, ?_, ?_, ?_⟩
  · intro r hr
    obtain ⟨u, hu⟩ := bounds_row hj.boundsX hr
    exact ⟨u, x, e1, hu⟩
  · intro r hr
    obtain ⟨u, hu⟩ := bounds_row hj.boundsY hr
    exact ⟨u, y, e2, hu⟩
  · intro r k u v hr hk hu hv
    rw [hK]
    exact cellHit_iff hup' (hj.lt r k _ _ u v (hN r hr) (hH k hk) (rowsN hu) (rowsH hv))
      (hj.gt k r _ _ v u (hH k hk) (hN r hr) (rowsH hv) (rowsN hu))
      (hj.missP r _ u (hN r hr) (rowsN hu)) (hj.missQ k _ v (hH k hk) (rowsH hv))
  · intro k k' v v' hk hk' hv hv'
    have l1 := hj.ltQ k k' _ _ v v' (hH k hk) (hH k' hk') (rowsH hv) (rowsH hv')
    have l2 := hj.ltQ k' k _ _ v' v (hH k' hk') (hH k hk) (rowsH hv') (rowsH hv)
    cases Q.filters[c] with
    | all => exact ⟨fun _ h => h, fun _ => trivial⟩
    | min =>
      show _ ≤ _ ↔ ¬ RowSmaller Q.nanDistinct ts v' v
      rw [← l2, Int.not_lt]
    | max =>
      show _ ≤ _ ↔ ¬ RowSmaller Q.nanDistinct ts v v'
      rw [← l1, Int.not_lt]
  · intro r u hr hu
    rw [hK]
    exact hj.missP r _ u (hN r hr) (rowsN hu)
  · intro r u hr hu
    rw [hK]
    exact hj.missQ r _ u (hH r hr) (rowsH hu)
  · rw [hK]
    exact hup'

theorem colsAre_ranks {cols : List (List Int)} {n : Nat}
    (h : ∀ (c : Nat) (v : List Int), cols[c]? = some v → v.length = n ∧ ∀ a ∈ v, IsInt a) :
    ColsAre cols n (fun c r => (cols.getD c []).getD r 0) := by
  intro c v hv
  obtain ⟨h1, h2⟩ := h c v hv
  refine ⟨?_, h2⟩
  dsimp only
  rw [getD_of_getElem? hv]
  exact list_eq_range v 0 h1

/-- The result for a query. -/
def MatchResult (Q : Query) (noMatch remaining : MUnmatched) (relationship : MRelationship)
    (outs : Nat → Outcome) (n m : Nat) (r : Matches) : Prop :=
  r.needles = (needlePairs Q.incomplete noMatch outs n ++ remainingPairs remaining outs n m).map (·.1) ∧
  r.haystack = (needlePairs Q.incomplete noMatch outs n ++ remainingPairs remaining outs n m).map (·.2) ∧
  (r.warned = true ↔ Warned Q.multiple relationship outs n) ∧
  ¬ Rejected Q.incomplete noMatch remaining Q.multiple relationship outs n m

theorem emptied_columns {x y : Val} (h : SameType x y) :
    emptiedAll (topColumns x) = emptiedAll (topColumns y) := by
  cases x <;> cases y
  · rename_i t xs u ys
    have h' : Val.vec t [] = Val.vec u [] := h
    cases h'
    rfl
  · cases h
  · cases h
  · rename_i n xs m ys
    have h' : Val.df 0 (emptiedAll xs) = Val.df 0 (emptiedAll ys) := h
    injection h'

theorem matchColumns_ok {x y : Val} (h : SameType x y) :
    matchColumns x y = .ok (topColumns x, topColumns y) := by
  cases x <;> cases y
  · rfl
  · cases h
  · cases h
  · rfl

theorem vecLocateMatches_ok {Q : Query} {tss : List (List ATy)} {n m : Nat}
    (hx : IsTable tss n Q.needles) (hy : IsTable tss m Q.haystack) (ha : SameType Q.needles Q.haystack)
    (h1 : tss ≠ []) (hcpl : ∀ ts ∈ tss, ∀ i : Nat, 0 < i → ts[i]? ≠ some .cpl)
    (hl : ∀ c op, Q.conditions[c]? = some op → op ≠ .eq →
      MissingFirst Q.needles c ∧ MissingFirst Q.haystack c)
    (hn : n ≤ intMax) (hm : m ≤ intMax) {condition filter : List Name}
    (hcond : ArgGives conditionName condition tss.length Q.conditions)
    (hfilt : ArgGives filterName filter tss.length Q.filters)
    (hf : (∀ f ∈ Q.filters, f = .all) ∨ EqBeforeLast Q)
    (hiv : ∀ v, Q.incomplete = .value v → IsInt v) {noMatch remaining : MUnmatched}
    (hnv : ∀ v, noMatch = .value v → IsInt v) (relationship : MRelationship)
    (hfew : Q.multiple = .first ∨ Q.multiple = .last → EqBeforeLast Q ∨ FewSelected Q)
    {tl : TL} (h0 : ∀ u, 0 ≤ tl u) {fuel : Nat} (hfu : tss.length + 1 ≤ fuel)
    (hfu' : ∀ ts ∈ tss, ts.length ≤ fuel) :
    ∃ outs : Nat → Outcome,
      (∀ r, r < n → IsOutcome Q r (outs r) ∨
        (outs r = .unmatched ∧ Flagged Q r ∧ .eq ∈ Q.conditions)) ∧
      RetOr (vecLocateMatches fuel Q.needles Q.haystack condition filter Q.incomplete noMatch remaining
          Q.multiple relationship Q.nanDistinct tl (List.replicate 100001 0))
        (fun r => r.2 = (tl, List.replicate 100001 0) ∧
          MatchResult Q noMatch remaining relationship outs n m r.1)
        (Fails (Rejected Q.incomplete noMatch remaining Q.multiple relationship outs n m)) := by
  obtain ⟨p, q, K, hj, hp, hq, hcols⟩ := jointCols_ok Q.nanDistinct hn hm h0 (fuel := fuel)
    tss _ _ hx.columns hy.columns (emptied_columns ha) hcpl hfu'
  have hlc := argGives_length hcond
  have hlf := argGives_length hfilt
  have hts : tss.length ≠ 0 := by
    intro h
    exact h1 (List.length_eq_zero_iff.1 h)
  have hlx := hasColumns_length hx.columns
  have hly := hasColumns_length hy.columns
  have hnc : (rankArgs Q n m p q K).nc = tss.length := hp
  have hop : ∀ c, c < tss.length → Q.conditions[c]? = some ((rankArgs Q n m p q K).op c) := by
    intro c hc
    have := List.getElem?_eq_getElem (l := Q.conditions) (i := c) (by omega)
    rw [this]
    exact congrArg some (getD_of_getElem? this).symm
  have hfl : ∀ c, c < tss.length → Q.filters[c]? = some ((rankArgs Q n m p q K).fl c) := by
    intro c hc
    have := List.getElem?_eq_getElem (l := Q.filters) (i := c) (by omega)
    rw [this]
    exact congrArg some (getD_of_getElem? this).symm
  have heqb : EqBeforeLast Q → ∀ c, c + 1 < tss.length → (rankArgs Q n m p q K).op c = .eq :=
    fun h c hc => h c _ (by omega) (hop c (by omega))
  have hV : QueryView Q (rankArgs Q n m p q K) := by
    refine ⟨?_, by rw [hlx, hnc], by rw [hly, hnc], by omega, rfl, rfl, hx.size, hy.size, ?_⟩
    · intro c hc
      rw [hnc] at hc
      obtain ⟨op, f, h⟩ := colView_ok (hcols c _ (List.getElem?_eq_getElem hc)) (by omega) (by omega) (hl c)
      exact ⟨_, op, f, h⟩
    · rw [hnc]
      rcases hf with h | h
      · exact .inl fun c hc => h _ (List.mem_of_getElem? (hfl c hc))
      · exact .inr (heqb h)
  have complete : ∀ (z : Val) (k : Nat) (X : Nat → Nat → Int),
      (∀ c, c < tss.length → ∃ ts : List ATy, ∀ r, r < k → ∃ u, ColumnRow z c ts r u ∧
        ((rankArgs Q n m p q K).K c (X c r) = true ↔ ¬ SomeMissing ts u)) →
      (topColumns z).length = tss.length →
      ∀ c, c < tss.length → ((topColumns z).map (fun x => (List.range k).map (noneMissing (leaves x))))[c]? =
        some ((List.range k).map (fun i => (rankArgs Q n m p q K).K c (X c i))) := by
    intro z k X h hz c hc
    obtain ⟨ts, e3⟩ := h c hc
    have e1 := List.getElem?_eq_getElem (l := topColumns z) (i := c) (by omega)
    rw [List.getElem?_map, e1, Option.map_some, Option.some_inj]
    refine List.map_congr_left fun i hi => ?_
    rw [List.mem_range] at hi
    obtain ⟨u, ⟨col, d1, d2⟩, d3⟩ := e3 i hi
    rw [e1] at d1
    cases d1
    rw [Bool.eq_iff_iff, noneMissing_cell d2, d3]
  have hin : RankIn (rankArgs Q n m p q K) p q
      ((topColumns Q.needles).map (fun x => (List.range n).map (noneMissing (leaves x))))
      ((topColumns Q.haystack).map (fun x => (List.range m).map (noneMissing (leaves x))))
      Q.filters Q.conditions (Q.filters.any (fun f => f != .all)) := by
    refine ⟨by omega, colsAre_ranks ?_, colsAre_ranks ?_, rfl, by omega, by omega, ?_, ?_, ?_, ?_, ?_, ?_,
      hn, hm, ?_, hiv⟩
    · intro c v hv
      have hc : c < tss.length := by rw [← hp]; exact (List.getElem?_eq_some_iff.1 hv).1
      obtain ⟨x, y, pc, qc, Kc, e1, e2, e3, e4, e5, hj, _⟩ := hcols c _ (List.getElem?_eq_getElem hc)
      rw [hv] at e3
      cases e3
      exact ⟨hj.lenP, fun a h => hj.isInt a (.inl h)⟩
    · intro c v hv
      have hc : c < tss.length := by rw [← hq]; exact (List.getElem?_eq_some_iff.1 hv).1
      obtain ⟨x, y, pc, qc, Kc, e1, e2, e3, e4, e5, hj, _⟩ := hcols c _ (List.getElem?_eq_getElem hc)
      rw [hv] at e4
      cases e4
      exact ⟨hj.lenQ, fun a h => hj.isInt a (.inr h)⟩
    · rw [hnc]
      refine complete Q.needles n _ (fun c hc => ?_) hlx
      obtain ⟨ts, op, f, hv⟩ := hV.cols c (by omega)
      refine ⟨ts, fun r hr => ?_⟩
      obtain ⟨u, hu⟩ := hv.rowN r hr
      exact ⟨u, hu, hv.missN r u hr hu⟩
    · rw [hnc]
      refine complete Q.haystack m _ (fun c hc => ?_) hly
      obtain ⟨ts, op, f, hv⟩ := hV.cols c (by omega)
      refine ⟨ts, fun r hr => ?_⟩
      obtain ⟨u, hu⟩ := hv.rowH r hr
      exact ⟨u, hu, hv.missH r u hr hu⟩
    · intro c hc hgt
      obtain ⟨ts, op, f, hv⟩ := hV.cols c hc
      refine hv.up ?_
      rw [hv.opEq] at hgt
      rintro rfl
      rcases hgt with h | h <;> cases h
    · rw [hnc]; exact hfl
    · rw [hnc]; exact hop
    · intro hany c hc
      rw [hnc] at hc
      have := List.any_eq_false.1 hany _ (List.mem_of_getElem? (hfl c hc))
      simpa using this
    · intro hany
      rw [hnc]
      rcases hf with h | h
      · exfalso
        obtain ⟨f, f1, f2⟩ := List.any_eq_true.1 hany
        rw [h f f1] at f2
        cases f2
      · exact heqb h
  obtain ⟨outs, ho, hres⟩ := dfLocateMatches_ok hin (fuel := fuel) (by omega) (noMatch := noMatch)
    (remaining := remaining) (relationship := relationship) hnv (by
      intro hmu
      rcases hfew hmu with h | ⟨S, s1, s2⟩
      · exact .inl (by rw [hnc]; exact heqb h)
      · rw [hx.size] at s1 s2
        exact .inr ⟨S, fun r hr => (hV.rows hr (S r)).2 (s1 r hr), s2⟩) h0
  refine ⟨outs, fun r hr => hV.outcome hr (ho r hr), ?_⟩
  unfold vecLocateMatches
  rw [matchColumns_ok ha, ok_bind]
  dsimp only
  rw [hlx, parseByColumn_ok parseCondition_name hcond, ok_bind, parseByColumn_ok parseFilter_name hfilt,
    ok_bind, if_neg hts, detectCompleteCols_ok _ (hasColumns_sized hx.columns), ok_bind,
    detectCompleteCols_ok _ (hasColumns_sized hy.columns), ok_bind, hj, ok_bind]
  dsimp only
  rw [hx.size, hy.size]
  exact hres

end Vctrs
