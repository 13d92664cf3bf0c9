import Verif.Lemmas.ListMatch
import Verif.Props.C30
import Verif.Props.C50
import Verif.Props.C51
import Verif.Props.C07

/-!
# C97: lists are ordered and matched by where their elements are first seen
-/

namespace Vctrs

open Spec

variable {α : Type} {ops : PolyOps α} {missing : α → Bool}

theorem Proxies.get {z x : List α} {p : List Int} (h : Proxies ops missing z x p) {i : Nat} {a : α} {v : Int}
    (ha : x[i]? = some a) (hv : p[i]? = some v) : StandsFor ops missing z a v := by
  obtain ⟨w, h1, h2⟩ := h.cell i a ha
  rw [hv] at h1
  cases h1
  exact h2

theorem Proxies.back {z x : List α} {p : List Int} (h : Proxies ops missing z x p) {i : Nat} {v : Int}
    (hv : p[i]? = some v) : ∃ a, x[i]? = some a ∧ StandsFor ops missing z a v := by
  have hi : i < x.length := by
    rw [← h.length]
    exact (List.getElem?_eq_some_iff.1 hv).1
  have ha := List.getElem?_eq_getElem hi
  exact ⟨_, ha, h.get ha hv⟩

theorem Proxies.isInt {z x : List α} {p : List Int} (h : Proxies ops missing z x p) (hz : z.length ≤ intMax) :
    ∀ v ∈ p, IsInt v := by
  intro v hv
  obtain ⟨i, hi⟩ := List.mem_iff_getElem?.1 hv
  obtain ⟨a, _, h1⟩ := h.back hi
  exact standsFor_isInt hz h1

/-- `vec_order()` of a list: elements come in the order in which the first ones equal to them are in the list, `NULL`
first or last; equal elements keep their order. -/
theorem C97_order (he : EqvHash ops) (x : List α) (hn : x.length ≤ intMax) (direction naValue : Name)
    (desc naLargest : Bool) (hd : IsDirection direction desc) (hna : IsNaValue naValue naLargest)
    (nanDistinct : Bool) (tl : TL) (h0 : ∀ u, 0 ≤ tl u) :
    ∃ o : List Int, listOrder ops missing x [direction] [naValue] nanDistinct tl (List.replicate 100001 0) =
        .ok (o, tl, List.replicate 100001 0) ∧
      StableOrder (fun i j => ∃ a b, x[i]? = some a ∧ x[j]? = some b ∧
        ListBefore ops.eq missing desc naLargest x a b) x.length o := by
  obtain ⟨p, h1, h2, h3⟩ := listProxyOrder_ok (missing := missing) he x hn
  have hp : Proxies ops missing x x p := ⟨h2, h3⟩
  obtain ⟨o, h4, h5⟩ := C30_order_only p (hp.isInt hn) (by rw [h2]; exact hn) direction naValue desc naLargest hd hna
    nanDistinct tl h0 1
  refine ⟨o, ?_, ?_⟩
  · unfold listOrder
    rw [h1, ok_bind]
    exact h4
  · have hrel : (fun (i j : Nat) => ∃ u v : Int, p[i]? = some u ∧ p[j]? = some v ∧
        Before desc naLargest nanDistinct .int u v) = (fun i j => ∃ a b, x[i]? = some a ∧ x[j]? = some b ∧
        ListBefore ops.eq missing desc naLargest x a b) := by
      funext i j
      apply propext
      have step : ∀ {a b : α} {u v : Int}, StandsFor ops missing x a u → StandsFor ops missing x b v →
          (Before desc naLargest nanDistinct .int u v ↔ ListBefore ops.eq missing desc naLargest x a b) := by
        intro a b u v ha hb
        unfold Before ListBefore
        cases desc
        · exact standsFor_smaller he ha hb naLargest nanDistinct
        · exact standsFor_smaller he hb ha naLargest nanDistinct
      constructor
      · rintro ⟨u, v, hu, hv, h⟩
        obtain ⟨a, ha, ha'⟩ := hp.back hu
        obtain ⟨b, hb, hb'⟩ := hp.back hv
        exact ⟨a, b, ha, hb, (step ha' hb').1 h⟩
      · rintro ⟨a, b, ha, hb, h⟩
        obtain ⟨u, hu, ha'⟩ := hp.cell i a ha
        obtain ⟨v, hv, hb'⟩ := hp.cell j b hb
        exact ⟨u, v, hu, hv, (step ha' hb').2 h⟩
    rw [hrel, h2] at h5
    exact h5

/-- Elements that are tied are equal, or both `NULL`. -/
theorem C97_ties (he : EqvHash ops) (hm : ∀ a b, ops.eq a b = true → missing a = missing b) (naLargest : Bool)
    (z : List α) (a b : α) (ha : a ∈ z) (hb : b ∈ z) :
    (¬ ListSmaller ops.eq missing naLargest z a b ∧ ¬ ListSmaller ops.eq missing naLargest z b a) ↔
      ops.eq a b = true ∨ (missing a = true ∧ missing b = true) := by
  obtain ⟨j, hj⟩ := firstEq_exists he ha
  obtain ⟨k, hk⟩ := firstEq_exists he hb
  unfold ListSmaller NaSmaller
  rw [seenBefore_iff he hj hk, seenBefore_iff he hk hj, ← firstEq_same he hj hk]
  cases h1 : missing a <;> cases h2 : missing b
  · simp
    omega
  · have : j ≠ k := by
      intro h
      have := hm _ _ ((firstEq_same he hj hk).1 h)
      rw [h1, h2] at this
      cases this
    cases naLargest <;> simp [this]
  · have : j ≠ k := by
      intro h
      have := hm _ _ ((firstEq_same he hj hk).1 h)
      rw [h1, h2] at this
      cases this
    cases naLargest <;> simp [this]
  · simp

/-- `vec_joint_xtfrm()` on lists: the ranks are integers other than `NA` and compare as the elements do, within each
of the lists and across them. -/
theorem C97_joint (he : EqvHash ops) (x y : List α) (hn : x.length + y.length ≤ intMax) (nanDistinct : Bool) (tl : TL)
    (h0 : ∀ u, 0 ≤ tl u) :
    ∃ p q : List Int, listJointXtfrm ops missing 1 x y nanDistinct tl (List.replicate 100001 0) =
        .ok ((p, q), tl, List.replicate 100001 0) ∧
      p.length = x.length ∧ q.length = y.length ∧
      (∀ v, v ∈ p ∨ v ∈ q → IsInt v ∧ v ≠ naInt) ∧
      (∀ (i j : Nat) (u v : Int) (a b : α), p[i]? = some u → p[j]? = some v → x[i]? = some a → x[j]? = some b →
        (u < v ↔ ListSmaller ops.eq missing false (x ++ y) a b)) ∧
      (∀ (i j : Nat) (u v : Int) (a b : α), p[i]? = some u → q[j]? = some v → x[i]? = some a → y[j]? = some b →
        (u < v ↔ ListSmaller ops.eq missing false (x ++ y) a b) ∧
          (v < u ↔ ListSmaller ops.eq missing false (x ++ y) b a)) ∧
      (∀ (i j : Nat) (u v : Int) (a b : α), q[i]? = some u → q[j]? = some v → y[i]? = some a → y[j]? = some b →
        (u < v ↔ ListSmaller ops.eq missing false (x ++ y) a b)) := by
  obtain ⟨⟨xp, yp⟩, h1, hx, hy⟩ := jointProxyLists_ok (missing := missing) he x y hn
  dsimp only at hx hy
  have hz : (x ++ y).length ≤ intMax := by simpa using hn
  have lx := hx.length
  have ly := hy.length
  obtain ⟨p, q, h2, h3, h4, h5, h6, h7, h8⟩ := C51_vector .int xp yp ⟨rfl, hx.isInt hz⟩ ⟨rfl, hy.isInt hz⟩
    (Nat.le_trans (Nat.le_of_eq lx) (by omega)) (Nat.le_trans (Nat.le_of_eq ly) (by omega)) nanDistinct tl h0
  refine ⟨p, q, ?_, h3.trans lx, h4.trans ly, h5, ?_, ?_, ?_⟩
  · unfold listJointXtfrm
    rw [h1, ok_bind]
    exact h2
  · intro i j u v a b hu hv ha hb
    obtain ⟨s, hs, hs'⟩ := hx.cell i a ha
    obtain ⟨t, ht, ht'⟩ := hx.cell j b hb
    rw [h6 i j u v s t hu hv hs ht]
    exact standsFor_smaller he hs' ht' false nanDistinct
  · intro i j u v a b hu hv ha hb
    obtain ⟨s, hs, hs'⟩ := hx.cell i a ha
    obtain ⟨t, ht, ht'⟩ := hy.cell j b hb
    rw [(h7 i j u v s t hu hv hs ht).1, (h7 i j u v s t hu hv hs ht).2]
    exact ⟨standsFor_smaller he hs' ht' false nanDistinct, standsFor_smaller he ht' hs' false nanDistinct⟩
  · intro i j u v a b hu hv ha hb
    obtain ⟨s, hs, hs'⟩ := hy.cell i a ha
    obtain ⟨t, ht, ht'⟩ := hy.cell j b hb
    rw [h8 i j u v s t hu hv hs ht]
    exact standsFor_smaller he hs' ht' false nanDistinct

/-! ## Matching -/

/-- The query on the integers that stand for the elements. -/
def listQueryOn (L : ListQuery α) (nanDistinct : Bool) (p q : List Int) : Query :=
  ⟨.vec (.atom .int) p, .vec (.atom .int) q, [L.condition], [L.filter], L.incomplete, L.multiple, nanDistinct⟩

theorem rowSmaller_int (nanDistinct : Bool) (u v : Int) :
    RowSmaller nanDistinct [.int] (u, ()) (v, ()) ↔ Smaller false nanDistinct .int u v :=
  ⟨fun h => h.resolve_right fun h => h.2, .inl⟩

theorem listSmaller_present {z : List α} {a b : α} (naLargest : Bool) (ha : missing a = false) (hb : missing b = false) :
    ListSmaller ops.eq missing naLargest z a b ↔ SeenBefore ops.eq z a b := by
  unfold ListSmaller NaSmaller
  simp [ha, hb]

theorem standsFor_compares (he : EqvHash ops) {z : List α} {a b : α} {u v : Int}
    (ha : StandsFor ops missing z a u) (hb : StandsFor ops missing z b v) (h1 : missing a = false)
    (h2 : missing b = false) (nanDistinct : Bool) (op : MOp) :
    Compares nanDistinct op [.int] (u, ()) (v, ()) ↔ ListCompares ops.eq z op a b := by
  have ab := (rowSmaller_int nanDistinct u v).trans (standsFor_smaller he ha hb false nanDistinct)
  have ba := (rowSmaller_int nanDistinct v u).trans (standsFor_smaller he hb ha false nanDistinct)
  rw [listSmaller_present false h1 h2] at ab
  rw [listSmaller_present false h2 h1] at ba
  have ja : ∃ j, IsFirstEq ops.eq z a j := by
    rcases ha with ⟨h, _⟩ | ⟨_, j, _, _, h⟩
    · rw [h1] at h; cases h
    · exact ⟨j, h⟩
  have jb : ∃ j, IsFirstEq ops.eq z b j := by
    rcases hb with ⟨h, _⟩ | ⟨_, j, _, _, h⟩
    · rw [h2] at h; cases h
    · exact ⟨j, h⟩
  obtain ⟨j, hj⟩ := ja
  obtain ⟨k, hk⟩ := jb
  unfold Compares ListCompares
  cases op <;> simp only [ab, ba, seenBefore_iff he hj hk, seenBefore_iff he hk hj, ← firstEq_same he hj hk] <;> omega

theorem someMissing_int {z : List α} {a : α} {u : Int} (ha : StandsFor ops missing z a u) :
    SomeMissing [.int] (u, ()) ↔ missing a = true := by
  rw [← standsFor_missing ha]
  exact ⟨fun h => h.resolve_right fun h => h, .inl⟩

theorem standsFor_cell (he : EqvHash ops) {z : List α} {a b : α} {u v : Int} (ha : StandsFor ops missing z a u)
    (hb : StandsFor ops missing z b v) (nanDistinct : Bool) (incomplete : MIncomplete) (op : MOp) :
    CellMatches nanDistinct incomplete op [.int] (u, ()) (v, ()) ↔
      ((missing a = false ∧ missing b = false ∧ ListCompares ops.eq z op a b) ∨
      (missing a = true ∧ missing b = true ∧ (incomplete = .exact ∨
        (incomplete = .compare ∧ (op = .eq ∨ op = .gte ∨ op = .lte))))) := by
  unfold CellMatches
  rw [someMissing_int ha, someMissing_int hb]
  cases h1 : missing a <;> cases h2 : missing b
  · simp [standsFor_compares he ha hb h1 h2]
  · simp
  · simp
  · have hu := (standsFor_missing ha).2 h1
    have hv := (standsFor_missing hb).2 h2
    subst hu hv
    have hc : Compares nanDistinct .eq [.int] (naInt, ()) (naInt, ()) := by
      refine ⟨fun h => ?_, fun h => ?_⟩ <;>
      · have := (rowSmaller_int nanDistinct naInt naInt).1 h
        simp [Smaller, NaSmaller] at this
    simp [hc]

variable {L : ListQuery α} {p q : List Int} {nanDistinct : Bool}

theorem columnRow_int {us : List Int} {r : Nat} {v : Int} (h : us[r]? = some v) :
    ColumnRow (.vec (.atom .int) us) 0 [.int] r (v, ()) := ⟨_, rfl, us, [], rfl, h, rfl⟩

theorem listRowMatches (he : EqvHash ops) (hp : Proxies ops missing L.seen L.needles p)
    (hq : Proxies ops missing L.seen L.haystack q) {r k : Nat} (hr : r < L.needles.length)
    (hk : k < L.haystack.length) :
    RowMatches (listQueryOn L nanDistinct p q) r k ↔ ListMatches ops.eq missing L r k := by
  have ha := List.getElem?_eq_getElem hr
  have hb := List.getElem?_eq_getElem hk
  obtain ⟨u, hu, hu'⟩ := hp.cell r _ ha
  obtain ⟨v, hv, hv'⟩ := hq.cell k _ hb
  constructor
  · intro h
    exact ⟨_, _, ha, hb, (standsFor_cell he hu' hv' nanDistinct _ _).1
      (h 0 [.int] (u, ()) (v, ()) L.condition (columnRow_int hu) (columnRow_int hv) rfl)⟩
  · rintro ⟨a, b, ha1, hb1, h⟩
    rw [ha] at ha1
    rw [hb] at hb1
    cases ha1
    cases hb1
    intro c ts a' b' op h1 h2 h3
    match c, h1, h2, h3 with
    | 0, h1, h2, h3 =>
      cases h3
      obtain ⟨col, e1, e2⟩ := h1
      cases e1
      obtain ⟨col', e1, e3⟩ := h2
      cases e1
      have key : ∀ (ts : List ATy) (a' : Row ts), HasRow ts (leaves (.vec (.atom .int) p)) r a' →
          ∀ b' : Row ts, HasRow ts (leaves (.vec (.atom .int) q)) k b' →
          CellMatches nanDistinct L.incomplete L.condition ts a' b' := by
        refine row_vec (P := fun ts a' => ∀ b' : Row ts, HasRow ts (leaves (.vec (.atom .int) q)) k b' →
          CellMatches nanDistinct L.incomplete L.condition ts a' b') ?_
        intro w hw b' hb'
        have hw : p[r]? = some w := hw
        rw [hu] at hw
        cases hw
        obtain ⟨xs, qs, e, g1, _⟩ := hb'
        cases e
        obtain ⟨b1, b2⟩ := b'
        have g1 : q[k]? = some b1 := g1
        rw [hv] at g1
        cases g1
        exact (standsFor_cell he hu' hv' nanDistinct _ _).2 h
      exact key ts a' e2 b' e3
    | c + 1, _, _, h3 => cases h3

theorem listFlagged_iff (hp : Proxies ops missing L.seen L.needles p) {r : Nat} (hr : r < L.needles.length) :
    Flagged (listQueryOn L nanDistinct p q) r ↔ ListFlagged missing L r := by
  have ha := List.getElem?_eq_getElem hr
  obtain ⟨u, hu, hu'⟩ := hp.cell r _ ha
  refine and_congr Iff.rfl ⟨?_, ?_⟩
  · rintro ⟨c, ts, a, h1, h2⟩
    refine ⟨_, ha, ?_⟩
    match c, h1 with
    | 0, h1 =>
      refine columnRow_vec (P := fun ts a => SomeMissing ts a → missing L.needles[r] = true) (t := .int) (us := p) rfl
        ?_ h1 h2
      intro v hv h
      have hv : p[r]? = some v := hv
      rw [hu] at hv
      cases hv
      exact (someMissing_int hu').1 h
    | c + 1, ⟨_, h1, _⟩ => cases h1
  · rintro ⟨a, h1, h2⟩
    rw [ha] at h1
    cases h1
    exact ⟨0, [.int], (u, ()), columnRow_int hu, (someMissing_int hu').2 h2⟩

theorem listMatches_lt {r k : Nat} (h : ListMatches ops.eq missing L r k) : k < L.haystack.length := by
  obtain ⟨a, b, _, h, _⟩ := h
  exact (List.getElem?_eq_some_iff.1 h).1

theorem listPreferred_iff (he : EqvHash ops) {b b' : α} {v v' : Int} (hb : StandsFor ops missing L.seen b v)
    (hb' : StandsFor ops missing L.seen b' v') :
    Preferred nanDistinct L.filter [.int] (v', ()) (v, ()) ↔ ListPreferred ops.eq missing L b' b := by
  unfold Preferred ListPreferred
  cases L.filter with
  | all => exact Iff.rfl
  | min => exact (rowSmaller_int _ _ _).trans (standsFor_smaller he hb' hb false nanDistinct)
  | max => exact (rowSmaller_int _ _ _).trans (standsFor_smaller he hb hb' false nanDistinct)

theorem listSelected_iff (he : EqvHash ops) (hp : Proxies ops missing L.seen L.needles p)
    (hq : Proxies ops missing L.seen L.haystack q) {r k : Nat} (hr : r < L.needles.length)
    (hk : k < L.haystack.length) :
    Selected (listQueryOn L nanDistinct p q) r k ↔ ListSelected ops.eq missing L r k := by
  refine and_congr (listRowMatches he hp hq hr hk) ⟨?_, ?_⟩
  · intro h k' b b' hm hb hb' hpre
    have hk' := listMatches_lt hm
    obtain ⟨v, hv, hv1⟩ := hq.cell k b hb
    obtain ⟨v', hv', hv1'⟩ := hq.cell k' b' hb'
    refine h k' ?_ ((listRowMatches he hp hq hr hk').2 hm) 0 [.int] (v, ()) (v', ()) L.filter rfl
      (columnRow_int hv) (columnRow_int hv') ((listPreferred_iff he hv1 hv1').2 hpre)
    show k' < q.length
    rw [hq.length]
    exact hk'
  · intro h k' hk1 hm c ts b b' f hf h1 h2 hpre
    have hk' : k' < L.haystack.length := by
      rw [← hq.length]
      exact hk1
    match c, hf, h1, h2 with
    | 0, hf, h1, h2 =>
      cases hf
      obtain ⟨col, e1, e2⟩ := h1
      cases e1
      obtain ⟨col', e1, e3⟩ := h2
      cases e1
      have key : ∀ (ts : List ATy) (b : Row ts), HasRow ts (leaves (.vec (.atom .int) q)) k b →
          ∀ b' : Row ts, HasRow ts (leaves (.vec (.atom .int) q)) k' b' →
          ¬ Preferred nanDistinct L.filter ts b' b := by
        refine row_vec (P := fun ts b => ∀ b' : Row ts, HasRow ts (leaves (.vec (.atom .int) q)) k' b' →
          ¬ Preferred nanDistinct L.filter ts b' b) ?_
        intro w hw b' hb'
        obtain ⟨xs, qs, e, g1, _⟩ := hb'
        cases e
        obtain ⟨b1, b2⟩ := b'
        obtain ⟨c, hc, hc'⟩ := hq.back hw
        obtain ⟨d, hd, hd'⟩ := hq.back g1
        intro hpre
        exact h k' c d ((listRowMatches he hp hq hr hk').1 hm) hc hd ((listPreferred_iff he hc' hd').1 hpre)
      exact key ts b e2 b' e3 hpre
    | c + 1, hf, _, _ => cases hf

theorem listOutcome_iff (he : EqvHash ops) (hp : Proxies ops missing L.seen L.needles p)
    (hq : Proxies ops missing L.seen L.haystack q) {r : Nat} (hr : r < L.needles.length) {out : Outcome}
    (h : IsOutcome (listQueryOn L nanDistinct p q) r out) : ListOutcome ops.eq missing L r out := by
  have hsize : (listQueryOn L nanDistinct p q).haystack.size = L.haystack.length := hq.length
  cases out with
  | incomplete => exact (listFlagged_iff hp hr).1 h
  | unmatched =>
    refine ⟨fun hf => h.1 ((listFlagged_iff hp hr).2 hf), fun k hm => ?_⟩
    have hk := listMatches_lt hm
    exact h.2 k (by rw [hsize]; exact hk) ((listRowMatches he hp hq hr hk).2 hm)
  | rows R =>
    obtain ⟨h1, S, h2, ⟨h3, h4⟩, h5⟩ := h
    refine ⟨fun hf => h1 ((listFlagged_iff hp hr).2 hf), S, h2, h3, fun k => ?_, h5⟩
    rw [h4 k, hsize]
    constructor
    · rintro ⟨hk, hs⟩
      exact (listSelected_iff he hp hq hr hk).1 hs
    · intro hs
      have hk := listMatches_lt hs.1
      exact ⟨hk, (listSelected_iff he hp hq hr hk).2 hs⟩

theorem listDetectComplete_eq {z x : List α} (hp : Proxies ops missing z x p) :
    listDetectComplete missing x = rDetectComplete (.vec (.atom .int) p) := by
  have h1 := detectCompleteLoop_ok missing x (List.replicate x.length true) x.length rfl (fun _ => true)
    (by simp [List.map_const'])
  have h2 := detectCompleteLoop_ok (missingScalar (.atom .int)) p (List.replicate p.length true) p.length rfl
    (fun _ => true) (by simp [List.map_const'])
  obtain ⟨r, h1, rfl⟩ := h1
  obtain ⟨s, h2, rfl⟩ := h2
  unfold rDetectComplete
  rw [proxyVal_ok, ok_bind]
  show _ = vecDetectComplete (.vec (.atom .int) p)
  unfold listDetectComplete vecDetectComplete
  dsimp only
  refine h1.trans (Eq.trans ?_ h2.symm)
  rw [hp.length]
  congr 1
  refine List.map_congr_left fun i hi => ?_
  have hi := List.mem_range.1 hi
  have ha := List.getElem?_eq_getElem hi
  obtain ⟨v, hv, hv'⟩ := hp.cell i _ ha
  have hs : missing x[i] = missingScalar (.atom .int) v := by
    have h3 := standsFor_missing hv'
    show missing x[i] = decide (v = naInt)
    cases hm : missing x[i]
    · rw [hm] at h3
      exact (decide_eq_false (fun h => by simpa using h3.1 h)).symm
    · rw [hm] at h3
      exact (decide_eq_true (h3.2 rfl)).symm
  have e1 : (x[i]?).any missing = missing x[i] := by rw [ha]; rfl
  have e2 : Option.any (missingScalar (.atom .int)) p[i]? = missingScalar (.atom .int) v :=
    congrArg (Option.any (missingScalar (.atom .int))) hv
  rw [e1, hs]
  exact congrArg (fun b => true && !b) e2.symm

/-- Matching lists is matching the integers that stand for the elements. -/
theorem listLocateMatches_eq (fuel : Nat) (L : ListQuery α) (condition filter : List Name) (noMatch remaining : MUnmatched)
    (relationship : MRelationship) (tl : TL) (static : List Nat)
    (h : jointProxyLists ops missing L.needles L.haystack = .ok (p, q))
    (hp : Proxies ops missing L.seen L.needles p) (hq : Proxies ops missing L.seen L.haystack q) :
    listLocateMatches ops missing fuel L.needles L.haystack condition filter L.incomplete noMatch remaining L.multiple
        relationship nanDistinct tl static =
      vecLocateMatches fuel (.vec (.atom .int) p) (.vec (.atom .int) q) condition filter L.incomplete noMatch remaining
        L.multiple relationship nanDistinct tl static := by
  unfold listLocateMatches vecLocateMatches listJointXtfrm
  rw [h, listDetectComplete_eq hp, listDetectComplete_eq hq]
  simp only [matchColumns, ok_bind, List.length_cons, List.length_nil, detectCompleteCols, jointXtfrmCols, bind_assoc]
  have e1 : (Val.vec (.atom .int) p).size = L.needles.length := hp.length
  have e2 : (Val.vec (.atom .int) q).size = L.haystack.length := hq.length
  rw [e1, e2]
  rfl

/-- `vec_locate_matches()` on lists reports for every needle the selected rows of the haystack, and needles that are
`NULL` as incomplete.  This is if no `NULL` is to be reported, or the condition is not `==`, or `NULL` is reported as
an element without a match; see `C50_incomplete_pruned`. -/
theorem C97_locate_matches (he : EqvHash ops) (L : ListQuery α)
    (hn : L.needles.length + L.haystack.length ≤ intMax) (noMatch remaining : MUnmatched)
    (relationship : MRelationship) (nanDistinct : Bool) (hi : ∀ v, L.incomplete = .value v → IsInt v)
    (hu : ∀ v, noMatch = .value v → IsInt v)
    (hc : (∀ r, ¬ ListFlagged missing L r) ∨ L.condition ≠ .eq ∨ SameReport L.incomplete noMatch) (tl : TL)
    (h0 : ∀ u, 0 ≤ tl u) (fuel : Nat) (hf : 2 ≤ fuel) :
    ∃ outs : Nat → Outcome, (∀ r, r < L.needles.length → ListOutcome ops.eq missing L r (outs r)) ∧
      ((∃ res : Matches, listLocateMatches ops missing fuel L.needles L.haystack [conditionName L.condition]
            [filterName L.filter] L.incomplete noMatch remaining L.multiple relationship nanDistinct tl
            (List.replicate 100001 0) = .ok (res, tl, List.replicate 100001 0) ∧
          res.needles = (needlePairs L.incomplete noMatch outs L.needles.length ++
            remainingPairs remaining outs L.needles.length L.haystack.length).map (·.1) ∧
          res.haystack = (needlePairs L.incomplete noMatch outs L.needles.length ++
            remainingPairs remaining outs L.needles.length L.haystack.length).map (·.2) ∧
          (res.warned = true ↔ Warned L.multiple relationship outs L.needles.length) ∧
          ¬ Rejected L.incomplete noMatch remaining L.multiple relationship outs L.needles.length
            L.haystack.length) ∨
        (listLocateMatches ops missing fuel L.needles L.haystack [conditionName L.condition] [filterName L.filter]
            L.incomplete noMatch remaining L.multiple relationship nanDistinct tl (List.replicate 100001 0) =
            .error .abort ∧
          Rejected L.incomplete noMatch remaining L.multiple relationship outs L.needles.length
            L.haystack.length)) := by
  obtain ⟨⟨p, q⟩, h1, hp, hq⟩ := jointProxyLists_ok (missing := missing) he L.needles L.haystack hn
  have hp : Proxies ops missing L.seen L.needles p := hp
  have hq : Proxies ops missing L.seen L.haystack q := hq
  have hz : L.seen.length ≤ intMax := by
    unfold ListQuery.seen
    simpa using hn
  have e1 : (listQueryOn L nanDistinct p q).needles.size = L.needles.length := hp.length
  have e2 : (listQueryOn L nanDistinct p q).haystack.size = L.haystack.length := hq.length
  have before : EqBeforeLast (listQueryOn L nanDistinct p q) := by
    intro c op h
    simp [listQueryOn] at h
  have call : MatchCall (listQueryOn L nanDistinct p q) [[.int]] [conditionName L.condition] [filterName L.filter]
      noMatch := by
    refine ⟨C50_vec_ok (hp.isInt hz), C50_vec_ok (hq.isInt hz), rfl, by simp, C50_complex (by decide), ?_,
      by rw [e1]; omega, by rw [e2]; omega, .inl ⟨_, rfl, rfl⟩, .inl ⟨_, rfl, rfl⟩, .inr before, hi, hu,
      fun _ => .inl before⟩
    intro c op h _
    match c, h with
    | 0, _ => exact ⟨missingFirst_vec rfl, missingFirst_vec rfl⟩
    | c + 1, h => cases h
  have main : ∃ outs : Nat → Outcome,
      (∀ r, r < (listQueryOn L nanDistinct p q).needles.size → IsOutcome (listQueryOn L nanDistinct p q) r (outs r)) ∧
      MatchOk (listQueryOn L nanDistinct p q) [conditionName L.condition] [filterName L.filter] noMatch remaining
        relationship outs tl fuel := by
    rcases hc with hc | hc | hc
    · refine C50_locate_matches _ _ _ _ _ _ _ call (.inl fun r hr h => ?_) tl h0 fuel (by simpa using hf) (by simp; omega)
      exact hc r ((listFlagged_iff hp (by omega)).1 h)
    · refine C50_locate_matches _ _ _ _ _ _ _ call (.inr fun h => ?_) tl h0 fuel (by simpa using hf) (by simp; omega)
      simp [listQueryOn] at h
      exact hc h.symm
    · exact C50_same_report _ _ _ _ _ _ _ call hc tl h0 fuel (by simpa using hf) (by simp; omega)
  obtain ⟨outs, h2, h3⟩ := main
  refine ⟨outs, fun r hr => listOutcome_iff he hp hq hr (h2 r (by omega)), ?_⟩
  rw [listLocateMatches_eq fuel L _ _ noMatch remaining relationship tl _ h1 hp hq]
  unfold MatchOk MatchResult at h3
  rw [e1, e2] at h3
  exact h3

/-- More elements than fit are an error. -/
theorem C97_too_many (x y : List α) (hn : intMax < x.length + y.length) (fuel : Nat) (nanDistinct : Bool) (tl : TL)
    (static : List Nat) : listJointXtfrm ops missing fuel x y nanDistinct tl static = .error .abort := by
  unfold listJointXtfrm jointProxyLists
  rw [if_pos hn]
  rfl

example : intMax < (List.replicate intMax (3 : Nat)).length + [7].length := by simp

example : EqvHash exOps10 ∧ ∀ a b, exOps10.eq a b = true → (a % 10 == 0) = (b % 10 == 0) := by
  refine ⟨exOps10_eqv, ?_⟩
  intro a b h
  simp only [exOps10, beq_iff_eq] at h
  rw [h]

/-- The order alone. -/
def C97_run (r : C (List Int × TL × List Nat)) : Option (List Int) :=
  match r with
  | .ok (o, _, _) => some o
  | .error _ => none

example : C97_run (listOrder exOps10 (fun a => a % 10 == 0) [7, 0, 3, 17, 10, 13, 5] exAsc exSmallest true exTl
    exStatic) = some [2, 5, 1, 4, 3, 6, 7] := by decide +kernel

example : C97_run (listOrder exOps10 (fun a => a % 10 == 0) [7, 0, 3, 17, 10, 13, 5] exDesc exSmallest true exTl
    exStatic) = some [7, 3, 6, 1, 4, 2, 5] := by decide +kernel

example : C51_run (listJointXtfrm exOps10 (fun a => a % 10 == 0) 1 [7, 0, 3] [13, 17, 10, 5] true exTl exStatic) =
    some ([naInt + 2, naInt + 1, naInt + 3], [naInt + 3, naInt + 2, naInt + 1, naInt + 4]) := by decide +kernel

/-- Equal elements are sought, `NULL` like others. -/
def C97_query : ListQuery Nat := ⟨[7, 0, 3, 8], [13, 17, 10, 3], .eq, .all, .compare, .all⟩

example : C97_query.needles.length + C97_query.haystack.length ≤ intMax ∧
    ∀ r, ¬ ListFlagged (fun a => a % 10 == 0) C97_query r :=
  ⟨by decide, fun r h => h.1.1 rfl⟩

example : C50_run (listLocateMatches exOps10 (fun a => a % 10 == 0) 2 [7, 0, 3, 8] [13, 17, 10, 3]
    [some ['=', '=']] [some ['n', 'o', 'n', 'e']] .compare (.value naInt) .drop .all .none true exTl exStatic) =
    some ([1, 2, 3, 3, 4], [2, 3, 1, 4, naInt], false) := by decide +kernel

example : C50_run (listLocateMatches exOps10 (fun a => a % 10 == 0) 2 [7, 0, 3, 8] [13, 17, 10, 3]
    [some ['>']] [some ['m', 'a', 'x']] (.value 9) (.value 0) .drop .all .none true exTl exStatic) =
    some ([1, 2, 3, 4, 4], [0, 9, 2, 1, 4], false) := by decide +kernel

end Vctrs
