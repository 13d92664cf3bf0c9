import Verif.Lemmas.ValSlice
import Verif.Model.Rank

namespace Vctrs

open Spec

/-! ## The order of rows as an order of keys -/

/-- Rows are ordered by keys of one length. -/
theorem rowBefore_keys {nanDistinct : Bool} {n : Nat} {x : Val} (hs : ∀ p ∈ leaves x, Sortable n p)
    (ds ns : List Bool) : ∃ key : Nat → List Nat, (∀ i j, (key i).length = (key j).length) ∧
      ∀ i j, i < n → j < n →
        (RowBefore nanDistinct (sortKeys x ds ns) i j ↔ LexLt (key i) (key j)) := by
  refine ⟨fun i => keysOf (dfKeys nanDistinct ((sortKeys x ds ns).map toDfCol)) ((i : Int) + 1),
    fun i j => by simp [keysOf], fun i j hi hj => dfKeys_before _ (fun k hk => ?_) hi hj⟩
  have := sortKeys_mem_leaves hk
  exact (hs _ this).colOk

theorem rowBefore_asymm {nanDistinct : Bool} {n : Nat} {x : Val}
    (hs : ∀ p ∈ leaves x, Sortable n p) {ds ns : List Bool} {i j : Nat} (hi : i < n) (hj : j < n)
    (h : RowBefore nanDistinct (sortKeys x ds ns) i j) :
    ¬ RowBefore nanDistinct (sortKeys x ds ns) j i := by
  obtain ⟨key, _, hk⟩ := rowBefore_keys (nanDistinct := nanDistinct) hs ds ns
  rw [hk _ _ hi hj] at h
  rw [hk _ _ hj hi]
  exact fun h' => lexLt_asymm h h'

/-! ## The loops -/

theorem flatten_get {α : Type} {B : List (List α)} {g : Nat} {b : List α} (hb : B[g]? = some b)
    {j : Nat} (hj : j < b.length) :
    B.flatten[(B.take g).flatten.length + j]? = b[j]? := by
  obtain ⟨hg, rfl⟩ := List.getElem?_eq_some_iff.1 hb
  have e : B = B.take g ++ (B[g] :: B.drop (g + 1)) := by
    rw [List.cons_getElem_drop_succ, List.take_append_drop]
  have e2 : B.flatten = (B.take g).flatten ++ (B[g] ++ (B.drop (g + 1)).flatten) := by
    conv_lhs => rw [e, List.flatten_append, List.flatten_cons]
  rw [e2, List.getElem?_append_right (by omega), Nat.add_sub_cancel_left,
    List.getElem?_append_left hj]

theorem take_flatten_succ {α : Type} {B : List (List α)} {g : Nat} {b : List α}
    (hb : B[g]? = some b) : (B.take (g + 1)).flatten = (B.take g).flatten ++ b := by
  rw [List.take_add_one, hb, List.flatten_append]
  simp

theorem take_flatten_le {α : Type} (B : List (List α)) (g : Nat) :
    (B.take g).flatten.length ≤ B.flatten.length := by
  conv_rhs => rw [← List.take_append_drop g B, List.flatten_append, List.length_append]
  omega

/-- `R` is written at the first `k` of the rows `F`. -/
structure Ranked (R : Nat → Int) (n : Nat) (F : List Nat) (k : Nat) (buf : List (Option Int)) :
    Prop where
  len : buf.length = n
  val : ∀ (p r : Nat), p < k → F[p]? = some r → buf[r]? = some (some (R r))

theorem Ranked.step {R : Nat → Int} {n : Nat} {F : List Nat} {k : Nat} {buf : List (Option Int)}
    (h : Ranked R n F k buf) {r : Nat} (hr : r < n) (hk : F[k]? = some r) :
    wrI buf ((r : Int) + 1 - 1) (some (R r)) = .ok (buf.set r (some (R r))) ∧
      Ranked R n F (k + 1) (buf.set r (some (R r))) := by
  constructor
  · rw [show (r : Int) + 1 - 1 = ((r : Nat) : Int) by omega]
    exact wrI_ok (by omega) (by rw [h.len]; exact hr)
  · refine ⟨by simpa using h.len, ?_⟩
    intro p q hp hq
    rw [getElem?_set' (by rw [h.len]; exact hr)]
    by_cases e : q = r
    · subst e; simp
    · rw [if_neg e]
      refine h.val p q ?_ hq
      rcases Nat.lt_succ_iff_lt_or_eq.1 hp with h1 | h1
      · exact h1
      · subst h1
        rw [hk] at hq
        cases hq
        exact absurd rfl e

theorem rankFill_ok {R : Nat → Int} {n : Nat} {F : List Nat} (hF : ∀ r ∈ F, r < n) {k size : Nat}
    (hk : k + size ≤ F.length) {rank : Int}
    (hR : ∀ (p r : Nat), k ≤ p → p < k + size → F[p]? = some r → R r = rank)
    {buf : List (Option Int)} (h : Ranked R n F k buf) :
    Ret (rankFill (F.map (fun (i : Nat) => (i : Int) + 1)) rank size (buf, k))
      (fun s => s.2 = k + size ∧ Ranked R n F s.2 s.1) := by
  unfold rankFill
  refine Ret.forN (fun j (s : List (Option Int) × Nat) => s.2 = k + j ∧ Ranked R n F s.2 s.1)
    ⟨rfl, h⟩ ?_
  rintro j ⟨b, k'⟩ hj ⟨h1, h2⟩
  dsimp only at h1 h2 ⊢
  subst h1
  have hlt : k + j < F.length := by omega
  have hget : F[k + j]? = some F[k + j] := List.getElem?_eq_getElem hlt
  refine Ret.bind_eq (rd_of_getElem? (by rw [List.getElem?_map, hget]; rfl)) ?_
  obtain ⟨h3, h4⟩ := h2.step (hF _ (List.getElem_mem hlt)) hget
  rw [hR _ _ (by omega) (by omega) hget] at h3 h4
  refine Ret.bind_eq h3 (Ret.ok ⟨by dsimp only; omega, h4⟩)

/-- What the four loops have in common: after `g` groups, `rank` is `acc g`. -/
theorem rankLoop_ok {n : Nat} {B : List (List Nat)} (hF : ∀ r ∈ B.flatten, r < n)
    {R : Nat → Int} {f : Nat → (List (Option Int) × Nat) × Int → C ((List (Option Int) × Nat) × Int)}
    {acc : Nat → Int}
    (hf : ∀ (g : Nat) (b : List Nat) (buf : List (Option Int)), B[g]? = some b →
      Ranked R n B.flatten (B.take g).flatten.length buf →
      Ret (f g ((buf, (B.take g).flatten.length), acc g)) (fun s => s.1.2 = (B.take (g + 1)).flatten.length ∧
        s.2 = acc (g + 1) ∧ Ranked R n B.flatten (B.take (g + 1)).flatten.length s.1.1)) :
    Ret (forN B.length f ((alloc Int n, 0), acc 0)) (fun s =>
      Ranked R n B.flatten B.flatten.length s.1.1) := by
  refine (Ret.forN (fun g (s : (List (Option Int) × Nat) × Int) =>
    s.1.2 = (B.take g).flatten.length ∧ s.2 = acc g ∧
      Ranked R n B.flatten (B.take g).flatten.length s.1.1) ⟨by simp, rfl, ?_⟩ ?_).mono ?_
  · refine ⟨by simp [alloc], ?_⟩
    intro p r hp
    simp at hp
  · rintro g ⟨⟨buf, k⟩, rank⟩ hg ⟨h1, h2, h3⟩
    dsimp only at h1 h2 h3 ⊢
    subst h1 h2
    exact hf g B[g] buf (List.getElem?_eq_getElem hg) h3
  · rintro s ⟨_, _, h⟩
    rw [List.take_length] at h
    exact h

theorem rankFill_group {R : Nat → Int} {n : Nat} {B : List (List Nat)} (hF : ∀ r ∈ B.flatten, r < n)
    {g : Nat} {b : List Nat} (hb : B[g]? = some b) {rank : Int} (hR : ∀ r ∈ b, R r = rank)
    {buf : List (Option Int)} (h : Ranked R n B.flatten (B.take g).flatten.length buf) :
    Ret (rankFill (B.flatten.map (fun (i : Nat) => (i : Int) + 1)) rank b.length
      (buf, (B.take g).flatten.length)) (fun s => s.2 = (B.take (g + 1)).flatten.length ∧
        Ranked R n B.flatten (B.take (g + 1)).flatten.length s.1) := by
  have hlen : (B.take (g + 1)).flatten.length = (B.take g).flatten.length + b.length := by
    rw [take_flatten_succ hb, List.length_append]
  refine (rankFill_ok hF (by rw [← hlen]; exact take_flatten_le B _) ?_ h).mono ?_
  · intro p r hp1 hp2 hr
    obtain ⟨j, rfl⟩ : ∃ j, p = (B.take g).flatten.length + j :=
      ⟨p - (B.take g).flatten.length, by omega⟩
    rw [flatten_get hb (by omega)] at hr
    exact hR r (List.mem_of_getElem? hr)
  · rintro s ⟨h1, h2⟩
    rw [hlen]
    exact ⟨h1, h1 ▸ h2⟩

/-- The group of a row. -/
def groupOf (B : List (List Nat)) (r : Nat) : Nat := B.findIdx (fun b => decide (r ∈ b))

theorem groupOf_eq {B : List (List Nat)} (hnd : B.flatten.Nodup) {g r : Nat} {b : List Nat}
    (hb : B[g]? = some b) (hr : r ∈ b) : groupOf B r = g := by
  obtain ⟨hg, rfl⟩ := List.getElem?_eq_some_iff.1 hb
  rw [groupOf, List.findIdx_eq hg]
  refine ⟨by simpa using hr, ?_⟩
  intro j hj
  have hp := (List.nodup_flatten.1 hnd).2
  have := List.pairwise_iff_getElem.1 hp j g (by omega) hg hj
  simp only [decide_eq_false_iff_not]
  exact fun h => this h hr

theorem rd_length {B : List (List Nat)} {g : Nat} {b : List Nat} (hb : B[g]? = some b) :
    rd (B.map List.length) g = .ok b.length :=
  rd_of_getElem? (by rw [List.getElem?_map, hb]; rfl)

theorem Ranked.final {R : Nat → Int} {n : Nat} {F : List Nat} (hp : F.Perm (List.range n))
    {buf : List (Option Int)} (h : Ranked R n F F.length buf) :
    initd buf = .ok ((List.range n).map R) := by
  have : buf = ((List.range n).map R).map some := by
    apply List.ext_getElem?
    intro i
    by_cases hi : i < n
    · have hm : i ∈ F := hp.mem_iff.2 (List.mem_range.2 hi)
      obtain ⟨p, hp⟩ := List.mem_iff_getElem?.1 hm
      rw [h.val p i (List.getElem?_eq_some_iff.1 hp).1 hp]
      simp [List.getElem?_range hi]
    · rw [List.getElem?_eq_none (by rw [h.len]; omega), List.getElem?_eq_none (by simp; omega)]
  rw [this]
  exact initd_map_some _

/-- The ranks of rows `0` to `n - 1` in the groups `B`. -/
def rankVal (B : List (List Nat)) : Ties → Nat → Int
  | .min, r => ((B.take (groupOf B r)).flatten.length : Int) + 1
  | .max, r => ((B.take (groupOf B r + 1)).flatten.length : Int)
  | .sequential, r => (B.flatten.idxOf r : Int) + 1
  | .dense, r => (groupOf B r : Int) + 1

theorem rankSwitch_ok {n : Nat} {B : List (List Nat)} (hp : B.flatten.Perm (List.range n))
    (ties : Ties) :
    Ret (rankSwitch ties (B.flatten.map (fun (i : Nat) => (i : Int) + 1)) (B.map List.length)
      (alloc Int n)) (fun buf => initd buf = .ok ((List.range n).map (rankVal B ties))) := by
  have hF : ∀ r ∈ B.flatten, r < n := fun r hr => List.mem_range.1 (hp.mem_iff.1 hr)
  have hnd : B.flatten.Nodup := hp.nodup_iff.2 List.nodup_range
  cases ties with
  | min =>
    unfold rankSwitch rankMin
    rw [List.length_map]
    refine Ret.bind (rankLoop_ok (R := rankVal B .min) (acc := fun g =>
      ((B.take g).flatten.length : Int) + 1) hF ?_) (fun s hs => Ret.ok (hs.final hp))
    intro g b buf hb h
    refine Ret.bind_eq (rd_length hb) ?_
    refine Ret.bind (rankFill_group hF hb ?_ h) ?_
    · intro r hr
      rw [rankVal, groupOf_eq hnd hb hr]
    · rintro s ⟨h1, h2⟩
      refine Ret.ok ⟨h1, ?_, h2⟩
      dsimp only
      rw [take_flatten_succ hb, List.length_append]
      omega
  | max =>
    unfold rankSwitch rankMax
    rw [List.length_map]
    refine Ret.bind (rankLoop_ok (R := rankVal B .max) (acc := fun g =>
      ((B.take g).flatten.length : Int)) hF ?_) (fun s hs => Ret.ok (hs.final hp))
    intro g b buf hb h
    refine Ret.bind_eq (rd_length hb) ?_
    have e : ((B.take (g + 1)).flatten.length : Int) = (B.take g).flatten.length + b.length := by
      rw [take_flatten_succ hb, List.length_append]; omega
    refine Ret.bind (rankFill_group hF hb ?_ h) ?_
    · intro r hr
      rw [rankVal, groupOf_eq hnd hb hr, e]
    · rintro s ⟨h1, h2⟩
      exact Ret.ok ⟨h1, e.symm, h2⟩
  | dense =>
    unfold rankSwitch rankDense
    rw [List.length_map]
    refine Ret.bind (rankLoop_ok (R := rankVal B .dense) (acc := fun g => (g : Int) + 1) hF ?_)
      (fun s hs => Ret.ok (hs.final hp))
    intro g b buf hb h
    refine Ret.bind_eq (rd_length hb) ?_
    refine Ret.bind (rankFill_group hF hb ?_ h) ?_
    · intro r hr
      rw [rankVal, groupOf_eq hnd hb hr]
    · rintro s ⟨h1, h2⟩
      refine Ret.ok ⟨h1, ?_, h2⟩
      dsimp only
      omega
  | sequential =>
    unfold rankSwitch rankSequential
    rw [List.length_map]
    refine Ret.bind (rankLoop_ok (R := rankVal B .sequential) (acc := fun g =>
      ((B.take g).flatten.length : Int) + 1) hF ?_) (fun s hs => Ret.ok (hs.final hp))
    intro g b buf hb h
    refine Ret.bind_eq (rd_length hb) ?_
    have hlen : (B.take (g + 1)).flatten.length = (B.take g).flatten.length + b.length := by
      rw [take_flatten_succ hb, List.length_append]
    have hle := take_flatten_le B (g + 1)
    refine (Ret.forN (fun j (s : (List (Option Int) × Nat) × Int) =>
      s.1.2 = (B.take g).flatten.length + j ∧ s.2 = (s.1.2 : Int) + 1 ∧
        Ranked (rankVal B .sequential) n B.flatten s.1.2 s.1.1) ⟨rfl, rfl, h⟩ ?_).mono ?_
    · rintro j ⟨⟨bf, k⟩, rank⟩ hj ⟨h1, h2, h3⟩
      dsimp only at h1 h2 h3 ⊢
      subst h2
      have hlt : k < B.flatten.length := by omega
      have hget : B.flatten[k]? = some B.flatten[k] := List.getElem?_eq_getElem hlt
      refine Ret.bind_eq (rd_of_getElem? (by rw [List.getElem?_map, hget]; rfl)) ?_
      obtain ⟨h4, h5⟩ := h3.step (hF _ (List.getElem_mem hlt)) hget
      have hv : rankVal B .sequential B.flatten[k] = (k : Int) + 1 := by
        rw [rankVal, List.Nodup.idxOf_getElem hnd]
      rw [hv] at h4 h5
      exact Ret.bind_eq h4 (Ret.ok ⟨by dsimp only; omega, by dsimp only; omega, h5⟩)
    · rintro s ⟨h1, h2, h3⟩
      rw [hlen]
      refine ⟨h1, ?_, h1 ▸ h3⟩
      rw [h2, h1]

end Vctrs
