import Verif.Lemmas.MatchTop
import Verif.Model.ListMatch
import Verif.Props.C06
import Verif.SpecList

/-! # Lists to order and to match -/

namespace Vctrs

open Spec

variable {α : Type} {ops : PolyOps α} {missing : α → Bool}

/-- The integer that stands for the element `a` of `z`. -/
def StandsFor (ops : PolyOps α) (missing : α → Bool) (z : List α) (a : α) (v : Int) : Prop :=
  (missing a = true ∧ v = naInt) ∨
    (missing a = false ∧ ∃ k : Nat, v = (k : Int) + 1 ∧ k < z.length ∧ IsFirstEq ops.eq z a k)

theorem listAnyMissing_ok (x : List α) :
    Ret (listAnyMissing missing x) (fun b => (b = true ↔ ∃ a ∈ x, missing a = true)) := by
  unfold listAnyMissing
  refine (firstMissing_ok missing x).bind ?_
  rintro r ⟨h1, h2, h3⟩
  refine Ret.ok ?_
  constructor
  · intro h
    have hr : r < x.length := by
      have : r ≠ x.length := by simpa using h
      omega
    have h4 := h3 hr
    rw [List.getElem?_eq_getElem hr] at h4
    exact ⟨_, List.getElem_mem hr, h4⟩
  · rintro ⟨a, ha, hm⟩
    obtain ⟨j, hj⟩ := List.mem_iff_getElem?.1 ha
    have hjl := (List.getElem?_eq_some_iff.1 hj).1
    have hr : r ≠ x.length := by
      rintro rfl
      have := h2 j hjl
      rw [hj] at this
      rw [show (some a).any missing = missing a from rfl, hm] at this
      cases this
    simpa using hr

theorem listAssignNa_ok (x : List α) (out : List Int) (ho : out.length = x.length) :
    Ret (listAssignNa missing x out) (fun r => r.length = x.length ∧
      ∀ (i : Nat) (a : α), x[i]? = some a → r[i]? = if missing a then some naInt else out[i]?) := by
  unfold listAssignNa
  refine (Ret.forN (fun i (r : List Int) => r.length = x.length ∧
    ∀ (j : Nat) (a : α), x[j]? = some a → r[j]? = if missing a ∧ j < i then some naInt else out[j]?)
    ⟨ho, fun j a _ => by simp⟩ ?_).mono ?_
  · rintro i r hi ⟨hr, h⟩
    have hxi := List.getElem?_eq_getElem hi
    rw [rd_of_getElem? hxi, ok_bind]
    by_cases hm : missing x[i] = true
    · rw [if_pos hm, wr_ok (by omega)]
      refine Ret.ok ⟨by simpa using hr, fun j a ha => ?_⟩
      rw [List.getElem?_set]
      by_cases hj : i = j
      · subst hj
        rw [hxi] at ha
        cases ha
        simp [hm, hr, hi]
      · rw [if_neg hj, h j a ha]
        have : j < i ↔ j < i + 1 := by omega
        simp only [this]
    · rw [if_neg hm]
      refine Ret.ok ⟨hr, fun j a ha => ?_⟩
      rw [h j a ha]
      by_cases hj : i = j
      · subst hj
        rw [hxi] at ha
        cases ha
        simp [hm]
      · have : j < i ↔ j < i + 1 := by omega
        simp only [this]
  · rintro r ⟨hr, h⟩
    refine ⟨hr, fun i a ha => ?_⟩
    rw [h i a ha]
    simp only [(List.getElem?_eq_some_iff.1 ha).1, and_true]

theorem listProxyOrder_ok (he : EqvHash ops) (x : List α) (hn : x.length ≤ intMax) :
    Ret (listProxyOrder ops missing x) (fun p => p.length = x.length ∧
      ∀ (i : Nat) (a : α), x[i]? = some a → ∃ v, p[i]? = some v ∧ StandsFor ops missing x a v) := by
  unfold listProxyOrder
  obtain ⟨ids, h1, h2, h3⟩ := C06_duplicate_id he x hn
  rw [h1, ok_bind]
  dsimp only
  have hid : ∀ (i : Nat) (a : α), x[i]? = some a →
      ∃ k : Nat, (ids.map (fun (id : Nat) => (id : Int)))[i]? = some ((k : Int) + 1) ∧ k < x.length ∧
        IsFirstEq ops.eq x a k := by
    intro i a ha
    have hi : i < ids.length := by
      rw [h2]
      exact (List.getElem?_eq_some_iff.1 ha).1
    have hii := List.getElem?_eq_getElem hi
    obtain ⟨k, hk, hf⟩ := h3 i _ a hii ha
    refine ⟨k, ?_, ?_, hf⟩
    · rw [List.getElem?_map, hii, hk]
      simp
    · obtain ⟨b, hb, _⟩ := hf
      exact (List.getElem?_eq_some_iff.1 hb).1
  refine (listAnyMissing_ok x).bind fun b hb => ?_
  cases b with
  | true =>
    rw [if_pos rfl]
    refine (listAssignNa_ok x _ (by simpa using h2)).mono ?_
    rintro p ⟨h4, h5⟩
    refine ⟨h4, fun i a ha => ?_⟩
    obtain ⟨k, hk, hl, hf⟩ := hid i a ha
    rw [h5 i a ha]
    by_cases hm : missing a = true
    · exact ⟨naInt, by rw [if_pos hm], .inl ⟨hm, rfl⟩⟩
    · exact ⟨_, by rw [if_neg hm]; exact hk, .inr ⟨by simpa using hm, k, rfl, hl, hf⟩⟩
  | false =>
    rw [if_neg (by simp)]
    refine Ret.ok ⟨by simpa using h2, fun i a ha => ?_⟩
    obtain ⟨k, hk, hl, hf⟩ := hid i a ha
    refine ⟨_, hk, .inr ⟨?_, k, rfl, hl, hf⟩⟩
    cases hm : missing a with
    | false => rfl
    | true => exact absurd (hb.2 ⟨a, List.mem_of_getElem? ha, hm⟩) (by simp)

theorem sliceSeq_ok (x : List Int) (start size : Nat) (h : start + size ≤ x.length) :
    Ret (sliceSeq x start size) (fun r => r.length = size ∧ ∀ i, i < size → r[i]? = x[start + i]?) := by
  unfold sliceSeq
  refine (Ret.forN (fun i (out : List (Option Int)) => out.length = size ∧
    ∀ j, j < i → out[j]? = some x[start + j]?) ⟨by simp [alloc], fun j h => absurd h (Nat.not_lt_zero j)⟩
    ?_).bind ?_
  · rintro i out hi ⟨ho, hj⟩
    have hxi := List.getElem?_eq_getElem (l := x) (i := start + i) (by omega)
    rw [rd_of_getElem? hxi, ok_bind, wr_ok (by omega)]
    refine Ret.ok ⟨by simpa using ho, fun j hj' => ?_⟩
    rw [List.getElem?_set]
    by_cases hij : i = j
    · subst hij
      rw [if_pos rfl, if_pos (by omega), hxi]
    · rw [if_neg hij]
      exact hj j (by omega)
  · rintro out ⟨ho, hj⟩
    refine (initd_ret (n := size) (R := fun i r => x[start + i]? = some r) ho ?_).mono ?_
    · intro i hi
      have hxi := List.getElem?_eq_getElem (l := x) (i := start + i) (by omega)
      exact ⟨_, by rw [hj i hi, hxi], hxi⟩
    · rintro r ⟨h1, h2⟩
      refine ⟨h1, fun i hi => ?_⟩
      have hri := List.getElem?_eq_getElem (l := r) (i := i) (by omega)
      rw [h2 i _ hri, hri]

/-- `p` has the integers for the elements of `x`, a part of `z`. -/
structure Proxies (ops : PolyOps α) (missing : α → Bool) (z x : List α) (p : List Int) : Prop where
  length : p.length = x.length
  cell : ∀ (i : Nat) (a : α), x[i]? = some a → ∃ v, p[i]? = some v ∧ StandsFor ops missing z a v

theorem jointProxyLists_ok (he : EqvHash ops) (x y : List α) (hn : x.length + y.length ≤ intMax) :
    Ret (jointProxyLists ops missing x y) (fun r => Proxies ops missing (x ++ y) x r.1 ∧
      Proxies ops missing (x ++ y) y r.2) := by
  unfold jointProxyLists
  rw [if_neg (by omega)]
  refine (listProxyOrder_ok he (x ++ y) (by simpa using hn)).bind ?_
  rintro z ⟨h1, h2⟩
  rw [List.length_append] at h1
  refine (sliceSeq_ok z 0 x.length (by omega)).bind ?_
  rintro p ⟨h3, h4⟩
  refine (sliceSeq_ok z x.length y.length (by omega)).bind ?_
  rintro q ⟨h5, h6⟩
  refine Ret.ok ⟨⟨h3, fun i a ha => ?_⟩, h5, fun i a ha => ?_⟩
  · have hi := (List.getElem?_eq_some_iff.1 ha).1
    rw [h4 i hi, Nat.zero_add]
    exact h2 i a (by rw [List.getElem?_append_left hi]; exact ha)
  · have hi := (List.getElem?_eq_some_iff.1 ha).1
    rw [h6 i hi]
    exact h2 (x.length + i) a (by
      rw [List.getElem?_append_right (by omega), Nat.add_sub_cancel_left]; exact ha)

/-- Elements seen first at the same place are the equal ones. -/
theorem firstEq_same (he : EqvHash ops) {z : List α} {a b : α} {j k : Nat} (h1 : IsFirstEq ops.eq z a j)
    (h2 : IsFirstEq ops.eq z b k) : j = k ↔ ops.eq a b = true := by
  obtain ⟨c, hc, hca, hmin1⟩ := h1
  obtain ⟨d, hd, hdb, hmin2⟩ := h2
  constructor
  · rintro rfl
    rw [hc] at hd
    cases hd
    exact he.trans _ _ _ (he.symm _ _ hca) hdb
  · intro hab
    rcases Nat.lt_trichotomy j k with h | h | h
    · have := hmin2 j c h hc
      rw [he.trans _ _ _ hca hab] at this
      cases this
    · exact h
    · have := hmin1 k d h hd
      rw [he.trans _ _ _ hdb (he.symm _ _ hab)] at this
      cases this

theorem firstEq_exists (he : EqvHash ops) {z : List α} {a : α} (ha : a ∈ z) : ∃ j, IsFirstEq ops.eq z a j := by
  induction z with
  | nil => cases ha
  | cons b z ih =>
    by_cases hb : ops.eq b a = true
    · exact ⟨0, b, rfl, hb, fun j _ h => absurd h (Nat.not_lt_zero j)⟩
    · rcases List.mem_cons.1 ha with rfl | ha
      · exact absurd (he.refl a) hb
      · obtain ⟨j, c, h1, h2, h3⟩ := ih ha
        refine ⟨j + 1, c, h1, h2, fun j' d hj hd => ?_⟩
        cases j' with
        | zero =>
          cases hd
          simpa using hb
        | succ j' => exact h3 j' d (by omega) hd

theorem firstEq_unique (he : EqvHash ops) {z : List α} {a : α} {j k : Nat} (h1 : IsFirstEq ops.eq z a j)
    (h2 : IsFirstEq ops.eq z a k) : j = k := (firstEq_same he h1 h2).2 (he.refl a)

theorem seenBefore_iff (he : EqvHash ops) {z : List α} {a b : α} {j k : Nat} (h1 : IsFirstEq ops.eq z a j)
    (h2 : IsFirstEq ops.eq z b k) : SeenBefore ops.eq z a b ↔ j < k := by
  constructor
  · rintro ⟨j', k', h3, h4, h⟩
    rw [firstEq_unique he h1 h3, firstEq_unique he h2 h4]
    exact h
  · exact fun h => ⟨j, k, h1, h2, h⟩

theorem standsFor_missing {z : List α} {a : α} {u : Int} (h : StandsFor ops missing z a u) :
    u = naInt ↔ missing a = true := by
  rcases h with ⟨h1, rfl⟩ | ⟨h1, k, rfl, _, _⟩
  · exact ⟨fun _ => h1, fun _ => rfl⟩
  · rw [h1]
    constructor
    · intro h
      unfold naInt at h
      omega
    · intro h
      cases h

theorem standsFor_isInt {z : List α} (hz : z.length ≤ intMax) {a : α} {u : Int} (h : StandsFor ops missing z a u) :
    IsInt u := by
  rcases h with ⟨h1, rfl⟩ | ⟨h1, k, rfl, h2, _⟩
  · unfold IsInt naInt
    decide
  · unfold IsInt naInt intMax
    unfold intMax at hz
    omega

theorem standsFor_smaller (he : EqvHash ops) {z : List α} {a b : α} {u v : Int} (ha : StandsFor ops missing z a u)
    (hb : StandsFor ops missing z b v) (naLargest nanDistinct : Bool) :
    Smaller naLargest nanDistinct .int u v ↔ ListSmaller ops.eq missing naLargest z a b := by
  show NaSmaller naLargest (u = naInt) (v = naInt) (u < v) ↔ _
  unfold ListSmaller NaSmaller
  rw [standsFor_missing ha, standsFor_missing hb]
  rcases ha with ⟨h1, rfl⟩ | ⟨h1, j, rfl, _, h2⟩ <;> rcases hb with ⟨h3, rfl⟩ | ⟨h3, k, rfl, _, h4⟩
  · simp [h1, h3]
  · simp [h1, h3]
  · simp [h1, h3]
  · simp only [h1, h3, seenBefore_iff he h2 h4]
    simp

theorem standsFor_eq (he : EqvHash ops) (hm : ∀ a b, ops.eq a b = true → missing a = missing b) {z : List α}
    {a b : α} {u v : Int} (ha : StandsFor ops missing z a u) (hb : StandsFor ops missing z b v) :
    (u = v ∧ missing a = false) ↔ ops.eq a b = true ∧ missing a = false := by
  rcases ha with ⟨h1, rfl⟩ | ⟨h1, j, rfl, _, h2⟩
  · simp [h1]
  · rcases hb with ⟨h3, rfl⟩ | ⟨h3, k, rfl, _, h4⟩
    · constructor
      · rintro ⟨h, _⟩
        unfold naInt at h
        omega
      · rintro ⟨h, _⟩
        have := hm _ _ h
        rw [h1, h3] at this
        cases this
    · rw [← firstEq_same he h2 h4]
      constructor
      · rintro ⟨h, h'⟩
        exact ⟨by omega, h'⟩
      · rintro ⟨rfl, h'⟩
        exact ⟨rfl, h'⟩

end Vctrs
