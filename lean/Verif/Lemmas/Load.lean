import Verif.Lemmas.Dict
import Verif.Model.Dictionary
import Verif.Spec

namespace Vctrs

open Spec

variable {α : Type} {ops : PolyOps α}

/-- Boolean form of `IsFirst`. -/
def firstB (ops : PolyOps α) (x : List α) (i : Nat) : Bool :=
  match x[i]? with
  | some b => (x.take i).all (fun a => !ops.eq a b)
  | none => false

theorem firstB_iff (x : List α) (i : Nat) : firstB ops x i = true ↔ IsFirst ops.eq x i := by
  unfold firstB IsFirst
  cases h : x[i]? with
  | none => simp
  | some b =>
    simp only [List.all_eq_true, Option.some.injEq, Bool.not_eq_true', exists_eq_left']
    constructor
    · intro hall j a hj ha
      apply hall a
      rw [List.mem_take_iff_getElem]
      obtain ⟨hjl, hja⟩ := List.getElem?_eq_some_iff.1 ha
      exact ⟨j, by omega, hja⟩
    · intro hall a ha
      rw [List.mem_take_iff_getElem] at ha
      obtain ⟨j, hj, hja⟩ := ha
      exact hall j a (by omega) (by rw [List.getElem?_eq_getElem (by omega), hja])

/-- First-occurrence indices below `i`. -/
def firsts (ops : PolyOps α) (x : List α) (i : Nat) : List Nat :=
  (List.range i).filter (firstB ops x)

theorem firsts_succ (x : List α) (i : Nat) :
    firsts ops x (i + 1) = firsts ops x i ++ (if firstB ops x i then [i] else []) := by
  unfold firsts
  rw [List.range_succ, List.filter_append]
  congr 1
  cases h : firstB ops x i <;> simp [h]

theorem mem_firsts {x : List α} {i idx : Nat} :
    idx ∈ firsts ops x i ↔ idx < i ∧ IsFirst ops.eq x idx := by
  unfold firsts
  rw [List.mem_filter, firstB_iff, List.mem_range]

theorem firsts_length_le (x : List α) (i : Nat) : (firsts ops x i).length ≤ i := by
  unfold firsts
  exact Nat.le_trans (List.length_filter_le _ _) (by simp)

/-- Every element has a first representative at or before it. -/
theorem exists_first (he : EqvHash ops) (x : List α) : ∀ (j : Nat) (b : α), x[j]? = some b →
    ∃ idx a, idx ≤ j ∧ IsFirst ops.eq x idx ∧ x[idx]? = some a ∧ ops.eq a b = true := by
  intro j
  induction j using Nat.strongRecOn with
  | ind j ih =>
    intro b hb
    by_cases hf : IsFirst ops.eq x j
    · exact ⟨j, b, Nat.le_refl _, hf, hb, he.refl b⟩
    · unfold IsFirst at hf
      have : ∃ j', ∃ a, j' < j ∧ x[j']? = some a ∧ ops.eq a b = true := by
        apply Classical.byContradiction
        intro hno
        apply hf
        refine ⟨b, hb, ?_⟩
        intro j' a hj' ha
        cases h : ops.eq a b with
        | false => rfl
        | true => exact absurd ⟨j', a, hj', ha, h⟩ hno
      obtain ⟨j', a, hj', ha, hab⟩ := this
      obtain ⟨idx, c, h1, h2, h3, h4⟩ := ih j' hj' a ha
      exact ⟨idx, c, by omega, h2, h3, he.trans _ _ _ h4 hab⟩

/-- Two first representatives of equal elements coincide. -/
theorem first_unique (he : EqvHash ops) {x : List α} {i j : Nat} {a b : α}
    (hi : IsFirst ops.eq x i) (hj : IsFirst ops.eq x j) (ha : x[i]? = some a)
    (hb : x[j]? = some b) (hab : ops.eq a b = true) : i = j := by
  obtain ⟨a', ha', h1⟩ := hi
  obtain ⟨b', hb', h2⟩ := hj
  rw [ha] at ha'; rw [hb] at hb'
  simp at ha' hb'
  subst ha' hb'
  rcases Nat.lt_trichotomy i j with h | h | h
  · have := h2 i a h ha
    rw [hab] at this; simp at this
  · exact h
  · have := h1 j b h hb
    rw [he.symm _ _ hab] at this; simp at this

/-- The dictionary over `x` after loading the elements below `i`. -/
structure Loaded (ops : PolyOps α) (x : List α) (d : Dict α) (i : Nat) : Prop where
  inv : DInv ops d (firsts ops x i)
  vec : d.vec = x
  big : x.length < d.key.length

theorem newDict_loaded (x : List α) (hn : x.length ≤ intMax) :
    ∃ d, newDict ops false x = .ok d ∧ Loaded ops x d 0 ∧
      (∀ p, p < d.key.length → d.key[p]? = some none) := by
  obtain ⟨d, h1, h2, h3, h4, h5⟩ := newDict_ok (ops := ops) x hn
  exact ⟨d, h1, ⟨h3, h2, h4⟩, h5⟩

/-- No stored index below `i` equals `x[i]` iff `i` is a first occurrence. -/
theorem not_stored_iff (he : EqvHash ops) {x : List α} {i : Nat} {y : α} (hy : x[i]? = some y) :
    (∀ idx ∈ firsts ops x i, ∀ a, x[idx]? = some a → ops.eq a y = false) ↔
      IsFirst ops.eq x i := by
  constructor
  · intro h
    refine ⟨y, hy, ?_⟩
    intro j a hj ha
    cases hab : ops.eq a y with
    | false => rfl
    | true =>
      obtain ⟨idx, c, h1, h2, h3, h4⟩ := exists_first he x j a ha
      have := h idx (mem_firsts.2 ⟨by omega, h2⟩) c h3
      rw [he.trans _ _ _ h4 hab] at this
      simp at this
  · rintro ⟨y', hy', h⟩ idx hidx a ha
    rw [hy] at hy'
    simp at hy'
    subst hy'
    exact h idx a (mem_firsts.1 hidx).1 ha

/-- One iteration of a loading loop. -/
theorem load_step (he : EqvHash ops) {x : List α} {d : Dict α} {i : Nat}
    (h : Loaded ops x d i) {y : α} (hy : x[i]? = some y) :
    ∃ p, dictHashScalar ops d i = .ok p ∧ p < d.key.length ∧
      ((IsFirst ops.eq x i ∧ rd d.key p = .ok none ∧ d.key[p]? = some none ∧
          ∃ d', dictPut d p i = .ok d' ∧ Loaded ops x d' (i + 1) ∧
            d'.key = d.key.set p (some i)) ∨
        (¬ IsFirst ops.eq x i ∧ Loaded ops x d (i + 1) ∧
          ∃ idx a, rd d.key p = .ok (some idx) ∧ d.At p idx ∧ idx < i ∧
            IsFirst ops.eq x idx ∧ x[idx]? = some a ∧ ops.eq a y = true)) := by
  have hi : i < x.length := (List.getElem?_eq_some_iff.1 hy).1
  have hL : (firsts ops x i).length < d.key.length :=
    Nat.lt_of_le_of_lt (firsts_length_le x i) (Nat.lt_trans hi h.big)
  have hyd : d.vec[i]? = some y := by rw [h.vec]; exact hy
  obtain ⟨p, hp, hf⟩ := dictHashScalar_ok he h.inv hL hyd
  refine ⟨p, hp, hf.lt, ?_⟩
  rcases hf.res with ⟨hfree, hno⟩ | ⟨idx, a, hidx, hAt, ha, hab⟩
  · left
    have hfirst : IsFirst ops.eq x i := by
      rw [← not_stored_iff he hy]
      rw [h.vec] at hno
      exact hno
    obtain ⟨d', h1, h2, h3, h4⟩ := dictPut_ok he h.inv hyd hf hfree
    refine ⟨hfirst, rd_of_getElem? hfree, hfree, d', h1, ⟨?_, ?_, ?_⟩, h3⟩
    · rw [firsts_succ, if_pos ((firstB_iff x i).2 hfirst)]; exact h4
    · rw [h2, h.vec]
    · rw [h3]; simpa using h.big
  · right
    rw [h.vec] at ha
    have hm := mem_firsts.1 hidx
    have hnf : ¬ IsFirst ops.eq x i := by
      rintro ⟨y', hy', hall⟩
      rw [hy] at hy'
      simp at hy'
      subst hy'
      have := hall idx a hm.1 ha
      rw [hab] at this
      simp at this
    refine ⟨hnf, ⟨?_, h.vec, h.big⟩, idx, a, rd_of_getElem? hAt, hAt, hm.1, hm.2, ha, hab⟩
    rw [firsts_succ, if_neg (by rw [firstB_iff]; exact hnf), List.append_nil]
    exact h.inv

/-- Looking an arbitrary element up in a fully loaded dictionary. -/
theorem lookup_step (he : EqvHash ops) {x : List α} {d : Dict α}
    (h : Loaded ops x d x.length) {dn : Dict α}
    (hx : dn.hash = dn.vec.map (fun a => (ops.hash a).toNat)) {i : Nat} {y : α}
    (hy : dn.vec[i]? = some y) :
    ∃ p, dictHashWith ops d dn i = .ok p ∧ p < d.key.length ∧
      ((rd d.key p = .ok none ∧ ∀ (j : Nat) a, x[j]? = some a → ops.eq a y = false) ∨
        (∃ idx, rd d.key p = .ok (some idx) ∧ IsFirst ops.eq x idx ∧
          IsFirstEq ops.eq x y idx)) := by
  have hL : (firsts ops x x.length).length < d.key.length :=
    Nat.lt_of_le_of_lt (firsts_length_le x _) h.big
  obtain ⟨p, hp, hf⟩ := dictHashWith_ok he h.inv hL hx hy
  refine ⟨p, hp, hf.lt, ?_⟩
  rcases hf.res with ⟨hfree, hno⟩ | ⟨idx, a, hidx, hAt, ha, hab⟩
  · left
    refine ⟨rd_of_getElem? hfree, ?_⟩
    intro j a ha
    cases hay : ops.eq a y with
    | false => rfl
    | true =>
      obtain ⟨idx, c, h1, h2, h3, h4⟩ := exists_first he x j a ha
      have hj : j < x.length := (List.getElem?_eq_some_iff.1 ha).1
      have := hno idx (mem_firsts.2 ⟨by omega, h2⟩) c (by rw [h.vec]; exact h3)
      rw [he.trans _ _ _ h4 hay] at this
      simp at this
  · right
    rw [h.vec] at ha
    have hm := mem_firsts.1 hidx
    refine ⟨idx, rd_of_getElem? hAt, hm.2, a, ha, hab, ?_⟩
    intro j' a' hj' ha'
    cases h' : ops.eq a' y with
    | false => rfl
    | true =>
      obtain ⟨b, hb, hall⟩ := hm.2
      rw [ha] at hb
      simp at hb
      subst hb
      have := hall j' a' hj' ha'
      rw [he.trans _ _ _ h' (he.symm _ _ hab)] at this
      simp at this

/-- The loading loop fills the dictionary with the first occurrences. -/
theorem loadDict_ok (he : EqvHash ops) {x : List α} {d : Dict α} (h : Loaded ops x d 0) :
    ∃ d', loadDict ops d x.length = .ok d' ∧ Loaded ops x d' x.length := by
  unfold loadDict
  apply forN_inv (fun i d => Loaded ops x d i) h
  intro i d hi hd
  obtain ⟨p, hp, _, hcase⟩ := load_step he hd (List.getElem?_eq_getElem hi)
  rcases hcase with ⟨_, h2, _, d', h3, h4, _⟩ | ⟨_, h2, idx, a, h3, _⟩
  · exact ⟨d', by simp [hp, h2, h3], h4⟩
  · exact ⟨d, by simp [hp, h3], h2⟩

/-! ## First occurrences and `nub` -/

theorem nub_append_singleton (eq : α → α → Bool) (l : List α) (a : α) :
    nub eq (l ++ [a]) = nub eq l ++ (if l.all (fun b => !eq b a) then [a] else []) := by
  induction l with
  | nil => simp [nub]
  | cons b l ih =>
    simp only [List.cons_append, nub, ih, List.filter_append]
    by_cases h1 : (l.all (fun b => !eq b a)) = true
    · rw [if_pos h1]
      cases h2 : eq b a
      · rw [if_pos (by simp only [List.all_cons, h1, h2]; rfl)]; simp [h2]
      · rw [if_neg (by simp only [List.all_cons, h1, h2]; simp)]; simp [h2]
    · rw [if_neg h1, if_neg (by simp only [List.all_cons]; simp [h1])]; simp

theorem getElem?_map_firsts (x : List α) (i : Nat) (hi : i ≤ x.length) :
    (firsts ops x i).map (fun j => x[j]?) = (nub ops.eq (x.take i)).map some := by
  induction i with
  | zero => simp [firsts, nub]
  | succ i ih =>
    have hlt : i < x.length := by omega
    rw [firsts_succ, List.map_append, ih (by omega), List.take_add_one,
      List.getElem?_eq_getElem hlt]
    simp only [Option.toList_some]
    rw [nub_append_singleton, List.map_append]
    congr 1
    have : firstB ops x i = (x.take i).all (fun a => !ops.eq a x[i]) := by
      unfold firstB; rw [List.getElem?_eq_getElem hlt]
    rw [this]
    by_cases h1 : ((x.take i).all (fun a => !ops.eq a x[i])) = true
    · rw [if_pos h1, if_pos h1]; simp [List.getElem?_eq_getElem hlt]
    · rw [if_neg h1, if_neg h1]; simp

/-- Slicing by existing one-based locations. -/
theorem sliceLoc_ok (x : List α) (loc : List Nat) (r : List α)
    (h : loc.map (fun j => x[j]?) = r.map some) :
    sliceLoc x (loc.map (· + 1)) = .ok r := by
  induction loc generalizing r with
  | nil =>
    cases r with
    | nil => rfl
    | cons a r => simp at h
  | cons j loc ih =>
    cases r with
    | nil => simp at h
    | cons a r =>
      simp only [List.map_cons, List.cons.injEq] at h
      simp only [List.map_cons, sliceLoc]
      have h1 : rd x (j + 1 - 1) = .ok a := rd_of_getElem? (by simpa using h.1)
      rw [if_neg (by omega), h1, ok_bind, ih r h.2]
      rfl

theorem sliceLoc_firsts (x : List α) :
    sliceLoc x ((firsts ops x x.length).map (· + 1)) = .ok (nub ops.eq x) := by
  apply sliceLoc_ok
  rw [getElem?_map_firsts x x.length (Nat.le_refl _), List.take_length]

end Vctrs
