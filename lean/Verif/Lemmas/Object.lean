import Verif.Lemmas.Scalar
import Verif.SpecValue

/-! # Deep equality and hashing of objects -/

namespace Vctrs

open Spec

/-! ## Inversion of `eqObj` -/

theorem bnot_ite {c : C Bool} {k : C Bool} :
    (do if !(← c) then Except.ok false else k : C Bool) = .ok true ↔ c = .ok true ∧ k = .ok true := by
  rcases c with e | b
  · simp
  · cases b <;> simp

theorem equalAllAtom_iff {t : ATy} {xs ys : List t.El} : equalAllAtom t xs ys = .ok true ↔
    xs.map (rep t) = ys.map (rep t) := by
  induction xs generalizing ys with
  | nil => cases ys <;> simp [equalAllAtom]
  | cons x xs ih =>
    cases ys with
    | nil => simp [equalAllAtom]
    | cons y ys =>
      simp only [equalAllAtom, List.map_cons, List.cons.injEq]
      cases h : equalNaEqual t x y
      · simp only [Bool.not_false, if_true]
        have : rep t x ≠ rep t y := fun h' => by
          rw [(equalNaEqual_iff t x y).2 h'] at h; cases h
        simp [this]
      · simp only [Bool.not_true, Bool.false_eq_true, if_false]
        rw [ih]
        simp [(equalNaEqual_iff t x y).1 h]

theorem eqObj_nil_iff {y : Obj} : eqObj .nil y = .ok true ↔ y = .nil := by
  cases y <;> simp [eqObj]

theorem eqObj_ref_iff {t : RefTy} {a : BitVec 64} {y : Obj} :
    eqObj (.ref t a) y = .ok true ↔ y = .ref t a := by
  cases y <;> simp [eqObj]
  exact ⟨fun h => ⟨h.1.symm, h.2.symm⟩, fun h => ⟨h.1.symm, h.2.symm⟩⟩

theorem eqObj_other_iff {t : Nat} {a : BitVec 64} {y : Obj} :
    eqObj (.other t a) y = .ok true ↔ y = .other t a := by
  cases y <;> simp [eqObj]
  rename_i u b
  by_cases h1 : t = u <;> by_cases h2 : a = b <;> simp [h1, h2, eq_comm]

theorem eqObj_vec_iff {t : ATy} {xs : List t.El} {ax : Attrs} {y : Obj} :
    eqObj (.vec t xs ax) y = .ok true ↔ ∃ ys ay, y = .vec t ys ay ∧
      eqAttrib ax ay = .ok true ∧ xs.map (rep t) = ys.map (rep t) := by
  cases y
  case vec u ys ay =>
    rw [eqObj]
    by_cases h : t = u
    · subst h
      simp only [dite_true]
      by_cases hl : xs.length = ys.length
      · rw [if_neg (by simpa using hl), bnot_ite, equalAllAtom_iff]
        constructor
        · intro h; exact ⟨ys, ay, rfl, h⟩
        · rintro ⟨ys', ay', he, h⟩
          cases he
          exact h
      · rw [if_pos (by simpa using hl)]
        constructor
        · intro h; cases h
        · rintro ⟨ys', ay', he, h⟩
          cases he
          exact absurd (by simpa using congrArg List.length h.2) hl
    · rw [dif_neg h]
      constructor
      · intro h; cases h
      · rintro ⟨ys', ay', he, _⟩
        cases he
        exact absurd rfl h
  all_goals
    rw [eqObj]
    · constructor
      · intro h; cases h
      · rintro ⟨_, _, h, _⟩; cases h
    · intros; rename_i h; cases h

theorem eqElts_length : {xs ys : List Obj} → eqElts xs ys = .ok true → xs.length = ys.length
  | [], [], _ => rfl
  | [], _ :: _, h => by simp [eqElts] at h
  | _ :: _, [], h => by simp [eqElts] at h
  | x :: xs, y :: ys, h => by
    rw [eqElts, bnot_ite] at h
    simp [eqElts_length h.2]

theorem eqObj_list_iff {e : Bool} {xs : List Obj} {ax : Attrs} {y : Obj} :
    eqObj (.list e xs ax) y = .ok true ↔ ∃ ys ay, y = .list e ys ay ∧
      eqAttrib ax ay = .ok true ∧ eqElts xs ys = .ok true := by
  cases y
  case list f ys ay =>
    rw [eqObj]
    by_cases h : e = f
    · subst h
      simp only [if_true]
      by_cases hl : xs.length = ys.length
      · rw [if_neg (by simpa using hl), bnot_ite]
        constructor
        · intro h; exact ⟨ys, ay, rfl, h⟩
        · rintro ⟨ys', ay', he, h⟩
          cases he
          exact h
      · rw [if_pos (by simpa using hl)]
        constructor
        · intro h; cases h
        · rintro ⟨ys', ay', he, h⟩
          cases he
          exact absurd (eqElts_length h.2) hl
    · rw [if_neg h]
      constructor
      · intro h; cases h
      · rintro ⟨ys', ay', he, _⟩
        cases he
        exact absurd rfl h
  all_goals
    rw [eqObj]
    · constructor
      · intro h; cases h
      · rintro ⟨_, _, h, _⟩; cases h
    · intros; rename_i h; cases h

theorem eqObj_node_iff {t : NodeTy} {g : Nat} {cx dx : Obj} {ax : Attrs} {y : Obj} :
    eqObj (.node t g cx dx ax) y = .ok true ↔ ∃ g' cy dy ay, y = .node t g' cy dy ay ∧
      eqPairs ax ay = .ok true ∧ eqObj cx cy = .ok true ∧ eqObj dx dy = .ok true := by
  cases y
  case node u g' cy dy ay =>
    rw [eqObj]
    by_cases h : t = u
    · subst h
      simp only [if_true]
      rw [bnot_ite, bnot_ite, bnot_ite]
      constructor
      · rintro ⟨h1, h2, h3, _⟩; exact ⟨g', cy, dy, ay, rfl, h1, h2, h3⟩
      · rintro ⟨_, _, _, _, he, h1, h2, h3⟩
        cases he
        exact ⟨h1, h2, h3, rfl⟩
    · rw [if_neg h]
      constructor
      · intro h; cases h
      · rintro ⟨_, _, _, _, he, _⟩
        cases he
        exact absurd rfl h
  all_goals
    rw [eqObj]
    · constructor
      · intro h; cases h
      · rintro ⟨_, _, _, _, h, _⟩; cases h
    · intros; rename_i h; cases h

theorem eqObj_clo_iff {bx ex fx : Obj} {ax : Attrs} {y : Obj} :
    eqObj (.clo bx ex fx ax) y = .ok true ↔ ∃ b e f ay, y = .clo b e f ay ∧
      eqPairs ax ay = .ok true ∧ eqObj bx b = .ok true ∧ eqObj ex e = .ok true ∧
      eqObj fx f = .ok true := by
  cases y
  case clo b e f ay =>
    rw [eqObj]
    rw [bnot_ite, bnot_ite, bnot_ite, bnot_ite]
    constructor
    · rintro ⟨h1, h2, h3, h4, _⟩; exact ⟨b, e, f, ay, rfl, h1, h2, h3, h4⟩
    · rintro ⟨_, _, _, _, he, h1, h2, h3, h4⟩
      cases he
      exact ⟨h1, h2, h3, h4, rfl⟩
  all_goals
    rw [eqObj]
    · constructor
      · intro h; cases h
      · rintro ⟨_, _, _, _, h, _⟩; cases h
    · intros; rename_i h; cases h

theorem eqElts_cons_iff {x : Obj} {xs ys : List Obj} :
    eqElts (x :: xs) ys = .ok true ↔ ∃ y ys', ys = y :: ys' ∧ eqObj x y = .ok true ∧
      eqElts xs ys' = .ok true := by
  cases ys with
  | nil => simp [eqElts]
  | cons y ys => rw [eqElts, bnot_ite]; simp

theorem eqElts_nil_iff {ys : List Obj} : eqElts [] ys = .ok true ↔ ys = [] := by
  cases ys <;> simp [eqElts]

theorem eqAttrib_nil (y : Attrs) : eqAttrib .nil y = .ok true := by simp [eqAttrib]

theorem eqAttrib_cons_iff {g : Nat} {v : Obj} {r y : Attrs} :
    eqAttrib (.cons g v r) y = .ok true ↔ ∃ g' v' r', y = .cons g' v' r' ∧
      eqObj v v' = .ok true ∧ eqAttrib r r' = .ok true := by
  cases y with
  | nil => simp [eqAttrib]
  | cons g' v' r' =>
    rw [eqAttrib, bnot_ite]
    constructor
    · rintro h; exact ⟨g', v', r', rfl, h⟩
    · rintro ⟨_, _, _, he, h⟩
      cases he
      exact h

theorem eqPairs_nil_iff {y : Attrs} : eqPairs .nil y = .ok true ↔ y = .nil := by
  cases y <;> simp [eqPairs]

theorem eqPairs_cons_iff {g : Nat} {v : Obj} {r y : Attrs} :
    eqPairs (.cons g v r) y = .ok true ↔ ∃ g' v' r', y = .cons g' v' r' ∧
      eqObj v v' = .ok true ∧ eqPairs r r' = .ok true := by
  cases y with
  | nil => simp [eqPairs]
  | cons g' v' r' =>
    rw [eqPairs, bnot_ite, bnot_ite]
    constructor
    · rintro ⟨h1, h2, _⟩; exact ⟨g', v', r', rfl, h1, h2⟩
    · rintro ⟨_, _, _, he, h1, h2⟩
      cases he
      exact ⟨h1, h2, rfl⟩

/-! ## Reflexivity -/

mutual

theorem eqObj_refl : (x : Obj) → eqObj x x = .ok true
  | .nil => eqObj_nil_iff.2 rfl
  | .ref _ _ => eqObj_ref_iff.2 rfl
  | .other _ _ => eqObj_other_iff.2 rfl
  | .vec _ _ a => eqObj_vec_iff.2 ⟨_, _, rfl, eqAttrib_refl a, rfl⟩
  | .list _ xs a => eqObj_list_iff.2 ⟨_, _, rfl, eqAttrib_refl a, eqElts_refl xs⟩
  | .node _ _ c d a =>
    eqObj_node_iff.2 ⟨_, _, _, _, rfl, eqPairs_refl a, eqObj_refl c, eqObj_refl d⟩
  | .clo b e f a =>
    eqObj_clo_iff.2 ⟨_, _, _, _, rfl, eqPairs_refl a, eqObj_refl b, eqObj_refl e, eqObj_refl f⟩

theorem eqElts_refl : (xs : List Obj) → eqElts xs xs = .ok true
  | [] => eqElts_nil_iff.2 rfl
  | x :: xs => eqElts_cons_iff.2 ⟨_, _, rfl, eqObj_refl x, eqElts_refl xs⟩

theorem eqAttrib_refl : (a : Attrs) → eqAttrib a a = .ok true
  | .nil => eqAttrib_nil _
  | .cons _ v r => eqAttrib_cons_iff.2 ⟨_, _, _, rfl, eqObj_refl v, eqAttrib_refl r⟩

theorem eqPairs_refl : (a : Attrs) → eqPairs a a = .ok true
  | .nil => eqPairs_nil_iff.2 rfl
  | .cons _ v r => eqPairs_cons_iff.2 ⟨_, _, _, rfl, eqObj_refl v, eqPairs_refl r⟩

end

/-! ## Transitivity -/

mutual

theorem eqObj_trans : (x : Obj) → {y z : Obj} → eqObj x y = .ok true → eqObj y z = .ok true →
    eqObj x z = .ok true
  | .nil, y, z, h1, h2 => by rw [eqObj_nil_iff.1 h1] at h2; exact h2
  | .ref _ _, y, z, h1, h2 => by rw [eqObj_ref_iff.1 h1] at h2; exact h2
  | .other _ _, y, z, h1, h2 => by rw [eqObj_other_iff.1 h1] at h2; exact h2
  | .vec _ _ a, y, z, h1, h2 => by
      obtain ⟨ys, ay, rfl, ha, he⟩ := eqObj_vec_iff.1 h1
      obtain ⟨zs, az, rfl, ha', he'⟩ := eqObj_vec_iff.1 h2
      exact eqObj_vec_iff.2 ⟨_, _, rfl, eqAttrib_trans a ha ha', he.trans he'⟩
  | .list _ xs a, y, z, h1, h2 => by
      obtain ⟨ys, ay, rfl, ha, he⟩ := eqObj_list_iff.1 h1
      obtain ⟨zs, az, rfl, ha', he'⟩ := eqObj_list_iff.1 h2
      exact eqObj_list_iff.2 ⟨_, _, rfl, eqAttrib_trans a ha ha', eqElts_trans xs he he'⟩
  | .node _ _ c d a, y, z, h1, h2 => by
      obtain ⟨_, _, _, _, rfl, ha, hc, hd⟩ := eqObj_node_iff.1 h1
      obtain ⟨_, _, _, _, rfl, ha', hc', hd'⟩ := eqObj_node_iff.1 h2
      exact eqObj_node_iff.2 ⟨_, _, _, _, rfl, eqPairs_trans a ha ha', eqObj_trans c hc hc',
        eqObj_trans d hd hd'⟩
  | .clo b e f a, y, z, h1, h2 => by
      obtain ⟨_, _, _, _, rfl, ha, hb, he, hf⟩ := eqObj_clo_iff.1 h1
      obtain ⟨_, _, _, _, rfl, ha', hb', he', hf'⟩ := eqObj_clo_iff.1 h2
      exact eqObj_clo_iff.2 ⟨_, _, _, _, rfl, eqPairs_trans a ha ha', eqObj_trans b hb hb',
        eqObj_trans e he he', eqObj_trans f hf hf'⟩

theorem eqElts_trans : (xs : List Obj) → {ys zs : List Obj} → eqElts xs ys = .ok true →
    eqElts ys zs = .ok true → eqElts xs zs = .ok true
  | [], ys, zs, h1, h2 => by rw [eqElts_nil_iff.1 h1] at h2; exact h2
  | x :: xs, ys, zs, h1, h2 => by
      obtain ⟨y, ys, rfl, he, ht⟩ := eqElts_cons_iff.1 h1
      obtain ⟨z, zs, rfl, he', ht'⟩ := eqElts_cons_iff.1 h2
      exact eqElts_cons_iff.2 ⟨_, _, rfl, eqObj_trans x he he', eqElts_trans xs ht ht'⟩

theorem eqAttrib_trans : (a : Attrs) → {b c : Attrs} → eqAttrib a b = .ok true →
    eqAttrib b c = .ok true → eqAttrib a c = .ok true
  | .nil, _, _, _, _ => eqAttrib_nil _
  | .cons _ v r, b, c, h1, h2 => by
      obtain ⟨_, _, _, rfl, hv, hr⟩ := eqAttrib_cons_iff.1 h1
      obtain ⟨_, _, _, rfl, hv', hr'⟩ := eqAttrib_cons_iff.1 h2
      exact eqAttrib_cons_iff.2 ⟨_, _, _, rfl, eqObj_trans v hv hv', eqAttrib_trans r hr hr'⟩

theorem eqPairs_trans : (a : Attrs) → {b c : Attrs} → eqPairs a b = .ok true →
    eqPairs b c = .ok true → eqPairs a c = .ok true
  | .nil, b, c, h1, h2 => by rw [eqPairs_nil_iff.1 h1] at h2; exact h2
  | .cons _ v r, b, c, h1, h2 => by
      obtain ⟨_, _, _, rfl, hv, hr⟩ := eqPairs_cons_iff.1 h1
      obtain ⟨_, _, _, rfl, hv', hr'⟩ := eqPairs_cons_iff.1 h2
      exact eqPairs_cons_iff.2 ⟨_, _, _, rfl, eqObj_trans v hv hv', eqPairs_trans r hr hr'⟩

end

/-! ## Symmetry, up to the number of attributes -/

mutual

theorem eqObj_symm : (x : Obj) → {y : Obj} → eqObj x y = .ok true →
    nAttr x ≤ nAttr y ∧ (nAttr y ≤ nAttr x → eqObj y x = .ok true)
  | .nil, y, h => by rw [eqObj_nil_iff.1 h]; exact ⟨Nat.le_refl _, fun _ => eqObj_refl _⟩
  | .ref _ _, y, h => by rw [eqObj_ref_iff.1 h]; exact ⟨Nat.le_refl _, fun _ => eqObj_refl _⟩
  | .other _ _, y, h => by rw [eqObj_other_iff.1 h]; exact ⟨Nat.le_refl _, fun _ => eqObj_refl _⟩
  | .vec _ _ a, y, h => by
      obtain ⟨ys, ay, rfl, ha, he⟩ := eqObj_vec_iff.1 h
      have := eqAttrib_symm a ha
      simp only [nAttr]
      exact ⟨this.1, fun hl => eqObj_vec_iff.2 ⟨_, _, rfl, this.2 hl, he.symm⟩⟩
  | .list _ xs a, y, h => by
      obtain ⟨ys, ay, rfl, ha, he⟩ := eqObj_list_iff.1 h
      have h1 := eqAttrib_symm a ha
      have h2 := eqElts_symm xs he
      simp only [nAttr]
      refine ⟨by omega, fun hl => ?_⟩
      exact eqObj_list_iff.2 ⟨_, _, rfl, h1.2 (by omega), h2.2 (by omega)⟩
  | .node _ _ c d a, y, h => by
      obtain ⟨_, _, _, _, rfl, ha, hc, hd⟩ := eqObj_node_iff.1 h
      have h1 := eqPairs_symm a ha
      have h2 := eqObj_symm c hc
      have h3 := eqObj_symm d hd
      simp only [nAttr]
      refine ⟨by omega, fun hl => ?_⟩
      exact eqObj_node_iff.2 ⟨_, _, _, _, rfl, h1.2 (by omega), h2.2 (by omega), h3.2 (by omega)⟩
  | .clo b e f a, y, h => by
      obtain ⟨_, _, _, _, rfl, ha, hb, he, hf⟩ := eqObj_clo_iff.1 h
      have h1 := eqPairs_symm a ha
      have h2 := eqObj_symm b hb
      have h3 := eqObj_symm e he
      have h4 := eqObj_symm f hf
      simp only [nAttr]
      refine ⟨by omega, fun hl => ?_⟩
      exact eqObj_clo_iff.2 ⟨_, _, _, _, rfl, h1.2 (by omega), h2.2 (by omega), h3.2 (by omega),
        h4.2 (by omega)⟩

theorem eqElts_symm : (xs : List Obj) → {ys : List Obj} → eqElts xs ys = .ok true →
    nAttrList xs ≤ nAttrList ys ∧ (nAttrList ys ≤ nAttrList xs → eqElts ys xs = .ok true)
  | [], ys, h => by
      rw [eqElts_nil_iff.1 h]; exact ⟨Nat.le_refl _, fun _ => eqElts_refl _⟩
  | x :: xs, ys, h => by
      obtain ⟨y, ys, rfl, he, ht⟩ := eqElts_cons_iff.1 h
      have h1 := eqObj_symm x he
      have h2 := eqElts_symm xs ht
      simp only [nAttrList]
      refine ⟨by omega, fun hl => ?_⟩
      exact eqElts_cons_iff.2 ⟨_, _, rfl, h1.2 (by omega), h2.2 (by omega)⟩

theorem eqAttrib_symm : (a : Attrs) → {b : Attrs} → eqAttrib a b = .ok true →
    nAttrs a ≤ nAttrs b ∧ (nAttrs b ≤ nAttrs a → eqAttrib b a = .ok true)
  | .nil, b, h => by
      refine ⟨Nat.zero_le _, fun hl => ?_⟩
      cases b with
      | nil => exact eqAttrib_nil _
      | cons g v r => simp only [nAttrs] at hl; omega
  | .cons _ v r, b, h => by
      obtain ⟨_, _, _, rfl, hv, hr⟩ := eqAttrib_cons_iff.1 h
      have h1 := eqObj_symm v hv
      have h2 := eqAttrib_symm r hr
      simp only [nAttrs]
      refine ⟨by omega, fun hl => ?_⟩
      exact eqAttrib_cons_iff.2 ⟨_, _, _, rfl, h1.2 (by omega), h2.2 (by omega)⟩

theorem eqPairs_symm : (a : Attrs) → {b : Attrs} → eqPairs a b = .ok true →
    nAttrs a ≤ nAttrs b ∧ (nAttrs b ≤ nAttrs a → eqPairs b a = .ok true)
  | .nil, b, h => by rw [eqPairs_nil_iff.1 h]; exact ⟨Nat.le_refl _, fun _ => eqPairs_refl _⟩
  | .cons _ v r, b, h => by
      obtain ⟨_, _, _, rfl, hv, hr⟩ := eqPairs_cons_iff.1 h
      have h1 := eqObj_symm v hv
      have h2 := eqPairs_symm r hr
      simp only [nAttrs]
      refine ⟨by omega, fun hl => ?_⟩
      exact eqPairs_cons_iff.2 ⟨_, _, _, rfl, h1.2 (by omega), h2.2 (by omega)⟩

end

/-! ## Equal objects hash equally, up to the number of attributes -/

theorem hashAtoms_congr (addr : Name → BitVec 64) (t : ATy) {xs ys : List t.El}
    (h : xs.map (rep t) = ys.map (rep t)) : hashAtoms addr t xs = hashAtoms addr t ys := by
  unfold hashAtoms
  suffices ∀ h0 : BitVec 32, xs.foldl (fun h x => hashCombine h (hashScalar addr t x)) h0 =
      ys.foldl (fun h x => hashCombine h (hashScalar addr t x)) h0 from this 0
  induction xs generalizing ys with
  | nil => cases ys with
    | nil => simp
    | cons => simp at h
  | cons x xs ih =>
    cases ys with
    | nil => simp at h
    | cons y ys =>
      simp only [List.map_cons, List.cons.injEq] at h
      intro h0
      simp only [List.foldl_cons]
      rw [hashScalar_congr addr t ((equalNaEqual_iff t x y).2 h.1)]
      exact ih h.2 _

theorem eqPairs_attrib : (a : Attrs) → {b : Attrs} → eqPairs a b = .ok true →
    eqAttrib a b = .ok true
  | .nil, _, _ => eqAttrib_nil _
  | .cons _ v r, b, h => by
      obtain ⟨_, _, _, rfl, hv, hr⟩ := eqPairs_cons_iff.1 h
      exact eqAttrib_cons_iff.2 ⟨_, _, _, rfl, hv, eqPairs_attrib r hr⟩

mutual

theorem hashObj_congr (addr : Name → BitVec 64) : (x : Obj) → {y : Obj} →
    eqObj x y = .ok true → nAttr y ≤ nAttr x → hashObj addr x = hashObj addr y
  | .nil, y, h, _ => by rw [eqObj_nil_iff.1 h]
  | .ref _ _, y, h, _ => by rw [eqObj_ref_iff.1 h]
  | .other _ _, y, h, _ => by rw [eqObj_other_iff.1 h]
  | .vec t _ a, y, h, hl => by
      obtain ⟨ys, ay, rfl, ha, he⟩ := eqObj_vec_iff.1 h
      simp only [nAttr] at hl
      have key := hashAttr_congr addr a ha hl
      rw [hashObj, hashObj, hashAtoms_congr addr t he, key]
  | .list _ xs a, y, h, hl => by
      obtain ⟨ys, ay, rfl, ha, he⟩ := eqObj_list_iff.1 h
      have h1 := eqAttrib_symm a ha
      have h2 := eqElts_symm xs he
      simp only [nAttr] at hl
      have key := hashAttr_congr addr a ha (by omega)
      rw [hashObj, hashObj, hashElts_congr addr xs he (by omega)]
      simp only [key]
  | .node _ _ c d a, y, h, hl => by
      obtain ⟨_, _, _, _, rfl, ha, hc, hd⟩ := eqObj_node_iff.1 h
      have h1 := eqPairs_symm a ha
      have h2 := eqObj_symm c hc
      have h3 := eqObj_symm d hd
      simp only [nAttr] at hl
      have key := hashAttr_congr addr a (eqPairs_attrib a ha) (by omega)
      rw [hashObj, hashObj, hashObj_congr addr c hc (by omega), hashObj_congr addr d hd (by omega)]
      simp only [key]
  | .clo b e f a, y, h, hl => by
      obtain ⟨_, _, _, _, rfl, ha, hb, he, hf⟩ := eqObj_clo_iff.1 h
      have h1 := eqPairs_symm a ha
      have h2 := eqObj_symm b hb
      have h3 := eqObj_symm e he
      have h4 := eqObj_symm f hf
      simp only [nAttr] at hl
      have key := hashAttr_congr addr a (eqPairs_attrib a ha) (by omega)
      rw [hashObj, hashObj, hashObj_congr addr b hb (by omega), hashObj_congr addr e he (by omega),
        hashObj_congr addr f hf (by omega)]
      simp only [key]

theorem hashElts_congr (addr : Name → BitVec 64) : (xs : List Obj) → {ys : List Obj} →
    eqElts xs ys = .ok true → nAttrList ys ≤ nAttrList xs → {h : BitVec 32} →
    hashElts addr xs h = hashElts addr ys h
  | [], ys, h, _, _ => by rw [eqElts_nil_iff.1 h]
  | x :: xs, ys, h, hl, _ => by
      obtain ⟨y, ys, rfl, he, ht⟩ := eqElts_cons_iff.1 h
      have h1 := eqObj_symm x he
      have h2 := eqElts_symm xs ht
      simp only [nAttrList] at hl
      rw [hashElts, hashElts, hashObj_congr addr x he (by omega)]
      congr 1
      funext h0
      exact hashElts_congr addr xs ht (by omega)

theorem hashAttr_congr (addr : Name → BitVec 64) : (a : Attrs) → {b : Attrs} →
    eqAttrib a b = .ok true → nAttrs b ≤ nAttrs a → (h : BitVec 32) →
    hashAttr addr a h = hashAttr addr b h
  | .nil, b, _, hl, _ => by
      cases b with
      | nil => rfl
      | cons g v r => simp only [nAttrs] at hl; omega
  | .cons _ v r, b, h, hl, _ => by
      obtain ⟨_, _, _, rfl, hv, hr⟩ := eqAttrib_cons_iff.1 h
      have h1 := eqObj_symm v hv
      have h2 := eqAttrib_symm r hr
      simp only [nAttrs] at hl
      rw [hashAttr, hashAttr, hashObj_congr addr v hv (by omega),
        hashPairs_congr addr r hr (by omega)]

theorem hashPairs_congr (addr : Name → BitVec 64) : (a : Attrs) → {b : Attrs} →
    eqAttrib a b = .ok true → nAttrs b ≤ nAttrs a → hashPairs addr a = hashPairs addr b
  | .nil, b, _, hl => by
      cases b with
      | nil => rfl
      | cons g v r => simp only [nAttrs] at hl; omega
  | .cons _ v r, b, h, hl => by
      obtain ⟨_, _, _, rfl, hv, hr⟩ := eqAttrib_cons_iff.1 h
      have h1 := eqObj_symm v hv
      have h2 := eqAttrib_symm r hr
      simp only [nAttrs] at hl
      rw [hashPairs, hashPairs, hashObj_congr addr v hv (by omega),
        hashPairs_congr addr r hr (by omega)]

end

/-! ## Totality -/

theorem bnot_total {c k : C Bool} (hc : ∃ b, c = .ok b) (hk : ∃ b, k = .ok b) :
    ∃ b, (do if !(← c) then Except.ok false else k : C Bool) = .ok b := by
  obtain ⟨b, rfl⟩ := hc
  obtain ⟨b', rfl⟩ := hk
  cases b <;> simp

theorem equalAllAtom_total {t : ATy} {xs ys : List t.El} (h : xs.length = ys.length) :
    ∃ b, equalAllAtom t xs ys = .ok b := by
  induction xs generalizing ys with
  | nil => cases ys with
    | nil => exact ⟨_, rfl⟩
    | cons => simp at h
  | cons x xs ih =>
    cases ys with
    | nil => simp at h
    | cons y ys =>
      obtain ⟨b, hb⟩ := ih (ys := ys) (by simpa using h)
      rw [equalAllAtom, hb]
      cases equalNaEqual t x y <;> simp

mutual

theorem eqObj_total : (x y : Obj) → Supported x → ∃ b, eqObj x y = .ok b
  | .nil, y, _ => by cases y <;> simp [eqObj]
  | .ref _ _, y, _ => by cases y <;> simp [eqObj]
  | .other _ _, _, h => by simp [Supported] at h
  | .vec t xs a, y, hs => by
      cases y
      case vec u ys ay =>
        rw [eqObj]
        by_cases h : t = u
        · subst h
          rw [dif_pos rfl]
          by_cases hl : xs.length = ys.length
          · rw [if_neg (by simpa using hl)]
            exact bnot_total (eqAttrib_total a ay (by simpa [Supported] using hs))
              (equalAllAtom_total hl)
          · rw [if_pos (by simpa using hl)]; exact ⟨_, rfl⟩
        · rw [dif_neg h]; exact ⟨_, rfl⟩
      all_goals
        rw [eqObj]
        · exact ⟨_, rfl⟩
        · intros; rename_i h; cases h
  | .list e xs a, y, hs => by
      simp only [Supported] at hs
      cases y
      case list f ys ay =>
        rw [eqObj]
        by_cases h : e = f
        · rw [if_pos h]
          by_cases hl : xs.length = ys.length
          · rw [if_neg (by simpa using hl)]
            exact bnot_total (eqAttrib_total a ay hs.2) (eqElts_total xs ys hl hs.1)
          · rw [if_pos (by simpa using hl)]; exact ⟨_, rfl⟩
        · rw [if_neg h]; exact ⟨_, rfl⟩
      all_goals
        rw [eqObj]
        · exact ⟨_, rfl⟩
        · intros; rename_i h; cases h
  | .node t _ c d a, y, hs => by
      simp only [Supported] at hs
      cases y
      case node u _ cy dy ay =>
        rw [eqObj]
        by_cases h : t = u
        · rw [if_pos h]
          exact bnot_total (eqPairs_total a ay hs.2.2) (bnot_total (eqObj_total c cy hs.1)
            (bnot_total (eqObj_total d dy hs.2.1) ⟨_, rfl⟩))
        · rw [if_neg h]; exact ⟨_, rfl⟩
      all_goals
        rw [eqObj]
        · exact ⟨_, rfl⟩
        · intros; rename_i h; cases h
  | .clo b e f a, y, hs => by
      simp only [Supported] at hs
      cases y
      case clo b' e' f' ay =>
        rw [eqObj]
        exact bnot_total (eqPairs_total a ay hs.2.2.2) (bnot_total (eqObj_total b b' hs.1)
          (bnot_total (eqObj_total e e' hs.2.1) (bnot_total (eqObj_total f f' hs.2.2.1)
          ⟨_, rfl⟩)))
      all_goals
        rw [eqObj]
        · exact ⟨_, rfl⟩
        · intros; rename_i h; cases h

theorem eqElts_total : (xs ys : List Obj) → xs.length = ys.length → SupportedList xs →
    ∃ b, eqElts xs ys = .ok b
  | [], [], _, _ => ⟨_, by rw [eqElts]⟩
  | [], _ :: _, h, _ => by simp at h
  | _ :: _, [], h, _ => by simp at h
  | x :: xs, y :: ys, h, hs => by
      simp only [SupportedList] at hs
      rw [eqElts]
      exact bnot_total (eqObj_total x y hs.1) (eqElts_total xs ys (by simpa using h) hs.2)

theorem eqAttrib_total : (a b : Attrs) → SupportedAttrs a → ∃ r, eqAttrib a b = .ok r
  | .nil, _, _ => ⟨_, eqAttrib_nil _⟩
  | .cons _ _ _, .nil, _ => ⟨_, by rw [eqAttrib]⟩
  | .cons _ v r, .cons _ v' r', hs => by
      simp only [SupportedAttrs] at hs
      rw [eqAttrib]
      exact bnot_total (eqObj_total v v' hs.1) (eqAttrib_total r r' hs.2)

theorem eqPairs_total : (a b : Attrs) → SupportedAttrs a → ∃ r, eqPairs a b = .ok r
  | .nil, .nil, _ => ⟨_, by rw [eqPairs]⟩
  | .nil, .cons _ _ _, _ => ⟨_, by rw [eqPairs]⟩
  | .cons _ _ _, .nil, _ => ⟨_, by rw [eqPairs]⟩
  | .cons _ v r, .cons _ v' r', hs => by
      simp only [SupportedAttrs] at hs
      rw [eqPairs]
      exact bnot_total (eqObj_total v v' hs.1) (bnot_total (eqPairs_total r r' hs.2) ⟨_, rfl⟩)

end

end Vctrs
