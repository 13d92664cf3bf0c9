import Verif.Lemmas.IntervalOrder
import Verif.Lemmas.IntervalComplement
import Verif.Model.MatchJoint
import Verif.SpecMatch
import Mathlib.Data.Finset.Card

namespace Vctrs

open Spec

/-! ## The order of elements is a strict weak order -/

/-- Not-a-numbers before numbers. -/
def dblOrd (nd : Bool) (x : Dbl) : Nat :=
  match dblClassify x with
  | .missing => 0
  | .nan => if nd then 1 else 0
  | .number => 2

theorem dblOrd_number {nd : Bool} {x : Dbl} : dblOrd nd x = 2 ↔ dblClassify x = .number := by
  unfold dblOrd
  cases dblClassify x <;> cases nd <;> simp

theorem dblSmaller_iff (nd : Bool) (a b : Dbl) : DblSmaller false nd a b ↔
    dblOrd nd a < dblOrd nd b ∨ (dblOrd nd a = 2 ∧ dblOrd nd b = 2 ∧ dblVal a < dblVal b) := by
  unfold DblSmaller NaSmaller dblOrd
  rcases dblClassify_spec a with ⟨cx, x1, x2⟩ | ⟨cx, x1, x2⟩ | ⟨cx, x1, x2⟩ <;>
    rcases dblClassify_spec b with ⟨cy, y1, y2⟩ | ⟨cy, y1, y2⟩ | ⟨cy, y1, y2⟩ <;>
    simp only [cx, cy, x1, y1, x2, y2] <;> cases nd <;> simp

theorem dblSmaller_asymm {nd : Bool} {a b : Dbl} (h : DblSmaller false nd a b) :
    ¬ DblSmaller false nd b a := by
  rw [dblSmaller_iff] at h ⊢
  rintro (h' | ⟨h1, h2, h'⟩) <;> rcases h with h | ⟨h3, h4, h⟩
  · omega
  · omega
  · omega
  · exact lt_asymm h h'

theorem dblSmaller_cotrans {nd : Bool} {a c : Dbl} (b : Dbl) (h : DblSmaller false nd a c) :
    DblSmaller false nd a b ∨ DblSmaller false nd b c := by
  rw [dblSmaller_iff] at h ⊢
  rw [dblSmaller_iff]
  have hb : dblOrd nd b ≤ 2 := by
    unfold dblOrd
    cases dblClassify b <;> cases nd <;> simp
  rcases h with h | ⟨h1, h2, h⟩
  · by_cases hab : dblOrd nd a < dblOrd nd b
    · exact .inl (.inl hab)
    · exact .inr (.inl (by omega))
  · by_cases hb2 : dblOrd nd b = 2
    · rcases lt_or_ge (dblVal a) (dblVal b) with h' | h'
      · exact .inl (.inr ⟨h1, hb2, h'⟩)
      · exact .inr (.inr ⟨hb2, h2, lt_of_le_of_lt h' h⟩)
    · exact .inr (.inl (by omega))

theorem naSmaller_asymm {p q l l' : Prop} (hl : l → ¬ l') (h : NaSmaller false p q l) :
    ¬ NaSmaller false q p l' := by
  rcases h with h | h | h <;> rintro (h' | h' | h')
  · exact hl h.2.2 h'.2.2
  · exact absurd h'.1 (by simp)
  · exact h.2.1 h'.2.1
  · exact absurd h.1 (by simp)
  · exact absurd h.1 (by simp)
  · exact absurd h.1 (by simp)
  · exact h'.2.1 h.2.1
  · exact absurd h'.1 (by simp)
  · exact h.2.2 h'.2.1

theorem naSmaller_cotrans {p q r l l1 l2 : Prop} (hl : ¬ p → ¬ q → ¬ r → l → l1 ∨ l2)
    (h : NaSmaller false p r l) : NaSmaller false p q l1 ∨ NaSmaller false q r l2 := by
  by_cases hq : q
  · rcases h with h | h | h
    · exact .inr (.inr (.inr ⟨rfl, hq, h.2.1⟩))
    · exact absurd h.1 (by simp)
    · exact .inr (.inr (.inr ⟨rfl, hq, h.2.2⟩))
  · rcases h with h | h | h
    · rcases hl h.1 hq h.2.1 h.2.2 with h' | h'
      · exact .inl (.inl ⟨h.1, hq, h'⟩)
      · exact .inr (.inl ⟨hq, h.2.1, h'⟩)
    · exact absurd h.1 (by simp)
    · exact .inl (.inr (.inr ⟨rfl, h.2.1, hq⟩))

theorem smaller_asymm (nd : Bool) : (t : ATy) → {a b : t.El} → Smaller false nd t a b →
    ¬ Smaller false nd t b a
  | .lgl, (a : Int), (b : Int), h => naSmaller_asymm (by omega) h
  | .int, (a : Int), (b : Int), h => naSmaller_asymm (by omega) h
  | .dbl, (a : Dbl), (b : Dbl), h => dblSmaller_asymm h
  | .cpl, (a : Dbl × Dbl), (b : Dbl × Dbl), h => by
      rcases h with h | ⟨h, h2⟩ <;> rintro (h' | ⟨h', h2'⟩)
      · exact dblSmaller_asymm h h'
      · exact h' h
      · exact h h'
      · exact dblSmaller_asymm h2 h2'
  | .chr, (a : Name), (b : Name), h => by
      refine naSmaller_asymm ?_ h
      rintro ⟨s, t, rfl, rfl, hst⟩ ⟨s', t', e1, e2, hst'⟩
      cases e1
      cases e2
      exact bytesLt_irrefl _ (bytesLt_trans hst hst')
  | .raw, _, _, h => absurd h id

theorem smaller_cotrans (nd : Bool) : (t : ATy) → {a c : t.El} → (b : t.El) →
    Smaller false nd t a c → Smaller false nd t a b ∨ Smaller false nd t b c
  | .lgl, (a : Int), (c : Int), (b : Int), h => naSmaller_cotrans (by omega) h
  | .int, (a : Int), (c : Int), (b : Int), h => naSmaller_cotrans (by omega) h
  | .dbl, (a : Dbl), (c : Dbl), (b : Dbl), h => dblSmaller_cotrans b h
  | .cpl, (a : Dbl × Dbl), (c : Dbl × Dbl), (b : Dbl × Dbl), h => by
      rcases h with h | ⟨h, h2⟩
      · rcases dblSmaller_cotrans (cplPart b.1 b.2) h with h' | h'
        · exact .inl (.inl h')
        · exact .inr (.inl h')
      · by_cases h3 : DblSmaller false nd (cplPart b.1 b.2) (cplPart a.1 a.2)
        · rcases dblSmaller_cotrans (cplPart c.1 c.2) h3 with h4 | h4
          · exact .inr (.inl h4)
          · exact absurd h4 h
        · by_cases h4 : DblSmaller false nd (cplPart c.1 c.2) (cplPart b.1 b.2)
          · rcases dblSmaller_cotrans (cplPart a.1 a.2) h4 with h5 | h5
            · exact absurd h5 h
            · exact .inl (.inl h5)
          · rcases dblSmaller_cotrans (cplPart b.2 b.1) h2 with h5 | h5
            · exact .inl (.inr ⟨h3, h5⟩)
            · exact .inr (.inr ⟨h4, h5⟩)
  | .chr, (a : Name), (c : Name), (b : Name), h => by
      refine naSmaller_cotrans ?_ h
      rintro _ hb _ ⟨s, t, rfl, rfl, hst⟩
      cases b with
      | none => exact absurd rfl hb
      | some u =>
        rcases bytesLt_tri s u with h1 | h1 | h1
        · exact .inl ⟨_, _, rfl, rfl, h1⟩
        · subst h1
          exact .inr ⟨_, _, rfl, rfl, hst⟩
        · exact .inr ⟨_, _, rfl, rfl, bytesLt_trans h1 hst⟩
  | .raw, _, _, _, h => absurd h id

/-! ## The order of rows -/

theorem rowSmaller_asymm (nd : Bool) : (ts : List ATy) → {a b : Row ts} → RowSmaller nd ts a b →
    ¬ RowSmaller nd ts b a
  | [], _, _, h => absurd h id
  | t :: ts, (a, r), (b, s), h => by
      rcases h with h | ⟨h, h2⟩ <;> rintro (h' | ⟨h', h2'⟩)
      · exact smaller_asymm nd t h h'
      · exact h' h
      · exact h h'
      · exact rowSmaller_asymm nd ts h2 h2'

theorem rowSmaller_cotrans (nd : Bool) : (ts : List ATy) → {a c : Row ts} → (b : Row ts) →
    RowSmaller nd ts a c → RowSmaller nd ts a b ∨ RowSmaller nd ts b c
  | [], _, _, _, h => absurd h id
  | t :: ts, (a, r), (c, u), (b, s), h => by
      rcases h with h | ⟨h, h2⟩
      · rcases smaller_cotrans nd t b h with h' | h'
        · exact .inl (.inl h')
        · exact .inr (.inl h')
      · by_cases h3 : Smaller false nd t b a
        · rcases smaller_cotrans nd t c h3 with h4 | h4
          · exact .inr (.inl h4)
          · exact absurd h4 h
        · by_cases h4 : Smaller false nd t c b
          · rcases smaller_cotrans nd t a h4 with h5 | h5
            · exact absurd h5 h
            · exact .inl (.inl h5)
          · rcases rowSmaller_cotrans nd ts s h2 with h5 | h5
            · exact .inl (.inr ⟨h3, h5⟩)
            · exact .inr (.inr ⟨h4, h5⟩)

/-- Rows are ordered by keys in a linear order. -/
theorem rowSmaller_key (nd : Bool) (ts : List ATy) :
    ∃ (K : Type) (_ : LinearOrder K) (k : Row ts → K), ∀ a b, k a < k b ↔ RowSmaller nd ts a b := by
  classical
  let P : Preorder (Row ts) :=
    { le := fun a b => ¬ RowSmaller nd ts b a
      lt := fun a b => RowSmaller nd ts a b
      le_refl := fun a h => rowSmaller_asymm nd ts h h
      le_trans := by
        intro a b c hab hbc hca
        rcases rowSmaller_cotrans nd ts b hca with h | h
        · exact hbc h
        · exact hab h
      lt_iff_le_not_ge := by
        intro a b
        constructor
        · intro hab
          exact ⟨rowSmaller_asymm nd ts hab, fun hn => hn hab⟩
        · rintro ⟨_, h2⟩
          exact Classical.not_not.1 h2 }
  have : @Std.Total (Row ts) (· ≤ ·) := ⟨by
    intro a b
    by_cases hab : RowSmaller nd ts b a
    · right
      exact rowSmaller_asymm nd ts hab
    · left
      exact hab⟩
  refine ⟨Antisymmetrization (Row ts) (· ≤ ·), inferInstance, toAntisymmetrization (· ≤ ·), ?_⟩
  intro a b
  exact toAntisymmetrization_lt_toAntisymmetrization_iff

theorem rowBefore_smaller (nd : Bool) : {ts : List ATy} → {ps : List Val} → {i j : Nat} →
    {r s : Row ts} → HasRow ts ps i r → HasRow ts ps j s →
    (RowBefore nd (ps.map (fun p => (false, false, p))) i j ↔ RowSmaller nd ts r s)
  | [], _, _, _, _, _, h, _ => by
      have e : _ = [] := h
      subst e
      constructor
      · rintro ⟨m, k, h, _⟩
        simp at h
      · exact fun h => absurd h id
  | t :: ts, _, i, j, (a, r), (b, s), ⟨xs, qs, e, ha, hr⟩, ⟨xs', qs', e', hb, hs⟩ => by
      subst e
      cases e'
      rw [List.map_cons, rowBefore_cons, keyBefore_vec ha hb, keyBefore_vec hb ha,
        rowBefore_smaller nd hr hs]
      show Smaller false nd t a b ∨ ((¬ Smaller false nd t a b ∧ ¬ Smaller false nd t b a) ∧ _) ↔
        Smaller false nd t a b ∨ _
      by_cases h : Smaller false nd t a b <;> simp [h]

/-! ## Comparison -/

/-- A comparison gives -1, 0 or 1 by an order. -/
structure OrdCmp (lt gt : Prop) (r : Int) : Prop where
  range : r = -1 ∨ r = 0 ∨ r = 1
  lt : r = -1 ↔ lt
  gt : r = 1 ↔ gt

theorem dblOrderCompare_ok (nd : Bool) (x y : Dbl) :
    OrdCmp (DblSmaller false nd x y) (DblSmaller false nd y x) (dblOrderCompare nd x y) := by
  rw [dblSmaller_iff, dblSmaller_iff]
  unfold dblOrderCompare dblOrd
  rcases dblClassify_spec x with ⟨cx, x1, x2⟩ | ⟨cx, x1, x2⟩ | ⟨cx, x1, x2⟩ <;>
    rcases dblClassify_spec y with ⟨cy, y1, y2⟩ | ⟨cy, y1, y2⟩ | ⟨cy, y1, y2⟩ <;>
    simp only [cx, cy]
  case inl.inl =>
    unfold dblCompareScalar
    have nx : ¬ IsNaN x := by simpa using x1
    have ny : ¬ IsNaN y := by simpa using y1
    have h1 := dblLtOp_iff nx ny
    have h2 := dblLtOp_iff ny nx
    simp only [h1, h2]
    rcases lt_trichotomy (dblVal x) (dblVal y) with h | h | h
    · have := lt_asymm h
      exact ⟨by simp [h, this], by simp [h, this], by simp [h, this]⟩
    · rw [h]
      exact ⟨by simp, by simp, by simp⟩
    · have := lt_asymm h
      exact ⟨by simp [h, this], by simp [h, this], by simp [h, this]⟩
  all_goals cases nd <;> exact ⟨by simp, by simp, by simp⟩

theorem dblOrderCompare_congr (nd : Bool) {x x' y y' : Dbl} (hx : dblOrd nd x = dblOrd nd x')
    (hx' : dblOrd nd x = 2 → x = x') (hy : dblOrd nd y = dblOrd nd y')
    (hy' : dblOrd nd y = 2 → y = y') : DblSmaller false nd x y ↔ DblSmaller false nd x' y' := by
  rw [dblSmaller_iff, dblSmaller_iff, hx, hy]
  refine or_congr Iff.rfl ?_
  constructor
  · rintro ⟨h1, h2, h⟩
    exact ⟨h1, h2, by rwa [← hx' (hx ▸ h1), ← hy' (hy ▸ h2)]⟩
  · rintro ⟨h1, h2, h⟩
    exact ⟨h1, h2, by rwa [hx' (hx ▸ h1), hy' (hy ▸ h2)]⟩

theorem cplNormalise_part (nd : Bool) (e : Dbl × Dbl) :
    (dblOrd nd (cplPart e.1 e.2) = dblOrd nd (cplNormaliseMissing e).1 ∧
      (dblOrd nd (cplPart e.1 e.2) = 2 → cplPart e.1 e.2 = (cplNormaliseMissing e).1)) ∧
    (dblOrd nd (cplPart e.2 e.1) = dblOrd nd (cplNormaliseMissing e).2 ∧
      (dblOrd nd (cplPart e.2 e.1) = 2 → cplPart e.2 e.1 = (cplNormaliseMissing e).2)) := by
  obtain ⟨x, y⟩ := e
  unfold cplNormaliseMissing cplPart dblOrd
  rcases dblClassify_spec x with ⟨cx, x1, x2⟩ | ⟨cx, x1, x2⟩ | ⟨cx, x1, x2⟩ <;>
    rcases dblClassify_spec y with ⟨cy, y1, y2⟩ | ⟨cy, y1, y2⟩ | ⟨cy, y1, y2⟩ <;>
    simp only [cx, cy, x1, y1, if_true, if_false, class_naReal, class_rNaN] <;> cases nd <;> simp

theorem cplOrderCompare_ok (nd : Bool) (x y : Dbl × Dbl) :
    OrdCmp (Smaller false nd .cpl x y) (Smaller false nd .cpl y x) (cplOrderCompare nd x y) := by
  obtain ⟨⟨a1, a2⟩, a3, a4⟩ := cplNormalise_part nd x
  obtain ⟨⟨b1, b2⟩, b3, b4⟩ := cplNormalise_part nd y
  show OrdCmp (DblSmaller false nd _ _ ∨ (¬ DblSmaller false nd _ _ ∧ DblSmaller false nd _ _))
    (DblSmaller false nd _ _ ∨ (¬ DblSmaller false nd _ _ ∧ DblSmaller false nd _ _)) _
  rw [dblOrderCompare_congr nd a1 a2 b1 b2, dblOrderCompare_congr nd a3 a4 b3 b4,
    dblOrderCompare_congr nd b1 b2 a1 a2, dblOrderCompare_congr nd b3 b4 a3 a4]
  unfold cplOrderCompare
  dsimp only
  obtain ⟨h1, h2, h3⟩ := dblOrderCompare_ok nd (cplNormaliseMissing x).1 (cplNormaliseMissing y).1
  obtain ⟨k1, k2, k3⟩ := dblOrderCompare_ok nd (cplNormaliseMissing x).2 (cplNormaliseMissing y).2
  rw [← h2, ← h3, ← k2, ← k3]
  split
  · rename_i h
    rw [h]
    exact ⟨k1, by simp, by simp⟩
  · refine ⟨h1, ?_, ?_⟩
    · constructor
      · exact .inl
      · rintro (h | h)
        · exact h
        · omega
    · constructor
      · exact .inl
      · rintro (h | h)
        · exact h
        · omega

theorem orderCompare_ok (nd : Bool) : (t : ATy) → {a b : t.El} → EltFits t a → EltFits t b →
    t ≠ .raw → ∃ r, orderCompare nd t a b = .ok r ∧
      OrdCmp (Smaller false nd t a b) (Smaller false nd t b a) r
  | .lgl, (a : Int), (b : Int), ha, hb, _ => by
      obtain ⟨h1, h2, h3, _⟩ := intCompareScalar_spec (x := a) (y := b) ha hb
      refine ⟨_, rfl, h1, h2.trans ?_, h3.trans ?_⟩
      all_goals
        simp only [Smaller, NaSmaller]
        have ha' : IsInt a := ha
        have hb' : IsInt b := hb
        unfold IsInt at ha' hb'
        simp
        omega
  | .int, (a : Int), (b : Int), ha, hb, _ => by
      obtain ⟨h1, h2, h3, _⟩ := intCompareScalar_spec (x := a) (y := b) ha hb
      refine ⟨_, rfl, h1, h2.trans ?_, h3.trans ?_⟩
      all_goals
        simp only [Smaller, NaSmaller]
        have ha' : IsInt a := ha
        have hb' : IsInt b := hb
        unfold IsInt at ha' hb'
        simp
        omega
  | .dbl, (a : Dbl), (b : Dbl), _, _, _ => ⟨_, rfl, dblOrderCompare_ok nd a b⟩
  | .cpl, (a : Dbl × Dbl), (b : Dbl × Dbl), _, _, _ => ⟨_, rfl, cplOrderCompare_ok nd a b⟩
  | .chr, (a : Name), (b : Name), _, _, _ => by
      obtain ⟨r, hr, h1, h2, h3, _⟩ := chrCompareNaEqual_spec a b
      refine ⟨r, hr, h1, h2.trans ?_, h3.trans ?_⟩
      all_goals
        cases a <;> cases b <;> simp [AtomLt, Smaller, NaSmaller, SameAtom]
  | .raw, _, _, _, _, h => absurd rfl h

theorem Spec.Sortable.notRaw {n : Nat} {t : ATy} {xs : List t.El}
    (h : Sortable n (.vec (.atom t) xs)) : t ≠ .raw := by
  rintro rfl
  exact h

theorem pOrderCompare_ok {nd : Bool} {n m : Nat} {t : ATy} {xs ys : List t.El} {i j : Nat}
    {a b : t.El} (hx : Sortable n (.vec (.atom t) xs)) (hy : Sortable m (.vec (.atom t) ys))
    (ha : xs[i]? = some a) (hb : ys[j]? = some b) :
    ∃ r, pOrderCompare nd (.vec (.atom t) xs) i (.vec (.atom t) ys) j = .ok r ∧
      OrdCmp (Smaller false nd t a b) (Smaller false nd t b a) r := by
  obtain ⟨r, h1, h2⟩ := orderCompare_ok nd t (hx.fits a (List.mem_of_getElem? ha))
    (hy.fits b (List.mem_of_getElem? hb)) hx.notRaw
  refine ⟨r, ?_, h2⟩
  unfold pOrderCompare
  dsimp only
  rw [dif_pos rfl]
  refine bind_eq_of (rdI_get ha) ?_
  refine bind_eq_of (rdI_get hb) ?_
  exact h1

theorem pDfOrderCompare_ok {nd : Bool} : {ts : List ATy} → {ps qs : List Val} → {n m : Nat} →
    (∀ p ∈ ps, Sortable n p) → (∀ q ∈ qs, Sortable m q) → {i j : Nat} → {a b : Row ts} →
    HasRow ts ps i a → HasRow ts qs j b →
    ∃ r, pDfOrderCompare nd ps i qs j = .ok r ∧
      OrdCmp (RowSmaller nd ts a b) (RowSmaller nd ts b a) r
  | [], _, _, _, _, _, _, i, j, a, b, hp, hq => by
      have e1 : _ = [] := hp
      have e2 : _ = [] := hq
      subst e1 e2
      exact ⟨0, rfl, by simp, ⟨by simp, fun h => absurd h id⟩, ⟨by simp, fun h => absurd h id⟩⟩
  | t :: ts, _, _, n, m, hsp, hsq, i, j, (a, r), (b, s), ⟨xs, ps, e, ha, hr⟩,
      ⟨ys, qs, e', hb, hs⟩ => by
      subst e e'
      obtain ⟨c, hc, h1, h2, h3⟩ := pOrderCompare_ok (nd := nd) (hsp _ (by simp))
        (hsq _ (by simp)) ha hb
      obtain ⟨d, hd, k1, k2, k3⟩ := pDfOrderCompare_ok (nd := nd)
        (fun p hp => hsp p (by simp [hp])) (fun p hp => hsq p (by simp [hp])) hr hs
      unfold pDfOrderCompare at hd ⊢
      rw [List.length_cons, forBrk, forBrkFrom]
      have e1 : rd (Val.vec (.atom t) xs :: ps) 0 = .ok (.vec (.atom t) xs) := rfl
      have e2 : rd (Val.vec (.atom t) ys :: qs) 0 = .ok (.vec (.atom t) ys) := rfl
      rw [e1, ok_bind, e2, ok_bind, hc, ok_bind]
      show ∃ r, _ ∧ OrdCmp (Smaller false nd t a b ∨ (¬ Smaller false nd t b a ∧ _))
        (Smaller false nd t b a ∨ (¬ Smaller false nd t a b ∧ _)) r
      rw [← h2, ← h3, ← k2, ← k3]
      by_cases hz : c = 0
      · rw [if_pos hz]
        refine ⟨d, ?_, k1, by omega, by omega⟩
        rw [ok_bind]
        dsimp only
        rw [forBrkFrom_shift]
        exact hd
      · rw [if_neg hz]
        exact ⟨c, rfl, h1, by omega, by omega⟩

/-- The comparison of two rows of the proxies. -/
theorem jointCompare_ok {nd : Bool} {ts : List ATy} {x y : Val} {n m : Nat}
    (hx : IsBounds ts n x) (hy : IsBounds ts m y) {i j : Nat} {a b : Row ts}
    (ha : HasRow ts (leaves x) i a) (hb : HasRow ts (leaves y) j b) :
    ∃ r, jointCompare nd (packLeaves x.size (leaves x)) i (packLeaves y.size (leaves y)) j = .ok r ∧
      OrdCmp (RowSmaller nd ts a b) (RowSmaller nd ts b a) r := by
  have hsx := hx.sortable
  have hsy := hy.sortable
  clear hx hy
  generalize leaves x = ps at *
  generalize leaves y = qs at *
  revert a b
  match ts with
  | [] =>
    intro a b ha hb
    have h := pDfOrderCompare_ok (nd := nd) hsx hsy ha hb
    have e1 : ps = [] := ha
    have e2 : qs = [] := hb
    subst e1 e2
    exact h
  | [t] =>
    rintro ⟨a, ⟨⟩⟩ ⟨b, ⟨⟩⟩ ⟨xs, qs', e1, ha, e2⟩ ⟨ys, qs'', e3, hb, e4⟩
    have e2 : qs' = [] := e2
    have e4 : qs'' = [] := e4
    subst e2 e4 e1 e3
    obtain ⟨c, hc, h1, h2, h3⟩ := pOrderCompare_ok (nd := nd) (hsx _ (by simp))
        (hsy _ (by simp)) ha hb
    refine ⟨c, hc, h1, ?_, ?_⟩
    · rw [h2]
      exact ⟨.inl, fun h => h.resolve_right (fun h => h.2)⟩
    · rw [h3]
      exact ⟨.inl, fun h => h.resolve_right (fun h => h.2)⟩
  | t :: u :: ts =>
    rintro ⟨a, a', r⟩ ⟨b, b', s⟩ ha hb
    have h := pDfOrderCompare_ok (nd := nd) hsx hsy ha hb
    obtain ⟨xs, qs', e1, _, xs', qs'', e2, _⟩ := ha
    obtain ⟨ys, rs', e3, _, ys', rs'', e4, _⟩ := hb
    subst e2 e1 e4 e3
    exact h

/-! ## Proxies -/

mutual

theorem jointProxy_ok {n : Nat} : (x y : Val) → emptied x = emptied y →
    (∀ p ∈ leaves x, Sortable n p) →
    jointProxy x y = .ok (packLeaves x.size (leaves x), packLeaves y.size (leaves y))
  | .vec (.atom t) xs, .vec (.atom u) ys, he, _ => by
      rw [emptied, emptied] at he
      have : t = u := by cases he; rfl
      unfold jointProxy
      dsimp only
      rw [if_pos this]
      rfl
  | .vec .list xs, _, _, hs => absurd (hs (.vec .list xs) (by simp [leaves])) (by simp [Sortable])
  | .vec (.atom _) _, .vec .list _, he, _ => by rw [emptied, emptied] at he; cases he
  | .vec (.atom _) _, .df _ _, he, _ => by rw [emptied, emptied] at he; cases he
  | .df _ _, .vec _ _, he, _ => by rw [emptied, emptied] at he; cases he
  | .df k xs, .df l ys, he, hs => by
      rw [emptied, emptied] at he
      have he' : emptiedAll xs = emptiedAll ys := by
        injection he
      obtain ⟨ps, qs, h1, h2, h3, h4⟩ := jointProxyCols_ok xs ys he' hs
      unfold jointProxy
      dsimp only
      rw [if_neg (by simpa using h4), h1, ok_bind]
      dsimp only
      rw [dfFlatten_ok, ok_bind, dfFlatten_ok, ok_bind, h2, h3, unwrap_df _ _ (leavesAll_vec xs),
        unwrap_df _ _ (leavesAll_vec ys)]
      rfl

theorem jointProxyCols_ok {n : Nat} : (xs ys : List Val) → emptiedAll xs = emptiedAll ys →
    (∀ p ∈ leavesAll xs, Sortable n p) → ∃ ps qs, jointProxyCols xs ys = .ok (ps, qs) ∧
      leavesAll ps = leavesAll xs ∧ leavesAll qs = leavesAll ys ∧ xs.length = ys.length
  | [], [], _, _ => ⟨[], [], rfl, rfl, rfl, rfl⟩
  | [], _ :: _, he, _ => by rw [emptiedAll, emptiedAll] at he; cases he
  | _ :: _, [], he, _ => by rw [emptiedAll, emptiedAll] at he; cases he
  | x :: xs, y :: ys, he, hs => by
      rw [emptiedAll, emptiedAll] at he
      obtain ⟨ps, qs, h1, h2, h3, h4⟩ := jointProxyCols_ok xs ys (List.cons.inj he).2
        (fun p hp => hs p (by simp [leavesAll, hp]))
      have h5 := jointProxy_ok x y (List.cons.inj he).1 (fun p hp => hs p (by simp [leavesAll, hp]))
      refine ⟨packLeaves x.size (leaves x) :: ps, packLeaves y.size (leaves y) :: qs, ?_, ?_, ?_,
        by simpa using h4⟩
      · unfold jointProxyCols
        dsimp only
        rw [h5, ok_bind]
        dsimp only
        rw [h1, ok_bind]
      · simp only [leavesAll, h2, leaves_pack _ _ (leaves_vec x)]
      · simp only [leavesAll, h3, leaves_pack _ _ (leaves_vec y)]

end

/-! ## Merging -/

section Merge

variable {K : Type} [LinearOrder K]

/-- The rank of a key among `D`. -/
def keyRank (base : Int) (D : Finset K) (k : K) : Int := base + ((D.filter (· < k)).card : Int)

theorem keyRank_lt {base : Int} {D : Finset K} {k l : K} (hk : k ∈ D) :
    keyRank base D k < keyRank base D l ↔ k < l := by
  unfold keyRank
  constructor
  · intro h
    by_contra hc
    have hsub : D.filter (· < l) ⊆ D.filter (· < k) := by
      intro p hp
      rw [Finset.mem_filter] at hp ⊢
      exact ⟨hp.1, lt_of_lt_of_le hp.2 (not_lt.1 hc)⟩
    have := Finset.card_le_card hsub
    omega
  · intro h
    have hsub : D.filter (· < k) ⊂ D.filter (· < l) := by
      rw [Finset.ssubset_iff_of_subset]
      · exact ⟨k, by simp [hk, h], by simp⟩
      · intro p hp
        rw [Finset.mem_filter] at hp ⊢
        exact ⟨hp.1, lt_trans hp.2 h⟩
    have := Finset.card_lt_card hsub
    omega

/-- The keys of `g` groups of `x` and of `h` groups of `y` are done. -/
structure Merging (base : Int) (D : Finset K) (gx gy : List K) (g h : Nat) (rank : Int) : Prop where
  all : ∀ p, p ∈ D ↔ p ∈ gx ∨ p ∈ gy
  done : ∃ P : Finset K, (∀ p, p ∈ P ↔ p ∈ gx.take g ∨ p ∈ gy.take h) ∧ rank = base + P.card
  rest : ∀ p q, (p ∈ gx.take g ∨ p ∈ gy.take h) → (q ∈ gx.drop g ∨ q ∈ gy.drop h) → p < q

theorem mem_take_drop {α : Type} {l : List α} (g : Nat) {a : α} :
    a ∈ l ↔ a ∈ l.take g ∨ a ∈ l.drop g := by
  conv_lhs => rw [← List.take_append_drop g l, List.mem_append]

theorem Merging.step {base : Int} {D : Finset K} {gx gy : List K} {g h g' h' : Nat} {rank : Int}
    (hm : Merging base D gx gy g h rank) {k : K}
    (hA : ∀ p, (p ∈ gx.take g' ∨ p ∈ gy.take h') ↔ (p ∈ gx.take g ∨ p ∈ gy.take h) ∨ p = k)
    (hB : ∀ q, (q ∈ gx.drop g' ∨ q ∈ gy.drop h') → k < q ∧ (q ∈ gx.drop g ∨ q ∈ gy.drop h))
    (hC : k ∈ gx.drop g ∨ k ∈ gy.drop h)
    (hD : ∀ q, (q ∈ gx.drop g ∨ q ∈ gy.drop h) → k ≤ q) :
    keyRank base D k = rank ∧ Merging base D gx gy g' h' (rank + 1) := by
  obtain ⟨P, hP, hr⟩ := hm.done
  constructor
  · have : D.filter (· < k) = P := by
      ext p
      rw [Finset.mem_filter, hP, hm.all]
      constructor
      · rintro ⟨h1, h2⟩
        by_contra hc
        refine absurd h2 (not_lt.2 (hD p ?_))
        rw [mem_take_drop (l := gx) g, mem_take_drop (l := gy) h] at h1
        tauto
      · intro h1
        refine ⟨?_, hm.rest p k h1 hC⟩
        rw [mem_take_drop (l := gx) g, mem_take_drop (l := gy) h]
        tauto
    rw [keyRank, this, hr]
  · have hk : k ∉ P := by
      rw [hP]
      exact fun h1 => lt_irrefl _ (hm.rest k k h1 hC)
    refine ⟨hm.all, ⟨insert k P, ?_, ?_⟩, ?_⟩
    · intro p
      rw [Finset.mem_insert, hP, hA]
      exact or_comm
    · rw [Finset.card_insert_of_notMem hk, hr]
      omega
    · intro p q h1 h2
      obtain ⟨h3, h4⟩ := hB q h2
      rcases (hA p).1 h1 with h5 | rfl
      · exact hm.rest p q h5 h4
      · exact h3

theorem drop_cons_get {α : Type} {l : List α} {g : Nat} {k : α} (h : l[g]? = some k) :
    l.drop g = k :: l.drop (g + 1) ∧ l.take (g + 1) = l.take g ++ [k] := by
  obtain ⟨hg, rfl⟩ := List.getElem?_eq_some_iff.1 h
  exact ⟨List.drop_eq_getElem_cons hg, by rw [List.take_succ_eq_append_getElem hg]⟩

theorem sorted_drop {l : List K} (hs : l.Pairwise (· < ·)) {g : Nat} {k : K} (h : l[g]? = some k) :
    ∀ q ∈ l.drop (g + 1), k < q := by
  have := hs.sublist (List.drop_sublist g l)
  rw [(drop_cons_get h).1, List.pairwise_cons] at this
  exact this.1

theorem Merging.takeX {base : Int} {D : Finset K} {gx gy : List K} (hx : gx.Pairwise (· < ·))
    {g h : Nat} {rank : Int} (hm : Merging base D gx gy g h rank) {k : K} (hk : gx[g]? = some k)
    (hy : ∀ q ∈ gy.drop h, k < q) :
    keyRank base D k = rank ∧ Merging base D gx gy (g + 1) h (rank + 1) := by
  obtain ⟨e1, e2⟩ := drop_cons_get hk
  have hs := sorted_drop hx hk
  refine hm.step ?_ ?_ ?_ ?_
  · intro p
    rw [e2, List.mem_append, List.mem_singleton]
    tauto
  · rintro q (hq | hq)
    · exact ⟨hs q hq, .inl (by rw [e1]; exact List.mem_cons_of_mem _ hq)⟩
    · exact ⟨hy q hq, .inr hq⟩
  · exact .inl (by rw [e1]; exact List.mem_cons_self)
  · rintro q (hq | hq)
    · rw [e1, List.mem_cons] at hq
      rcases hq with rfl | hq
      · exact le_refl _
      · exact (hs q hq).le
    · exact (hy q hq).le

theorem Merging.symm {base : Int} {D : Finset K} {gx gy : List K} {g h : Nat} {rank : Int}
    (hm : Merging base D gx gy g h rank) : Merging base D gy gx h g rank := by
  obtain ⟨P, hP, hr⟩ := hm.done
  exact ⟨fun p => (hm.all p).trans or_comm, ⟨P, fun p => (hP p).trans or_comm, hr⟩,
    fun p q h1 h2 => hm.rest p q h1.symm h2.symm⟩

theorem Merging.takeY {base : Int} {D : Finset K} {gx gy : List K} (hy : gy.Pairwise (· < ·))
    {g h : Nat} {rank : Int} (hm : Merging base D gx gy g h rank) {k : K} (hk : gy[h]? = some k)
    (hx : ∀ q ∈ gx.drop g, k < q) :
    keyRank base D k = rank ∧ Merging base D gx gy g (h + 1) (rank + 1) := by
  obtain ⟨h1, h2⟩ := hm.symm.takeX hy hk hx
  exact ⟨h1, h2.symm⟩

theorem Merging.takeBoth {base : Int} {D : Finset K} {gx gy : List K} (hx : gx.Pairwise (· < ·))
    (hy : gy.Pairwise (· < ·)) {g h : Nat} {rank : Int} (hm : Merging base D gx gy g h rank) {k : K}
    (hk : gx[g]? = some k) (hk' : gy[h]? = some k) :
    keyRank base D k = rank ∧ Merging base D gx gy (g + 1) (h + 1) (rank + 1) := by
  obtain ⟨e1, e2⟩ := drop_cons_get hk
  obtain ⟨e3, e4⟩ := drop_cons_get hk'
  have hs := sorted_drop hx hk
  have hs' := sorted_drop hy hk'
  refine hm.step ?_ ?_ ?_ ?_
  · intro p
    rw [e2, e4, List.mem_append, List.mem_append, List.mem_singleton]
    tauto
  · rintro q (hq | hq)
    · exact ⟨hs q hq, .inl (by rw [e1]; exact List.mem_cons_of_mem _ hq)⟩
    · exact ⟨hs' q hq, .inr (by rw [e3]; exact List.mem_cons_of_mem _ hq)⟩
  · exact .inl (by rw [e1]; exact List.mem_cons_self)
  · rintro q (hq | hq)
    · rw [e1, List.mem_cons] at hq
      rcases hq with rfl | hq
      · exact le_refl _
      · exact (hs q hq).le
    · rw [e3, List.mem_cons] at hq
      rcases hq with rfl | hq
      · exact le_refl _
      · exact (hs' q hq).le

theorem Merging.rank_le {base : Int} {D : Finset K} {gx gy : List K} {g h : Nat} {rank : Int}
    (hm : Merging base D gx gy g h rank) : base ≤ rank ∧ rank ≤ base + gx.length + gy.length := by
  classical
  obtain ⟨P, hP, hr⟩ := hm.done
  have h1 : P ⊆ (gx.take g ++ gy.take h).toFinset := by
    intro p hp
    rw [List.mem_toFinset, List.mem_append]
    exact (hP p).1 hp
  have h2 := (Finset.card_le_card h1).trans (List.toFinset_card_le _)
  rw [List.length_append, List.length_take, List.length_take] at h2
  omega

end Merge

/-! ## The loops -/

/-- One vector during the merge. -/
structure SideOk (R : Nat → Int) (n : Nat) (B : List (List Nat)) (s : JointSide) : Prop where
  ranked : Ranked R n B.flatten s.oLoc s.ranks
  loc : s.oLoc = (B.take s.group).flatten.length
  le : s.group ≤ B.length

theorem jointTake_ok {R : Nat → Int} {n : Nat} {B : List (List Nat)} (hF : ∀ r ∈ B.flatten, r < n)
    {s : JointSide} (hs : SideOk R n B s) {b : List Nat} (hb : B[s.group]? = some b) {rank : Int}
    (hR : ∀ r ∈ b, R r = rank) :
    Ret (jointTake (B.flatten.map (fun (i : Nat) => (i : Int) + 1)) rank b.length s)
      (fun t => SideOk R n B t ∧ t.group = s.group + 1) := by
  obtain ⟨h1, h2, h3⟩ := hs
  obtain ⟨ranks, oLoc, g⟩ := s
  dsimp only at h1 h2 h3 hb
  subst h2
  unfold jointTake
  refine Ret.bind (rankFill_group hF hb hR h1) ?_
  rintro ⟨ranks', oLoc'⟩ ⟨k1, k2⟩
  dsimp only at k1 k2
  exact Ret.ok ⟨⟨k1 ▸ k2, k1, (List.getElem?_eq_some_iff.1 hb).1⟩, rfl⟩

/-- The groups of ties of a vector have the keys `gs`, in increasing order. -/
structure KeyGroups {K : Type} [LinearOrder K] (k : Nat → K) (n : Nat) (B : List (List Nat))
    (gs : List K) : Prop where
  perm : B.flatten.Perm (List.range n)
  nonempty : ∀ b ∈ B, b ≠ []
  sorted : gs.Pairwise (· < ·)
  length : gs.length = B.length
  key : ∀ (g : Nat) (b : List Nat), B[g]? = some b → ∃ c, gs[g]? = some c ∧ ∀ r ∈ b, k r = c

theorem KeyGroups.lt {K : Type} [LinearOrder K] {k : Nat → K} {n : Nat} {B : List (List Nat)}
    {gs : List K} (h : KeyGroups k n B gs) : ∀ r ∈ B.flatten, r < n :=
  fun r hr => List.mem_range.1 (h.perm.mem_iff.1 hr)

theorem flatten_length_ge : {B : List (List Nat)} → (∀ b ∈ B, b ≠ []) → B.length ≤ B.flatten.length
  | [], _ => by simp
  | b :: B, h => by
      have h1 := flatten_length_ge (B := B) (fun c hc => h c (by simp [hc]))
      have h2 := List.length_pos_iff.2 (h b (by simp))
      rw [List.flatten_cons, List.length_append, List.length_cons]
      omega

theorem KeyGroups.count {K : Type} [LinearOrder K] {k : Nat → K} {n : Nat} {B : List (List Nat)}
    {gs : List K} (h : KeyGroups k n B gs) : gs.length ≤ n := by
  have h1 := flatten_length_ge h.nonempty
  have h2 := h.perm.length_eq
  rw [List.length_range] at h2
  rw [h.length]
  omega

theorem KeyGroups.mem {K : Type} [LinearOrder K] {k : Nat → K} {n : Nat} {B : List (List Nat)}
    {gs : List K} (h : KeyGroups k n B gs) {i : Nat} (hi : i < n) : k i ∈ gs := by
  have : i ∈ B.flatten := h.perm.mem_iff.2 (List.mem_range.2 hi)
  obtain ⟨b, hb, hib⟩ := List.mem_flatten.1 this
  obtain ⟨g, hg⟩ := List.getElem?_of_mem hb
  obtain ⟨c, hc, hk⟩ := h.key g b hg
  rw [hk i hib]
  exact List.mem_of_getElem? hc

theorem Spec.TieGroups.keyGroups {K : Type} [LinearOrder K] {before : Nat → Nat → Prop} {n : Nat}
    {B : List (List Nat)} (h : TieGroups before n B) {k : Nat → K}
    (hk : ∀ i j, i < n → j < n → (before i j ↔ k i < k j)) : ∃ gs, KeyGroups k n B gs := by
  have hlt : ∀ b ∈ B, ∀ i ∈ b, i < n := fun b hb i hi =>
    List.mem_range.1 (h.perm.mem_iff.1 (List.mem_flatten.2 ⟨b, hb, hi⟩))
  have hsame : ∀ b ∈ B, ∀ i ∈ b, ∀ j ∈ b, k i = k j := by
    intro b hb i hi j hj
    have h1 := h.tied b hb i hi j hj
    have h2 := h.tied b hb j hj i hi
    rw [hk _ _ (hlt b hb i hi) (hlt b hb j hj)] at h1
    rw [hk _ _ (hlt b hb j hj) (hlt b hb i hi)] at h2
    exact le_antisymm (not_lt.1 h2) (not_lt.1 h1)
  have hsort : B.Pairwise (fun b c => ∀ i ∈ b, ∀ j ∈ c, k i < k j) := by
    refine h.sorted.imp_of_mem ?_
    intro b c hb hc hbc i hi j hj
    exact (hk _ _ (hlt b hb i hi) (hlt c hc j hj)).1 (hbc i hi j hj)
  obtain ⟨gs, h1, h2⟩ : ∃ gs : List K, gs.length = B.length ∧ ∀ (g : Nat) (b : List Nat),
      B[g]? = some b → ∃ c, gs[g]? = some c ∧ ∀ r ∈ b, k r = c := by
    have hne := h.nonempty
    clear h hlt hsort
    induction B with
    | nil => exact ⟨[], rfl, by simp⟩
    | cons b B ih =>
      obtain ⟨gs, h1, h2⟩ := ih (fun c hc => hsame c (by simp [hc])) (fun c hc => hne c (by simp [hc]))
      cases b with
      | nil => exact absurd rfl (hne [] (by simp))
      | cons i b =>
        refine ⟨k i :: gs, by simp [h1], ?_⟩
        intro g c hg
        cases g with
        | zero =>
          simp only [List.getElem?_cons_zero, Option.some.injEq] at hg
          subst hg
          exact ⟨k i, rfl, fun r hr => hsame _ (by simp) r hr i (by simp)⟩
        | succ g => exact h2 g c (by simpa using hg)
  refine ⟨gs, h.perm, h.nonempty, ?_, h1, h2⟩
  rw [List.pairwise_iff_getElem]
  intro g g' hg hg' hlt'
  obtain ⟨c, hc, hkc⟩ := h2 g _ (List.getElem?_eq_getElem (by omega))
  obtain ⟨c', hc', hkc'⟩ := h2 g' _ (List.getElem?_eq_getElem (by omega))
  rw [List.getElem?_eq_getElem hg] at hc
  rw [List.getElem?_eq_getElem hg'] at hc'
  have h5 := List.pairwise_iff_getElem.1 hsort g g' (by omega) (by omega) hlt'
  obtain ⟨i, hi⟩ := List.exists_mem_of_ne_nil _ (h.nonempty _ (List.getElem_mem (l := B) (n := g) (by omega)))
  obtain ⟨j, hj⟩ := List.exists_mem_of_ne_nil _ (h.nonempty _ (List.getElem_mem (l := B) (n := g') (by omega)))
  have := h5 i hi j hj
  rw [hkc i hi, hkc' j hj] at this
  simp only [Option.some.injEq] at hc hc'
  rw [hc, hc']
  exact this

section Loops

variable {K : Type} [LinearOrder K] {kx ky : Nat → K} {n m : Nat} {Bx By : List (List Nat)}
  {gx gy : List K}

/-- The state of the merge. -/
structure JointOk (D : Finset K) (kx ky : Nat → K) (n m : Nat) (Bx By : List (List Nat))
    (gx gy : List K) (s : JointState) : Prop where
  x : SideOk (fun r => keyRank (naInt + 1) D (kx r)) n Bx s.x
  y : SideOk (fun r => keyRank (naInt + 1) D (ky r)) m By s.y
  merging : Merging (naInt + 1) D gx gy s.x.group s.y.group s.rank

theorem first_of_group {B : List (List Nat)} {s : JointSide} {R : Nat → Int} (hs : SideOk R n B s)
    {b : List Nat} (hb : B[s.group]? = some b) (hne : b ≠ []) :
    ∃ i, i ∈ b ∧ rd (B.flatten.map (fun (i : Nat) => (i : Int) + 1)) s.oLoc = .ok ((i : Int) + 1) := by
  cases b with
  | nil => exact absurd rfl hne
  | cons i b =>
    refine ⟨i, by simp, rd_of_getElem? ?_⟩
    have := flatten_get hb (j := 0) (by simp)
    rw [Nat.add_zero, ← hs.loc] at this
    rw [List.getElem?_map, this]
    rfl

theorem jointStep_ok {D : Finset K} (hx : KeyGroups kx n Bx gx) (hy : KeyGroups ky m By gy)
    (hn : n ≤ intMax) (hm : m ≤ intMax) {nd : Bool} {xv yv : Val}
    (hcmp : ∀ i j, i < n → j < m → ∃ c, jointCompare nd xv i yv j = .ok c ∧
      OrdCmp (kx i < ky j) (ky j < kx i) c) {s : JointState} (k : Nat)
    (hs : JointOk D kx ky n m Bx By gx gy s) :
    Ret (jointStep nd xv yv ⟨Bx.flatten.map (fun (i : Nat) => (i : Int) + 1), Bx.map List.length⟩
      ⟨By.flatten.map (fun (i : Nat) => (i : Int) + 1), By.map List.length⟩ k s) (fun c => match c with
        | .next t => JointOk D kx ky n m Bx By gx gy t ∧
            s.x.group + s.y.group < t.x.group + t.y.group
        | .brk t => JointOk D kx ky n m Bx By gx gy t ∧
            (t.x.group = Bx.length ∨ t.y.group = By.length)) := by
  obtain ⟨h1, h2, h3⟩ := hs
  unfold jointStep
  dsimp only
  rw [List.length_map, List.length_map]
  by_cases hc : s.x.group < Bx.length ∧ s.y.group < By.length
  · rw [if_pos hc]
    obtain ⟨b, hb⟩ : ∃ b, Bx[s.x.group]? = some b := ⟨_, List.getElem?_eq_getElem hc.1⟩
    obtain ⟨d, hd⟩ : ∃ b, By[s.y.group]? = some b := ⟨_, List.getElem?_eq_getElem hc.2⟩
    obtain ⟨i, hib, hi⟩ := first_of_group h1 hb (hx.nonempty b (List.mem_of_getElem? hb))
    obtain ⟨j, hjd, hj⟩ := first_of_group h2 hd (hy.nonempty d (List.mem_of_getElem? hd))
    obtain ⟨u, hu, hbu⟩ := hx.key _ b hb
    obtain ⟨v, hv, hdv⟩ := hy.key _ d hd
    obtain ⟨c, hcc, hr, hl, hg⟩ := hcmp i j
      (hx.lt i (List.mem_flatten.2 ⟨b, List.mem_of_getElem? hb, hib⟩))
      (hy.lt j (List.mem_flatten.2 ⟨d, List.mem_of_getElem? hd, hjd⟩))
    rw [hbu i hib, hdv j hjd] at hl hg
    refine Ret.bind_eq (rd_length hb) ?_
    refine Ret.bind_eq (rd_length hd) ?_
    refine Ret.bind_eq hi ?_
    refine Ret.bind_eq hj ?_
    rw [Int.add_sub_cancel, Int.add_sub_cancel]
    refine Ret.bind_eq hcc ?_
    have hcx := hx.count
    have hcy := hy.count
    have hchk : ∀ {g h : Nat}, Merging (naInt + 1) D gx gy g h (s.rank + 1) →
        chkInt (s.rank + 1) = .ok (s.rank + 1) := by
      intro g h hM
      have := hM.rank_le
      refine chkInt_ok ?_ ?_
      · unfold naInt at this; unfold intMax at *; omega
      · omega
    have hdrop : ∀ {l : List K}, l.Pairwise (· < ·) → ∀ {g : Nat} {a c : K}, l[g]? = some a → c < a →
        ∀ q ∈ l.drop g, c < q := by
      intro l hl g a c ha hca q hq
      rw [(drop_cons_get ha).1, List.mem_cons] at hq
      rcases hq with rfl | hq
      · exact hca
      · exact lt_trans hca (sorted_drop hl ha q hq)
    refine Ret.bind (P := fun t => JointOk D kx ky n m Bx By gx gy
      { t with rank := s.rank + 1 } ∧ t.rank = s.rank ∧
        s.x.group + s.y.group < t.x.group + t.y.group) ?_ ?_
    · by_cases hc1 : c = -1
      · rw [if_pos hc1]
        obtain ⟨k1, k2⟩ := h3.takeX hx.sorted hu (hdrop hy.sorted hv (hl.1 hc1))
        refine Ret.bind (jointTake_ok hx.lt h1 hb (fun r hr => by
          show keyRank _ _ (kx r) = _
          rw [hbu r hr, k1])) ?_
        rintro t ⟨ht, hg⟩
        refine Ret.ok ⟨⟨ht, h2, ?_⟩, rfl, by dsimp only; omega⟩
        dsimp only
        rw [hg]
        exact k2
      · rw [if_neg hc1]
        by_cases hc2 : c = 1
        · rw [if_pos hc2]
          obtain ⟨k1, k2⟩ := h3.takeY hy.sorted hv (hdrop hx.sorted hu (hg.1 hc2))
          refine Ret.bind (jointTake_ok hy.lt h2 hd (fun r hr => by
            show keyRank _ _ (ky r) = _
            rw [hdv r hr, k1])) ?_
          rintro t ⟨ht, hg⟩
          refine Ret.ok ⟨⟨h1, ht, ?_⟩, rfl, by dsimp only; omega⟩
          dsimp only
          rw [hg]
          exact k2
        · rw [if_neg hc2]
          have huv : u = v := le_antisymm (not_lt.1 (fun h => hc2 (hg.2 h)))
            (not_lt.1 (fun h => hc1 (hl.2 h)))
          subst huv
          obtain ⟨k1, k2⟩ := h3.takeBoth hx.sorted hy.sorted hu hv
          refine Ret.bind (jointTake_ok hx.lt h1 hb (fun r hr => by
            show keyRank _ _ (kx r) = _
            rw [hbu r hr, k1])) ?_
          rintro t ⟨ht, hg1⟩
          refine Ret.bind (jointTake_ok hy.lt h2 hd (fun r hr => by
            show keyRank _ _ (ky r) = _
            rw [hdv r hr, k1])) ?_
          rintro t' ⟨ht', hg2⟩
          refine Ret.ok ⟨⟨ht, ht', ?_⟩, rfl, by dsimp only; omega⟩
          dsimp only
          rw [hg1, hg2]
          exact k2
    · rintro t ⟨ht, hr, hlt⟩
      rw [hr]
      refine Ret.bind_eq (hchk ht.merging) (Ret.ok ⟨ht, hlt⟩)
  · rw [if_neg hc]
    refine Ret.ok ⟨⟨h1, h2, h3⟩, ?_⟩
    have := h1.le
    have := h2.le
    omega

theorem jointLoop_ok {D : Finset K} (hx : KeyGroups kx n Bx gx) (hy : KeyGroups ky m By gy)
    (hn : n ≤ intMax) (hm : m ≤ intMax) {nd : Bool} {xv yv : Val}
    (hcmp : ∀ i j, i < n → j < m → ∃ c, jointCompare nd xv i yv j = .ok c ∧
      OrdCmp (kx i < ky j) (ky j < kx i) c) {s : JointState}
    (hs : JointOk D kx ky n m Bx By gx gy s) :
    Ret (forBrk (Bx.length + By.length) (jointStep nd xv yv
      ⟨Bx.flatten.map (fun (i : Nat) => (i : Int) + 1), Bx.map List.length⟩
      ⟨By.flatten.map (fun (i : Nat) => (i : Int) + 1), By.map List.length⟩) s) (fun t =>
        JointOk D kx ky n m Bx By gx gy t ∧ (t.x.group = Bx.length ∨ t.y.group = By.length)) := by
  refine Ret.forBrk (fun k (t : JointState) => JointOk D kx ky n m Bx By gx gy t ∧
      k ≤ t.x.group + t.y.group) _ ⟨hs, by omega⟩ ?_ ?_
  · rintro k t _ ⟨ht, hk⟩
    refine (jointStep_ok hx hy hn hm hcmp k ht).mono ?_
    intro c hc
    cases c with
    | next u => exact ⟨hc.1, by have := hc.2; omega⟩
    | brk u => exact hc
  · rintro t ⟨ht, hk⟩
    have := ht.x.le
    have := ht.y.le
    exact ⟨ht, by omega⟩

/-- The loop over the remaining groups of one vector. -/
theorem jointRest_ok {D : Finset K} (hx : KeyGroups kx n Bx gx) (hn : n ≤ intMax)
    (hgy : gy.length ≤ intMax) {h : Nat} {s : JointSide} {rank : Int}
    (hs : SideOk (fun r => keyRank (naInt + 1) D (kx r)) n Bx s)
    (hM : Merging (naInt + 1) D gx gy s.group h rank)
    (hh : s.group = Bx.length ∨ gy.length ≤ h) :
    Ret (jointRest ⟨Bx.flatten.map (fun (i : Nat) => (i : Int) + 1), Bx.map List.length⟩ (s, rank))
      (fun t => SideOk (fun r => keyRank (naInt + 1) D (kx r)) n Bx t.1 ∧ t.1.group = Bx.length ∧
        Merging (naInt + 1) D gx gy Bx.length h t.2) := by
  unfold jointRest
  dsimp only
  rw [List.length_map]
  refine (Ret.forFrom (fun i (t : JointSide × Int) =>
    SideOk (fun r => keyRank (naInt + 1) D (kx r)) n Bx t.1 ∧ t.1.group = i ∧
      Merging (naInt + 1) D gx gy i h t.2) (s := (s, rank)) ⟨hs, rfl, hM⟩ ?_).mono ?_
  · rintro i ⟨t, rank⟩ hi1 hi2 ⟨k1, k2, k3⟩
    dsimp only at k1 k2 k3 ⊢
    dsimp only at hi1 hi2
    have hsle := hs.le
    have hlt : i < Bx.length := by omega
    have hb : Bx[i]? = some Bx[i] := List.getElem?_eq_getElem hlt
    obtain ⟨u, hu, hbu⟩ := hx.key _ _ hb
    refine Ret.bind_eq (rd_length hb) ?_
    have hh' : gy.length ≤ h := by omega
    obtain ⟨j1, j2⟩ := k3.takeX hx.sorted hu (by
      rw [List.drop_eq_nil_of_le hh']
      simp)
    refine Ret.bind (jointTake_ok hx.lt k1 (by rw [k2]; exact hb) (fun r hr => by
      show keyRank _ _ (kx r) = _
      rw [hbu r hr, j1])) ?_
    rintro t' ⟨ht', hg⟩
    have hcx := hx.count
    have hchk : chkInt (rank + 1) = .ok (rank + 1) := by
      have := j2.rank_le
      refine chkInt_ok ?_ ?_
      · unfold naInt at this; unfold intMax at *; omega
      · omega
    exact Ret.bind_eq hchk (Ret.ok ⟨ht', by dsimp only; omega, j2⟩)
  · rintro t ⟨k1, k2, k3⟩
    have hsle := hs.le
    have e : s.group + (Bx.length - s.group) = Bx.length := by omega
    rw [e] at k2 k3
    exact ⟨k1, k2, k3⟩

theorem SideOk.start {R : Nat → Int} {n : Nat} {B : List (List Nat)} :
    SideOk R n B ⟨alloc Int n, 0, 0⟩ := by
  refine ⟨⟨by simp [alloc], ?_⟩, by simp, Nat.zero_le _⟩
  intro p r hp
  exact absurd hp (Nat.not_lt_zero _)

theorem jointMerge_ok (hx : KeyGroups kx n Bx gx) (hy : KeyGroups ky m By gy)
    (hn : n ≤ intMax) (hm : m ≤ intMax) {nd : Bool} {xv yv : Val}
    (hcmp : ∀ i j, i < n → j < m → ∃ c, jointCompare nd xv i yv j = .ok c ∧
      OrdCmp (kx i < ky j) (ky j < kx i) c) :
    ∃ D : Finset K, (∀ p, p ∈ D ↔ p ∈ gx ∨ p ∈ gy) ∧
      jointMerge nd xv yv ⟨Bx.flatten.map (fun (i : Nat) => (i : Int) + 1), Bx.map List.length⟩
        ⟨By.flatten.map (fun (i : Nat) => (i : Int) + 1), By.map List.length⟩ n m =
        .ok ((List.range n).map (fun r => keyRank (naInt + 1) D (kx r)),
          (List.range m).map (fun r => keyRank (naInt + 1) D (ky r))) := by
  classical
  refine ⟨gx.toFinset ∪ gy.toFinset, by simp, ?_⟩
  set D := gx.toFinset ∪ gy.toFinset with hD
  suffices H : Ret (jointMerge nd xv yv
        ⟨Bx.flatten.map (fun (i : Nat) => (i : Int) + 1), Bx.map List.length⟩
        ⟨By.flatten.map (fun (i : Nat) => (i : Int) + 1), By.map List.length⟩ n m)
        (fun r => r = ((List.range n).map (fun r => keyRank (naInt + 1) D (kx r)),
          (List.range m).map (fun r => keyRank (naInt + 1) D (ky r)))) by
    obtain ⟨r, hr, rfl⟩ := H
    exact hr
  unfold jointMerge
  dsimp only
  rw [List.length_map, List.length_map]
  refine Ret.bind (jointLoop_ok hx hy hn hm hcmp (D := D) ⟨SideOk.start, SideOk.start, ?_⟩) ?_
  · refine ⟨by simp [hD], ⟨∅, by simp, by simp⟩, ?_⟩
    intro p q hp
    simp at hp
  · rintro s ⟨⟨h1, h2, h3⟩, h4⟩
    have hcx := hx.count
    have hcy := hy.count
    refine Ret.bind (jointRest_ok hx hn (by omega) h1 h3 ?_) ?_
    · rcases h4 with h4 | h4
      · exact .inl h4
      · exact .inr (by rw [h4, hy.length])
    · rintro ⟨x, rank⟩ ⟨k1, k2, k3⟩
      dsimp only at k1 k2 k3 ⊢
      refine Ret.bind (jointRest_ok hy hm (by omega) h2 k3.symm (.inr (by rw [hx.length]))) ?_
      rintro ⟨y, rank'⟩ ⟨j1, j2, _⟩
      dsimp only at j1 j2 ⊢
      have e1 := k1.loc
      have e2 := j1.loc
      rw [k2, List.take_length] at e1
      rw [j2, List.take_length] at e2
      have r1 := k1.ranked
      have r2 := j1.ranked
      rw [e1] at r1
      rw [e2] at r2
      refine Ret.bind_eq (r1.final hx.perm) ?_
      refine Ret.bind_eq (r2.final hy.perm) ?_
      exact Ret.ok rfl

end Loops

end Vctrs
