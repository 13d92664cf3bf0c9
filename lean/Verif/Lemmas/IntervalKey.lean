import Verif.Lemmas.Rank
import Verif.Lemmas.Compare
import Verif.Model.Interval
import Verif.SpecInterval
import Mathlib.Order.Antisymmetrization
import Mathlib.Tactic.Order

namespace Vctrs

open Spec

/-! ## The order of rows -/

theorem atomLt_tri : (t : ATy) → Spec.Ordered t → (a b : t.El) →
    AtomLt t a b ∨ SameAtom t a b ∨ AtomLt t b a
  | .lgl, _, (a : Int), (b : Int) => by
      show (a ≠ b ∧ (a = naInt ∨ (b ≠ naInt ∧ a < b))) ∨ a = b ∨
        (b ≠ a ∧ (b = naInt ∨ (a ≠ naInt ∧ b < a)))
      omega
  | .int, _, (a : Int), (b : Int) => by
      show (a ≠ b ∧ (a = naInt ∨ (b ≠ naInt ∧ a < b))) ∨ a = b ∨
        (b ≠ a ∧ (b = naInt ∨ (a ≠ naInt ∧ b < a)))
      omega
  | .dbl, _, (a : Dbl), (b : Dbl) => by
      obtain ⟨h1, h2, h3, h4⟩ := dblCompareNaEqual_spec a b
      rcases h1 with h | h | h
      · exact .inl (h2.1 h)
      · exact .inr (.inl (h4.1 h))
      · exact .inr (.inr (h3.1 h))
  | .chr, _, (a : Name), (b : Name) => by
      obtain ⟨r, -, h1, h2, h3, h4⟩ := chrCompareNaEqual_spec a b
      rcases h1 with h | h | h
      · exact .inl (h2.1 h)
      · exact .inr (.inl (h4.1 h))
      · exact .inr (.inr (h3.1 h))

theorem atomLt_irrefl : (t : ATy) → (a : t.El) → ¬ AtomLt t a a
  | .lgl, (a : Int) => fun h => h.1 rfl
  | .int, (a : Int) => fun h => h.1 rfl
  | .dbl, (a : Dbl) => by
      obtain ⟨h1, h2, h3, h4⟩ := dblCompareNaEqual_spec a a
      intro h
      have e1 := h2.2 h
      have e2 := h3.2 h
      rw [e1] at e2
      omega
  | .chr, (a : Name) => by
      obtain ⟨r, -, h1, h2, h3, h4⟩ := chrCompareNaEqual_spec a a
      intro h
      have e1 := h2.2 h
      have e2 := h3.2 h
      rw [e1] at e2
      omega
  | .cpl, _ => id
  | .raw, _ => id

theorem atomLt_not_same (t : ATy) {a b : t.El} (h : AtomLt t a b) : ¬ SameAtom t a b :=
  fun hs => atomLt_irrefl t a (atomLt_same_right t a b a h (sameAtom_symm t _ _ hs))

theorem sameCells_symm : (ts : List ATy) → {a b : Row ts} → SameCells ts a b → SameCells ts b a
  | [], _, _, _ => trivial
  | t :: ts, (_, _), (_, _), h => ⟨sameAtom_symm t _ _ h.1, sameCells_symm ts h.2⟩

theorem rowsLt_same_left : (ts : List ATy) → {a b c : Row ts} → SameCells ts a b → RowsLt ts b c →
    RowsLt ts a c
  | [], _, _, _, _, h => h
  | t :: ts, (_, _), (_, _), (_, _), h, h' => by
      rcases h' with h' | h'
      · exact .inl (atomLt_same_left t _ _ _ h.1 h')
      · exact .inr ⟨sameAtom_trans t _ _ _ h.1 h'.1, rowsLt_same_left ts h.2 h'.2⟩

theorem rowsLt_same_right : (ts : List ATy) → {a b c : Row ts} → RowsLt ts a b → SameCells ts b c →
    RowsLt ts a c
  | [], _, _, _, h, _ => h
  | t :: ts, (_, _), (_, _), (_, _), h', h => by
      rcases h' with h' | h'
      · exact .inl (atomLt_same_right t _ _ _ h' h.1)
      · exact .inr ⟨sameAtom_trans t _ _ _ h'.1 h.1, rowsLt_same_right ts h'.2 h.2⟩

theorem rowsLt_trans : (ts : List ATy) → {a b c : Row ts} → RowsLt ts a b → RowsLt ts b c →
    RowsLt ts a c
  | [], _, _, _, h, _ => h
  | t :: ts, (_, _), (_, _), (_, _), h, h' => by
      rcases h with h | h <;> rcases h' with h' | h'
      · exact .inl (atomLt_trans t _ _ _ h h')
      · exact .inl (atomLt_same_right t _ _ _ h h'.1)
      · exact .inl (atomLt_same_left t _ _ _ h.1 h')
      · exact .inr ⟨sameAtom_trans t _ _ _ h.1 h'.1, rowsLt_trans ts h.2 h'.2⟩

theorem rowsLt_irrefl : (ts : List ATy) → (a : Row ts) → ¬ RowsLt ts a a
  | [], _ => id
  | t :: ts, (x, r) => by
      rintro (h | h)
      · exact atomLt_irrefl t x h
      · exact rowsLt_irrefl ts r h.2

theorem rowsLt_tri : (ts : List ATy) → (∀ t ∈ ts, Spec.Ordered t) → (a b : Row ts) →
    RowsLt ts a b ∨ SameCells ts a b ∨ RowsLt ts b a
  | [], _, _, _ => .inr (.inl trivial)
  | t :: ts, h, (x, r), (y, s) => by
      rcases atomLt_tri t (h t (by simp)) x y with h1 | h1 | h1
      · exact .inl (.inl h1)
      · rcases rowsLt_tri ts (fun u hu => h u (by simp [hu])) r s with h2 | h2 | h2
        · exact .inl (.inr ⟨h1, h2⟩)
        · exact .inr (.inl ⟨h1, h2⟩)
        · exact .inr (.inr (.inr ⟨sameAtom_symm t _ _ h1, h2⟩))
      · exact .inr (.inr (.inl h1))

/-- Rows are ordered by keys in a linear order. -/
theorem rows_key (ts : List ATy) (h : ∀ t ∈ ts, Spec.Ordered t) :
    ∃ (K : Type) (_ : LinearOrder K) (k : Row ts → K), ∀ a b, k a < k b ↔ RowsLt ts a b := by
  classical
  let P : Preorder (Row ts) :=
    { le := fun a b => ¬ RowsLt ts b a
      lt := fun a b => RowsLt ts a b
      le_refl := rowsLt_irrefl ts
      le_trans := by
        intro a b c hab hbc hca
        rcases rowsLt_tri ts h a b with h1 | h1 | h1
        · exact hbc (rowsLt_trans ts hca h1)
        · exact hbc (rowsLt_same_right ts hca h1)
        · exact hab h1
      lt_iff_le_not_ge := by
        intro a b
        constructor
        · intro hab
          exact ⟨fun hba => rowsLt_irrefl ts a (rowsLt_trans ts hab hba), fun hn => hn hab⟩
        · rintro ⟨_, h2⟩
          exact Classical.not_not.1 h2 }
  have : @Std.Total (Row ts) (· ≤ ·) := ⟨by
    intro a b
    by_cases hab : RowsLt ts b a
    · right
      exact fun hba => rowsLt_irrefl ts a (rowsLt_trans ts hba hab)
    · left
      exact hab⟩
  refine ⟨Antisymmetrization (Row ts) (· ≤ ·), inferInstance, toAntisymmetrization (· ≤ ·), ?_⟩
  intro a b
  exact toAntisymmetrization_lt_toAntisymmetrization_iff

/-! ## Rows of values -/

theorem HasTypes.row : {ts : List ATy} → {ps : List Val} → HasTypes ts ps → {n : Nat} →
    (∀ p ∈ ps, Sized n p) → {i : Nat} → i < n → ∃ r, HasRow ts ps i r
  | [], _, h, _, _, _, _ => ⟨(), h⟩
  | t :: ts, _, ⟨xs, qs, rfl, h⟩, n, hs, i, hi => by
      obtain ⟨r, hr⟩ := HasTypes.row h (fun p hp => hs p (by simp [hp])) hi
      have hx : xs.length = n := by
        have := hs _ (List.mem_cons_self ..)
        cases this with
        | vec _ _ h => exact h
      exact ⟨(xs[i]'(by omega), r), xs, qs, rfl, List.getElem?_eq_getElem _, hr⟩

theorem hasRow_unique : {ts : List ATy} → {ps : List Val} → {i : Nat} → {r s : Row ts} →
    HasRow ts ps i r → HasRow ts ps i s → r = s
  | [], _, _, (), (), _, _ => rfl
  | t :: ts, _, _, (a, r), (b, s), ⟨xs, qs, e, ha, hr⟩, ⟨xs', qs', e', hb, hs⟩ => by
      subst e
      cases e'
      have := hasRow_unique hr hs
      subst this
      have e2 : some a = some b := ha.symm.trans hb
      cases e2
      rfl

theorem hasRow_types : {ts : List ATy} → {ps : List Val} → {i : Nat} → {r : Row ts} →
    HasRow ts ps i r → HasTypes ts ps
  | [], _, _, _, h => h
  | _ :: _, _, _, (_, _), ⟨xs, qs, e, _, hr⟩ => ⟨xs, qs, e, hasRow_types hr⟩

theorem hasRow_pick : {ts : List ATy} → {ps : List Val} → HasTypes ts ps → {n : Nat} →
    (∀ p ∈ ps, Sized n p) → {l : List Nat} → (∀ i ∈ l, i < n) → {k : Nat} → {r : Row ts} →
    (HasRow ts (ps.map (pick l)) k r ↔ ∃ i, l[k]? = some i ∧ HasRow ts ps i r) ∨ ts = []
  | [], _, _, _, _, _, _, _, _ => .inr rfl
  | t :: ts, _, ⟨xs, qs, rfl, h⟩, n, hs, l, hl, k, (a, r) => by
      left
      have hx : xs.length = n := by
        have := hs _ (List.mem_cons_self ..)
        cases this with
        | vec _ _ h => exact h
      have hh : ∀ i ∈ l, i < xs.length := fun i hi => hx ▸ hl i hi
      have key : ∀ i, l[k]? = some i → (HasRow ts (qs.map (pick l)) k r ↔ HasRow ts qs i r) := by
        intro i hi
        rcases hasRow_pick h (fun p hp => hs p (by simp [hp])) hl (k := k) (r := r) with e | e
        · rw [e]
          constructor
          · rintro ⟨j, hj, hr⟩
            rw [hi] at hj
            cases hj
            exact hr
          · intro hr
            exact ⟨i, hi, hr⟩
        · subst e
          show qs.map (pick l) = [] ↔ qs = []
          simp
      constructor
      · rintro ⟨xs', qs', e, ha, hr⟩
        rw [List.map_cons, pick.eq_def] at e
        cases e
        cases hk : l[k]? with
        | none =>
          have : (pickList l xs)[k]? = none := by
            rw [List.getElem?_eq_none_iff] at hk ⊢
            rw [pickList_length hh]
            exact hk
          exact absurd (this.symm.trans ha) (by simp)
        | some i =>
          exact ⟨i, rfl, xs, qs, rfl, (pickList_get hh hk).symm.trans ha, (key i hk).1 hr⟩
      · rintro ⟨i, hi, xs', qs', e, ha, hr⟩
        cases e
        exact ⟨_, _, rfl, (pickList_get hh hi).trans ha, (key i hi).2 hr⟩

/-! ## Comparison -/

theorem Spec.Sortable.fits {n : Nat} {t : ATy} {xs : List t.El} (h : Sortable n (.vec (.atom t) xs)) :
    ∀ a ∈ xs, EltFits t a := by
  match t, xs, h with
  | .lgl, _, ⟨_, hv⟩ => exact hv
  | .int, _, ⟨_, hv⟩ => exact hv
  | .dbl, _, _ => exact fun _ _ => trivial
  | .cpl, _, _ => exact fun _ _ => trivial
  | .chr, _, _ => exact fun _ _ => trivial

/-- A comparison gives -1, 0 or 1 by the order of rows. -/
structure RowCmp (ts : List ATy) (a b : Row ts) (r : Int) : Prop where
  range : r = -1 ∨ r = 0 ∨ r = 1
  lt : r = -1 ↔ RowsLt ts a b
  gt : r = 1 ↔ RowsLt ts b a

theorem rdI_get {α : Type} {l : List α} {i : Nat} {a : α} (h : l[i]? = some a) :
    rdI l (i : Int) = .ok a := rdI_ok (by omega) (by simpa using h)

theorem pCompare_ok {n m : Nat} {t : ATy} {xs ys : List t.El} {i j : Nat} {a b : t.El}
    (ho : Spec.Ordered t) (hx : Sortable n (.vec (.atom t) xs)) (hy : Sortable m (.vec (.atom t) ys))
    (ha : xs[i]? = some a) (hb : ys[j]? = some b) :
    ∃ r, pCompare (.vec (.atom t) xs) i (.vec (.atom t) ys) j = .ok r ∧ CmpRes t a b r := by
  obtain ⟨r, h1, h2⟩ := compareNaEqual_spec t ho a b (hx.fits a (List.mem_of_getElem? ha))
    (hy.fits b (List.mem_of_getElem? hb))
  refine ⟨r, ?_, h2⟩
  unfold pCompare
  dsimp only
  rw [dif_pos rfl]
  refine bind_eq_of (rdI_get ha) ?_
  refine bind_eq_of (rdI_get hb) ?_
  exact h1

theorem forBrkFrom_shift {S : Type} {f : Nat → S → C (Ctl S)} : ∀ (n i : Nat) (s : S),
    forBrkFrom f (i + 1) n s = forBrkFrom (fun j => f (j + 1)) i n s
  | 0, _, _ => rfl
  | n + 1, i, s => by
      rw [forBrkFrom, forBrkFrom]
      cases f (i + 1) s with
      | error e => rfl
      | ok c => cases c with
        | brk s => rfl
        | next s => exact forBrkFrom_shift n (i + 1) s

theorem pDfCompare_ok : {ts : List ATy} → (∀ t ∈ ts, Spec.Ordered t) → {ps qs : List Val} → {n m : Nat} →
    (∀ p ∈ ps, Sortable n p) → (∀ q ∈ qs, Sortable m q) → {i j : Nat} → {a b : Row ts} →
    HasRow ts ps i a → HasRow ts qs j b →
    ∃ r, pDfCompare ps i qs j = .ok r ∧ RowCmp ts a b r
  | [], _, _, _, _, _, _, _, i, j, a, b, hp, hq => by
      have e1 : _ = [] := hp
      have e2 : _ = [] := hq
      subst e1 e2
      exact ⟨0, rfl, by simp, ⟨by simp, fun h => absurd h id⟩, ⟨by simp, fun h => absurd h id⟩⟩
  | t :: ts, ho, _, _, n, m, hsp, hsq, i, j, (a, r), (b, s), ⟨xs, ps, e, ha, hr⟩,
      ⟨ys, qs, e', hb, hs⟩ => by
      subst e e'
      obtain ⟨c, hc, h1, h2, h3, h4⟩ := pCompare_ok (ho t (by simp)) (hsp _ (by simp))
        (hsq _ (by simp)) ha hb
      obtain ⟨d, hd, k1, k2, k3⟩ := pDfCompare_ok (fun u hu => ho u (by simp [hu]))
        (fun p hp => hsp p (by simp [hp])) (fun p hp => hsq p (by simp [hp])) hr hs
      unfold pDfCompare at hd ⊢
      split at hd
      · cases hd
      rename_i hl
      rw [if_neg (by simpa using hl)]
      rw [List.length_cons, forBrk, forBrkFrom]
      have e1 : rd (Val.vec (.atom t) xs :: ps) 0 = .ok (.vec (.atom t) xs) := rfl
      have e2 : rd (Val.vec (.atom t) ys :: qs) 0 = .ok (.vec (.atom t) ys) := rfl
      rw [e1, ok_bind, e2, ok_bind, hc, ok_bind]
      by_cases hz : c = 0
      · rw [if_neg (by simpa using hz)]
        have hsame := h4.1 hz
        have hn1 : ¬ AtomLt t a b := fun h => atomLt_not_same t h hsame
        have hn2 : ¬ AtomLt t b a := fun h => atomLt_not_same t h (sameAtom_symm t _ _ hsame)
        refine ⟨d, ?_, k1, ?_, ?_⟩
        · rw [ok_bind]
          dsimp only
          rw [forBrkFrom_shift]
          exact hd
        · rw [k2]
          exact ⟨fun h => .inr ⟨hsame, h⟩, fun h => (h.resolve_left hn1).2⟩
        · rw [k3]
          exact ⟨fun h => .inr ⟨sameAtom_symm t _ _ hsame, h⟩, fun h => (h.resolve_left hn2).2⟩
      · rw [if_pos (by simpa using hz)]
        have hns : ¬ SameAtom t a b := fun h => hz (h4.2 h)
        refine ⟨c, rfl, h1, ?_, ?_⟩
        · rw [h2]
          exact ⟨.inl, fun h => h.resolve_right (fun h => hns h.1)⟩
        · rw [h3]
          exact ⟨.inl, fun h => h.resolve_right (fun h => hns (sameAtom_symm t _ _ h.1))⟩

/-- `poly_p_compare_na_equal` on two rows of the proxies. -/
theorem polyCompare_ok {ts : List ATy} (ho : ∀ t ∈ ts, Spec.Ordered t) {x y : Val} {n m : Nat}
    (hx : IsBounds ts n x) (hy : IsBounds ts m y) {i j : Nat} {a b : Row ts}
    (ha : HasRow ts (leaves x) i a) (hb : HasRow ts (leaves y) j b) :
    ∃ r, polyCompare (packLeaves x.size (leaves x)) i (packLeaves y.size (leaves y)) j = .ok r ∧
      RowCmp ts a b r := by
  have hsx := hx.sortable
  have hsy := hy.sortable
  clear hx hy
  generalize leaves x = ps at *
  generalize leaves y = qs at *
  revert a b
  match ts, ho with
  | [], ho =>
    intro a b ha hb
    have h := pDfCompare_ok ho hsx hsy ha hb
    have e1 : ps = [] := ha
    have e2 : qs = [] := hb
    subst e1 e2
    exact h
  | [t], ho =>
    rintro ⟨a, ⟨⟩⟩ ⟨b, ⟨⟩⟩ ⟨xs, qs', e1, ha, e2⟩ ⟨ys, qs'', e3, hb, e4⟩
    have e2 : qs' = [] := e2
    have e4 : qs'' = [] := e4
    subst e2 e4 e1 e3
    obtain ⟨c, hc, h1, h2, h3, h4⟩ := pCompare_ok (ho t (by simp)) (hsx _ (by simp))
        (hsy _ (by simp)) ha hb
    refine ⟨c, hc, h1, ?_, ?_⟩
    · rw [h2]
      exact ⟨.inl, fun h => h.resolve_right (fun h => h.2)⟩
    · rw [h3]
      exact ⟨.inl, fun h => h.resolve_right (fun h => h.2)⟩
  | t :: u :: ts, ho =>
    rintro ⟨a, a', r⟩ ⟨b, b', s⟩ ha hb
    have h := pDfCompare_ok ho hsx hsy ha hb
    obtain ⟨xs, qs', e1, _, xs', qs'', e2, _⟩ := ha
    obtain ⟨ys, rs', e3, _, ys', rs'', e4, _⟩ := hb
    subst e2 e1 e4 e3
    exact h

/-! ## Missingness -/

theorem eachMissing_iff : {ts : List ATy} → {ps : List Val} → {i : Nat} → {r : Row ts} →
    HasRow ts ps i r → (allMissing ps i = true ↔ EachMissing ts r)
  | [], _, _, _, h => by
      have e : _ = [] := h
      subst e
      exact ⟨fun _ => trivial, fun _ => rfl⟩
  | t :: ts, _, i, (a, r), ⟨xs, qs, rfl, ha, hr⟩ => by
      have ih := eachMissing_iff hr
      unfold allMissing at ih ⊢
      rw [List.all_cons, Bool.and_eq_true, ih, cellMissing_iff]
      refine and_congr ?_ Iff.rfl
      constructor
      · rintro ⟨b, hb, hm⟩
        have e : some a = some b := ha.symm.trans hb
        cases e
        exact hm
      · intro hm
        exact ⟨a, ha, hm⟩

theorem polyIsMissing_ok {ts : List ATy} {x : Val} {n : Nat} (hx : IsBounds ts n x) {i : Nat}
    {a : Row ts} (hi : i < n) (ha : HasRow ts (leaves x) i a) :
    ∃ b, polyIsMissing (packLeaves x.size (leaves x)) i = .ok b ∧ (b = true ↔ EachMissing ts a) := by
  refine ⟨allMissing (leaves x) i, ?_, eachMissing_iff ha⟩
  have hsz := sized_leaves x hx.sized
  have hv := leaves_vec x
  unfold polyIsMissing
  rw [if_neg (by omega), Int.toNat_natCast]
  generalize leaves x = ps at *
  match ps, hsz, hv with
  | [], hsz, _ => exact pDfIsMissing_ok n i hi _ hsz
  | [.vec t xs], hsz, _ =>
    obtain ⟨t', xs', e, hl⟩ := hsz _ (List.mem_cons_self ..)
    cases e
    have hxi := List.getElem?_eq_getElem (l := xs) (i := i) (by omega)
    show pIsMissing (.vec t xs) i = _
    simp only [pIsMissing, rd_of_getElem? hxi, ok_bind, allMissing, List.all_cons, List.all_nil,
      cellMissing, hxi, Option.any_some, Bool.and_true]
  | [.df m c], _, hv => exact absurd (hv (.df m c) (by simp)) (by simp [Val.isDf])
  | p :: q :: l, hsz, _ => exact pDfIsMissing_ok n i hi _ hsz

end Vctrs
