import Verif.SpecBind
import Verif.Lemmas.TableUnique

/-!
# The specifications of binding rows determine the result
-/

namespace Vctrs

open Spec

theorem forall₂_unique {α β : Type} {R : α → β → Prop} (hR : ∀ a b c, R a b → R a c → b = c) {xs : List α}
    {ys zs : List β} (h : List.Forall₂ R xs ys) (h' : List.Forall₂ R xs zs) : ys = zs := by
  induction h generalizing zs with
  | nil => cases h'; rfl
  | cons h1 _ ih => cases h' with | cons h2 h3 => rw [hR _ _ _ h1 h2, ih h3]

theorem Spec.StackedNames.unique {start : Option (List Name)} {parts : List (Nat × Option (List Name))}
    {a b : Option (List Name)} (h : StackedNames start parts a) (h' : StackedNames start parts b) : a = b := by
  have hno : ∀ {p : Prop}, start = none → (∀ p ∈ parts, p.2 = none) → (start ≠ none ∨ ∃ p ∈ parts, p.2 ≠ none) → p := by
    rintro p h1 h2 (h3 | ⟨q, h3, h4⟩)
    · exact absurd h1 h3
    · exact absurd (h2 q h3) h4
  rcases h with ⟨h1, h2, rfl⟩ | ⟨h1, bs, rfl, h2⟩ <;> rcases h' with ⟨h3, h4, rfl⟩ | ⟨h3, cs, rfl, h4⟩
  · rfl
  · exact hno h1 h2 h3
  · exact hno h3 h4 h1
  · rw [forall₂_unique ?_ h2 h4]
    rintro p b c (hb | ⟨hb, rfl⟩) (hc | ⟨hc, rfl⟩)
    · rw [hb] at hc; exact Option.some.inj hc
    · rw [hb] at hc; cases hc
    · rw [hb] at hc; cases hc
    · rfl

theorem Spec.RowRepair.unique {a b c : Option (List Name)} (h : RowRepair a b) (h' : RowRepair a c) : b = c := by
  rcases h with ⟨rfl, rfl⟩ | ⟨l, r, rfl, rfl, h1⟩ <;> rcases h' with ⟨h2, rfl⟩ | ⟨l', r', h2, rfl, h3⟩
  · rfl
  · cases h2
  · cases h2
  · cases h2; rw [h1.unique h3]

theorem Spec.ColumnOf.unique {c : Nat} {x y z : NVal} (h : ColumnOf c x y) (h' : ColumnOf c x z) : y = z := by
  obtain ⟨n, cn, cols, rn, rfl, h1⟩ := h
  obtain ⟨_, _, _, _, h2, h3⟩ := h'
  cases h2
  exact Option.some.inj (h1.symm.trans h3)

theorem Spec.RowsOf.unique {keep : Bool} {x : NVal} {p q : Nat × Option (List Name)} (h : RowsOf keep x p)
    (h' : RowsOf keep x q) : p = q := by
  obtain ⟨n, cn, cols, rn, rfl, rfl⟩ := h
  obtain ⟨_, _, _, _, h2, rfl⟩ := h'
  cases h2
  rfl

theorem Spec.Stacked.unique {keep : Bool} {ptype : NVal} {xs : List NVal} {y : NVal} (h : Stacked keep ptype xs y) :
    ∀ z, Stacked keep ptype xs z → y = z := by
  induction h with
  | @vec t e start nms parts h1 =>
    intro z hz
    generalize hxs : parts.map (fun p => NVal.vec t p.1 p.2) = xs at hz
    cases hz with
    | @vec _ _ _ nms' parts' h2 =>
      have : parts = parts' := by
        refine List.map_injective_iff.2 ?_ hxs
        rintro ⟨a, b⟩ ⟨a', b'⟩ hab
        simp only [NVal.vec.injEq, heq_eq_eq, true_and] at hab
        rw [hab.1, hab.2]
      subst this
      rw [h1.unique h2]
  | @df m n cn pcols xs cols colsOf rows a rn h1 h2 h3 h4 h5 h6 h7 ih =>
    intro z hz
    cases hz with
    | @df _ n' _ _ _ cols' colsOf' rows' a' rn' g1 g2 g3 g4 g5 g6 g7 =>
      have e1 : rows = rows' := forall₂_unique (by intro _ _ _ a b; exact Spec.RowsOf.unique a b) h4 g4
      subst e1
      have e2 := h6.unique g6
      subst e2
      rw [h5, g5, h7.unique g7]
      have : cols = cols' := by
        refine List.ext_getElem? ?_
        intro c
        rcases Nat.lt_or_ge c pcols.length with hc | hc
        · have e3 : cols[c]? = some (cols[c]'(by omega)) := List.getElem?_eq_getElem _
          have e4 : cols'[c]? = some (cols'[c]'(by omega)) := List.getElem?_eq_getElem _
          have e5 : colsOf c = colsOf' c := forall₂_unique (by intro _ _ _ a b; exact Spec.ColumnOf.unique a b) (h2 c hc) (g2 c hc)
          rw [e3, e4, ih c _ _ (List.getElem?_eq_getElem hc) e3 _ (e5 ▸ g3 c _ _ (List.getElem?_eq_getElem hc) e4)]
        · rw [List.getElem?_eq_none (by omega), List.getElem?_eq_none (by omega)]
      rw [this]

theorem Spec.StackedCols.unique {keep : Bool} {pcols xs cols cols' : List NVal} (h : StackedCols keep pcols xs cols)
    (h' : StackedCols keep pcols xs cols') : cols = cols' := by
  obtain ⟨h1, h2⟩ := h
  obtain ⟨g1, g2⟩ := h'
  refine List.ext_getElem? ?_
  intro c
  rcases Nat.lt_or_ge c pcols.length with hc | hc
  · have e3 : cols[c]? = some (cols[c]'(by omega)) := List.getElem?_eq_getElem _
    have e4 : cols'[c]? = some (cols'[c]'(by omega)) := List.getElem?_eq_getElem _
    obtain ⟨ys, h3, h4⟩ := h2 c _ _ (List.getElem?_eq_getElem hc) e3
    obtain ⟨zs, g3, g4⟩ := g2 c _ _ (List.getElem?_eq_getElem hc) e4
    have e5 := forall₂_unique (by intro _ _ _ a b; exact Spec.ColumnOf.unique a b) h3 g3
    subst e5
    rw [e3, e4, h4.unique _ g4]
  · rw [List.getElem?_eq_none (by omega), List.getElem?_eq_none (by omega)]

theorem Spec.Fitted.unique {n : Nat} {r a b : Option (List Name)} (h : Fitted n r a) (h' : Fitted n r b) : a = b := by
  rcases h with ⟨rfl, rfl⟩ | ⟨l, l', rfl, rfl, h1⟩ <;> rcases h' with ⟨h2, rfl⟩ | ⟨m, m', h2, rfl, h3⟩
  · rfl
  · cases h2
  · cases h2
  · cases h2
    rcases h1 with ⟨h1, rfl⟩ | ⟨v, rfl, hn, rfl⟩ <;> rcases h3 with ⟨h3, rfl⟩ | ⟨w, hw, hn', rfl⟩
    · rfl
    · subst hw; exact absurd h1.symm hn'
    · exact absurd h3.symm hn
    · cases hw; rfl

theorem Spec.Merged.unique {spec : NameSpec} {n : Nat} {outer : Option Name} {inner a b : Option (List Name)}
    (h : Merged spec n outer inner a) (h' : Merged spec n outer inner b) : a = b := by
  have hnn : ∀ {p : Prop} {o : List Char}, NoName (some o) → o ≠ [] → p := by
    rintro p o (h | h) ho
    · cases h
    · exact absurd (Option.some.inj h) ho
  cases h <;> cases h' <;> first
    | rfl
    | contradiction
    | (exfalso; omega)
    | (exfalso; exact hnn (by assumption) (by assumption))
    | (have hs := Eq.trans (Eq.symm ‹spec = NameSpec.zap›) ‹spec = NameSpec.fn _›; cases hs)
    | skip
  · rename_i h1 _ _ h2 _ h3 _ _ h4 _ _ h5 _ h6
    cases h1.symm.trans h4
    cases h2.symm.trans h5
    exact h3.unique h6
  · rename_i h1 _ _ h2 h3 _ _ h4 _ _ h5 h6
    cases h1.symm.trans h4
    cases h2.symm.trans h5
    exact h3.unique h6

theorem Spec.Block.unique {spec : NameSpec} {p : Option Name × NVal} {a b : Nat × Option (List Name)} (h : Block spec p a)
    (h' : Block spec p b) : a = b := by
  obtain ⟨h1, h2⟩ := h
  obtain ⟨g1, g2⟩ := h'
  have e : a.1 = b.1 := Option.some.inj (h1.symm.trans g1)
  rw [← e] at g2
  exact Prod.ext e (h2.unique g2)

theorem Spec.RowBound.unique {spec : NameSpec} {cn : List Name} {pcols : List NVal} {ins : List (Option Name × NVal)}
    {n n' : Nat} {cols cols' : List NVal} {rn rn' : Option (List Name)} (h : RowBound spec cn pcols ins n cols rn)
    (h' : RowBound spec cn pcols ins n' cols' rn') : n = n' ∧ cols = cols' ∧ rn = rn' := by
  obtain ⟨keep, blocks, a, h1, h2, h3, h4, h5, h6⟩ := h
  obtain ⟨keep', blocks', a', g1, g2, g3, g4, g5, g6⟩ := h'
  have e1 : keep = keep' := Bool.eq_iff_iff.2 (h1.trans g1.symm)
  subst e1
  have e2 := forall₂_unique (by intro _ _ _ a b; exact Spec.Block.unique a b) h3 g3
  subst e2
  have e3 := h5.unique g5
  subst e3
  exact ⟨h4.trans g4.symm, h2.unique g2, h6.unique g6⟩

theorem Spec.KeptRows.unique {α : Type} {ins kept kept' : List (α × NVal)} (h : KeptRows ins kept)
    (h' : KeptRows ins kept') : kept = kept' := by
  induction h generalizing kept' with
  | nil => cases h'; rfl
  | keep h1 _ ih => cases h' with
    | keep _ h2 => rw [ih h2]
    | drop h2 _ => exact absurd h1 h2
  | drop h1 _ ih => cases h' with
    | keep h2 _ => exact absurd h2 h1
    | drop _ h2 => exact ih h2

theorem Spec.CBlock.unique {spec : NameSpec} {p : Option Name × NVal} {a b : Nat × Option (List Name)} (h : CBlock spec p a)
    (h' : CBlock spec p b) : a = b := by
  obtain ⟨h1, h2⟩ := h
  obtain ⟨g1, g2⟩ := h'
  have e : a.1 = b.1 := by
    rcases h1 with h1 | ⟨h1, h3⟩ <;> rcases g1 with g1 | ⟨g1, g3⟩
    · exact Option.some.inj (h1.symm.trans g1)
    · rw [g1] at h1; cases h1
    · rw [h1] at g1; cases g1
    · rw [h3, g3]
  rw [← e] at g2
  exact Prod.ext e (h2.unique g2)

theorem Spec.CombinedNames.unique {spec : NameSpec} {repair : NameRepair} {start : Option (List Name)} {n : Nat}
    {blocks : List (Nat × Option (List Name))} {a b : Option (List Name)}
    (h : CombinedNames spec repair start n blocks a) (h' : CombinedNames spec repair start n blocks b) : a = b := by
  rcases h with ⟨h1, rfl⟩ | ⟨h1, x, h2, h3⟩ <;> rcases h' with ⟨g1, rfl⟩ | ⟨g1, y, g2, g3⟩
  · rfl
  · exact absurd h1 g1
  · exact absurd g1 h1
  · have e := h2.unique g2
    subst e
    rcases h3 with ⟨a1, a2, rfl⟩ | ⟨a1, a2, rfl⟩ | ⟨l, r, a1, a2, rfl⟩ <;>
      rcases g3 with ⟨b1, b2, rfl⟩ | ⟨b1, b2, rfl⟩ | ⟨l', r', b1, b2, rfl⟩
    · rfl
    · exact absurd a2 b2
    · rw [a1] at b1; cases b1
    · exact absurd b2 a2
    · rfl
    · rw [a1] at b1; cases b1
    · rw [a1] at b1; cases b1
    · rw [a1] at b1; cases b1
    · rw [a1] at b1; cases b1; rw [a2.unique b2]

theorem Spec.Combined.unique {spec : NameSpec} {repair : NameRepair} {ins kept : List (Option Name × NVal)}
    {ptype y z : NVal} (h : Combined spec repair ins kept ptype y) (h' : Combined spec repair ins kept ptype z) : y = z := by
  cases h with
  | @vec t e start nms parts blocks h1 h2 h3 =>
    cases h' with
    | @vec _ _ _ nms' parts' blocks' g1 g2 g3 =>
      have e1 : parts = parts' := by
        refine List.map_injective_iff.2 ?_ (h1.symm.trans g1)
        rintro ⟨a, b⟩ ⟨a', b'⟩ hab
        simp only [NVal.vec.injEq, heq_eq_eq, true_and] at hab
        rw [hab.1, hab.2]
      subst e1
      have e2 : blocks = blocks' := forall₂_unique (by intro _ _ _ a b; exact Spec.CBlock.unique a b) h2 g2
      subst e2
      rw [h3.unique g3]
  | @df n cn pcols cols keep nms rn blocks h1 h2 h3 h4 h5 h6 =>
    cases h' with
    | @df n' _ _ cols' keep' nms' rn' blocks' g1 g2 g3 g4 g5 g6 =>
      have e1 : keep = keep' := Bool.eq_iff_iff.2 (h1.trans g1.symm)
      subst e1
      have e2 : blocks = blocks' := forall₂_unique (by intro _ _ _ a b; exact Spec.CBlock.unique a b) h3 g3
      subst e2
      have e3 := h4.trans g4.symm
      subst e3
      have e4 := h5.unique g5
      subst e4
      rw [h2.unique g2, h6.unique g6]

end Vctrs
