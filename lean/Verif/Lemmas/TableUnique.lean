import Verif.Lemmas.Cbind

/-!
# The specifications of tables determine the result
-/

namespace Vctrs

open Spec

theorem Spec.Located.unique {α : Type} {blank : α → Prop} {locs : List (Option Nat)} {xs ys zs : List α}
    (hm : none ∉ locs) (h : Located blank locs xs ys) (h' : Located blank locs xs zs) : ys = zs := by
  refine List.ext_getElem? ?_
  intro k
  rcases Nat.lt_or_ge k locs.length with hk | hk
  · have hlk := List.getElem?_eq_getElem hk
    cases hl : locs[k] with
    | none => exact absurd (hl ▸ List.getElem_mem hk) hm
    | some i =>
      obtain ⟨v, h1, h2⟩ := h.2.2 k i (by rw [hlk, hl])
      obtain ⟨w, h3, h4⟩ := h'.2.2 k i (by rw [hlk, hl])
      rw [h1, h3, ← h2, h4]
  · rw [List.getElem?_eq_none (by rw [h.1]; exact hk), List.getElem?_eq_none (by rw [h'.1]; exact hk)]

theorem Spec.LocatedNames.unique {locs : List (Option Nat)} {xs ys zs : Option (List Name)}
    (hm : none ∉ locs) (h : LocatedNames locs xs ys) (h' : LocatedNames locs xs zs) : ys = zs := by
  rcases h with ⟨rfl, rfl⟩ | ⟨a, b, rfl, rfl, h1⟩ <;> rcases h' with ⟨h2, rfl⟩ | ⟨a', b', h2, rfl, h3⟩
  · rfl
  · cases h2
  · cases h2
  · cases h2; rw [h1.unique hm h3]

theorem Spec.LocatedRows.unique {locs : List (Option Nat)} {xs ys zs : Option (List Name)}
    (hm : none ∉ locs) (h : LocatedRows locs xs ys) (h' : LocatedRows locs xs zs) : ys = zs := by
  rcases h with ⟨rfl, rfl⟩ | ⟨a, b, c, d, rfl, rfl, h1, h2, h3⟩ <;>
    rcases h' with ⟨h4, rfl⟩ | ⟨a', b', c', d', h4, rfl, h5, h6, h7⟩
  · rfl
  · cases h4
  · cases h4
  · cases h4
    have e1 := h1.unique hm h5
    subst e1
    have e2 := h2.unique h6
    subst e2
    rw [h3.unique h7]

theorem Spec.SlicedAs.unique {locs : List (Option Nat)} (hm : none ∉ locs) {x y : NVal} (h : SlicedAs locs x y) :
    ∀ z, SlicedAs locs x z → y = z := by
  induction h with
  | vec h1 h2 =>
    intro z hz
    cases hz with
    | vec h3 h4 => rw [h1.unique hm h3, h2.unique hm h4]
  | @df n cn cols cols' rn rn' h1 h2 h3 ih =>
    intro z hz
    cases hz with
    | @df _ _ _ cols'' _ rn'' h4 h5 h6 =>
      rw [h3.unique hm h6]
      have : cols' = cols'' := by
        refine List.ext_getElem? ?_
        intro c
        rcases Nat.lt_or_ge c cols.length with hc | hc
        · have e1 : cols'[c]? = some (cols'[c]'(by omega)) := List.getElem?_eq_getElem _
          have e2 : cols''[c]? = some (cols''[c]'(by omega)) := List.getElem?_eq_getElem _
          rw [e1, e2, ih c _ _ (List.getElem?_eq_getElem hc) e1 _ (h5 c _ _ (List.getElem?_eq_getElem hc) e2)]
        · rw [List.getElem?_eq_none (by omega), List.getElem?_eq_none (by omega)]
      rw [this]

theorem Spec.Recycled.unique {n : Nat} {x y z : NVal} (h : Recycled n x y) (h' : Recycled n x z) : y = z := by
  rcases h with ⟨h1, rfl⟩ | ⟨h1, h2, h3⟩ <;> rcases h' with ⟨h4, rfl⟩ | ⟨h4, h5, h6⟩
  · rfl
  · rw [h1] at h4; cases h4; exact absurd rfl h5
  · rw [h1] at h4; cases h4; exact absurd rfl h2
  · exact h3.unique (by intro hc; cases List.eq_of_mem_replicate hc) _ h6

theorem Spec.Columns.unique {n : Nat} {unpack : Bool} {ins outs : List (Name × NVal)} (h : Columns n unpack ins outs) :
    ∀ outs', Columns n unpack ins outs' → outs = outs' := by
  induction h with
  | nil => intro o h; cases h; rfl
  | null _ ih =>
    intro o h
    cases h with
    | null h => exact ih _ h
    | one _ hr _ => rcases hr with ⟨hr, _⟩ | ⟨hr, _⟩ <;> cases hr
  | flat hu hr _ ih =>
    intro o h
    cases h with
    | flat _ hr' h => cases hr.unique hr'; rw [ih _ h]
    | one h1 _ _ =>
      rcases h1 with h1 | h1 | h1
      · rw [hu] at h1; cases h1
      · exact absurd rfl h1
      · exact absurd rfl (h1 _ _ _ _)
  | one h1 hr _ ih =>
    intro o h
    cases h with
    | null h => rcases hr with ⟨hr, _⟩ | ⟨hr, _⟩ <;> cases hr
    | flat hu _ _ =>
      rcases h1 with h1 | h1 | h1
      · rw [hu] at h1; cases h1
      · exact absurd rfl h1
      · exact absurd rfl (h1 _ _ _ _)
    | one _ hr' h => rw [hr.unique hr', ih _ h]

theorem Spec.Repaired.unique {r : NameRepair} {a b c : List Name} (h : Repaired r a b) (h' : Repaired r a c) : b = c := by
  cases r with
  | none => cases h; cases h'; rfl
  | unique => exact Spec.UniqueRepair.unique h h'
  | minimal =>
    obtain ⟨h1, h2, h3⟩ := h
    obtain ⟨g1, g2, g3⟩ := h'
    refine List.ext_getElem? ?_
    intro k
    cases hk : a[k]? with
    | none =>
      rw [List.getElem?_eq_none_iff] at hk
      rw [List.getElem?_eq_none (by omega), List.getElem?_eq_none (by omega)]
    | some nm =>
      cases nm with
      | none => rw [h3 k hk, g3 k hk]
      | some s => rw [h2 k s hk, g2 k s hk]

end Vctrs
