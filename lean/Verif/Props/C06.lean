import Verif.Props.Ex

/-! # C06: vec_duplicate_id points at the first equal element -/

namespace Vctrs

open Spec

variable {α : Type} {ops : PolyOps α}

/-- `vec_duplicate_id(x)[i]` is the smallest (one-based) position holding an element equal to
`x[i]`. -/
theorem C06_duplicate_id (he : EqvHash ops) (x : List α) (hn : x.length ≤ 2147483647) :
    ∃ out, duplicateId ops x = .ok out ∧ out.length = x.length ∧
      ∀ (i id : Nat) (y : α), out[i]? = some id → x[i]? = some y →
        ∃ j, id = j + 1 ∧ IsFirstEq ops.eq x y j := by
  obtain ⟨out, h1, h2, h3⟩ := duplicateId_ok he x hn
  refine ⟨out, h1, h2, ?_⟩
  intro i id y hid hy
  obtain ⟨r, hr, j, y', hj, hy', hf⟩ := h3 i (List.getElem?_eq_some_iff.1 hy).1
  rw [hid] at hr
  rw [hy] at hy'
  simp at hr hy'
  subst hr hy'
  exact ⟨j, hj, hf⟩

/-- Two elements are equal iff their ids are equal. -/
theorem C06_same_id_iff (he : EqvHash ops) (x : List α) (hn : x.length ≤ 2147483647) :
    ∃ out, duplicateId ops x = .ok out ∧
      ∀ (i k idi idk : Nat) (y z : α), out[i]? = some idi → out[k]? = some idk → x[i]? = some y →
        x[k]? = some z → (idi = idk ↔ ops.eq y z = true) := by
  obtain ⟨out, h1, _, h3⟩ := C06_duplicate_id he x hn
  refine ⟨out, h1, ?_⟩
  intro i k idi idk y z hi hk hy hz
  obtain ⟨j1, rfl, a, ha, hay, hmin1⟩ := h3 i idi y hi hy
  obtain ⟨j2, rfl, b, hb, hbz, hmin2⟩ := h3 k idk z hk hz
  constructor
  · intro h
    have : j1 = j2 := by omega
    subst this
    rw [ha] at hb
    simp at hb
    subst hb
    exact he.trans _ _ _ (he.symm _ _ hay) hbz
  · intro hyz
    have : j1 = j2 := by
      rcases Nat.lt_trichotomy j1 j2 with h | h | h
      · have := hmin2 j1 a h ha
        rw [he.trans _ _ _ hay hyz] at this
        simp at this
      · exact h
      · have := hmin1 j2 b h hb
        rw [he.trans _ _ _ hbz (he.symm _ _ hyz)] at this
        simp at this
    omega

example : duplicateId exOps10 [14, 2, 4, 7, 12, 9] = .ok [1, 2, 1, 4, 2, 6] := by decide +kernel

end Vctrs
