import Verif.Props.Ex

/-! # C07: vec_match and vec_in -/

namespace Vctrs

open Spec

variable {α : Type} {ops : PolyOps α}

/-- `na_equal = TRUE`: the first equal haystack position, NA if there is none. -/
theorem C07_match (he : EqvHash ops) (incomplete : α → Bool) (needles haystack : List α)
    (hn : haystack.length ≤ 2147483647) :
    ∃ out, vecMatch ops incomplete true needles haystack = .ok out ∧
      out.length = needles.length ∧ ∀ (i : Nat) (r : Option Nat) (y : α), out[i]? = some r →
        needles[i]? = some y →
        (r = none ↔ ∀ a ∈ haystack, ops.eq a y = false) ∧
        (∀ l, r = some l ↔ ∃ j, l = j + 1 ∧ IsFirstEq ops.eq haystack y j) := by
  obtain ⟨out, h1, h2, h3⟩ := vecMatch_ok he incomplete true (by simp) needles haystack hn
  refine ⟨out, h1, h2, ?_⟩
  intro i r y hr hy
  obtain ⟨r', hr', hm⟩ := h3 i (List.getElem?_eq_some_iff.1 hy).1
  rw [hr] at hr'
  simp at hr'
  subst hr'
  have := hm y hy
  unfold MatchRes at this
  rw [if_neg (by simp)] at this
  have hex : ∀ j, IsFirstEq ops.eq haystack y j → ¬ ∀ a ∈ haystack, ops.eq a y = false := by
    rintro j ⟨a, ha, hay, _⟩ hall
    have := hall a (List.mem_of_getElem? ha)
    rw [hay] at this
    simp at this
  rcases this with ⟨rfl, hno⟩ | ⟨j, rfl, hj⟩
  · refine ⟨by simp; exact hno, ?_⟩
    intro l
    constructor
    · intro h; simp at h
    · rintro ⟨j, _, hj⟩; exact absurd hno (hex j hj)
  · refine ⟨?_, ?_⟩
    · constructor
      · intro h; simp at h
      · intro h; exact absurd h (hex j hj)
    · intro l
      constructor
      · intro h; simp at h; exact ⟨j, h.symm, hj⟩
      · rintro ⟨j', rfl, a', ha', hay', hmin'⟩
        obtain ⟨a, ha, hay, hmin⟩ := hj
        have : j = j' := by
          rcases Nat.lt_trichotomy j j' with h | h | h
          · have := hmin' j a h ha; rw [hay] at this; simp at this
          · exact h
          · have := hmin j' a' h ha'; rw [hay'] at this; simp at this
        rw [this]

/-- `na_equal = FALSE`: an incomplete needle gives NA; a complete needle gives the first
equal haystack position (which then is complete), NA if there is none.  `hmiss` is what the
propagating hash guarantees (see C27). -/
theorem C07_match_na_propagate (he : EqvHash ops) (incomplete : α → Bool)
    (hmiss : ∀ a, incomplete a = true → ops.hash a = 1)
    (hinc : ∀ a b, ops.eq a b = true → incomplete a = incomplete b)
    (needles haystack : List α) (hn : haystack.length ≤ 2147483647) :
    ∃ out, vecMatch ops incomplete false needles haystack = .ok out ∧
      out.length = needles.length ∧ ∀ (i : Nat) (r : Option Nat) (y : α), out[i]? = some r →
        needles[i]? = some y →
        (incomplete y = true → r = none) ∧
        (incomplete y = false →
          (r = none ∧ ∀ a ∈ haystack, ops.eq a y = false) ∨
          ∃ j a, r = some (j + 1) ∧ IsFirstEq ops.eq haystack y j ∧ haystack[j]? = some a ∧
            incomplete a = false) := by
  obtain ⟨out, h1, h2, h3⟩ := vecMatch_ok he incomplete false (fun _ => hmiss) needles haystack hn
  refine ⟨out, h1, h2, ?_⟩
  intro i r y hr hy
  obtain ⟨r', hr', hm⟩ := h3 i (List.getElem?_eq_some_iff.1 hy).1
  rw [hr] at hr'
  simp at hr'
  subst hr'
  have := hm y hy
  unfold MatchRes at this
  constructor
  · intro h
    rw [if_pos ⟨rfl, h⟩] at this
    exact this
  · intro h
    rw [if_neg (by simp [h])] at this
    rcases this with h' | ⟨j, hj1, hj2⟩
    · exact Or.inl h'
    · right
      obtain ⟨a, ha, hay, _⟩ := id hj2
      exact ⟨j, a, hj1, hj2, ha, by rw [hinc a y hay, h]⟩

/-- `vec_in` is TRUE / FALSE / NA accordingly. -/
theorem C07_in (he : EqvHash ops) (incomplete : α → Bool) (naEqual : Bool)
    (hmiss : naEqual = false → ∀ a, incomplete a = true → ops.hash a = 1)
    (needles haystack : List α) (hn : haystack.length ≤ 2147483647) :
    ∃ out, vecIn ops incomplete naEqual needles haystack = .ok out ∧
      out.length = needles.length ∧ ∀ (i : Nat) (r : Option Bool) (y : α), out[i]? = some r →
        needles[i]? = some y →
        (naEqual = false ∧ incomplete y = true → r = none) ∧
        (¬ (naEqual = false ∧ incomplete y = true) →
          ∃ b, r = some b ∧ (b = true ↔ ∃ a ∈ haystack, ops.eq a y = true)) := by
  obtain ⟨out, h1, h2, h3⟩ := vecIn_ok he incomplete naEqual hmiss needles haystack hn
  refine ⟨out, h1, h2, ?_⟩
  intro i r y hr hy
  obtain ⟨r', hr', hm⟩ := h3 i (List.getElem?_eq_some_iff.1 hy).1
  rw [hr] at hr'
  simp at hr'
  subst hr'
  have := hm y hy
  unfold InRes at this
  constructor
  · intro h
    rw [if_pos h] at this
    exact this
  · intro h
    rw [if_neg h] at this
    exact this

/-- `vec_in` is TRUE exactly where `vec_match` is not NA, for needles that are looked up. -/
theorem C07_in_iff_match (he : EqvHash ops) (incomplete : α → Bool) (needles haystack : List α)
    (hn : haystack.length ≤ 2147483647) :
    ∃ m o, vecMatch ops incomplete true needles haystack = .ok m ∧
      vecIn ops incomplete true needles haystack = .ok o ∧
      o = m.map (fun r => some r.isSome) := by
  obtain ⟨m, h1, h2, h3⟩ := C07_match he incomplete needles haystack hn
  obtain ⟨o, g1, g2, g3⟩ := C07_in he incomplete true (by simp) needles haystack hn
  refine ⟨m, o, h1, g1, ?_⟩
  apply List.ext_getElem (by simp [h2, g2])
  intro i hi hi'
  simp at hi'
  have hin : i < needles.length := by omega
  obtain ⟨hm1, hm2⟩ := h3 i m[i] needles[i] (List.getElem?_eq_getElem hi')
    (List.getElem?_eq_getElem hin)
  obtain ⟨b, hb, hb2⟩ := (g3 i o[i] needles[i] (List.getElem?_eq_getElem hi)
    (List.getElem?_eq_getElem hin)).2 (by simp)
  rw [List.getElem_map, hb]
  congr 1
  cases hr : m[i] with
  | none =>
    have := hm1.1 hr
    cases b with
    | false => rfl
    | true =>
      obtain ⟨a, ha, hay⟩ := hb2.1 rfl
      rw [this a ha] at hay
      simp at hay
  | some l =>
    obtain ⟨j, _, a, ha, hay, _⟩ := (hm2 l).1 hr
    rw [hb2.2 ⟨a, List.mem_of_getElem? ha, hay⟩]
    rfl

example : vecMatch exOps10 (fun _ => false) true [3, 12, 25, 14] [2, 5, 13, 15, 3] =
    .ok [some 3, some 1, some 2, none] := by decide +kernel

/-- Elements for the propagating example: 0 plays the missing value and hashes to the marker. -/
def exOpsNa : PolyOps Nat := ⟨fun a b => a == b, fun n => if n = 0 then 1 else BitVec.ofNat 32 (n % 2)⟩

theorem exOpsNa_ok : EqvHash exOpsNa ∧ (∀ a, (a == 0) = true → exOpsNa.hash a = 1) ∧
    (∀ a b, exOpsNa.eq a b = true → (a == 0) = (b == 0)) := by
  refine ⟨⟨?_, ?_, ?_, ?_⟩, ?_, ?_⟩ <;> simp [exOpsNa] <;> grind

example : vecMatch exOpsNa (· == 0) false [0, 1, 3, 8] [0, 3, 1, 1] =
    .ok [none, some 3, some 2, none] ∧
    vecIn exOpsNa (· == 0) false [0, 1, 3, 8] [0, 3, 1, 1] =
    .ok [none, some true, some true, some false] := by decide +kernel

end Vctrs
