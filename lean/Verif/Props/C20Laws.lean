import Verif.Props.C20
import Verif.Props.C46

/-!
# C20: a subscript and its negation split a vector

No new model: C19, C20 and C46 composed.
-/

namespace Vctrs

open Spec

variable {α : Type}

/-- Distinct locations and their negation: together they locate every position exactly once, and
`c(vec_slice(x, i), vec_slice(x, -i))` is a reordering of `x`. -/
theorem C20_split (na : α) {x : List α} {l : List Int} (hn : x.length ≤ intMax) (h0 : l ≠ []) (hd : l.Nodup)
    (hl : ∀ e ∈ l, 1 ≤ e ∧ e ≤ (x.length : Int)) (names : Option (List RStr)) :
    ∃ a b y z, vecAsLocation (.int l) x.length names {} = .ok a ∧
      vecAsLocation (.int (l.map (fun e => -e))) x.length names {} = .ok b ∧
      (a ++ b).Perm ((List.range x.length).map (fun i : Nat => (i : Int) + 1)) ∧
      sliceBase na x (.locs a) = .ok y ∧ sliceBase na x (.locs b) = .ok z ∧ (y ++ z).Perm x := by
  have hmax : intMax = 2147483647 := rfl
  have hnaI : naInt = -2147483648 := rfl
  have hna : naInt ∉ l := fun h => by have := hl _ h; omega
  have e1 : vecAsLocation (.int l) x.length names {} = .ok l :=
    C19_in_bounds names (.inr hna) (fun e he => .inr (hl e he))
  obtain ⟨b, e2, hb1, hb2⟩ := C20_complement (l := l.map (fun e => -e)) hn names (opts := {}) (by
      obtain ⟨e, he⟩ := List.exists_mem_of_ne_nil l h0
      have := hl e he
      exact ⟨rfl, -e, List.mem_map.2 ⟨e, he, rfl⟩, by omega, by omega⟩) (by
      intro e he
      obtain ⟨v, hv, rfl⟩ := List.mem_map.1 he
      have := hl v hv
      simp only [BadNegative]
      rintro (h | ⟨h, _⟩ | ⟨h, _⟩ | ⟨_, h, _⟩) <;> omega)
  have hb3 : ∀ p, p ∈ b ↔ 1 ≤ p ∧ p ≤ (x.length : Int) ∧ p ∉ l := by
    intro p
    rw [hb2 p]
    have : -p ∈ l.map (fun e => -e) ↔ p ∈ l := by
      rw [List.mem_map]
      exact ⟨fun ⟨v, hv, h⟩ => by rwa [show p = v by omega], fun h => ⟨p, h, rfl⟩⟩
    rw [this]
  have hperm : (l ++ b).Perm ((List.range x.length).map (fun i : Nat => (i : Int) + 1)) := by
    refine (List.perm_ext_iff_of_nodup ?_ ?_).2 ?_
    · rw [List.nodup_append]
      refine ⟨hd, hb1.imp (fun h => by omega), ?_⟩
      intro p hp q hq he
      subst he
      exact ((hb3 p).1 hq).2.2 hp
    · exact List.nodup_range.map (fun a b h => by simpa using h)
    · intro p
      rw [List.mem_append, hb3, List.mem_map]
      constructor
      · rintro (h | ⟨h1, h2, _⟩)
        · have := hl p h
          exact ⟨(p - 1).toNat, List.mem_range.2 (by omega), by omega⟩
        · exact ⟨(p - 1).toNat, List.mem_range.2 (by omega), by omega⟩
      · rintro ⟨i, hi, rfl⟩
        rw [List.mem_range] at hi
        by_cases h : ((i : Int) + 1) ∈ l
        · exact .inl h
        · exact .inr ⟨by omega, by omega, h⟩
  have hget : ∀ (m : List Int), (∀ e ∈ m, 1 ≤ e ∧ e ≤ (x.length : Int)) →
      ∃ y, sliceBase na x (.locs m) = .ok y ∧ y.map some = m.map (fun e => x[(e - 1).toNat]?) := by
    intro m hm
    obtain ⟨y, h1, h2, h3⟩ := C46_slice na (x := x) (s := .locs m) (fun v hv => .inr (hm v hv))
    refine ⟨y, h1, ?_⟩
    have hs : (subscriptSize (.locs m)).toNat = m.length := by simp [subscriptSize]
    rw [hs] at h2 h3
    apply List.ext_getElem?
    intro i
    by_cases hi : i < m.length
    · obtain ⟨loc, h4, h5⟩ := h3 i hi
      simp only [subscriptAt] at h4
      have := hm loc (List.mem_of_getElem? h4)
      rw [if_neg (by omega)] at h5
      have hlt : (loc - 1).toNat < x.length := by omega
      rw [List.getElem?_map, List.getElem?_map, h4, h5, List.getElem?_eq_getElem hlt]
      simp [List.getElem?_eq_getElem hlt]
    · rw [List.getElem?_eq_none (by simp; omega), List.getElem?_eq_none (by simp; omega)]
  obtain ⟨y, e3, hy⟩ := hget l hl
  obtain ⟨z, e4, hz⟩ := hget b (fun e he => ⟨((hb3 e).1 he).1, ((hb3 e).1 he).2.1⟩)
  refine ⟨l, b, y, z, e1, e2, hperm, e3, e4, ?_⟩
  have hx : ((List.range x.length).map (fun i : Nat => (i : Int) + 1)).map (fun e => x[(e - 1).toNat]?) =
      x.map some := by
    apply List.ext_getElem?
    intro i
    by_cases hi : i < x.length
    · simp [hi]
    · rw [List.getElem?_eq_none (by simp; omega), List.getElem?_eq_none (by simp; omega)]
  have h := hperm.map (fun e => x[(e - 1).toNat]?)
  rw [hx, List.map_append, ← hy, ← hz, ← List.map_append] at h
  have h' := h.filterMap id
  simpa [List.filterMap_map] using h'

example : vecAsLocation (.int [4, 2]) 5 none {} = .ok [4, 2] ∧
    vecAsLocation (.int [-4, -2]) 5 none {} = .ok [1, 3, 5] := by decide
example : ∃ a b y z, vecAsLocation (.int [4, 2]) 5 none {} = .ok a ∧
    vecAsLocation (.int [-4, -2]) 5 none {} = .ok b ∧
    (a ++ b).Perm [1, 2, 3, 4, 5] ∧
    sliceBase 0 [10, 20, 30, 40, 50] (.locs a) = .ok y ∧ sliceBase 0 [10, 20, 30, 40, 50] (.locs b) = .ok z ∧
    (y ++ z).Perm [10, 20, 30, 40, 50] :=
  C20_split (x := [10, 20, 30, 40, 50]) (l := [4, 2]) 0 (by decide) (by decide) (by decide) (by decide) none

end Vctrs
