import Verif.Lemmas.Int64
import Verif.Props.C28

/-!
# C52: proxies of 64-bit integers round-trip and preserve order
-/

namespace Vctrs

open Spec

/-- Restoring the proxy of any vector of 64-bit integers gives the vector back. -/
theorem C52_round_trip (x : List (BitVec 64)) :
    ∃ p, int64Proxy x = .ok p ∧ int64Restore p = .ok x := by
  refine ⟨_, int64Proxy_eq x, ?_⟩
  unfold int64Restore
  dsimp only
  let R : Nat → Dbl → Prop := fun j v => x[j]? = some v
  rw [List.length_map]
  suffices H : Ret _ (fun r => r = x) by obtain ⟨r, hr, rfl⟩ := H; exact hr
  refine Ret.bind (P := Filled R x.length x.length) ?_ ?_
  · refine Ret.forN (Filled R x.length) (Filled.start R _) ?_
    intro i out hi hf
    unfold int64RestoreStep
    obtain ⟨w, f⟩ := hf.step (r := x[i]) hi (List.getElem?_eq_getElem hi)
    have e1 : (x.map (fun v => (proxy64 v).1))[i]? = some (proxy64 x[i]).1 := by simp [hi]
    have e2 : (x.map (fun v => (proxy64 v).2))[i]? = some (proxy64 x[i]).2 := by simp [hi]
    rw [rd_of_getElem? e1, ok_bind, rd_of_getElem? e2, ok_bind]
    by_cases hn : x[i] = naLlong
    · have := ((proxy64_spec x[i]).1 hn).1.1
      rw [if_pos ((isNan_iff _).mpr this), ← hn]
      exact Ret.of_eq w f
    · have := ((proxy64_spec x[i]).2 hn).1
      rw [if_neg (by rw [isNan_iff]; exact this)]
      have hp : int64Pack (proxy64 x[i]).1 (proxy64 x[i]).2 = .ok x[i] := by
        unfold proxy64
        rw [if_neg hn]
        exact int64Pack_unpack x[i]
      rw [hp, ok_bind]
      exact Ret.of_eq w f
  · intro out hf
    obtain ⟨r, hr, h1, h2⟩ := hf.done
    refine Ret.of_eq hr ?_
    refine List.ext_getElem? fun i => ?_
    by_cases hi : i < r.length
    · rw [List.getElem?_eq_getElem hi]
      exact (h2 i _ (List.getElem?_eq_getElem hi)).symm
    · rw [List.getElem?_eq_none (by omega), List.getElem?_eq_none (by omega)]

/-- -1, the missing value and the largest integer. -/
def C52_x : List (BitVec 64) := [-1, naLlong, BitVec.ofNat 64 (2 ^ 63 - 1)]

example : int64Proxy C52_x = .ok
    ([intToDbl 2147483647, naReal, intToDbl 4294967295], [intToDbl 4294967295, naReal,
      intToDbl 4294967295]) := by decide +kernel
example : int64Restore ([intToDbl 2147483647, naReal], [intToDbl 4294967295, naReal])
    = .ok [-1, naLlong] := by decide +kernel

/-- A row of the proxy is missing in both columns exactly for the missing integer, and no other
integer has a missing column. -/
theorem C52_missing (x : List (BitVec 64)) :
    ∃ l r, int64Proxy x = .ok (l, r) ∧ l.length = x.length ∧ r.length = x.length ∧
      ∀ (i : Nat) v a b, x[i]? = some v → l[i]? = some a → r[i]? = some b →
        (v.toInt = -2 ^ 63 ∧ IsNA a ∧ IsNA b) ∨ (v.toInt ≠ -2 ^ 63 ∧ ¬ IsNaN a ∧ ¬ IsNaN b) := by
  refine ⟨_, _, int64Proxy_eq x, by simp, by simp, ?_⟩
  intro i v a b hv ha hb
  simp only [List.getElem?_map, hv, Option.map_some, Option.some_inj] at ha hb
  subst ha hb
  have hz := naLlong_offset v
  have ho := offset64_spec v
  by_cases h : v = naLlong
  · exact .inl ⟨by have := hz.mp h; omega, (proxy64_spec v).1 h⟩
  · obtain ⟨h1, h2, -, -⟩ := (proxy64_spec v).2 h
    refine .inr ⟨?_, h1, h2⟩
    intro hc
    exact h (hz.mpr (by omega))

example : C52_x[1]? = some naLlong ∧ naLlong.toInt = -2 ^ 63 := by decide +kernel

/-- Comparing the proxies of two vectors of the same size compares the integers; the missing value
is the smallest. -/
theorem C52_compare (x y : List (BitVec 64)) (hl : x.length = y.length) :
    ∃ (p q : List Dbl × List Dbl) (out : List Int), int64Proxy x = .ok p ∧ int64Proxy y = .ok q ∧
      vecCompare true (int64Df p) (int64Df q) = .ok (out.map some) ∧ out.length = x.length ∧
      ∀ (i : Nat) v w r, x[i]? = some v → y[i]? = some w → out[i]? = some r →
        (r = -1 ∨ r = 0 ∨ r = 1) ∧ (r = -1 ↔ v.toInt < w.toInt) ∧ (r = 1 ↔ w.toInt < v.toInt) ∧
        (r = 0 ↔ v = w) := by
  have hc := comparable_int64Df (n := x.length)
    (l := x.map (fun v => (proxy64 v).1)) (r := x.map (fun v => (proxy64 v).2))
    (l' := y.map (fun v => (proxy64 v).1)) (r' := y.map (fun v => (proxy64 v).2))
    (by simp) (by simp) (by simp [hl]) (by simp [hl])
  obtain ⟨out, h1, h2, h3⟩ := C28_order _ _ _ hc
  refine ⟨_, _, out, int64Proxy_eq x, int64Proxy_eq y, h1, h2, ?_⟩
  intro i v w r hv hw hr
  obtain ⟨k1, k2, k3, k4⟩ := h3 i r hr
  have ev1 : (x.map (fun v => (proxy64 v).1))[i]? = some (proxy64 v).1 := by simp [hv]
  have ev2 : (x.map (fun v => (proxy64 v).2))[i]? = some (proxy64 v).2 := by simp [hv]
  have ew1 : (y.map (fun v => (proxy64 v).1))[i]? = some (proxy64 w).1 := by simp [hw]
  have ew2 : (y.map (fun v => (proxy64 v).2))[i]? = some (proxy64 w).2 := by simp [hw]
  rw [rowLt_int64Df ev1 ev2 ew1 ew2, proxy64_lt] at k2
  rw [rowLt_int64Df ew1 ew2 ev1 ev2, proxy64_lt] at k3
  rw [rowSame_int64Df ev1 ev2 ew1 ew2, proxy64_same] at k4
  exact ⟨k1, k2, k3, k4⟩

example : vecCompare true (int64Df ([intToDbl 2147483647, naReal], [intToDbl 4294967295, naReal]))
    (int64Df ([intToDbl 2147483648, intToDbl 0], [intToDbl 0, intToDbl 1]))
    = .ok [some (-1), some (-1)] := by decide +kernel

/-- Comparison that propagates missing values is missing exactly when one of the integers is. -/
theorem C52_propagate (x y : List (BitVec 64)) (hl : x.length = y.length) :
    ∃ p q out, int64Proxy x = .ok p ∧ int64Proxy y = .ok q ∧
      vecCompare false (int64Df p) (int64Df q) = .ok out ∧ out.length = x.length ∧
      ∀ (i : Nat) v w r, x[i]? = some v → y[i]? = some w → out[i]? = some r →
        (r = none ↔ v.toInt = -2 ^ 63 ∨ w.toInt = -2 ^ 63) ∧
        (∀ s, r = some s → (s = -1 ↔ v.toInt < w.toInt) ∧ (s = 1 ↔ w.toInt < v.toInt)) := by
  have hc := comparable_int64Df (n := x.length)
    (l := x.map (fun v => (proxy64 v).1)) (r := x.map (fun v => (proxy64 v).2))
    (l' := y.map (fun v => (proxy64 v).1)) (r' := y.map (fun v => (proxy64 v).2))
    (by simp) (by simp) (by simp [hl]) (by simp [hl])
  obtain ⟨p, q, eq, e1, e2, e3, e4, e5⟩ := C52_compare x y hl
  rw [int64Proxy_eq] at e1 e2
  cases e1
  cases e2
  obtain ⟨out, eq', h1, h2, h3, h4, h5⟩ := C28_propagate _ _ _ hc
  have heq : eq' = eq := by
    rw [e3] at h2
    exact (List.map_injective_iff.mpr (Option.some_injective Int) (Except.ok.inj h2)).symm
  subst heq
  refine ⟨_, _, out, int64Proxy_eq x, int64Proxy_eq y, h1, h3, ?_⟩
  intro i v w r hv hw hr
  have hi : i < x.length := (List.getElem?_eq_some_iff.mp hv).1
  obtain ⟨k1, k2⟩ := h5 i hi
  have ev1 : (x.map (fun v => (proxy64 v).1))[i]? = some (proxy64 v).1 := by simp [hv]
  have ev2 : (x.map (fun v => (proxy64 v).2))[i]? = some (proxy64 v).2 := by simp [hv]
  have ew1 : (y.map (fun v => (proxy64 v).1))[i]? = some (proxy64 w).1 := by simp [hw]
  have ew2 : (y.map (fun v => (proxy64 v).2))[i]? = some (proxy64 w).2 := by simp [hw]
  have nav : v.toInt = -2 ^ 63 ↔ v = naLlong := by
    rw [naLlong_offset]; have := offset64_spec v; omega
  have naw : w.toInt = -2 ^ 63 ↔ w = naLlong := by
    rw [naLlong_offset]; have := offset64_spec w; omega
  have hu : RowUndecided (int64Df (x.map (fun v => (proxy64 v).1), x.map (fun v => (proxy64 v).2)))
      (int64Df (y.map (fun v => (proxy64 v).1), y.map (fun v => (proxy64 v).2))) i ↔
      v = naLlong ∨ w = naLlong := by
    unfold RowUndecided
    rw [leaves_int64Df, leaves_int64Df]
    constructor
    · rintro ⟨k, p, q, j1, j2, j3, j4⟩
      by_contra hn
      have hn1 : v ≠ naLlong := fun h => hn (.inl h)
      have hn2 : w ≠ naLlong := fun h => hn (.inr h)
      obtain ⟨a1, a2, -, -⟩ := (proxy64_spec v).2 hn1
      obtain ⟨b1, b2, -, -⟩ := (proxy64_spec w).2 hn2
      match k with
      | 0 =>
        cases j1
        cases j2
        rcases (atLeaf_dbl ev1 ew1).mp j3 with h | h
        · exact a1 h
        · exact b1 h
      | 1 =>
        cases j1
        cases j2
        rcases (atLeaf_dbl ev2 ew2).mp j3 with h | h
        · exact a2 h
        · exact b2 h
      | k + 2 => simp at j1
    · intro h
      refine ⟨0, _, _, rfl, rfl, (atLeaf_dbl ev1 ew1).mpr ?_, by intro j _ _ hj; omega⟩
      rcases h with h | h
      · exact .inl ((proxy64_spec v).1 h).1.1
      · exact .inr ((proxy64_spec w).1 h).1.1
  rw [nav, naw, ← hu]
  by_cases hr' : RowUndecided (int64Df (x.map (fun v => (proxy64 v).1), x.map (fun v => (proxy64 v).2)))
      (int64Df (y.map (fun v => (proxy64 v).1), y.map (fun v => (proxy64 v).2))) i
  · have := k1 hr'
    rw [hr] at this
    cases this
    exact ⟨⟨fun _ => hr', fun _ => rfl⟩, by intro s hs; cases hs⟩
  · have := k2 hr'
    rw [hr] at this
    have this := Option.some.inj this
    have hie : i < eq'.length := by rw [h4]; exact hi
    rw [List.getElem?_eq_getElem hie] at this
    subst this
    refine ⟨⟨fun h => (by cases h), fun h => absurd h hr'⟩, ?_⟩
    intro s hs
    cases hs
    obtain ⟨-, m1, m2, -⟩ := e5 i v w _ hv hw (List.getElem?_eq_getElem hie)
    exact ⟨m1, m2⟩

example : vecCompare false (int64Df ([intToDbl 2147483647, naReal], [intToDbl 4294967295, naReal]))
    (int64Df ([intToDbl 2147483648, intToDbl 0], [intToDbl 0, intToDbl 1]))
    = .ok [some (-1), none] := by decide +kernel

end Vctrs
