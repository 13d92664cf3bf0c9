import Verif.Props.C44
import Verif.Props.C45Laws

/-!
# C44: combining factors

Factors are combined by casting them to their common type.
-/

namespace Vctrs
open Spec

/-- The grouping of three factors does not matter for their common type. -/
theorem C44_assoc (hash : Name → BitVec 32) {x y z : Factor} (hx : x.levels.Nodup) (hy : y.levels.Nodup)
    (hz : z.levels.Nodup) (hn : x.levels.length + y.levels.length + z.levels.length ≤ 2147483647) :
    ∃ u v w, fctPtype2 hash false x y = .ok u ∧ fctPtype2 hash false y z = .ok v ∧
      fctPtype2 hash false u z = .ok w ∧ fctPtype2 hash false x v = .ok w := by
  have l1 := unionNames_length x.levels y.levels
  have l2 := unionNames_length y.levels z.levels
  have h1 := C44_union hash false hx hy (by simp) (by omega)
  have h2 := C44_union hash false hy hz (by simp) (by omega)
  have h3 := C44_union hash false (x := ⟨[], unionNames x.levels y.levels⟩) (y := z) (unionNames_nodup hx hy) hz
    (by simp) (show (unionNames x.levels y.levels).length + _ ≤ _ by omega)
  have h4 := C44_union hash false (x := x) (y := ⟨[], unionNames y.levels z.levels⟩) hx (unionNames_nodup hy hz)
    (by simp) (show _ + (unionNames y.levels z.levels).length ≤ _ by omega)
  refine ⟨_, _, _, h1, h2, h3, h4.trans ?_⟩
  congr 2
  exact (unionNames_assoc x.levels y.levels z.levels).symm

/-- Both factors can be cast to their common type, and keep all their strings. -/
theorem C44_combine (hash : Name → BitVec 32) (same : Bool) {x y : Factor} (hx : WellFormed x) (hy : WellFormed y)
    (hs : same = true → x.levels = y.levels) (hn : x.levels.length + y.levels.length ≤ 2147483647) :
    ∃ z x' y', fctPtype2 hash same x y = .ok z ∧ fctCast hash false x z.levels = .ok x' ∧
      fctCast hash false y z.levels = .ok y' ∧ x'.levels = z.levels ∧ y'.levels = z.levels ∧
      (∀ strings, Reads x strings → Reads x' strings) ∧ ∀ strings, Reads y strings → Reads y' strings := by
  obtain ⟨z, h1, h2, h3, h4, h5⟩ := C44_union_levels hash same hx.1 hy.1 hs hn
  have key : ∀ f : Factor, WellFormed f → (∀ s ∈ f.levels, s ∈ z.levels) →
      ∃ f', fctCast hash false f z.levels = .ok f' ∧ f'.levels = z.levels ∧
        ∀ strings, Reads f strings → Reads f' strings := by
    intro f hf hall
    by_cases h0 : z.levels = []
    · refine ⟨f, by rw [h0]; exact C44_cast_template hash false f, ?_, fun _ h => h⟩
      rw [h0] at hall ⊢
      exact List.eq_nil_iff_forall_not_mem.2 (fun s hh => by simpa using hall s hh)
    · have hzl : z.levels.length ≤ 2147483647 := by
        have e := C44_union hash same hx.1 hy.1 hs hn
        rw [h1] at e
        have e := Except.ok.inj e
        have := unionNames_length x.levels y.levels
        rw [e]
        show (unionNames x.levels y.levels).length ≤ _
        omega
      refine (C44_cast hash false hf h3 h0 hzl (by simp)).1 ?_
      rintro ⟨c, s, _, hna, hl, hm⟩
      rcases hl with ⟨h, _⟩ | ⟨k, _, hk⟩
      · exact absurd h hna
      · exact absurd (hall s (List.mem_of_getElem? hk)) hm
  obtain ⟨x', a1, a2, a3⟩ := key x hx (fun s hh => (h5 s).2 (.inl hh))
  obtain ⟨y', b1, b2, b3⟩ := key y hy (fun s hh => (h5 s).2 (.inr hh))
  exact ⟨z, x', y', h1, a1, b1, a2, b2, a3, b3⟩

/-- Equal levels at other positions, and missing elements. -/
example : fctPtype2 (fun _ => 7#32) false ⟨[1, naInt], [some ['b'], some ['a']]⟩ ⟨[2, 1], [some ['c'], some ['b']]⟩ =
      .ok ⟨[], [some ['b'], some ['a'], some ['c']]⟩ ∧
    fctCast (fun _ => 7#32) false ⟨[1, naInt], [some ['b'], some ['a']]⟩ [some ['b'], some ['a'], some ['c']] =
      .ok ⟨[1, naInt], [some ['b'], some ['a'], some ['c']]⟩ ∧
    fctCast (fun _ => 7#32) false ⟨[2, 1], [some ['c'], some ['b']]⟩ [some ['b'], some ['a'], some ['c']] =
      .ok ⟨[1, 3], [some ['b'], some ['a'], some ['c']]⟩ ∧
    fctPtype2 (fun _ => 7#32) false ⟨[], [some ['b'], some ['a'], some ['c']]⟩ ⟨[], [some ['d'], some ['a']]⟩ =
      fctPtype2 (fun _ => 7#32) false ⟨[], [some ['b'], some ['a']]⟩ ⟨[], [some ['c'], some ['b'], some ['d'], some ['a']]⟩ := by
  decide +kernel

example : WellFormed ⟨[2, 1], [some ['c'], some ['b']]⟩ := by
  refine ⟨by decide, by decide, ?_⟩
  decide

end Vctrs
