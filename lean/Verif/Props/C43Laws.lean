import Verif.Props.C43

/-!
# C43: casts in two steps

No new model.
-/

namespace Vctrs

open Spec

/-- A value that can be cast to `ty` can be cast from there to `ty'` exactly if it can be cast to `ty'` at once, with the
same values. -/
theorem C43_two_steps (x : NumVec) (ty ty' : NumTy) (hx : NumOk x) {y : NumVec} (h : numCast x ty = .ok y) :
    ((∃ z, numCast y ty' = .ok z) ↔ ∃ w, numCast x ty' = .ok w) ∧
    ∀ z w, numCast y ty' = .ok z → numCast x ty' = .ok w → cells z = cells w := by
  obtain ⟨h1, h2, h3⟩ := C43_keeps x ty hx h
  refine ⟨⟨fun ⟨z, hz⟩ => ?_, fun ⟨w, hw⟩ => ?_⟩, fun z w hz hw => ?_⟩
  · obtain ⟨k1, k2, k3⟩ := C43_keeps y ty' h1 hz
    exact C43_succeeds x ty' hx ⟨z, k1, k2, k3.trans h3⟩
  · obtain ⟨k1, k2, k3⟩ := C43_keeps x ty' hx hw
    exact C43_succeeds y ty' h1 ⟨w, k1, k2, k3.trans h3.symm⟩
  · obtain ⟨_, _, k3⟩ := C43_keeps y ty' h1 hz
    obtain ⟨_, _, m3⟩ := C43_keeps x ty' hx hw
    exact (k3.trans h3).trans m3.symm

/-- 1, NA and 0 from double to integer to logical, and at once; 1 and 2 can be cast to integer, but not to logical. -/
example : numCast (.dbl [0x3FF0000000000000, naReal, 0x0]) .int = .ok (.int [1, naInt, 0]) ∧
    numCast (.int [1, naInt, 0]) .lgl = .ok (.lgl [1, naInt, 0]) ∧
    numCast (.dbl [0x3FF0000000000000, naReal, 0x0]) .lgl = .ok (.lgl [1, naInt, 0]) ∧
    numCast (.dbl [0x3FF0000000000000, 0x4000000000000000]) .int = .ok (.int [1, 2]) ∧
    numCast (.int [1, 2]) .lgl = .error .abort ∧
    numCast (.dbl [0x3FF0000000000000, 0x4000000000000000]) .lgl = .error .abort := by decide +kernel
example : NumOk (.dbl [0x3FF0000000000000, naReal, 0x0]) := by unfold NumOk; trivial

end Vctrs
