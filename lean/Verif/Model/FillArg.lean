import Verif.Model.Fill
import Verif.Model.Options

/-!
# `vec_fill_missing()` with any objects for its options: src/fill.c
-/

namespace Vctrs

variable {α : Type}

/-- `vec_fill_missing(x, direction, max_fill)`: `vctrs_fill_missing`, src/fill.c:10-18. -/
def ffiFillMissing (missing : α → Bool) (x : List α) (direction maxFill : OptObj) : C (List α) := do
  let d ← parseFillDirection direction
  let m ← parseMaxFill maxFill
  fillMissing missing x d.1 d.2 m

end Vctrs
