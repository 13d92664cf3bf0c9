import Verif.Props.ExOrder

/-! # C31: the double to unsigned mapping used for ordering is strictly monotone -/

namespace Vctrs

open Spec

theorem class_number {x : Dbl} (hx : ¬ IsNaN x) : dblClassify x = .number := by
  rcases dblClassify_spec x with ⟨h, _⟩ | ⟨_, h, _⟩ | ⟨_, h, _⟩
  · exact h
  · exact absurd h hx
  · exact absurd h hx

theorem key_number {desc naLast nanDistinct : Bool} {x : Dbl} (hx : ¬ IsNaN x) :
    1 < dblAdjustElt desc naLast nanDistinct x ∧
      dblAdjustElt desc naLast nanDistinct x < 2 ^ 64 - 2 := by
  have h := class_number hx
  rw [dblAdjustElt_number h]
  have := dblMap_bounds (x := dblMulDir desc x) (by
    rw [dblMul_isNan]; exact dblClassify_number.1 h)
  omega

/-- The key of a double fits 64 bits. -/
theorem C31_range (desc naLast nanDistinct : Bool) (x : Dbl) :
    dblAdjustElt desc naLast nanDistinct x < 2 ^ 64 := by
  have := dblAdjustElt_lt desc naLast nanDistinct x
  omega

/-- Keys of numbers compare as the numbers do; in descending order, in reverse. -/
theorem C31_numbers (desc naLast nanDistinct : Bool) (x y : Dbl) (hx : ¬ IsNaN x)
    (hy : ¬ IsNaN y) :
    (dblAdjustElt desc naLast nanDistinct x < dblAdjustElt desc naLast nanDistinct y ↔
      if desc then dblVal y < dblVal x else dblVal x < dblVal y) ∧
    (dblAdjustElt desc naLast nanDistinct x = dblAdjustElt desc naLast nanDistinct y ↔
      dblVal x = dblVal y) := by
  have cx := class_number hx
  have cy := class_number hy
  have nx : isNan (dblMulDir desc x) = false := by rw [dblMul_isNan]; exact dblClassify_number.1 cx
  have ny : isNan (dblMulDir desc y) = false := by rw [dblMul_isNan]; exact dblClassify_number.1 cy
  rw [dblAdjustElt_number cx, dblAdjustElt_number cy, dblMap_lt_iff nx ny, dblMap_eq_iff nx ny,
    dblMul_val, dblMul_val]
  cases desc <;> simp

/-- NA has a key above all numbers if it is to come last, and below all numbers if first. -/
theorem C31_missing (desc naLast nanDistinct : Bool) (m x : Dbl) (hm : IsNaN m) (hx : ¬ IsNaN x) :
    if naLast then dblAdjustElt desc naLast nanDistinct x < dblAdjustElt desc naLast nanDistinct m
    else dblAdjustElt desc naLast nanDistinct m < dblAdjustElt desc naLast nanDistinct x := by
  have := key_number (desc := desc) (naLast := naLast) (nanDistinct := nanDistinct) hx
  rcases dblClassify_spec m with ⟨c, h, _⟩ | ⟨c, h, _⟩ | ⟨c, h, _⟩
  · exact absurd hm h
  · rw [dblAdjustElt_missing c]
    cases naLast <;> simp <;> omega
  · rw [dblAdjustElt_nan c]
    cases naLast <;> cases nanDistinct <;> simp <;> omega

/-- NaN has the key of NA, or if it is distinct a key between NA and the numbers. -/
theorem C31_nan (desc naLast nanDistinct : Bool) (na nan : Dbl) (hna : IsNA na) (hnan : IsNaN nan)
    (hn : ¬ IsNA nan) :
    if nanDistinct then
      if naLast then
        dblAdjustElt desc naLast nanDistinct nan < dblAdjustElt desc naLast nanDistinct na
      else dblAdjustElt desc naLast nanDistinct na < dblAdjustElt desc naLast nanDistinct nan
    else dblAdjustElt desc naLast nanDistinct nan = dblAdjustElt desc naLast nanDistinct na := by
  have c1 : dblClassify na = .missing := by
    rcases dblClassify_spec na with ⟨c, _, h⟩ | ⟨c, _, h⟩ | ⟨c, _, h⟩
    · exact absurd hna h
    · exact c
    · exact absurd hna h
  have c2 : dblClassify nan = .nan := by
    rcases dblClassify_spec nan with ⟨c, h, _⟩ | ⟨c, _, h⟩ | ⟨c, _, h⟩
    · exact absurd hnan h
    · exact absurd h hn
    · exact c
  rw [dblAdjustElt_missing c1, dblAdjustElt_nan c2]
  cases naLast <;> cases nanDistinct <;> simp

/-- All NAs have one key, and so have all NaNs, whatever their payload. -/
theorem C31_same (desc naLast nanDistinct : Bool) (x y : Dbl) (hx : IsNaN x)
    (hxy : IsNaN y) (h : IsNA x ↔ IsNA y) :
    dblAdjustElt desc naLast nanDistinct x = dblAdjustElt desc naLast nanDistinct y := by
  rcases dblClassify_spec x with ⟨c, h1, h2⟩ | ⟨c, h1, h2⟩ | ⟨c, h1, h2⟩
  · exact absurd hx h1
  · rcases dblClassify_spec y with ⟨c', h1', h2'⟩ | ⟨c', h1', h2'⟩ | ⟨c', h1', h2'⟩
    · exact absurd hxy h1'
    · rw [dblAdjustElt_missing c, dblAdjustElt_missing c']
    · exact absurd (h.1 h2) h2'
  · rcases dblClassify_spec y with ⟨c', h1', h2'⟩ | ⟨c', h1', h2'⟩ | ⟨c', h1', h2'⟩
    · exact absurd hxy h1'
    · exact absurd (h.2 h2') h2
    · rw [dblAdjustElt_nan c, dblAdjustElt_nan c']

/-- -0 and 0 have the same key. -/
theorem C31_zero (desc naLast nanDistinct : Bool) :
    dblAdjustElt desc naLast nanDistinct 0x8000000000000000#64 =
      dblAdjustElt desc naLast nanDistinct 0#64 :=
  (C31_numbers desc naLast nanDistinct _ _ (by decide) (by decide)).2.2 (by decide +kernel)

/-- The smallest denormal, 1 and infinity are numbers, in that order. -/
example : ¬ IsNaN 1#64 ∧ ¬ IsNaN 0x3FF0000000000000#64 ∧ ¬ IsNaN 0x7FF0000000000000#64 ∧
    dblVal 1#64 < dblVal 0x3FF0000000000000#64 ∧
    dblVal 0x3FF0000000000000#64 < dblVal 0x7FF0000000000000#64 := by decide +kernel

example : IsNA naReal ∧ IsNaN rNaN ∧ ¬ IsNA rNaN := by decide

end Vctrs
