import Verif.Props.C01
import Verif.Model.SizeArg
import Verif.Lemmas.Cast
import Verif.Lemmas.Size
import Verif.Lemmas.Table

/-!
# C94: sizes that are given as arguments
-/

namespace Vctrs.Spec

/-- The number `k` is given: as one double or integer that is not missing, or by an object whose cast to double is that. -/
def NumberGiven : SizeObj → Int → Prop
  | .object (some [d]), k => ¬ IsNaN d ∧ dblVal d = k * 2 ^ 1074
  | .dbl [d], k => ¬ IsNaN d ∧ dblVal d = k * 2 ^ 1074
  | .int [i], k => i ≠ naInt ∧ i = k
  | _, _ => False

/-- A number or minus infinity below all values of a signed type of 64 bits is given. -/
def FarBelow : SizeObj → Prop
  | .object (some [d]) => ¬ IsNaN d ∧ dblVal d < -(2 ^ 63) * 2 ^ 1074
  | .dbl [d] => ¬ IsNaN d ∧ dblVal d < -(2 ^ 63) * 2 ^ 1074
  | _ => False

/-- What an input of `vec_recycle_common(.size = n)` becomes. -/
inductive RecycledTo {α : Type} (n : Nat) : Arg α → Arg α → Prop
  | null : RecycledTo n .null .null
  | same {x : List α} : x.length = n → RecycledTo n (.vec x) (.vec x)
  | one {a : α} : RecycledTo n (.vec [a]) (.vec (List.replicate n a))

end Vctrs.Spec

namespace Vctrs
open Spec

variable {α : Type}

theorem isNan_false {d : Dbl} (h : ¬ IsNaN d) : isNan d = false := by
  cases hn : isNan d with
  | false => rfl
  | true => exact absurd ((isNan_iff d).1 hn) h

theorem pow_cast (a : Nat) : (2 : Int) ^ a = ((2 ^ a : Nat) : Int) := by norm_cast

/-- Numbers that large are whole. -/
theorem dblVal_whole {d : Dbl} (h : dblVal d < -(2 ^ 63) * 2 ^ 1074) : dblVal d % 2 ^ 1074 = 0 := by
  have key : ∀ m : Nat, 2 ^ 63 * 2 ^ 1074 < dblMagOf m → dblMagOf m % 2 ^ 1074 = 0 := by
    intro m hm
    unfold dblMagOf at hm ⊢
    dsimp only at hm ⊢
    by_cases he : m / 2 ^ 52 = 0
    · rw [if_pos he] at hm
      have : m % 2 ^ 52 < 2 ^ 52 := Nat.mod_lt _ (by decide)
      have h2 : (2 : Nat) ^ 52 ≤ 2 ^ 63 * 2 ^ 1074 := by decide +kernel
      omega
    · rw [if_neg he] at hm ⊢
      have hf : m % 2 ^ 52 < 2 ^ 52 := Nat.mod_lt _ (by decide)
      by_cases hs : 1074 ≤ m / 2 ^ 52 - 1
      · obtain ⟨t, ht⟩ := Nat.exists_eq_add_of_le hs
        rw [ht, Nat.pow_add, ← Nat.mul_assoc, Nat.mul_right_comm]
        exact Nat.mul_mod_left _ _
      · exfalso
        have h1 : 2 ^ (m / 2 ^ 52 - 1) ≤ 2 ^ 1073 := Nat.pow_le_pow_right (by decide) (by omega)
        have h2 : (2 ^ 52 + m % 2 ^ 52) * 2 ^ (m / 2 ^ 52 - 1) ≤ 2 ^ 53 * 2 ^ 1073 :=
          Nat.mul_le_mul (by omega) h1
        have h3 : (2 : Nat) ^ 53 * 2 ^ 1073 ≤ 2 ^ 63 * 2 ^ 1074 := by decide +kernel
        omega
  have e63 : (2 : Int) ^ 63 * 2 ^ 1074 = ((2 ^ 63 * 2 ^ 1074 : Nat) : Int) := by
    rw [Int.natCast_mul, ← pow_cast, ← pow_cast]
  rw [Int.neg_mul, e63] at h
  unfold dblVal at h ⊢
  split at h
  · rename_i hneg
    rw [if_pos hneg]
    have := key (dblMagBits d) (by omega)
    have h2 : ((dblMagOf (dblMagBits d) : Nat) : Int) % 2 ^ 1074 = 0 := by
      rw [pow_cast, ← Int.natCast_emod, this]
      rfl
    exact Int.emod_eq_zero_of_dvd (Int.dvd_neg.2 (Int.dvd_of_emod_eq_zero h2))
  · omega

/-- The double case, by the number that is given. -/
theorem dblAsSsize_number {d : Dbl} (hn : ¬ IsNaN d) {k : Int} (hk : dblVal d = k * 2 ^ 1074) :
    dblAsSsize [d] = if k = naInt then .error .abort else if 2 ^ 52 < k then .error .abort
      else if k < -(2 ^ 63) then .error .ub else .ok k := by
  have hnan := isNan_false hn
  have hpos : (0 : Int) < 2 ^ 1074 := by decide +kernel
  unfold dblAsSsize
  rw [if_neg (by simp), show rd [d] 0 = .ok d from rfl, ok_bind]
  have e1 : dblEqOp d (intToDbl naInt) = true ↔ k = naInt := by
    rw [dblEqOp_int hnan (by decide), hk]
    exact ⟨fun h => Int.eq_of_mul_eq_mul_right (by omega) h, fun h => by rw [h]⟩
  have e2 : dblFractional d = false := by
    unfold dblFractional
    rw [hnan, hk, Int.mul_emod_left]
    decide
  have e3 : dblLtOp (intToDbl (2 ^ 52)) d = true ↔ 2 ^ 52 < k := by
    have hs := intToDbl_spec (n := 2 ^ 52) (by decide)
    unfold dblLtOp
    rw [hs.1, hnan, hs.2, hk]
    simp only [Bool.not_false, Bool.and_self, Bool.true_and, decide_eq_true_eq]
    exact ⟨fun h => Int.lt_of_mul_lt_mul_right h (by omega), fun h => Int.mul_lt_mul_of_pos_right h hpos⟩
  have e4 : dblToSsize d = if k < -(2 ^ 63) then .error .ub else if 2 ^ 63 ≤ k then .error .ub else .ok k := by
    unfold dblToSsize
    rw [hnan, if_neg (by decide)]
    dsimp only
    rw [hk, Int.mul_tdiv_cancel _ (by omega)]
  by_cases h1 : k = naInt
  · rw [if_pos (e1.2 h1), if_pos h1]
  · rw [if_neg (fun h => h1 (e1.1 h)), if_neg h1, if_neg (by rw [e2]; decide)]
    by_cases h2 : 2 ^ 52 < k
    · rw [if_pos (e3.2 h2), if_pos h2]
    · rw [if_neg (fun h => h2 (e3.1 h)), if_neg h2, e4]
      by_cases h3 : k < -(2 ^ 63)
      · rw [if_pos h3, if_pos h3]
      · rw [if_neg h3, if_neg h3, if_neg (by omega)]

/-- The double case if no whole number is given. -/
theorem dblAsSsize_other {x : List Dbl} (h : ∀ d k, x = [d] → ¬ (¬ IsNaN d ∧ dblVal d = k * 2 ^ 1074)) :
    dblAsSsize x = .error .abort := by
  unfold dblAsSsize
  match x with
  | [] => rfl
  | _ :: _ :: _ => rw [if_pos (by simp)]
  | [d] =>
    rw [if_neg (by simp), show rd [d] 0 = .ok d from rfl, ok_bind]
    split
    · rfl
    · rw [if_pos]
      unfold dblFractional
      by_cases hn : IsNaN d
      · rw [(isNan_iff d).2 hn]; rfl
      · rw [isNan_false hn, Bool.false_or, decide_eq_true_eq]
        intro hz
        refine h d (dblVal d / 2 ^ 1074) rfl ⟨hn, ?_⟩
        have := Int.emod_add_mul_ediv (dblVal d) (2 ^ 1074)
        rw [hz, Int.zero_add, Int.mul_comm] at this
        exact this.symm

theorem short_dbl (x : List Dbl) (s : SizeObj) (hs : vecAsSsize s = dblAsSsize x)
    (hg : ∀ k, NumberGiven s k ↔ ∃ d, x = [d] ∧ ¬ IsNaN d ∧ dblVal d = k * 2 ^ 1074)
    (hf : FarBelow s ↔ ∃ d, x = [d] ∧ ¬ IsNaN d ∧ dblVal d < -(2 ^ 63) * 2 ^ 1074) :
    (∃ k, NumberGiven s k ∧ 0 ≤ k ∧ k ≤ 2147483647 ∧ vecAsShortLength s = .ok k) ∨
    (FarBelow s ∧ vecAsShortLength s = .error .ub) ∨
    ((∀ k, NumberGiven s k → k < 0 ∨ 2147483647 < k) ∧ ¬ FarBelow s ∧ vecAsShortLength s = .error .abort) := by
  have hpos : (0 : Int) < 2 ^ 1074 := by decide +kernel
  unfold vecAsShortLength
  rw [hs]
  by_cases hk : ∃ d k, x = [d] ∧ ¬ IsNaN d ∧ dblVal d = k * 2 ^ 1074
  · obtain ⟨d, k, rfl, hn, hk⟩ := hk
    have huniq : ∀ k', NumberGiven s k' → k' = k := by
      intro k' h
      obtain ⟨d', hd, -, h'⟩ := (hg k').1 h
      injection hd with hd
      subst hd
      exact Int.eq_of_mul_eq_mul_right (by omega) (h'.symm.trans hk)
    have hfar : FarBelow s ↔ k < -(2 ^ 63) := by
      rw [hf]
      constructor
      · rintro ⟨d', hd, -, h'⟩
        rw [← List.singleton_inj.1 hd, hk] at h'
        exact Int.lt_of_mul_lt_mul_right h' (by omega)
      · intro h
        exact ⟨d, rfl, hn, by rw [hk]; exact Int.mul_lt_mul_of_pos_right h hpos⟩
    rw [dblAsSsize_number hn hk]
    by_cases h1 : k = naInt
    · rw [if_pos h1]
      refine Or.inr (Or.inr ⟨fun k' h => ?_, fun h => ?_, rfl⟩)
      · rw [huniq k' h, h1]; simp [naInt]
      · have := hfar.1 h; rw [h1] at this; revert this; decide
    · rw [if_neg h1]
      by_cases h2 : 2 ^ 52 < k
      · rw [if_pos h2]
        refine Or.inr (Or.inr ⟨fun k' h => ?_, fun h => ?_, rfl⟩)
        · rw [huniq k' h]; omega
        · have := hfar.1 h; omega
      · rw [if_neg h2]
        by_cases h3 : k < -(2 ^ 63)
        · rw [if_pos h3]
          exact Or.inr (Or.inl ⟨hfar.2 h3, rfl⟩)
        · rw [if_neg h3, ok_bind]
          by_cases h4 : k < 0
          · rw [if_pos h4]
            exact Or.inr (Or.inr ⟨fun k' h => by rw [huniq k' h]; omega, fun h => h3 (hfar.1 h), rfl⟩)
          · rw [if_neg h4]
            by_cases h5 : k > (intMax : Int)
            · rw [if_pos h5]
              simp only [intMax] at h5
              exact Or.inr (Or.inr ⟨fun k' h => by rw [huniq k' h]; omega, fun h => h3 (hfar.1 h), rfl⟩)
            · rw [if_neg h5]
              simp only [intMax] at h5
              exact Or.inl ⟨k, (hg k).2 ⟨d, rfl, hn, hk⟩, by omega, by omega, rfl⟩
  · rw [dblAsSsize_other (fun d k hx h => hk ⟨d, k, hx, h⟩)]
    refine Or.inr (Or.inr ⟨fun k h => ?_, fun h => ?_, rfl⟩)
    · obtain ⟨d, hx, h⟩ := (hg k).1 h
      exact absurd ⟨d, k, hx, h⟩ hk
    · obtain ⟨d, hx, hn, h⟩ := hf.1 h
      have hz := dblVal_whole h
      refine absurd ⟨d, dblVal d / 2 ^ 1074, hx, hn, ?_⟩ hk
      have := Int.emod_add_mul_ediv (dblVal d) (2 ^ 1074)
      rw [hz, Int.zero_add, Int.mul_comm] at this
      exact this.symm

/-- All that can happen. -/
theorem short_cases (s : SizeObj) :
    (∃ k, NumberGiven s k ∧ 0 ≤ k ∧ k ≤ 2147483647 ∧ vecAsShortLength s = .ok k) ∨
    (FarBelow s ∧ vecAsShortLength s = .error .ub) ∨
    ((∀ k, NumberGiven s k → k < 0 ∨ 2147483647 < k) ∧ ¬ FarBelow s ∧ vecAsShortLength s = .error .abort) := by
  cases s with
  | other => exact Or.inr (Or.inr ⟨fun k h => h.elim, fun h => h, rfl⟩)
  | object c =>
    cases c with
    | none => exact Or.inr (Or.inr ⟨fun k h => h.elim, fun h => h, rfl⟩)
    | some x =>
      refine short_dbl x _ rfl (fun k => ?_) ?_
      · match x with
        | [] => exact ⟨fun h => h.elim, fun ⟨_, h, _⟩ => by cases h⟩
        | _ :: _ :: _ => exact ⟨fun h => h.elim, fun ⟨_, h, _⟩ => by cases h⟩
        | [d] => exact ⟨fun h => ⟨d, rfl, h⟩, fun ⟨d', h, h2⟩ => by injection h with h; subst h; exact h2⟩
      · match x with
        | [] => exact ⟨fun h => h.elim, fun ⟨_, h, _⟩ => by cases h⟩
        | _ :: _ :: _ => exact ⟨fun h => h.elim, fun ⟨_, h, _⟩ => by cases h⟩
        | [d] => exact ⟨fun h => ⟨d, rfl, h⟩, fun ⟨d', h, h2⟩ => by injection h with h; subst h; exact h2⟩
  | dbl x =>
    refine short_dbl x _ rfl (fun k => ?_) ?_
    · match x with
      | [] => exact ⟨fun h => h.elim, fun ⟨_, h, _⟩ => by cases h⟩
      | _ :: _ :: _ => exact ⟨fun h => h.elim, fun ⟨_, h, _⟩ => by cases h⟩
      | [d] => exact ⟨fun h => ⟨d, rfl, h⟩, fun ⟨d', h, h2⟩ => by injection h with h; subst h; exact h2⟩
    · match x with
      | [] => exact ⟨fun h => h.elim, fun ⟨_, h, _⟩ => by cases h⟩
      | _ :: _ :: _ => exact ⟨fun h => h.elim, fun ⟨_, h, _⟩ => by cases h⟩
      | [d] => exact ⟨fun h => ⟨d, rfl, h⟩, fun ⟨d', h, h2⟩ => by injection h with h; subst h; exact h2⟩
  | int x =>
    match x with
    | [] => exact Or.inr (Or.inr ⟨fun k h => h.elim, fun h => h, rfl⟩)
    | _ :: _ :: _ =>
      refine Or.inr (Or.inr ⟨fun k h => h.elim, fun h => h, ?_⟩)
      rfl
    | [i] =>
      have hrun : vecAsShortLength (.int [i]) = if i = naInt then .error .abort else if i < 0 then .error .abort
          else if i > (intMax : Int) then .error .abort else .ok i := by
        show ((if i = naInt then .error .abort else .ok i : C Int) >>= fun out => if out < 0 then .error .abort
          else if out > (intMax : Int) then .error .abort else .ok out) = _
        by_cases h : i = naInt
        · rw [if_pos h, if_pos h]; rfl
        · rw [if_neg h, if_neg h, ok_bind]
      rw [hrun]
      by_cases h1 : i = naInt
      · rw [if_pos h1]
        exact Or.inr (Or.inr ⟨fun k h => absurd h1 h.1, fun h => h, rfl⟩)
      · rw [if_neg h1]
        by_cases h2 : i < 0
        · rw [if_pos h2]
          exact Or.inr (Or.inr ⟨fun k h => Or.inl (by rw [← h.2]; exact h2), fun h => h, rfl⟩)
        · rw [if_neg h2]
          by_cases h3 : i > (intMax : Int)
          · rw [if_pos h3]
            exact Or.inr (Or.inr ⟨fun k h => Or.inr (by rw [← h.2]; simpa [intMax] using h3), fun h => h, rfl⟩)
          · rw [if_neg h3]
            simp only [intMax] at h3
            exact Or.inl ⟨i, ⟨h1, rfl⟩, by omega, by omega, rfl⟩

theorem numberGiven_unique {s : SizeObj} {k k' : Int} (h : NumberGiven s k) (h' : NumberGiven s k') : k = k' := by
  have hpos : (0 : Int) < 2 ^ 1074 := by decide +kernel
  match s, h, h' with
  | .object (some [d]), h, h' => exact Int.eq_of_mul_eq_mul_right (by omega) (h.2.symm.trans h'.2)
  | .dbl [d], h, h' => exact Int.eq_of_mul_eq_mul_right (by omega) (h.2.symm.trans h'.2)
  | .int [i], h, h' => exact h.2.symm.trans h'.2

theorem farBelow_number {s : SizeObj} {k : Int} (h : FarBelow s) (hk : NumberGiven s k) : k < -(2 ^ 63) := by
  have hpos : (0 : Int) < 2 ^ 1074 := by decide +kernel
  match s, h, hk with
  | .object (some [d]), h, hk => exact Int.lt_of_mul_lt_mul_right (by rw [← hk.2]; exact h.2) (by omega)
  | .dbl [d], h, hk => exact Int.lt_of_mul_lt_mul_right (by rw [← hk.2]; exact h.2) (by omega)

/-- **C94**: a size is accepted, and is the number given, iff one whole number from 0 to 2^31 - 1 is given. -/
theorem C94_size (s : SizeObj) (k : Int) :
    vecAsShortLength s = .ok k ↔ NumberGiven s k ∧ 0 ≤ k ∧ k ≤ 2147483647 := by
  constructor
  · intro h
    rcases short_cases s with ⟨k', h1, h2, h3, h4⟩ | ⟨_, h4⟩ | ⟨_, _, h4⟩
    · rw [h] at h4
      injection h4 with h4
      subst h4
      exact ⟨h1, h2, h3⟩
    · rw [h] at h4; cases h4
    · rw [h] at h4; cases h4
  · rintro ⟨h1, h2, h3⟩
    rcases short_cases s with ⟨k', g1, _, _, g4⟩ | ⟨g1, _⟩ | ⟨g1, _, _⟩
    · rw [numberGiven_unique h1 g1]; exact g4
    · have := farBelow_number g1 h1; omega
    · have := g1 k h1; omega

/-- **C94**: anything else is an error, as long as it is not far below zero. -/
theorem C94_error_partial (s : SizeObj) (hf : ¬ FarBelow s) (h : ∀ k, NumberGiven s k → k < 0 ∨ 2147483647 < k) :
    vecAsShortLength s = .error .abort := by
  rcases short_cases s with ⟨k, g1, g2, g3, _⟩ | ⟨g1, _⟩ | ⟨_, _, g3⟩
  · have := h k g1; omega
  · exact absurd g1 hf
  · exact g3

/-- The conversion of a size far below zero is undefined. -/
theorem C94_undefined (s : SizeObj) : vecAsShortLength s = .error .ub ↔ FarBelow s := by
  constructor
  · intro h
    rcases short_cases s with ⟨k, _, _, _, g⟩ | ⟨g1, _⟩ | ⟨_, _, g⟩
    · rw [h] at g; cases g
    · exact g1
    · rw [h] at g; cases g
  · intro h
    rcases short_cases s with ⟨k, g1, g2, _, _⟩ | ⟨_, g⟩ | ⟨_, g, _⟩
    · have := farBelow_number h g1; omega
    · exact g
    · exact absurd h g

/-- `vec_init(1L, -Inf)`. -/
theorem C94_infinite (h : Name → BitVec 32) (x : NVal) : initArg h x (.dbl [0xFFF0000000000000]) = .error .ub := by
  unfold initArg
  rw [(C94_undefined _).2 (by refine ⟨by decide, ?_⟩; decide +kernel)]
  rfl

/-- **C94** (`vec_init()`): `n` missing rows. -/
theorem C94_init (h : Name → BitVec 32) {m : Nat} {x : NVal} (hx : IsTab m x) {s : SizeObj} {n : Nat}
    (hs : NumberGiven s n) (hn : n ≤ 2147483647) :
    ∃ y, initArg h x s = .ok y ∧ SlicedAs (List.replicate n none) x y := by
  unfold initArg
  rw [(C94_size s n).2 ⟨hs, by omega, by omega⟩, ok_bind]
  exact nvalInit_ok h hx hn

/-- **C94** (`vec_size_common()`): a size that is given is the result, whatever else is given. -/
theorem C94_size_common (xs : List (Dot (Arg α))) {s : SizeObj} {n : Int} (absentOk : Bool) (absent : Option Int)
    (hs : NumberGiven s n) (h0 : 0 ≤ n) (hn : n ≤ 2147483647) : sizeCommonArg xs (some s) absentOk absent = .ok n :=
  (C94_size s n).2 ⟨hs, h0, hn⟩

/-- **C94** (`vec_size_common()`): without a size, `.absent` has to be `NULL` or one integer; then it is the result if
all inputs are `NULL`. -/
theorem C94_no_size (xs : List (Dot (Arg α))) (absent : Option Int) (hv : .scalar ∉ xs.flatMap Dot.flat) :
    sizeCommonArg xs none false absent = .error .abort ∧
    (argSizes (xs.flatMap Dot.flat) = [] → sizeCommonArg xs none true absent =
      match absent with | some a => .ok a | none => .error .abort) ∧
    (∀ n : Nat, CommonSize (argSizes (xs.flatMap Dot.flat)) n → sizeCommonArg xs none true absent = .ok n) ∧
    (SizeConflict (argSizes (xs.flatMap Dot.flat)) → sizeCommonArg xs none true absent = .error .abort) :=
  ⟨rfl, C01_absent xs absent hv⟩

example : sizeCommonArg [.plain (.vec [1]), .plain .null, .plain (.vec [4, 5, 6])] none true none = .ok 3 ∧
    sizeCommonArg [.plain (.null : Arg Nat)] none true (some 5) = .ok 5 := by decide +kernel

theorem recycle_mapM (na : α) (xs : List (Arg α)) (n : Nat) :
    vecRecycleCommonOpts na xs n = xs.mapM (fun x => vecCheckRecycle na x n) := by
  unfold vecRecycleCommonOpts
  rw [if_neg (by omega)]
  have key : ∀ (r p : List (Arg α)) (c : List (Arg α)), forFrom (fun i xs => do
      let elt ← rd xs i
      let r ← vecCheckRecycle na elt n
      wr xs i r) p.length r.length (p ++ r) = (do
        let zs ← r.mapM (fun x => vecCheckRecycle na x n)
        .ok (p ++ zs)) := by
    intro r
    induction r with
    | nil => intro p _; rfl
    | cons a r ih =>
      intro p c
      rw [List.mapM_cons, List.length_cons]
      show ((do
        let elt ← rd (p ++ a :: r) p.length
        let z ← vecCheckRecycle na elt n
        wr (p ++ a :: r) p.length z) >>= fun s => forFrom _ (p.length + 1) r.length s) = _
      rw [rd_of_getElem? (by simp : (p ++ a :: r)[p.length]? = some a), ok_bind]
      cases hv : vecCheckRecycle na a n with
      | error e => rfl
      | ok z =>
        rw [ok_bind, wr_ok (by simp), ok_bind, ok_bind]
        have e : (p ++ a :: r).set p.length z = (p ++ [z]) ++ r := by simp
        have := ih (p ++ [z]) c
        rw [show (p ++ [z]).length = p.length + 1 by simp] at this
        rw [e, this]
        cases r.mapM (fun x => vecCheckRecycle na x n) with
        | error e => rfl
        | ok zs =>
          show (Except.ok (p ++ [z] ++ zs) : C _) = .ok (p ++ (z :: zs))
          simp
  have := key xs [] []
  refine Eq.trans this ?_
  cases xs.mapM (fun x => vecCheckRecycle na x n) with
  | error e => rfl
  | ok zs => rfl

theorem checkRecycle_iff (na : α) (x y : Arg α) (n : Nat) : vecCheckRecycle na x n = .ok y ↔ RecycledTo n x y := by
  cases x with
  | null =>
    constructor
    · intro h; injection h with h; subst h; exact .null
    · intro h; cases h; rfl
  | scalar =>
    constructor
    · intro h; cases h
    · intro h; cases h
  | vec a =>
    rw [vecCheckRecycle_ok]
    match a with
    | [b] =>
      dsimp only
      constructor
      · intro h; injection h with h; subst h; exact .one
      · intro h
        cases h with
        | same h => simp at h; subst h; rfl
        | one => rfl
    | [] =>
      dsimp only
      constructor
      · intro h
        split at h
        · injection h with h; subst h; rename_i hl; exact .same hl
        · cases h
      · intro h
        cases h with
        | same h => rw [if_pos h]
    | b :: c :: l =>
      dsimp only
      constructor
      · intro h
        split at h
        · injection h with h; subst h; rename_i hl; exact .same hl
        · cases h
      · intro h
        cases h with
        | same h => rw [if_pos h]

/-- **C94** (`vec_recycle_common()`): every input has the size that is given or is repeated to it, `NULL` stays. -/
theorem C94_recycle_common (na : α) (xs : List (Arg α)) {s : SizeObj} {n : Nat} (hs : NumberGiven s n) (hn : n ≤ 2147483647)
    (ys : List (Arg α)) : recycleCommonArg na xs (some s) = .ok ys ↔ List.Forall₂ (RecycledTo n) xs ys := by
  unfold recycleCommonArg
  dsimp only
  rw [(C94_size s n).2 ⟨hs, by omega, by omega⟩, ok_bind, recycle_mapM]
  have : ∀ (xs ys : List (Arg α)), xs.mapM (fun x => vecCheckRecycle na x n) = .ok ys ↔ List.Forall₂ (RecycledTo n) xs ys := by
    intro xs
    induction xs with
    | nil =>
      intro ys
      constructor
      · intro h; injection h with h; subst h; exact .nil
      · intro h; cases h; rfl
    | cons x xs ih =>
      intro ys
      rw [List.mapM_cons]
      constructor
      · intro h
        cases h1 : vecCheckRecycle na x n with
        | error e => rw [h1] at h; cases h
        | ok z =>
          rw [h1, ok_bind] at h
          cases h2 : xs.mapM (fun x => vecCheckRecycle na x n) with
          | error e => rw [h2] at h; cases h
          | ok zs =>
            rw [h2, ok_bind] at h
            injection h with h
            subst h
            exact .cons ((checkRecycle_iff na x z n).1 h1) ((ih zs).1 h2)
      · intro h
        cases h with
        | cons h1 h2 =>
          rw [(checkRecycle_iff na x _ n).2 h1, ok_bind, (ih _).2 h2]
          rfl
  exact this xs ys

/-- **C94** (`vec_recycle_common()`): otherwise it is an error. -/
theorem C94_recycle_error (na : α) (xs : List (Arg α)) {s : SizeObj} {n : Nat} (hs : NumberGiven s n) (hn : n ≤ 2147483647)
    {x : Arg α} (hx : x ∈ xs) (hr : ∀ y, ¬ RecycledTo n x y) : recycleCommonArg na xs (some s) = .error .abort := by
  unfold recycleCommonArg
  dsimp only
  rw [(C94_size s n).2 ⟨hs, by omega, by omega⟩, ok_bind, recycle_mapM]
  have herr : ∀ z e, vecCheckRecycle na z n = .error e → e = .abort := by
    intro z e h
    cases z with
    | null => cases h
    | scalar => injection h with h; exact h.symm
    | vec a =>
      rw [vecCheckRecycle_ok] at h
      split at h
      · cases h
      · split at h
        · cases h
        · injection h with h; exact h.symm
  clear hs
  induction xs with
  | nil => cases hx
  | cons z xs ih =>
    rw [List.mapM_cons]
    cases h1 : vecCheckRecycle na z n with
    | error e => rw [herr z e h1]; rfl
    | ok w =>
      rw [ok_bind]
      rcases List.mem_cons.1 hx with rfl | hx
      · exact absurd ((checkRecycle_iff na x w n).1 h1) (hr w)
      · rw [ih hx]; rfl

/-! ## Examples -/

-- 3, 1.5, NA, -1, 2^31 and 3L
example : NumberGiven (.dbl [0x4008000000000000]) 3 := by refine ⟨by decide, ?_⟩; decide +kernel
example : vecAsShortLength (.dbl [0x4008000000000000]) = .ok 3 := by decide +kernel
example : vecAsShortLength (.dbl [0x3FF8000000000000]) = .error .abort := by decide +kernel
example : vecAsShortLength (.dbl [naReal]) = .error .abort := by decide +kernel
example : vecAsShortLength (.dbl [0xBFF0000000000000]) = .error .abort := by decide +kernel
example : vecAsShortLength (.dbl [0x41E0000000000000]) = .error .abort := by decide +kernel
example : vecAsShortLength (.int [3]) = .ok 3 := by decide +kernel
example : NumberGiven (.int [3]) 3 := ⟨by decide, rfl⟩
example : ¬ FarBelow (.dbl [0xBFF0000000000000]) := by
  rintro ⟨_, h⟩
  revert h
  decide +kernel
example : recycleCommonArg (0 : Int) [.null, .vec [7], .vec [1, 2, 3]] (some (.int [3])) =
    .ok [.null, .vec [7, 7, 7], .vec [1, 2, 3]] := by decide +kernel
example : recycleCommonArg (0 : Int) [.vec [1, 2]] (some (.int [3])) = .error .abort := by decide +kernel
example : ∀ y : Arg Int, ¬ RecycledTo 3 (.vec [1, 2]) y := by
  intro y h
  cases h with
  | same h => cases h

end Vctrs
