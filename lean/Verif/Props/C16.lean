import Verif.Lemmas.Expand

/-! # C16: vec_expand_grid -/

namespace Vctrs

open Spec

variable {α : Type}

/-- The digit of row `r` for input `i`. -/
def gridDigit (vary : Vary) (sizes : List Nat) (i r : Nat) : Option Nat :=
  match vary with
  | .slowest => digitSlowest sizes i r
  | .fastest => digitFastest sizes i r

/-- The sizes of the non-`NULL` inputs. -/
def gridSizes (inputs : List (Option (List α))) : List Nat :=
  (inputs.filterMap id).map List.length

/-- `vec_expand_grid()` drops `NULL`s and returns one column per input with `prod(sizes)` rows;
row `r` of column `i` is the element of input `i` selected by the `i`-th mixed radix digit of
`r`. The intermediate products must fit in an `r_ssize` (2^52). -/
theorem C16_expand_grid (inputs : List (Option (List α))) (vary : Vary)
    (hx : ∀ x ∈ inputs.filterMap id, x.length ≤ 2147483647)
    (hpre : ∀ i, i ≤ (gridSizes inputs).length → ((gridSizes inputs).take i).prod ≤ 4503599627370496)
    (hsize : (gridSizes inputs).prod ≤ 2147483647) :
    ∃ out, expandGrid inputs vary = .ok (out, (gridSizes inputs).prod) ∧
      out.length = (inputs.filterMap id).length ∧
      ∀ (i : Nat) x col, (inputs.filterMap id)[i]? = some x → out[i]? = some col →
        col.length = (gridSizes inputs).prod ∧
        ∀ r, r < (gridSizes inputs).prod →
          ∃ d, gridDigit vary (gridSizes inputs) i r = some d ∧ d < x.length ∧ col[r]? = x[d]? := by
  suffices hs : Ret (expandGrid inputs vary) (fun p => p.2 = (gridSizes inputs).prod ∧
      p.1.length = (inputs.filterMap id).length ∧
      ∀ (i : Nat) x col, (inputs.filterMap id)[i]? = some x → p.1[i]? = some col →
        col.length = (gridSizes inputs).prod ∧
        ∀ r, r < (gridSizes inputs).prod →
          ∃ d, gridDigit vary (gridSizes inputs) i r = some d ∧ d < x.length ∧ col[r]? = x[d]?) by
    obtain ⟨⟨out, sz⟩, h1, h2, h3, h4⟩ := hs
    simp only at h2 h3 h4
    subst h2
    exact ⟨out, h1, h3, h4⟩
  have hlen : (inputs.filterMap id).length = (gridSizes inputs).length := by simp [gridSizes]
  unfold expandGrid
  simp only [show (inputs.filterMap id).map List.length = gridSizes inputs from rfl, hlen]
  revert hx hpre hsize hlen
  generalize hxs : inputs.filterMap id = xs
  generalize hsz : gridSizes inputs = sizes
  intro hx hpre hsize hlen
  have hget : ∀ i (hi : i < sizes.length), sizes[i] = (xs[i]'(by omega)).length := by
    intro i hi
    subst hsz hxs
    simp [gridSizes]
  refine Ret.bind (cumLoop_ok sizes hpre) ?_
  rintro ⟨cum, size⟩ ⟨rfl, hW⟩
  simp only
  have hW' : ∀ i, i < sizes.length → rdU cum i = .ok (pre sizes (i + 1)) := by
    intro i hi
    apply rdU_ok
    exact hW.val i _ (by simp [hi])
  rw [if_neg (show ¬ sizes.prod > intMax by unfold intMax; omega)]
  refine Ret.bind (Ret.forN (fun i (out : List (Option (List α))) => out.length = sizes.length ∧
    ∃ P : List (List α), P.length = i ∧ Wrote P sizes.length out ∧
      ∀ (j : Nat) x col, j < i → xs[j]? = some x → P[j]? = some col → col.length = sizes.prod ∧
        ∀ r, r < sizes.prod →
          ∃ d, gridDigit vary sizes j r = some d ∧ d < x.length ∧ col[r]? = x[d]?)
    ⟨by simp, [], rfl, Wrote.start _, by intro j _ _ hj; omega⟩ ?_) ?_
  · rintro i out hi ⟨hol, P, hP, hPW, hPv⟩
    have hix : i < xs.length := by omega
    have hxi : xs[i].length ≤ intMax := hx _ (List.getElem_mem hix)
    have hpp := pre_post hi
    rw [hget i hi] at hpp
    -- the column
    have hcol : ∃ te t : Nat, te ≤ intMax ∧ t ≤ intMax ∧ xs[i].length * te ≤ intMax ∧
        xs[i].length * te * t = sizes.prod ∧
        (if sizes.prod ≠ 0 then do
          let c ← rdU cum i
          let sz ← rd sizes i
          match vary with
          | .slowest => do
            let te ← cdiv sizes.prod c
            let t ← cdiv c sz
            .ok (te, t)
          | .fastest => do
            let te ← cdiv c sz
            let t ← cdiv sizes.prod c
            .ok (te, t)
          else .ok (0, 0) : C (Nat × Nat)) = .ok (te, t) ∧
        ∀ r, r < sizes.prod → gridDigit vary sizes i r = some (r / te % xs[i].length) := by
      by_cases h0 : sizes.prod = 0
      · refine ⟨0, 0, by omega, by omega, by simp, by simp [h0], ?_, ?_⟩
        · simp [h0]
        · intro r hr; omega
      · have hne : pre sizes i ≠ 0 ∧ xs[i].length ≠ 0 ∧ post sizes i ≠ 0 := by
          refine ⟨?_, ?_, ?_⟩ <;> intro h <;> apply h0 <;> rw [hpp, h] <;> simp
        have hp1 : pre sizes (i + 1) = pre sizes i * xs[i].length := by rw [pre_succ hi, hget i hi]
        have hd1 : cdiv sizes.prod (pre sizes (i + 1)) = .ok (post sizes i) := by
          unfold cdiv
          rw [hp1, if_neg (by simp [hne])]
          congr 1
          rw [hpp]
          exact Nat.mul_div_cancel_left _ (Nat.pos_of_ne_zero (by simp [hne]))
        have hd2 : cdiv (pre sizes (i + 1)) (xs[i].length) = .ok (pre sizes i) := by
          unfold cdiv
          rw [hp1, if_neg hne.2.1]
          congr 1
          exact Nat.mul_div_cancel _ (Nat.pos_of_ne_zero hne.2.1)
        have hb1 : post sizes i ≤ sizes.prod := by
          rw [hpp]; exact Nat.le_mul_of_pos_left _ (Nat.pos_of_ne_zero (by simp [hne]))
        have hb2 : pre sizes i * xs[i].length ≤ sizes.prod := by
          rw [hpp]; exact Nat.le_mul_of_pos_right _ (Nat.pos_of_ne_zero hne.2.2)
        have hb3 : pre sizes i ≤ pre sizes i * xs[i].length :=
          Nat.le_mul_of_pos_right _ (Nat.pos_of_ne_zero hne.2.1)
        have hb4 : xs[i].length * post sizes i ≤ sizes.prod := by
          rw [hpp, Nat.mul_assoc]; exact Nat.le_mul_of_pos_left _ (Nat.pos_of_ne_zero hne.1)
        have him : sizes.prod ≤ intMax := hsize
        have hrd : rd sizes i = .ok xs[i].length := by rw [rd_ok hi, hget i hi]
        have hgi : sizes[i]? = some xs[i].length := by rw [List.getElem?_eq_getElem hi, hget i hi]
        simp only [ne_eq, h0, not_false_eq_true, if_true, hW' i hi, hrd, ok_bind]
        cases vary with
        | slowest =>
          refine ⟨post sizes i, pre sizes i, by omega, by omega, by omega, ?_, ?_, ?_⟩
          · rw [hpp, Nat.mul_comm (pre sizes i), Nat.mul_assoc, Nat.mul_assoc,
              Nat.mul_comm (post sizes i)]
          · simp only [hd1, hd2, ok_bind]
          · intro r _
            simp only [gridDigit, digitSlowest, hgi, Option.map_some, post]
        | fastest =>
          refine ⟨pre sizes i, post sizes i, by omega, by omega, by rw [Nat.mul_comm]; omega, ?_, ?_, ?_⟩
          · rw [hpp, Nat.mul_comm (pre sizes i)]
          · simp only [hd1, hd2, ok_bind]
          · intro r _
            simp only [gridDigit, digitFastest, hgi, Option.map_some, pre]
    obtain ⟨te, t, hte, ht, hxte, hprod, heq, hdig⟩ := hcol
    obtain ⟨y, z, hy, hz, hzl, hzv⟩ := rep_rep xs[i] hxi (by rw [hprod]; exact hsize) hte ht hxte
    have hssz : ∀ m : Nat, m ≤ intMax → ssizeAsInteger m = .ok (m : Int) := by
      intro m hm; unfold ssizeAsInteger; rw [if_neg (by omega)]
    obtain ⟨hw, hPW'⟩ := hPW.step z (k := i) hP.symm hi
    refine Ret.bind_eq (rd_ok hix) (Ret.bind_eq heq (Ret.bind_eq (hssz te hte) (Ret.bind_eq hy
      (Ret.bind_eq (hssz t ht) (Ret.bind_eq hz (Ret.of_eq hw ⟨by simpa using hol, P ++ [z], by simp [hP],
        hPW', ?_⟩))))))
    intro j x col hj hxj hcj
    rcases Nat.lt_or_ge j i with hji | hji
    · rw [List.getElem?_append_left (by omega)] at hcj
      exact hPv j x col hji hxj hcj
    · have : j = i := by omega
      subst this
      rw [List.getElem?_append_right (by omega)] at hcj
      simp [hP] at hcj
      subst hcj
      rw [List.getElem?_eq_getElem hix] at hxj
      cases hxj
      refine ⟨by rw [hzl, hprod], ?_⟩
      intro r hr
      refine ⟨_, hdig r hr, ?_, hzv r (by rw [hzl, hprod]; exact hr)⟩
      apply Nat.mod_lt
      apply Nat.pos_of_ne_zero
      intro h0
      rw [← hprod, h0] at hr
      simp at hr
  · rintro out ⟨hol, P, hP, hPW, hPv⟩
    refine Ret.bind_eq (hPW.done hP) (Ret.ok ⟨rfl, ?_, ?_⟩)
    · simp only; omega
    · intro i x col hxi hci
      have := (List.getElem?_eq_some_iff.1 hxi).1
      exact hPv i x col (by omega) hxi hci

/-- A result longer than `2^31 - 1` is a user error; an intermediate product above 2^52 is an
internal error (also when a later input is empty). -/
theorem C16_too_large (inputs : List (Option (List α))) (vary : Vary) :
    ((∃ i, i ≤ (gridSizes inputs).length ∧ ((gridSizes inputs).take i).prod > 4503599627370496) →
      expandGrid inputs vary = .error .internal) ∧
    ((∀ i, i ≤ (gridSizes inputs).length → ((gridSizes inputs).take i).prod ≤ 4503599627370496) →
      (gridSizes inputs).prod > 2147483647 → expandGrid inputs vary = .error .abort) := by
  have hlen : (inputs.filterMap id).length = (gridSizes inputs).length := by simp [gridSizes]
  unfold expandGrid
  simp only [show (inputs.filterMap id).map List.length = gridSizes inputs from rfl, hlen]
  constructor
  · intro h
    exact bind_err_of (cumLoop_err (gridSizes inputs) h)
  · intro hpre hbig
    obtain ⟨⟨cum, size⟩, heq, rfl, _⟩ := cumLoop_ok (gridSizes inputs) hpre
    refine bind_eq_of heq ?_
    exact if_pos hbig

/-- Every combination of positions is the digit expansion of exactly one row. -/
theorem C16_combinations (vary : Vary) (sizes d : List Nat) (hl : d.length = sizes.length)
    (hd : ∀ (i : Nat) s c, sizes[i]? = some s → d[i]? = some c → c < s) :
    ∃ r, r < sizes.prod ∧ (∀ i, i < sizes.length → gridDigit vary sizes i r = d[i]?) ∧
      ∀ r', r' < sizes.prod → (∀ i, i < sizes.length → gridDigit vary sizes i r' = d[i]?) → r' = r := by
  cases vary with
  | fastest =>
    simp only [gridDigit]
    induction sizes generalizing d with
    | nil =>
      refine ⟨0, by simp, by simp, ?_⟩
      intro r' hr'; simp at hr'; exact fun _ => hr'
    | cons s sizes ih =>
      cases d with
      | nil => simp at hl
      | cons c d =>
        have hc : c < s := hd 0 s c rfl rfl
        obtain ⟨r, hr, h1, h2⟩ := ih d (by simpa using hl) (fun i s c h h' =>
          hd (i + 1) s c (by simpa using h) (by simpa using h'))
        have hs : ∀ i q, digitFastest (s :: sizes) (i + 1) q = digitFastest sizes i (q / s) := by
          intro i q
          simp only [digitFastest, List.getElem?_cons_succ, List.take_succ_cons, List.prod_cons]
          rw [Nat.div_div_eq_div_mul]
        have h0 : ∀ q, digitFastest (s :: sizes) 0 q = some (q % s) := by
          intro q; simp [digitFastest]
        refine ⟨c + s * r, ?_, ?_, ?_⟩
        · rw [List.prod_cons]
          calc c + s * r < s + s * r := by omega
            _ = s * (r + 1) := by rw [Nat.mul_succ]; omega
            _ ≤ s * sizes.prod := Nat.mul_le_mul_left _ hr
        · intro i hi
          cases i with
          | zero => rw [h0]; simp [Nat.mod_eq_of_lt hc]
          | succ i =>
            rw [hs, Nat.add_mul_div_left _ _ (by omega), Nat.div_eq_of_lt hc, Nat.zero_add,
              h1 i (by simpa using hi)]
            simp
        · intro r' hr' h'
          have e0 := h' 0 (by simp)
          rw [h0] at e0
          simp at e0
          have := h2 (r' / s) (by rw [List.prod_cons] at hr'; exact Nat.div_lt_of_lt_mul hr') (by
            intro i hi
            have := h' (i + 1) (by simpa using hi)
            rw [hs] at this
            simpa using this)
          rw [← this, ← e0]
          exact (Nat.mod_add_div r' s).symm
  | slowest =>
    simp only [gridDigit]
    induction sizes using List.reverseRecOn generalizing d with
    | nil =>
      refine ⟨0, by simp, by simp, ?_⟩
      intro r' hr'; simp at hr'; exact fun _ => hr'
    | append_singleton sizes s ih =>
      obtain ⟨d, c, rfl⟩ : ∃ d' c, d = d' ++ [c] := by
        have hne : d ≠ [] := by rintro rfl; simp at hl
        exact ⟨d.dropLast, d.getLast hne, (List.dropLast_append_getLast hne).symm⟩
      have hl' : d.length = sizes.length := by simpa using hl
      have hc : c < s := hd sizes.length s c (by simp) (by simp [← hl'])
      obtain ⟨r, hr, h1, h2⟩ := ih d hl' (fun i s' c' h h' =>
        hd i s' c' (by rw [List.getElem?_append_left (List.getElem?_eq_some_iff.1 h).1]; exact h)
          (by rw [List.getElem?_append_left (List.getElem?_eq_some_iff.1 h').1]; exact h'))
      have hs : ∀ i q, i < sizes.length →
          digitSlowest (sizes ++ [s]) i q = digitSlowest sizes i (q / s) := by
        intro i q hi
        simp only [digitSlowest, List.getElem?_append_left hi]
        rw [List.drop_append_of_le_length (by omega), List.prod_append_nat]
        simp only [List.prod_cons, List.prod_nil, Nat.mul_one]
        rw [Nat.div_div_eq_div_mul, Nat.mul_comm s]
      have h0 : ∀ q, digitSlowest (sizes ++ [s]) sizes.length q = some (q % s) := by
        intro q; simp [digitSlowest]
      refine ⟨c + s * r, ?_, ?_, ?_⟩
      · rw [List.prod_append_nat]
        simp only [List.prod_cons, List.prod_nil, Nat.mul_one]
        rw [Nat.mul_comm sizes.prod]
        calc c + s * r < s + s * r := by omega
          _ = s * (r + 1) := by rw [Nat.mul_succ]; omega
          _ ≤ s * sizes.prod := Nat.mul_le_mul_left _ hr
      · intro i hi
        rcases Nat.lt_or_ge i sizes.length with hi' | hi'
        · rw [hs i _ hi', Nat.add_mul_div_left _ _ (by omega), Nat.div_eq_of_lt hc, Nat.zero_add,
            h1 i hi', List.getElem?_append_left (by omega)]
        · have : i = sizes.length := by simp at hi; omega
          subst this
          rw [h0]
          simp [Nat.mod_eq_of_lt hc, ← hl']
      · intro r' hr' h'
        have e0 := h' sizes.length (by simp)
        rw [h0] at e0
        simp [← hl'] at e0
        have := h2 (r' / s) (by
          rw [List.prod_append_nat] at hr'
          simp only [List.prod_cons, List.prod_nil, Nat.mul_one] at hr'
          rw [Nat.mul_comm] at hr'
          exact Nat.div_lt_of_lt_mul hr') (by
          intro i hi
          have := h' i (by simp; omega)
          rw [hs i _ hi, List.getElem?_append_left (by omega)] at this
          exact this)
        rw [← this, ← e0]
        exact (Nat.mod_add_div r' s).symm

example : expandGrid [some [1, 2], none, some [5, 6, 7]] .slowest =
    .ok ([[1, 1, 1, 2, 2, 2], [5, 6, 7, 5, 6, 7]], 6) := by decide +kernel
example : expandGrid [some [1, 2], none, some [5, 6, 7]] .fastest =
    .ok ([[1, 2, 1, 2, 1, 2], [5, 5, 6, 6, 7, 7]], 6) := by decide +kernel
example : expandGrid [some [1, 2], some ([] : List Nat)] .fastest = .ok ([[], []], 0) := by decide +kernel
/-- The hypotheses of `C16_expand_grid` hold for the example. -/
example : (∀ x ∈ [some [1, 2], none, some [5, 6, 7]].filterMap id, x.length ≤ 2147483647) ∧
    (∀ i, i ≤ (gridSizes [some [1, 2], none, some [5, 6, 7]]).length →
      ((gridSizes [some [1, 2], none, some [5, 6, 7]]).take i).prod ≤ 4503599627370496) ∧
    (gridSizes [some [1, 2], none, some [5, 6, 7]]).prod = 6 := by decide +kernel
example : gridDigit .slowest [2, 3] 0 4 = some 1 ∧ gridDigit .slowest [2, 3] 1 4 = some 1 := by
  decide +kernel

end Vctrs
