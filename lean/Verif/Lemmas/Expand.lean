import Verif.Props.C15
import Verif.Model.Expand

namespace Vctrs

open Spec

variable {α : Type}

theorem ssizeMult_ok {x y : Nat} (h : x * y ≤ ssizeMax) : ssizeMult x y = .ok (x * y) := by
  unfold ssizeMult
  split
  · split
    · rename_i hy
      rw [if_neg]
      rw [Nat.not_lt]
      exact (Nat.le_div_iff_mul_le hy).2 h
    · rfl
  · rfl

theorem ssizeMult_err {x y : Nat} (h : x * y > ssizeMax) : ssizeMult x y = .error .internal := by
  unfold ssizeMult
  have hx : x > 0 := by
    rcases Nat.eq_zero_or_pos x with h0 | h0
    · subst h0; simp at h
    · exact h0
  have hy : y > 0 := by
    rcases Nat.eq_zero_or_pos y with h0 | h0
    · subst h0; simp at h
    · exact h0
  rw [if_pos hx, if_pos hy, if_pos]
  rw [gt_iff_lt, ← Nat.not_le, Nat.le_div_iff_mul_le hy]
  omega

/-- Product of the first `i` sizes. -/
def pre (sizes : List Nat) (i : Nat) : Nat := (sizes.take i).prod

theorem pre_succ {sizes : List Nat} {i : Nat} (h : i < sizes.length) :
    pre sizes (i + 1) = pre sizes i * sizes[i] := by
  unfold pre
  rw [List.take_add_one, List.getElem?_eq_getElem h, List.prod_append_nat]
  simp

/-- Product of the sizes after `i`. -/
def post (sizes : List Nat) (i : Nat) : Nat := (sizes.drop (i + 1)).prod

theorem pre_post {sizes : List Nat} {i : Nat} (h : i < sizes.length) :
    sizes.prod = pre sizes i * sizes[i] * post sizes i := by
  unfold post
  rw [← pre_succ h]
  unfold pre
  rw [← List.prod_append_nat, List.take_append_drop]

theorem cumLoop_ok (sizes : List Nat) (h : ∀ i, i ≤ sizes.length → pre sizes i ≤ ssizeMax) :
    Ret (forN sizes.length (fun i (s : List (Option Nat) × Nat) => do
      let (cumulative, size) := s
      let sz ← rd sizes i
      let size ← ssizeMult size sz
      let cumulative ← wr cumulative i (some size)
      (.ok (cumulative, size) : C _)) (alloc Nat sizes.length, 1))
      (fun s => s.2 = sizes.prod ∧ Wrote ((List.range sizes.length).map (fun i => pre sizes (i + 1)))
        sizes.length s.1) := by
  refine Ret.mono (Ret.forN (fun i (s : List (Option Nat) × Nat) => s.2 = pre sizes i ∧
    Wrote ((List.range i).map (fun i => pre sizes (i + 1))) sizes.length s.1)
    ⟨by simp [pre], by simpa using Wrote.start _⟩ ?_) ?_
  · rintro i ⟨cum, size⟩ hi ⟨rfl, hW⟩
    simp only at hW ⊢
    have hp := pre_succ hi
    have hb := h (i + 1) hi
    rw [hp] at hb
    obtain ⟨hw, hW'⟩ := hW.step (pre sizes i * sizes[i]) (k := i) (by simp) hi
    refine Ret.bind_eq (rd_ok hi) (Ret.bind_eq (ssizeMult_ok hb) (Ret.bind_eq hw (Ret.ok ⟨hp.symm, ?_⟩)))
    rw [List.range_succ, List.map_append]
    simpa [hp] using hW'
  · rintro ⟨cum, size⟩ ⟨h1, h2⟩
    exact ⟨by simpa [pre] using h1, h2⟩

theorem cumLoop_err (sizes : List Nat) (h : ∃ i, i ≤ sizes.length ∧ pre sizes i > ssizeMax) :
    forN sizes.length (fun i (s : List (Option Nat) × Nat) => do
      let (cumulative, size) := s
      let sz ← rd sizes i
      let size ← ssizeMult size sz
      let cumulative ← wr cumulative i (some size)
      (.ok (cumulative, size) : C _)) (alloc Nat sizes.length, 1) = .error .internal := by
  have hk := Nat.find_spec h
  have hmin := fun i => Nat.find_min (H := h) (m := i)
  obtain ⟨k, hkk⟩ : ∃ k, Nat.find h = k + 1 := by
    cases hf : Nat.find h with
    | zero => rw [hf] at hk; simp [pre, ssizeMax] at hk
    | succ k => exact ⟨k, rfl⟩
  rw [hkk] at hk hmin
  refine forN_err (k := k) (fun i (s : List (Option Nat) × Nat) => s.2 = pre sizes i ∧
    s.1.length = sizes.length) (by omega) ⟨by simp [pre], by simp⟩ ?_ ?_
  · rintro i ⟨cum, size⟩ hi ⟨rfl, hl⟩
    simp only at hl ⊢
    have hi' : i < sizes.length := by omega
    have hp := pre_succ hi'
    have hb := hmin (i + 1) (by omega)
    have hb' : pre sizes i * sizes[i] ≤ ssizeMax := by
      rw [← hp]; apply Nat.le_of_not_lt; intro hc; exact hb ⟨hi', hc⟩
    refine Ret.bind_eq (rd_ok hi') (Ret.bind_eq (ssizeMult_ok hb') (Ret.bind_eq (wr_ok (by omega))
      (Ret.ok ⟨hp.symm, by simpa using hl⟩)))
  · rintro ⟨cum, size⟩ ⟨rfl, hl⟩
    simp only
    have hk' : k < sizes.length := by omega
    refine bind_eq_of (rd_ok hk') (bind_err_of (ssizeMult_err ?_))
    rw [← pre_succ hk']
    exact hk.2

/-- Repeating each element `te` times and the result `t` times. -/
theorem rep_rep (x : List α) {te t : Nat} (hx : x.length ≤ intMax) (h : x.length * te * t ≤ intMax)
    (hte : te ≤ intMax) (ht : t ≤ intMax) (hxte : x.length * te ≤ intMax) :
    ∃ y z, vecRepEach x [(te : Int)] = .ok y ∧ vecRep y (t : Int) = .ok z ∧
      z.length = x.length * te * t ∧ ∀ r, r < z.length → z[r]? = x[r / te % x.length]? := by
  have hrec : recycled [(te : Int)] x.length = some (List.replicate x.length (te : Int)) := rfl
  have h1 := (C15_rep_each x [(te : Int)] hx (by
    intro t' ht'; simp at ht'; subst ht'
    exact ⟨by omega, by show (te : Int) ≤ 2147483647; unfold intMax at hte; omega⟩)).1 _ hrec
    (by intro t' ht'; simp at ht'; omega) (by simpa [List.sum_replicate_nat, intMax] using hxte)
  have hrep : repEach (List.replicate x.length (te : Int)) x = (x.map (List.replicate te)).flatten := by
    rw [repEach_eq]
    congr 1
    apply List.ext_getElem (by simp)
    intro i h1 h2
    simp
  rw [hrep] at h1
  have hylen : (x.map (List.replicate te)).flatten.length = x.length * te := by
    simp [List.length_flatten, Function.comp_def, List.map_const', List.sum_replicate_nat]
  have hyget : ∀ r, r < x.length * te → (x.map (List.replicate te)).flatten[r]? = x[r / te]? := by
    clear h1 hylen hrep hrec h hxte hx
    induction x with
    | nil => simp
    | cons a x ih =>
      intro r hr
      simp only [List.map_cons, List.flatten_cons]
      have hte0 : 0 < te := by
        rcases Nat.eq_zero_or_pos te with h0 | h0
        · subst h0; simp at hr
        · exact h0
      by_cases hlt : r < te
      · rw [List.getElem?_append_left (by simpa using hlt), List.getElem?_replicate, if_pos hlt,
          Nat.div_eq_of_lt hlt]
        rfl
      · rw [List.getElem?_append_right (by simpa using Nat.le_of_not_lt hlt)]
        simp only [List.length_replicate]
        rw [ih (r - te) (by rw [List.length_cons, Nat.succ_mul] at hr; omega)]
        have : r / te = (r - te) / te + 1 := by
          rw [Nat.div_eq_sub_div hte0 (Nat.le_of_not_lt hlt)]
        rw [this, List.getElem?_cons_succ]
  have h2 := (C15_rep (x.map (List.replicate te)).flatten (t : Int) (by rw [hylen]; exact hxte)
    ⟨by omega, by show (t : Int) ≤ 2147483647; unfold intMax at ht; omega⟩).1 (by omega) (by
      rw [hylen]
      have : ((x.length * te * t : Nat) : Int) ≤ 2147483647 := by unfold intMax at h; omega
      push_cast at this ⊢; exact this)
  obtain ⟨z, hz, hzl, hzv⟩ := h2
  rw [hylen] at hzl
  have hzl' : z.length = x.length * te * t := by
    have : ((x.length * te * t : Nat) : Int) = z.length := by push_cast at hzl ⊢; omega
    omega
  refine ⟨_, z, h1, hz, hzl', ?_⟩
  intro r hr
  rw [hzv r hr, hylen]
  have hpos : 0 < x.length * te := by
    rcases Nat.eq_zero_or_pos (x.length * te) with h0 | h0
    · rw [hzl', h0] at hr; simp at hr
    · exact h0
  rw [hyget _ (Nat.mod_lt _ hpos), Nat.mod_mul_left_div_self]

end Vctrs
