import Verif.SpecAltrep
import Verif.Model.Altrep
import Verif.Lemmas.Base

/-!
# Lemmas on run-length encoded strings
-/

namespace Vctrs

open Spec

/-- Rows before run `p`. -/
def rleSum (rle : List Int) (p : Nat) : Int := (rle.take p).sum

theorem rleSum_zero (rle : List Int) : rleSum rle 0 = 0 := rfl

theorem rleSum_succ {rle : List Int} {p : Nat} {n : Int} (h : rle[p]? = some n) :
    rleSum rle (p + 1) = rleSum rle p + n := by
  unfold rleSum
  rw [List.take_succ, h, List.sum_append]
  simp

theorem rleSum_cons (n : Int) (rle : List Int) (p : Nat) :
    rleSum (n :: rle) (p + 1) = n + rleSum rle p := by
  simp [rleSum]

theorem rleSum_nonneg {rle : List Int} (h : ∀ n ∈ rle, 0 ≤ n) (p : Nat) : 0 ≤ rleSum rle p := by
  induction p with
  | zero => simp [rleSum]
  | succ p ih =>
    cases hp : rle[p]? with
    | none =>
      unfold rleSum at ih ⊢
      rw [List.take_succ, hp]
      simpa using ih
    | some n =>
      rw [rleSum_succ hp]
      have := h n (List.mem_of_getElem? hp)
      omega

theorem expandRle_cons (n : Int) (rle : List Int) (s : Name) (names : List Name) :
    expandRle (n :: rle) (s :: names) = List.replicate n.toNat s ++ expandRle rle names := by
  simp [expandRle]

theorem expandRle_length : ∀ {rle : List Int} {names : List Name}, IsRle rle names →
    ((expandRle rle names).length : Int) = rleSum rle rle.length
  | [], names, _ => by simp [expandRle, rleSum]
  | n :: rle, [], h => by simp [IsRle] at h
  | n :: rle, s :: names, h => by
    have h' : IsRle rle names := ⟨by simpa using h.1, fun m hm => h.2 m (by simp [hm])⟩
    have ih := expandRle_length h'
    have hn := h.2 n (by simp)
    rw [expandRle_cons, List.length_append, List.length_replicate, List.length_cons, rleSum_cons]
    omega

/-- A row between the beginning and the end of run `p` holds the string of run `p`. -/
theorem expandRle_get : ∀ {rle : List Int} {names : List Name}, IsRle rle names →
    ∀ {p i : Nat}, rleSum rle p ≤ i → (i : Int) < rleSum rle (p + 1) →
      (expandRle rle names)[i]? = names[p]?
  | [], names, h, p, i, h1, h2 => by
    simp [rleSum] at h2
    omega
  | n :: rle, [], h, _, _, _, _ => by simp [IsRle] at h
  | n :: rle, s :: names, h, p, i, h1, h2 => by
    have h' : IsRle rle names := ⟨by simpa using h.1, fun m hm => h.2 m (by simp [hm])⟩
    have hn := h.2 n (by simp)
    rw [expandRle_cons]
    cases p with
    | zero =>
      rw [rleSum_cons, rleSum_zero] at h2
      rw [List.getElem?_append_left (by simp; omega), List.getElem?_replicate, if_pos (by omega)]
      rfl
    | succ p =>
      rw [rleSum_cons] at h1 h2
      have hp := rleSum_nonneg h'.2 p
      rw [List.getElem?_append_right (by simp; omega), List.length_replicate]
      rw [expandRle_get h' (p := p) (i := i - n.toNat) (by omega) (by omega)]
      rfl

/-- Where the walk over the runs stops. -/
theorem rleWalk_ok (rle : List Int) (i : Int) :
    Ret (forBrk rle.length (rleWalkStep rle) (i, 0)) (fun s =>
      s.2 ≤ rle.length ∧ (s.2 = 0 ∨ rleSum rle (s.2 - 1) ≤ i) ∧
        (i < rleSum rle s.2 ∨ s.2 = rle.length)) := by
  refine Ret.forBrk (fun k (s : Int × Nat) => s.2 = k ∧ s.1 = i - rleSum rle k ∧
    (k = 0 ∨ rleSum rle (k - 1) ≤ i)) _ ⟨rfl, by simp [rleSum], .inl rfl⟩ ?_ ?_
  · rintro k ⟨j, idx⟩ hk ⟨rfl, h2, h3⟩
    unfold rleWalkStep
    dsimp only at h2 h3 hk ⊢
    split
    · rename_i hj
      refine ⟨_, rfl, ?_⟩
      show _ ≤ _ ∧ _ ∧ _
      exact ⟨by omega, h3, .inl (by dsimp only; omega)⟩
    · rename_i hj
      rw [rd_ok hk, ok_bind]
      refine ⟨_, rfl, ?_⟩
      show _ ∧ _ ∧ _
      refine ⟨rfl, ?_, .inr ?_⟩
      · rw [rleSum_succ (List.getElem?_eq_getElem hk)]
        dsimp only
        omega
      · rw [Nat.add_sub_cancel]
        omega
  · rintro ⟨j, idx⟩ ⟨h1, h2, h3⟩
    dsimp only at h1 h2 h3 ⊢
    subst h1
    exact ⟨Nat.le_refl _, h3, .inr rfl⟩

/-- A location within bounds is found in its run. -/
theorem rleWalk_get {rle : List Int} {names : List Name} (h : IsRle rle names) {i : Nat} {a : Name}
    (ha : (expandRle rle names)[i]? = some a) :
    Ret (forBrk rle.length (rleWalkStep rle) ((i : Int), 0)) (fun s =>
      rdI names ((s.2 : Int) - 1) = .ok a) := by
  refine (rleWalk_ok rle i).mono ?_
  rintro ⟨j, idx⟩ ⟨h1, h2, h3⟩
  dsimp only at h1 h2 h3 ⊢
  have hi : i < (expandRle rle names).length := (List.getElem?_eq_some_iff.mp ha).1
  have hl := expandRle_length h
  have h4 : (i : Int) < rleSum rle idx := by
    rcases h3 with h3 | h3
    · exact h3
    · rw [h3]; omega
  cases idx with
  | zero => rw [rleSum_zero] at h4; omega
  | succ p =>
    have h5 : rleSum rle p ≤ i := by
      rcases h2 with h2 | h2
      · omega
      · exact h2
    have := expandRle_get h h5 h4
    rw [ha] at this
    have e : ((p + 1 : Nat) : Int) - 1 = (p : Int) := by omega
    rw [e]
    unfold rdI
    rw [if_neg (by omega)]
    exact rd_of_getElem? this.symm

end Vctrs
