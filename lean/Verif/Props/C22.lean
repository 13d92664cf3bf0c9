import Verif.Lemmas.Subscript
import Verif.Props.C19

/-!
# C22: extension subscripts are accepted exactly when the new locations are consecutive
-/

namespace Vctrs

open Spec

/-- The locations of `l` beyond `n`. -/
def extensions (n : Nat) (l : List Int) : List Int := l.filter (fun e => decide ((n : Int) < e))

/-- `n + 1, …, n + k`. -/
def appended (n k : Nat) : List Int := (List.range k).map (fun i : Nat => (n : Int) + 1 + (i : Int))

theorem intAsLocation_extend_err {l : List Int} {n : Nat} {opts : LocOpts} (h1 : ∀ e ∈ l, ¬ ElemErr n opts e)
    (h2 : ∀ e ∈ l, ¬ ElemInv opts e) (ho : opts.oob = .extend)
    (h3 : ¬ (extLocs n l).Perm (seg n (extLocs n l).length)) :
    intAsLocation l n opts = .error .abort := by
  rw [intAsLocation_tail h1 h2]
  simp only [ho]
  have hext : ∀ (m : LocMissing) (z : LocZero), extLocs n ((l.filter (fun e => !(decide (e = naInt) && decide (m = .remove)))).filter
      (fun e => !(decide (e = 0) && decide (z = .remove)))) = extLocs n l := by
    intro m z
    rw [extLocs_filter, extLocs_filter]
    · intro e he
      have : e ≠ naInt := by simp only [naInt]; omega
      simp [this]
    · intro e he
      have : e ≠ 0 := by omega
      simp [this]
  have hc : l.countP (isOob n) = (extLocs n l).length := by
    rw [extLocs, ← List.countP_eq_length_filter]
    refine List.countP_congr (fun e he => ?_)
    constructor
    · intro h
      simp only [isOob, Bool.and_eq_true, decide_eq_true_eq] at h ⊢
      by_contra hlt
      have hneg : e < 0 := by omega
      cases hn : opts.negative with
      | invert => exact h2 e he ⟨h.1, hneg, hn⟩
      | error => exact h1 e he (Or.inr (Or.inr (Or.inl ⟨h.1, hneg, Or.inl hn⟩)))
      | ignore => exact h1 e he (Or.inr (Or.inr (Or.inl ⟨h.1, hneg, Or.inr ⟨hn, by omega, by simp [ho]⟩⟩)))
    · intro h; exact isOob_of_lt (by simpa using h)
  have hp : l.countP (isOob n) > 0 := by
    rw [hc]
    by_contra h0
    have : extLocs n l = [] := List.length_eq_zero_iff.1 (by omega)
    rw [this] at h3
    exact h3 (by simp [seg])
  rw [if_pos hp]
  have hspec := intCheckConsecutive_spec ((l.filter (fun e => !(decide (e = naInt) && decide (opts.missing = .remove)))).filter
      (fun e => !(decide (e = 0) && decide (opts.zero = .remove)))) n
  rw [hext] at hspec
  rw [hc, hspec, if_neg h3]
  rfl

/-- **C22**: under `oob = "extend"` (no inversion, no otherwise offending element) the subscript is
accepted, less dropped missing or zero elements, when the locations beyond `n` are `n + 1, …, n + k` in
some order, and is an error otherwise. -/
theorem C22_extend {l : List Int} {n : Nat} (names : Option (List RStr)) {opts : LocOpts}
    (h1 : ∀ e ∈ l, ¬ BadLoc n opts e) (h2 : ¬ Inverts opts l) (ho : opts.oob = .extend) :
    ((extensions n l).Perm (appended n (extensions n l).length) →
      vecAsLocation (.int l) n names opts = .ok (l.filter (fun e => decide (¬ DropLoc n opts e)))) ∧
    (¬ (extensions n l).Perm (appended n (extensions n l).length) →
      vecAsLocation (.int l) n names opts = .error .abort) := by
  have h1' : ∀ e ∈ l, ¬ ElemErr n opts e := fun e he h => h1 e he (badLoc_iff.2 h)
  constructor
  · intro hp
    have : (fun e => decide (¬ DropLoc n opts e)) = keepLoc n opts := by
      funext e; exact keepLoc_iff.symm
    rw [this]
    exact intAsLocation_ok h1' (not_inverts h2) (fun _ => hp) (fun h => by rw [ho] at h; cases h)
  · intro hp
    exact intAsLocation_extend_err h1' (not_inverts h2) ho hp

example : vecAsLocation (.int [2, 6, 4, naInt, 5]) 3 none { oob := .extend } = .ok [2, 6, 4, naInt, 5] := by
  have := (C22_extend (l := [2, 6, 4, naInt, 5]) (n := 3) none (opts := { oob := .extend })
    (by simp [BadLoc, naInt]) (by simp [Inverts, naInt]) rfl).1 (by decide)
  rw [this]; decide
example : vecAsLocation (.int [2, 5]) 3 none { oob := .extend } = .error .abort :=
  (C22_extend (l := [2, 5]) (n := 3) none (opts := { oob := .extend })
    (by simp [BadLoc, naInt]) (by simp [Inverts, naInt]) rfl).2 (by decide)

/-- **C22** (holes): when no extending location is repeated, the condition is that `1..n` and the
extending locations leave no hole. -/
theorem C22_no_hole {l : List Int} {n : Nat} (hd : (extensions n l).Nodup) :
    (extensions n l).Perm (appended n (extensions n l).length) ↔ NoHole n l := by
  have hmem : ∀ p, p ∈ extensions n l ↔ p ∈ l ∧ (n : Int) < p := by
    intro p; simp [extensions]
  have happ : ∀ k p, p ∈ appended n k ↔ (n : Int) < p ∧ p ≤ n + k := by
    intro k p
    simp only [appended, List.mem_map, List.mem_range]
    constructor
    · rintro ⟨i, hi, rfl⟩; omega
    · rintro ⟨h1, h2⟩; exact ⟨(p - n - 1).toNat, by omega, by omega⟩
  have hnd : ∀ k, (appended n k).Nodup := by
    intro k
    refine List.Nodup.map ?_ List.nodup_range
    intro a b h; simp only at h; omega
  constructor
  · intro hp e he p h1 h2
    have h3 := (happ _ e).1 (hp.mem_iff.1 ((hmem e).2 ⟨he, by omega⟩))
    exact ((hmem p).1 (hp.mem_iff.2 ((happ _ p).2 ⟨h1, by omega⟩))).1
  · intro hh
    -- every extending location is at most `n + k`, else `appended n k` would miss one of them
    have hall : ∀ p ∈ extensions n l, p ∈ appended n (extensions n l).length := by
      intro p hp
      rw [happ]
      refine ⟨((hmem p).1 hp).2, ?_⟩
      by_contra hgt
      have hsub : appended n ((extensions n l).length + 1) ⊆ extensions n l := by
        intro q hq
        obtain ⟨h1, h2⟩ := (happ _ q).1 hq
        rw [hmem]
        refine ⟨?_, h1⟩
        by_cases hqp : q = p
        · rw [hqp]; exact ((hmem p).1 hp).1
        · exact hh p ((hmem p).1 hp).1 q h1 (by push_cast at h2; omega)
      have := ((hnd _).subperm hsub).length_le
      simp [appended] at this
    have hs : (extensions n l).Subperm (appended n (extensions n l).length) := hd.subperm hall
    exact hs.perm_of_length_le (by simp [appended])

example : NoHole 3 [2, 6, 4, 5] := (C22_no_hole (by decide)).1 (by decide)

/-- **C22** (repetitions): a repeated extending location is an error, hole or not. -/
theorem C22_repeated {l : List Int} {n : Nat} (names : Option (List RStr)) {opts : LocOpts}
    (h1 : ∀ e ∈ l, ¬ BadLoc n opts e) (h2 : ¬ Inverts opts l) (ho : opts.oob = .extend)
    (hd : ¬ (extensions n l).Nodup) :
    vecAsLocation (.int l) n names opts = .error .abort := by
  refine (C22_extend names h1 h2 ho).2 (fun hp => hd ?_)
  refine hp.nodup_iff.2 (List.Nodup.map ?_ List.nodup_range)
  intro a b h; simp only at h; omega

example : vecAsLocation (.int [4, 4]) 3 none { oob := .extend } = .error .abort ∧ NoHole 3 [4, 4] :=
  ⟨C22_repeated none (by simp [BadLoc, naInt]) (by simp [Inverts, naInt]) rfl (by decide),
    by intro e he p h1 h2; simp at he; omega⟩

end Vctrs
