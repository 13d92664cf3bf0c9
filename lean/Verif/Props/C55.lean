import Verif.Lemmas.Chop
import Verif.Props.C18
import Verif.Props.C21

/-!
# C55: slicing and assigning with any subscript stays within bounds
-/

namespace Vctrs

open Spec

variable {α : Type}

/-- Number of elements of a subscript. -/
def subLength : RSubscript → Nat
  | .null => 0
  | .lgl l => l.length
  | .int l => l.length
  | .chr l => l.length

theorem maskLocs_range (x : List (Option Bool)) (na : Bool) :
    ∀ e ∈ maskLocs na naInt 1 x, e = naInt ∨ (1 ≤ e ∧ e ≤ (x.length : Int)) := by
  intro e he
  rw [← whichLocs_mask, List.mem_map] at he
  obtain ⟨v, hv, rfl⟩ := he
  simp only [whichLocs, kept, List.mem_filter] at hv
  have h2 := List.mem_zipIdx hv.1
  unfold whichVal
  split
  · exact Or.inl rfl
  · right
    omega

/-- **C55** (locations): with the options of `vec_slice()` and `vec_assign()`, every logical, integer
or character subscript is either an error or becomes locations that are missing or within `1..n`.
There is no undefined behaviour for any subscript. -/
theorem C55_locations {i : RSubscript} {n : Nat} {names : Option (List RStr)} (hi : subLength i ≤ intMax)
    (hn : n ≤ intMax) (hnm : ∀ nms, names = some nms → nms.length = n) :
    (∃ loc, vecAsLocation i n names {} = .ok loc ∧ ∀ e ∈ loc, e = naInt ∨ (1 ≤ e ∧ e ≤ (n : Int))) ∨
    vecAsLocation i n names {} = .error .abort := by
  classical
  cases i with
  | null => exact Or.inl ⟨[], rfl, by simp⟩
  | lgl x =>
    by_cases h1 : x.length = n
    · subst h1
      exact Or.inl ⟨_, C18_full hi names {} (by simp), maskLocs_range x _⟩
    · by_cases h2 : x.length = 1
      · obtain ⟨v, rfl⟩ := List.length_eq_one_iff.1 h2
        simp only [List.length_singleton] at h1
        obtain ⟨g1, g2, g3, _, _⟩ := C18_scalar (n := n) (by omega) names {}
        left
        cases v with
        | none => exact ⟨_, g3 rfl, fun e he => Or.inl (List.eq_of_mem_replicate he)⟩
        | some b =>
          cases b with
          | false => exact ⟨_, g2, by simp⟩
          | true =>
            refine ⟨_, g1, fun e he => ?_⟩
            rw [List.mem_map] at he
            obtain ⟨k, hk, rfl⟩ := he
            rw [List.mem_range] at hk
            right; omega
      · exact Or.inr (C18_size h1 h2 names {})
  | int l =>
    have hor : (∃ loc, vecAsLocation (.int l) n names {} = .ok loc) ∨
        vecAsLocation (.int l) n names {} = .error .abort := by
      by_cases hinv : ∃ e ∈ l, ElemInv {} e
      · by_cases herr : ∃ e ∈ l, InvErr n {} e
        · exact Or.inr (intAsLocation_inv_err hn herr hinv)
        · push Not at herr
          exact Or.inl ⟨_, intAsLocation_inv_ok hn herr hinv⟩
      · push Not at hinv
        by_cases herr : ∃ e ∈ l, ElemErr n {} e
        · exact Or.inr (intAsLocation_err herr hinv)
        · push Not at herr
          exact Or.inl ⟨_, intAsLocation_ok herr hinv (by simp) (by simp)⟩
    rcases hor with ⟨loc, h⟩ | h
    · exact Or.inl ⟨loc, h, C19_range hn names rfl (by simp) (by simp) h⟩
    · exact Or.inr h
  | chr l =>
    cases names with
    | none => exact Or.inr rfl
    | some nms =>
      by_cases herr : some "" ∈ l ∨ ∃ s, some s ∈ l ∧ some s ∉ nms
      · refine Or.inr (C21_error ?_)
        rcases herr with h | ⟨s, h1, h2⟩
        · exact Or.inr (Or.inl h)
        · exact Or.inr (Or.inr (Or.inr ⟨nms, s, rfl, h1, h2⟩))
      · push Not at herr
        obtain ⟨out, h1, h2⟩ := C21_first (n := n) (opts := {}) hi herr.1 herr.2 (by simp)
        refine Or.inl ⟨out, h1, fun e he => ?_⟩
        obtain ⟨k, hk, rfl⟩ := List.getElem_of_mem he
        have := C21_range ((List.forall₂_iff_get.1 h2).2 k (by rw [h2.length_eq]; exact hk) hk)
        rw [hnm nms rfl] at this
        exact this

example : vecAsLocation (.int [-2, 0]) 3 none {} = .ok [1, 3] := by decide +kernel
example : vecAsLocation (.chr [some "b", none]) 2 (some [some "a", some "b"]) {} = .ok [2, naInt] := by
  decide +kernel
example : vecAsLocation (.int [-2, 1]) 3 none {} = .error .abort := by decide +kernel

/-- **C55** (`vec_slice()`): the result has one element per location, the element there or a missing
value; otherwise the subscript is reported as an error. -/
theorem C55_slice (na : α) {x : List α} {i : RSubscript} {names : Option (List RStr)}
    (hi : subLength i ≤ intMax) (hn : x.length ≤ intMax) (hnm : ∀ nms, names = some nms → nms.length = x.length) :
    (∃ loc out, vecAsLocation i x.length names {} = .ok loc ∧ vecSlice na x names i = .ok out ∧
      out.length = loc.length ∧
      ∀ (k : Nat) e, loc[k]? = some e → out[k]? = if e = naInt then some na else x[(e - 1).toNat]?) ∨
    (vecAsLocation i x.length names {} = .error .abort ∧ vecSlice na x names i = .error .abort) := by
  rcases C55_locations hi hn hnm with ⟨loc, h1, h2⟩ | h
  · left
    obtain ⟨out, h3, h4, h5⟩ := C46_slice na (x := x) (s := .locs loc) h2
    refine ⟨loc, out, h1, ?_, by simpa [subscriptSize] using h4, fun k e hk => ?_⟩
    · unfold vecSlice
      rw [h1]; exact h3
    · obtain ⟨e', h6, h7⟩ := h5 k (by
        simp only [subscriptSize, Int.toNat_natCast]; exact (List.getElem?_eq_some_iff.1 hk).1)
      simp only [subscriptAt] at h6
      rw [hk] at h6; injection h6 with h6; subst h6
      exact h7
  · right
    refine ⟨h, ?_⟩
    unfold vecSlice
    rw [h]; rfl

example : vecSlice 0 [10, 20, 30] none (.int [3, naInt, 0, 1]) = .ok [30, 0, 10] := by decide +kernel
example : vecSlice 0 [10, 20, 30] none (.int [4]) = .error .abort := by decide +kernel
example : vecSlice 0 [10, 20, 30] none (.lgl [some true, none, some false]) = .ok [10, 0] := by decide +kernel

/-- **C55** (`vec_assign()`): for values that recycle to the number of locations, every position holds
the value of its last location or keeps its element; the size is unchanged. -/
theorem C55_assign (na : α) {x value v : List α} {i : RSubscript} {names : Option (List RStr)} {loc : List Int}
    (hi : subLength i ≤ intMax) (hn : x.length ≤ intMax) (hnm : ∀ nms, names = some nms → nms.length = x.length)
    (hloc : vecAsLocation i x.length names {} = .ok loc) (hv : Recycles value loc.length v) :
    ∃ out, vecAssign na x names i value = .ok out ∧ out.length = x.length ∧
      (∀ p k, LastOccurrence (fun k => loc[k]?) loc.length p k → out[p]? = v[k]?) ∧
      (∀ p : Nat, (p : Int) + 1 ∉ loc → out[p]? = x[p]?) := by
  rcases C55_locations hi hn hnm with ⟨loc', h1, h2⟩ | h
  · rw [hloc] at h1
    injection h1 with h1
    subst h1
    obtain ⟨out, h3, h4, h5, h6⟩ := C46_assign (x := x) (s := .locs loc) (value := v) h2 trivial
      (by simp only [subscriptSize]; rw [hv.length])
    refine ⟨out, ?_, h4, fun p k hk => h5 p k (by rw [hv.length]; exact hk),
      fun p hp => h6 p (fun k _ hc => hp (List.mem_of_getElem? hc))⟩
    unfold vecAssign
    rw [hloc]
    simp only [ok_bind]
    rw [vecCheckRecycle_recycles na hv]
    exact h3
  · rw [hloc] at h; cases h

example : vecAssign 0 [10, 20, 30] none (.int [-2]) [7] = .ok [7, 20, 7] := by decide +kernel
example : vecAssign 0 [10, 20, 30] none (.int [1, naInt, 1]) [7, 8, 9] = .ok [9, 20, 30] := by decide +kernel
example : Recycles [7] 2 [7, 7] := Or.inr ⟨7, rfl, rfl⟩

/-- **C55**: a bad subscript or a value of the wrong size is an error and never written. -/
theorem C55_assign_error (na : α) {x value : List α} {i : RSubscript} {names : Option (List RStr)}
    (hi : subLength i ≤ intMax) (hn : x.length ≤ intMax) (hnm : ∀ nms, names = some nms → nms.length = x.length)
    (h : ∀ loc v, vecAsLocation i x.length names {} = .ok loc → ¬ Recycles value loc.length v) :
    vecAssign na x names i value = .error .abort := by
  unfold vecAssign
  rcases C55_locations hi hn hnm with ⟨loc, h1, h2⟩ | h1
  · rw [h1]
    simp only [ok_bind]
    rw [vecCheckRecycle_fails na (fun v => h loc v h1)]
    rfl
  · rw [h1]; rfl

example : vecAssign 0 [10, 20, 30] none (.int [1, 2]) [7, 8, 9] = .error .abort := by decide +kernel
example : vecAssign 0 [10, 20, 30] none (.int [5]) [7] = .error .abort := by decide +kernel

end Vctrs
