import Verif.Props.C46

/-!
# C46: slicing by sequences

`vec_slice_seq()` (src/slice.c:455-470) and many internal callers slice by a start, a size and a direction.
-/

namespace Vctrs
open Spec

variable {α : Type}

/-- **C46** (increasing sequences): the elements from `start` on. -/
theorem C46_seq_increasing (na : α) {x : List α} {start size : Nat} (h : start + size ≤ x.length) (hi : x.length ≤ intMax) :
    (do sliceBase na x (← compactSeq start size true)) = .ok ((x.drop start).take size) := by
  have e : compactSeq start size true = .ok (.seq start size 1) := by
    unfold compactSeq
    rw [if_neg (by omega), if_neg (by omega)]
    rfl
  rw [e, ok_bind]
  obtain ⟨out, h1, h2, h3⟩ := C46_slice na (x := x) (s := .seq start size 1)
    ⟨by omega, .inl rfl, by omega, by omega, fun j hj => by omega⟩
  rw [h1]
  congr 1
  change out.length = size at h2
  apply List.ext_getElem?
  intro i
  by_cases hlt : i < size
  · obtain ⟨loc, h4, h5⟩ := h3 i hlt
    unfold subscriptAt at h4
    dsimp only at h4
    rw [if_pos (by omega)] at h4
    cases h4
    rw [h5, if_neg (by unfold naInt; omega), List.getElem?_take_of_lt hlt, List.getElem?_drop]
    congr 1
    omega
  · rw [List.getElem?_eq_none (by omega), List.getElem?_eq_none (by simp; omega)]

/-- **C46** (decreasing sequences): the elements from `start` back. -/
theorem C46_seq_decreasing (na : α) {x : List α} {start size : Nat} (h : size ≤ start + 1) (hs : start < x.length)
    (hi : x.length ≤ intMax) :
    (do sliceBase na x (← compactSeq start size false)) = .ok ((x.take (start + 1)).reverse.take size) := by
  have e : compactSeq start size false = .ok (.seq start size (-1)) := by
    unfold compactSeq
    rw [if_neg (by omega), if_neg (by omega), if_neg (by simp; omega)]
    rfl
  rw [e, ok_bind]
  obtain ⟨out, h1, h2, h3⟩ := C46_slice na (x := x) (s := .seq start size (-1))
    ⟨by omega, .inr rfl, by omega, by omega, fun j hj => by omega⟩
  rw [h1]
  congr 1
  change out.length = size at h2
  apply List.ext_getElem?
  intro i
  by_cases hlt : i < size
  · obtain ⟨loc, h4, h5⟩ := h3 i hlt
    unfold subscriptAt at h4
    dsimp only at h4
    rw [if_pos (by omega)] at h4
    cases h4
    rw [h5, if_neg (by unfold naInt; omega), List.getElem?_take_of_lt hlt, List.getElem?_reverse (by simp; omega),
      List.getElem?_take_of_lt (by simp; omega)]
    congr 1
    simp
    omega
  · rw [List.getElem?_eq_none (by omega), List.getElem?_eq_none (by simp; omega)]

/-- Anything else is an internal error: negative numbers, and decreasing sequences that pass the first element. -/
theorem C46_seq_error (start size : Int) (increasing : Bool)
    (h : start < 0 ∨ size < 0 ∨ (increasing = false ∧ start + 1 < size)) :
    compactSeq start size increasing = .error .internal := by
  unfold compactSeq
  split
  · rfl
  · split
    · rfl
    · rw [if_pos]
      rcases h with h | h | ⟨h1, h2⟩
      · omega
      · omega
      · subst h1
        simp
        omega

/-- **C46**: the locations of a sequence as integers, which arrays are sliced by. -/
theorem C46_seq_locations (start step : Int) (size : Nat) :
    compactMaterialize (.seq start size step) =
      .ok ((List.range size).map (fun (i : Nat) => start + 1 + i * step)) := by
  have key : ∀ (k i : Nat) (acc : List Int), acc.length = i → forFrom (fun k (s : List (Option Int) × Int) => do
      let out ← wr s.1 k (some s.2)
      .ok (out, s.2 + step)) i k (acc.map some ++ List.replicate k none, start + 1 + i * step) =
      .ok ((acc ++ (List.range' i k).map (fun (j : Nat) => start + 1 + j * step)).map some,
        start + 1 + ((i + k : Nat) : Int) * step) := by
    intro k
    induction k with
    | zero => intro i acc _; simp [forFrom]
    | succ k ih =>
      intro i acc ha
      rw [forFrom, wr_ok (by simp; omega), ok_bind, ok_bind]
      have e : (List.map some acc ++ List.replicate (k + 1) none).set i (some (start + 1 + (i : Int) * step)) =
          (acc ++ [start + 1 + (i : Int) * step]).map some ++ List.replicate k none := by
        rw [List.set_append_right _ _ (by simp; omega), ← ha]
        simp [List.replicate_succ]
      have e2 : start + 1 + (i : Int) * step + step = start + 1 + ((i + 1 : Nat) : Int) * step := by
        rw [Int.natCast_add, Int.add_mul]
        simp
        omega
      dsimp only
      rw [e, e2, ih (i + 1) (acc ++ [start + 1 + (i : Int) * step]) (by simp [ha]), List.range'_succ, List.append_assoc,
        Nat.add_right_comm i 1 k, Nat.add_assoc]
      rfl
  have := key size 0 [] rfl
  unfold compactMaterialize
  dsimp only
  rw [Int.toNat_natCast]
  unfold forN alloc
  simp only [List.map_nil, List.nil_append, Int.natCast_zero, Int.zero_mul, Int.add_zero] at this
  rw [this, ok_bind]
  dsimp only
  rw [initd_map_some, List.range_eq_range']

/-- **C46** (`vec_slice_rep()`): one element, or the missing value, repeated. -/
theorem C46_rep (na : α) {x : List α} (i n : Nat) (hi : x.length ≤ intMax) :
    (∀ a, x[i]? = some a → (do sliceBase na x (← compactRep (i + 1) n)) = .ok (List.replicate n a)) ∧
    (do sliceBase na x (← compactRep naInt n)) = .ok (List.replicate n na) := by
  have e : ∀ j, compactRep j n = .ok (.rep j n) := fun j => by
    unfold compactRep
    rw [if_neg (by omega)]
  refine ⟨fun a ha => ?_, ?_⟩
  · have hlt := (List.getElem?_eq_some_iff.1 ha).1
    rw [e, ok_bind]
    obtain ⟨out, h1, h2, h3⟩ := C46_slice na (x := x) (s := .rep (i + 1) n) ⟨by omega, .inr (by omega)⟩
    rw [h1]
    congr 1
    change out.length = n at h2
    apply List.ext_getElem?
    intro k
    by_cases hk : k < n
    · obtain ⟨loc, h4, h5⟩ := h3 k hk
      unfold subscriptAt at h4
      dsimp only at h4
      rw [if_pos (by omega)] at h4
      cases h4
      rw [h5, if_neg (by unfold naInt; omega), List.getElem?_replicate, if_pos hk, ← ha]
      congr 1
      omega
    · rw [List.getElem?_eq_none (by omega), List.getElem?_eq_none (by simp; omega)]
  · rw [e, ok_bind]
    obtain ⟨out, h1, h2, h3⟩ := C46_slice na (x := x) (s := .rep naInt n) ⟨by omega, .inl rfl⟩
    rw [h1]
    congr 1
    change out.length = n at h2
    apply List.ext_getElem?
    intro k
    by_cases hk : k < n
    · obtain ⟨loc, h4, h5⟩ := h3 k hk
      unfold subscriptAt at h4
      dsimp only at h4
      rw [if_pos (by omega)] at h4
      cases h4
      rw [h5, if_pos rfl, List.getElem?_replicate, if_pos hk]
    · rw [List.getElem?_eq_none (by omega), List.getElem?_eq_none (by simp; omega)]

/-- **C46** (assignment to an increasing sequence, as in `vec_c()`): the elements from `start` on are replaced. -/
theorem C46_assign_seq {x value : List α} {start : Nat} (h : start + value.length ≤ x.length) :
    (do assignBase x (← compactSeq start value.length true) value) =
      .ok (x.take start ++ value ++ x.drop (start + value.length)) := by
  have e : compactSeq start value.length true = .ok (.seq start value.length 1) := by
    unfold compactSeq
    rw [if_neg (by omega), if_neg (by omega)]
    rfl
  rw [e, ok_bind]
  obtain ⟨out, h1, h2, h3, h4⟩ := C46_assign (x := x) (s := .seq start value.length 1) (value := value)
    ⟨by omega, .inl rfl, by omega, by omega, fun j hj => by omega⟩ trivial rfl
  rw [h1]
  congr 1
  have hat : ∀ i, i < value.length → subscriptAt (.seq start value.length 1) i = some ((start + i : Nat) + 1 : Int) := by
    intro i hi
    unfold subscriptAt
    dsimp only
    rw [if_pos (by omega)]
    congr 1
    omega
  apply List.ext_getElem?
  intro p
  by_cases hp : start ≤ p ∧ p < start + value.length
  · have hl : LastOccurrence (subscriptAt (.seq start value.length 1)) value.length p (p - start) := by
      refine ⟨by omega, ?_, ?_⟩
      · rw [hat _ (by omega)]
        congr 1
        omega
      · intro i' hi1 hi2 heq
        rw [hat _ hi2] at heq
        have := Option.some.inj heq
        omega
    rw [h3 p _ hl, List.append_assoc, List.getElem?_append_right (by simp; omega), List.getElem?_append_left (by simp; omega)]
    congr 1
    simp
    omega
  · rw [h4 p (fun i hi heq => by
      rw [hat i hi] at heq
      have := Option.some.inj heq
      omega)]
    by_cases hlt : p < start
    · rw [List.append_assoc, List.getElem?_append_left (by simp; omega), List.getElem?_take_of_lt hlt]
    · rw [List.getElem?_append_right (by simp; omega), List.getElem?_drop]
      congr 1
      simp
      omega

example : (do assignBase [1, 2, 3, 4] (← compactSeq 1 2 true) [8, 9]) = .ok [1, 8, 9, 4] := by decide
example : (do sliceBase 0 [5, 6] (← compactRep 2 3)) = .ok [6, 6, 6] := by decide
example : (do sliceBase 0 [5, 6, 7, 8] (← compactSeq 2 3 false)) = .ok [7, 6, 5] := by decide
example : (do sliceBase 0 [5, 6, 7, 8] (← compactSeq 1 2 true)) = .ok [6, 7] := by decide
example : compactSeq 2 4 false = .error .internal := by decide
example : compactMaterialize (.seq 2 3 (-1)) = .ok [3, 2, 1] := by decide

end Vctrs
