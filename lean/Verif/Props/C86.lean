import Verif.Model.UnchopFallback
import Verif.Props.C47
import Verif.Lemmas.Proxy

/-!
# C86: foreign classes are combined and unchopped with `c()`
-/

namespace Vctrs.Spec

variable {α : Type}

/-- The elements an input stands for. -/
def chunkVals (na : α) : FChunk α → List α
  | .vec l => l
  | .lgl n => List.replicate n na
  | .unspec n => List.replicate n na

/-- The inputs one after the other, without the `NULL`s. -/
def combined (na : α) (xs : List (Option (FChunk α))) : List α :=
  (xs.filterMap (Option.map (chunkVals na))).flatten

/-- An input of unspecified type. -/
def Untyped (c : FChunk α) : Prop := (∃ n, c = .unspec n) ∨ ∃ n, c = .lgl (n + 1)

/-- Either all inputs are of the class, or none is empty. -/
def NoEmptyOrTyped (na : α) (xs : List (Option (FChunk α))) : Prop :=
  (∀ c, some c ∈ xs → ¬ Untyped c) ∨ ∀ c, some c ∈ xs → chunkVals na c ≠ []

end Vctrs.Spec

namespace Vctrs
open Spec

variable {α : Type}

theorem isUnspec_iff (c : FChunk α) : c.isUnspec = true ↔ Untyped c := by
  cases c with
  | vec l => simp [FChunk.isUnspec, Untyped]
  | lgl n => cases n <;> simp [FChunk.isUnspec, Untyped]
  | unspec n => simp [FChunk.isUnspec, Untyped]

theorem chunkVals_length (na : α) (c : FChunk α) : (chunkVals na c).length = c.size := by
  cases c <;> simp [chunkVals, FChunk.size]

theorem elts_eq (na : α) {c : FChunk α} (h : c.isUnspec = false) : c.elts = .ok (chunkVals na c) := by
  cases c with
  | vec l => rfl
  | lgl n => cases n with
    | zero => rfl
    | succ n => simp [FChunk.isUnspec] at h
  | unspec n => simp [FChunk.isUnspec] at h

theorem mapM_elts (na : α) : ∀ {xs : List (FChunk α)}, (∀ c ∈ xs, c.isUnspec = false) →
    xs.mapM FChunk.elts = .ok (xs.map (chunkVals na))
  | [], _ => rfl
  | c :: xs, h => by
    rw [List.mapM_cons, elts_eq na (h c (by simp)), mapM_elts na (fun c hc => h c (by simp [hc]))]
    rfl

/-! ## `c_locs()` -/

theorem rSeq_up (n : Int) {k : Nat} (h : 0 < k) :
    rSeq (n + 1) (n + k) = (List.range k).map (fun i : Nat => n + 1 + (i : Int)) := by
  unfold rSeq
  rw [if_pos (by omega)]
  congr 2
  omega

theorem rSeq_down (n : Int) : rSeq (n + 1) (n + (0 : Nat)) = [n + 1, n] := by
  unfold rSeq
  rw [if_neg (by omega)]
  have : (n + 1 - (n + ((0 : Nat) : Int)) + 1).toNat = 2 := by omega
  rw [this]
  simp [List.range_succ]

/-- The number of locations for an input of size `k`. -/
def seqLen (k : Nat) : Nat := if k = 0 then 2 else k

theorem rSeq_length (n : Int) (k : Nat) : (rSeq (n + 1) (n + k)).length = seqLen k := by
  unfold seqLen
  by_cases h : k = 0
  · subst h; rw [rSeq_down, if_pos rfl]; rfl
  · rw [rSeq_up n (by omega), if_neg h]; simp

theorem rSeq_last (n : Int) (k : Nat) : (rSeq (n + 1) (n + k)).getLast? = some (n + k) := by
  by_cases h : k = 0
  · subst h; rw [rSeq_down]; simp
  · rw [rSeq_up n (by omega)]
    obtain ⟨j, rfl⟩ : ∃ j, k = j + 1 := ⟨k - 1, by omega⟩
    rw [List.range_succ, List.map_append, List.map_singleton, List.getLast?_append]
    simp; omega

/-- The locations of inputs of the sizes `ks` after `n` elements. -/
def cLocsFrom (n : Nat) : List Nat → List (List Int)
  | [] => []
  | k :: ks => rSeq ((n : Int) + 1) ((n : Int) + k) :: cLocsFrom (n + k) ks

theorem cLocs_loop : ∀ (ks : List Nat) (n : Nat) (pre : List (List Int)) (l : List Int),
    l.getLast? = some (n : Int) →
    ks.foldlM (fun (output : List (List Int)) (input : Nat) => do
      let l ← rLast output
      let n ← rLast l
      .ok (output ++ [rSeq (n + 1) (n + input)])) (pre ++ [l]) = (.ok (pre ++ [l] ++ cLocsFrom n ks) : C _)
  | [], n, pre, l, _ => by simp [cLocsFrom]
  | k :: ks, n, pre, l, h => by
    rw [List.foldlM_cons]
    have h1 : rLast (pre ++ [l]) = .ok l := by simp [rLast]
    have h2 : rLast l = .ok (n : Int) := by simp [rLast, h]
    rw [h1, ok_bind, h2, ok_bind, ok_bind]
    have := cLocs_loop ks (n + k) (pre ++ [l]) (rSeq ((n : Int) + 1) ((n : Int) + k))
      (by rw [rSeq_last]; simp)
    rw [this]
    simp [cLocsFrom]

theorem cLocs_eq (ks : List Nat) : cLocs ks = .ok (cLocsFrom 0 ks) := by
  unfold cLocs
  have := cLocs_loop ks 0 [] [0] rfl
  rw [List.nil_append] at this
  rw [this]
  rfl

/-- The locations after the replacements, `n` elements of the class being before. -/
def mergedLocs (n : Nat) : List (FChunk α) → List (List Int)
  | [] => []
  | c :: cs => if c.isUnspec then List.replicate (seqLen c.size) naInt :: mergedLocs n cs
    else rSeq ((n : Int) + 1) ((n : Int) + c.size) :: mergedLocs (n + c.size) cs

theorem mergeLocs_eq : ∀ (xs : List (FChunk α)) (m n : Nat),
    mergeLocs xs (cLocsFrom m (xs.map FChunk.size))
      (cLocsFrom n ((xs.filter (fun x => !x.isUnspec)).map FChunk.size)) = .ok (mergedLocs n xs)
  | [], _, _ => rfl
  | c :: xs, m, n => by
    rw [List.map_cons, cLocsFrom]
    by_cases h : c.isUnspec = true
    · rw [List.filter_cons_of_neg (by simp [h]), mergeLocs.eq_def]
      dsimp only
      rw [if_pos h, mergeLocs_eq xs, mergedLocs, if_pos h,
        rSeq_length]
      rfl
    · rw [List.filter_cons_of_pos (by simpa using h), List.map_cons, cLocsFrom, mergeLocs.eq_def]
      dsimp only
      rw [if_neg h, mergeLocs_eq xs, mergedLocs, if_neg h]
      rfl

theorem rSeq_nonneg {n k : Nat} : ∀ e ∈ rSeq ((n : Int) + 1) ((n : Int) + k), 0 ≤ e := by
  intro e he
  by_cases h : k = 0
  · subst h
    rw [rSeq_down] at he
    simp at he
    omega
  · rw [rSeq_up _ (by omega)] at he
    simp at he
    obtain ⟨i, _, rfl⟩ := he
    omega

theorem mergedLocs_nonneg : ∀ (xs : List (FChunk α)) (n : Nat), ∀ e ∈ (mergedLocs n xs).flatten, e = naInt ∨ 0 ≤ e
  | [], _, e, he => by simp [mergedLocs] at he
  | c :: xs, n, e, he => by
    rw [mergedLocs] at he
    split at he
    · rw [List.flatten_cons, List.mem_append] at he
      rcases he with he | he
      · exact Or.inl (List.eq_of_mem_replicate he)
      · exact mergedLocs_nonneg xs n e he
    · rw [List.flatten_cons, List.mem_append] at he
      rcases he with he | he
      · exact Or.inr (rSeq_nonneg e he)
      · exact mergedLocs_nonneg xs _ e he

/-- What `x[i]` of R gives for locations that are not negative. -/
inductive Spec.Bracketed {α : Type} (na : α) (x : List α) : List Int → List α → Prop where
  | nil : Bracketed na x [] []
  | zero {l : List Int} {ys : List α} : Bracketed na x l ys → Bracketed na x (0 :: l) ys
  | missing {l : List Int} {ys : List α} : Bracketed na x l ys → Bracketed na x (naInt :: l) (na :: ys)
  | elt {l : List Int} {ys : List α} {i : Nat} {a : α} : x[i]? = some a → Bracketed na x l ys →
      Bracketed na x (((i + 1 : Nat) : Int) :: l) (a :: ys)
  | past {l : List Int} {ys : List α} {i : Nat} : x.length ≤ i → Bracketed na x l ys →
      Bracketed na x (((i + 1 : Nat) : Int) :: l) (na :: ys)

/-- Elements are selected in the order of the locations; zeros select nothing. -/
theorem C86_bracket (na : α) (x : List α) {locs : List Int} {ys : List α} (h : Bracketed na x locs ys) :
    rBracket na x locs = .ok ys := by
  have key : (∀ e ∈ locs, e = naInt ∨ 0 ≤ e) ∧ locs.flatMap (rBracketAt na x) = ys := by
    induction h with
    | nil => exact ⟨nofun, rfl⟩
    | zero _ ih =>
      refine ⟨?_, by rw [List.flatMap_cons, ih.2]; rfl⟩
      intro e he
      rcases List.mem_cons.1 he with rfl | he
      · exact Or.inr (Int.le_refl _)
      · exact ih.1 e he
    | missing _ ih =>
      refine ⟨?_, by rw [List.flatMap_cons, ih.2]; rfl⟩
      intro e he
      rcases List.mem_cons.1 he with rfl | he
      · exact Or.inl rfl
      · exact ih.1 e he
    | @elt l ys i a hi _ ih =>
      refine ⟨?_, ?_⟩
      · intro e he
        rcases List.mem_cons.1 he with rfl | he
        · exact Or.inr (by omega)
        · exact ih.1 e he
      · rw [List.flatMap_cons, ih.2, rBracketAt, if_neg (by omega), if_neg (by rw [naInt]; omega),
          show ((((i + 1 : Nat) : Int)) - 1).toNat = i by omega, hi]
        rfl
    | @past l ys i hi _ ih =>
      refine ⟨?_, ?_⟩
      · intro e he
        rcases List.mem_cons.1 he with rfl | he
        · exact Or.inr (by omega)
        · exact ih.1 e he
      · rw [List.flatMap_cons, ih.2, rBracketAt, if_neg (by omega), if_neg (by rw [naInt]; omega),
          show ((((i + 1 : Nat) : Int)) - 1).toNat = i by omega, List.getElem?_eq_none hi]
        rfl
  unfold rBracket
  rw [if_neg ?_, key.2]
  simp only [List.any_eq_true, Bool.and_eq_true, decide_eq_true_eq, not_exists, not_and]
  intro e he h1 h2
  rcases key.1 e he with h | h
  · exact h2 h
  · omega

example : Bracketed 9 [5, 6] [2, 0, naInt, 1, 3] [6, 9, 5, 9] :=
  .elt (i := 1) rfl (.zero (.missing (.elt (i := 0) rfl (.past (i := 2) (by decide) .nil))))

theorem rBracket_eq (na : α) (x : List α) {locs : List Int} (h : ∀ e ∈ locs, e = naInt ∨ 0 ≤ e) :
    rBracket na x locs = .ok (locs.flatMap (rBracketAt na x)) := by
  unfold rBracket
  rw [if_neg]
  intro hc
  rw [List.any_eq_true] at hc
  obtain ⟨e, he, hc⟩ := hc
  simp only [Bool.and_eq_true, decide_eq_true_eq] at hc
  rcases h e he with h | h
  · exact hc.2 h
  · omega

theorem flatMap_na (na : α) (x : List α) (k : Nat) :
    (List.replicate k naInt).flatMap (rBracketAt na x) = List.replicate k na := by
  induction k with
  | zero => rfl
  | succ k ih =>
    rw [List.replicate_succ, List.flatMap_cons, ih, List.replicate_succ]
    simp [rBracketAt, naInt]

theorem flatMap_up (na : α) (pre l post : List α) :
    ((List.range l.length).map (fun i : Nat => (pre.length : Int) + 1 + (i : Int))).flatMap
      (rBracketAt na (pre ++ l ++ post)) = l := by
  suffices h : ∀ k, k ≤ l.length → ((List.range k).map (fun i : Nat => (pre.length : Int) + 1 + (i : Int))).flatMap
      (rBracketAt na (pre ++ l ++ post)) = l.take k by
    rw [h l.length (Nat.le_refl _), List.take_length]
  intro k
  induction k with
  | zero => intro _; rfl
  | succ k ih =>
    intro hk
    rw [List.range_succ, List.map_append, List.flatMap_append, ih (by omega), List.take_succ_eq_append_getElem (by omega)]
    congr 1
    rw [List.map_singleton, List.flatMap_singleton]
    unfold rBracketAt
    rw [if_neg (by omega), if_neg (by simp only [naInt]; omega)]
    have he : ((pre.length : Int) + 1 + (k : Int) - 1).toNat = pre.length + k := by omega
    rw [he, List.append_assoc, List.getElem?_append_right (by omega), Nat.add_sub_cancel_left,
      List.getElem?_append_left (by omega), List.getElem?_eq_getElem (by omega)]

/-- The elements of the inputs of the class. -/
def specVals (na : α) (xs : List (FChunk α)) : List α :=
  ((xs.filter (fun x => !x.isUnspec)).map (chunkVals na)).flatten

theorem chunkVals_unspec (na : α) {c : FChunk α} (h : c.isUnspec = true) :
    chunkVals na c = List.replicate c.size na := by
  cases c <;> simp [FChunk.isUnspec, chunkVals, FChunk.size] at *

/-- Without empty inputs the locations select the elements of the inputs. -/
theorem merged_vals (na : α) : ∀ (xs : List (FChunk α)) (pre : List α), (∀ c ∈ xs, c.size ≠ 0) →
    (mergedLocs pre.length xs).flatten.flatMap (rBracketAt na (pre ++ specVals na xs)) =
      (xs.map (chunkVals na)).flatten
  | [], pre, _ => rfl
  | c :: xs, pre, h => by
    have hc := h c (by simp)
    have hxs : ∀ c ∈ xs, c.size ≠ 0 := fun c hc => h c (by simp [hc])
    rw [mergedLocs]
    by_cases hu : c.isUnspec = true
    · rw [if_pos hu, List.flatten_cons, List.flatMap_append, List.map_cons, List.flatten_cons, flatMap_na]
      have : specVals na (c :: xs) = specVals na xs := by
        unfold specVals; rw [List.filter_cons_of_neg (by simp [hu])]
      rw [this, merged_vals na xs pre hxs, chunkVals_unspec na hu, seqLen, if_neg hc]
    · rw [if_neg hu, List.flatten_cons, List.flatMap_append, List.map_cons, List.flatten_cons]
      have : specVals na (c :: xs) = chunkVals na c ++ specVals na xs := by
        unfold specVals; rw [List.filter_cons_of_pos (by simpa using hu)]; rfl
      rw [this, rSeq_up _ (by omega), ← chunkVals_length na c, ← List.append_assoc, flatMap_up]
      have := merged_vals na xs (pre ++ chunkVals na c) hxs
      rw [List.length_append] at this
      rw [this]

/-- Every empty input adds locations. -/
theorem merged_length (na : α) (out : List α) : ∀ (xs : List (FChunk α)) (n : Nat),
    ((xs.map (chunkVals na)).flatten.length ≤ ((mergedLocs n xs).flatten.flatMap (rBracketAt na out)).length) ∧
    ((∃ c ∈ xs, c.size = 0) →
      (xs.map (chunkVals na)).flatten.length < ((mergedLocs n xs).flatten.flatMap (rBracketAt na out)).length)
  | [], _ => ⟨Nat.le_refl _, by rintro ⟨c, hc, _⟩; cases hc⟩
  | c :: xs, n => by
    have one : ∀ e : Int, e ≠ 0 → (rBracketAt na out e).length = 1 := by
      intro e he
      unfold rBracketAt
      rw [if_neg he]
      split
      · rfl
      · split <;> rfl
    have hblock : ∀ m : Nat, (c.size ≤ ((rSeq ((m : Int) + 1) ((m : Int) + c.size)).flatMap (rBracketAt na out)).length) ∧
        (c.size = 0 → 0 < ((rSeq ((m : Int) + 1) ((m : Int) + c.size)).flatMap (rBracketAt na out)).length) := by
      intro m
      by_cases h0 : c.size = 0
      · rw [h0, rSeq_down]
        simp only [List.flatMap_cons, List.flatMap_nil, List.length_append]
        have := one ((m : Int) + 1) (by omega)
        omega
      · refine ⟨?_, fun h => absurd h h0⟩
        rw [rSeq_up _ (by omega), List.length_flatMap, List.map_map]
        have : (List.map ((fun a => (rBracketAt na out a).length) ∘ fun i : Nat => (m : Int) + 1 + (i : Int)) (List.range c.size)) =
            List.replicate c.size 1 := by
          rw [List.eq_replicate_iff]
          refine ⟨by simp, fun b hb => ?_⟩
          rw [List.mem_map] at hb
          obtain ⟨i, _, rfl⟩ := hb
          exact one ((m : Int) + 1 + (i : Int)) (by omega)
        rw [this]
        simp
    rw [mergedLocs]
    by_cases hu : c.isUnspec = true
    · obtain ⟨h1, h2⟩ := merged_length na out xs n
      rw [if_pos hu, List.flatten_cons, List.flatMap_append, flatMap_na, List.map_cons, List.flatten_cons,
        List.length_append, List.length_append, chunkVals_length, List.length_replicate]
      have hs : c.size ≤ seqLen c.size ∧ (c.size = 0 → 0 < seqLen c.size) := by
        by_cases h0 : c.size = 0
        · rw [h0]; decide
        · have e : seqLen c.size = c.size := if_neg h0
          rw [e]; omega
      refine ⟨by omega, ?_⟩
      rintro ⟨d, hd, h0⟩
      rcases List.mem_cons.1 hd with rfl | hd
      · have := hs.2 h0; omega
      · have := h2 ⟨d, hd, h0⟩; omega
    · obtain ⟨h1, h2⟩ := merged_length na out xs (n + c.size)
      rw [if_neg hu, List.flatten_cons, List.flatMap_append, List.map_cons, List.flatten_cons,
        List.length_append, List.length_append, chunkVals_length]
      obtain ⟨h3, h4⟩ := hblock n
      refine ⟨by omega, ?_⟩
      rintro ⟨d, hd, h0⟩
      rcases List.mem_cons.1 hd with rfl | hd
      · have := h4 h0; omega
      · have := h2 ⟨d, hd, h0⟩; omega

theorem combined_eq (na : α) (xs : List (Option (FChunk α))) :
    combined na xs = ((xs.filterMap id).map (chunkVals na)).flatten := by
  unfold combined
  rw [List.map_filterMap]
  rfl

/-- What `base_c_invoke()` computes for a `c()` that concatenates. -/
theorem baseCInvoke_eq (na : α) {bc : List (List α) → C (List α)} (hbc : ∀ ls, bc ls = .ok ls.flatten)
    (xs : List (Option (FChunk α))) :
    baseCInvoke na bc xs = .ok (if (xs.filterMap id).any (fun x => x.isUnspec) then
      (mergedLocs 0 (xs.filterMap id)).flatten.flatMap (rBracketAt na (specVals na (xs.filterMap id)))
      else combined na xs) := by
  rw [combined_eq]
  unfold baseCInvoke
  generalize xs.filterMap id = ys
  dsimp only
  by_cases h : ys.any (fun x => x.isUnspec) = true
  · rw [if_neg (by simp [h]), if_pos h, mapM_elts na (by
      intro c hc; rw [List.mem_filter] at hc; simpa using hc.2), ok_bind, hbc, ok_bind, cLocs_eq, ok_bind, cLocs_eq,
      ok_bind, mergeLocs_eq, ok_bind, rBracket_eq na _ (mergedLocs_nonneg ys 0)]
    rfl
  · rw [if_pos (by simpa using h), if_neg h, mapM_elts na (by
      intro c hc
      rw [Bool.not_eq_true, List.any_eq_false] at h
      simpa using h c hc), ok_bind, hbc]

theorem any_unspec_iff (xs : List (Option (FChunk α))) :
    (xs.filterMap id).any (fun x => x.isUnspec) = true ↔ ∃ c, some c ∈ xs ∧ Untyped c := by
  rw [List.any_eq_true]
  constructor
  · rintro ⟨c, hc, h⟩
    rw [List.mem_filterMap] at hc
    obtain ⟨o, ho, hc⟩ := hc
    rw [id] at hc
    subst hc
    exact ⟨c, ho, (isUnspec_iff c).1 h⟩
  · rintro ⟨c, hc, h⟩
    exact ⟨c, List.mem_filterMap.2 ⟨some c, hc, rfl⟩, (isUnspec_iff c).2 h⟩

/-- **C86** (`vec_c()` of a foreign class), partial: the inputs are concatenated by the `c()` method of the
class, with missing values for the unspecified inputs, provided that no input is empty when one of
them is unspecified.  The property itself, without this condition, fails: `C86_c_wrong`. -/
theorem C86_c_partial (na : α) {bc : List (List α) → C (List α)} (hbc : ∀ ls, bc ls = .ok ls.flatten)
    {xs : List (Option (FChunk α))} (h : NoEmptyOrTyped na xs) :
    vecCFallbackInvoke na bc false xs = .ok (combined na xs) := by
  unfold vecCFallbackInvoke
  rw [if_neg (by simp), baseCInvoke_eq na hbc]
  congr 1
  split
  · rename_i hu
    rw [any_unspec_iff] at hu
    obtain ⟨c, hc, hu⟩ := hu
    rcases h with h | h
    · exact absurd hu (h c hc)
    · have := merged_vals na (xs.filterMap id) [] (by
        intro c hc
        rw [List.mem_filterMap] at hc
        obtain ⟨o, ho, hc⟩ := hc
        rw [id] at hc
        subst hc
        rw [← chunkVals_length na]
        intro h0
        exact h c ho (List.length_eq_zero_iff.1 h0))
      rw [List.length_nil, List.nil_append] at this
      rw [this, combined_eq]
  · rfl

example : vecCFallbackInvoke 0 (fun l => .ok l.flatten) false
    [some (.vec [7, 8]), some (.lgl 2), none, some (.vec [1])] = .ok [7, 8, 0, 0, 1] := by decide +kernel
example : NoEmptyOrTyped 0 [some (.vec [7, 8]), some (.lgl 2), none, some (.vec [1])] := by
  right
  intro c hc
  simp at hc
  rcases hc with rfl | rfl | rfl <;> simp [chunkVals]

/-- **C86**: the condition is needed.  Whenever an input is unspecified and an input is empty, the result has
too many elements, because `seq(n + 1, n)` counts down. -/
theorem C86_c_wrong (na : α) {bc : List (List α) → C (List α)} (hbc : ∀ ls, bc ls = .ok ls.flatten)
    {xs : List (Option (FChunk α))} (h : ¬ NoEmptyOrTyped na xs) :
    ∃ out, vecCFallbackInvoke na bc false xs = .ok out ∧ (combined na xs).length < out.length := by
  unfold NoEmptyOrTyped at h
  rw [not_or] at h
  obtain ⟨h1, h2⟩ := h
  simp only [not_forall, not_not] at h1 h2
  obtain ⟨c, hc, hu⟩ := h1
  obtain ⟨d, hd, h0⟩ := h2
  refine ⟨_, by unfold vecCFallbackInvoke; rw [if_neg (by simp)]; exact baseCInvoke_eq na hbc xs, ?_⟩
  rw [if_pos ((any_unspec_iff xs).2 ⟨c, hc, hu⟩), combined_eq]
  refine (merged_length na _ _ 0).2 ⟨d, List.mem_filterMap.2 ⟨some d, hd, rfl⟩, ?_⟩
  rw [← chunkVals_length na, h0]
  rfl

/-- `vec_c(foo(), NA, foo(1))` is `foo(1, NA, 1)`. -/
example : vecCFallbackInvoke 0 (fun l => .ok l.flatten) false [some (.vec []), some (.lgl 1), some (.vec [1])] =
    .ok [1, 0, 1] := by decide +kernel
example : ¬ NoEmptyOrTyped 0 [some (.vec []), some (.lgl 1), some (.vec [1])] := by
  rintro (h | h)
  · exact h (.lgl 1) (by simp) (Or.inr ⟨0, rfl⟩)
  · exact h (.vec []) (by simp) rfl

/-- **C86**: a name specification is refused. -/
theorem C86_c_name_spec (na : α) (bc : List (List α) → C (List α)) (xs : List (Option (FChunk α))) :
    vecCFallbackInvoke na bc true xs = .error .abort := rfl

/-! ## `list_unchop()` -/

/-- The input recycled to its index. -/
def RecChunk (na : α) (l : List Int) (x : Option (FChunk α)) (v : List α) : Prop :=
  match x with
  | none => l = [] ∧ v = []
  | some c => Recycles (chunkVals na c) l.length v

theorem recycleFallback_ok (na : α) {c : FChunk α} {n : Nat} {v : List α} (h : Recycles (chunkVals na c) n v) :
    ∃ d, recycleFallback na (some c) n = .ok (some d) ∧ chunkVals na d = v ∧
      (Untyped d → Untyped c) := by
  unfold recycleFallback
  dsimp only
  by_cases hn : c.size = n
  · rw [if_pos hn]
    refine ⟨c, rfl, ?_, id⟩
    rcases h with ⟨_, rfl⟩ | ⟨a, ha, rfl⟩
    · rfl
    · have := chunkVals_length na c
      rw [ha] at this
      simp at this
      rw [ha, ← hn, ← this]
      rfl
  · rw [if_neg hn]
    rcases h with ⟨hl, _⟩ | ⟨a, ha, rfl⟩
    · exact absurd ((chunkVals_length na c).symm.trans hl) hn
    · have h1 := chunkVals_length na c
      rw [ha] at h1
      rw [if_pos (by simpa using h1.symm)]
      cases c with
      | vec l =>
        simp only [chunkVals] at ha
        subst ha
        dsimp only
        rw [rBracket_eq na _ (by
          intro e he; exact Or.inr (by rw [List.eq_of_mem_replicate he]; decide)), ok_bind]
        refine ⟨_, rfl, ?_, fun h => absurd ((isUnspec_iff _).2 h) (by simp [FChunk.isUnspec])⟩
        rw [chunkVals]
        clear hn
        induction n with
        | zero => rfl
        | succ n ih =>
          rw [List.replicate_succ, List.flatMap_cons, ih, List.replicate_succ]
          simp [rBracketAt, naInt]
      | lgl k =>
        simp [FChunk.size] at h1
        subst h1
        simp [chunkVals] at ha
        subst ha
        exact ⟨_, rfl, rfl, fun _ => Or.inr ⟨0, rfl⟩⟩
      | unspec k =>
        simp [FChunk.size] at h1
        subst h1
        simp [chunkVals] at ha
        subst ha
        exact ⟨_, rfl, rfl, fun _ => Or.inl ⟨1, rfl⟩⟩

theorem recycle_loop (na : α) {indices : List RSubscript} {locs : List (List Int)}
    (hi : List.Forall₂ (fun i l => indexInts i = some l) indices locs) :
    ∀ {xs : List (Option (FChunk α))} {vals : List (List α)}, xs.length = locs.length →
    (∀ (j : Nat) x l v, xs[j]? = some x → locs[j]? = some l → vals[j]? = some v → RecChunk na l x v) →
    vals.length = locs.length →
    ∃ ys, forN xs.length (fun i (s : List (Option (FChunk α)) × Nat) => do
      let x ← rd s.1 i
      let index ← rd indices i
      let x ← recycleFallback na x (indexLength index)
      let xs ← wr s.1 i x
      .ok (xs, s.2 + indexLength index)) (xs, 0) = .ok (ys, locs.flatten.length) ∧ ys.length = xs.length ∧
      ∀ (j : Nat) y v, ys[j]? = some y → vals[j]? = some v →
        (y.map (chunkVals na) = some v ∨ y = none ∧ v = []) ∧
        ∀ d, y = some d → ∃ c, xs[j]? = some (some c) ∧ (Untyped d → Untyped c) := by
  intro xs vals hl hrec hv
  suffices h : Ret (forN xs.length (fun i (s : List (Option (FChunk α)) × Nat) => do
      let x ← rd s.1 i
      let index ← rd indices i
      let x ← recycleFallback na x (indexLength index)
      let xs ← wr s.1 i x
      .ok (xs, s.2 + indexLength index)) (xs, 0)) (fun s => s.1.length = xs.length ∧ s.2 = (locs.take xs.length).flatten.length ∧
        (∀ j : Nat, xs.length ≤ j → s.1[j]? = xs[j]?) ∧
        ∀ (j : Nat) y v, j < xs.length → s.1[j]? = some y → vals[j]? = some v →
          (y.map (chunkVals na) = some v ∨ y = none ∧ v = []) ∧
          ∀ d, y = some d → ∃ c, xs[j]? = some (some c) ∧ (Untyped d → Untyped c)) by
    obtain ⟨⟨ys, n⟩, h1, h2, h3, _, h5⟩ := h
    dsimp only at h2 h3 h5
    refine ⟨ys, ?_, h2, fun j y v hy hvj => h5 j y v ?_ hy hvj⟩
    · rw [h1, h3, hl, List.take_length]
    · rw [← h2]; exact (List.getElem?_eq_some_iff.1 hy).1
  refine Ret.forN (fun k (s : List (Option (FChunk α)) × Nat) => s.1.length = xs.length ∧
    s.2 = (locs.take k).flatten.length ∧ (∀ j : Nat, k ≤ j → s.1[j]? = xs[j]?) ∧
    ∀ (j : Nat) y v, j < k → s.1[j]? = some y → vals[j]? = some v →
      (y.map (chunkVals na) = some v ∨ y = none ∧ v = []) ∧
      ∀ d, y = some d → ∃ c, xs[j]? = some (some c) ∧ (Untyped d → Untyped c)) ?_ ?_
  · exact ⟨rfl, rfl, fun _ _ => rfl, fun j y v hj => absurd hj (by omega)⟩
  · rintro k ⟨ys, n⟩ hk ⟨h1, h2, h3, h4⟩
    dsimp only at h1 h2 h3 h4 ⊢
    have hkl : k < locs.length := by omega
    have hki : k < indices.length := by rw [hi.length_eq]; exact hkl
    have hkv : k < vals.length := by omega
    have hint := (List.forall₂_iff_get.1 hi).2 k hki hkl
    simp only [List.get_eq_getElem] at hint
    have hlen := indexInts_length hint
    have hx : ys[k]? = some xs[k] := by rw [h3 k (Nat.le_refl _), List.getElem?_eq_getElem hk]
    refine Ret.bind_eq (rd_of_getElem? hx) (Ret.bind_eq (rd_ok hki) ?_)
    have hr := hrec k xs[k] locs[k] vals[k] (List.getElem?_eq_getElem hk) (List.getElem?_eq_getElem hkl)
      (List.getElem?_eq_getElem hkv)
    have hgo : ∃ d, recycleFallback na xs[k] (indexLength indices[k]) = .ok d ∧
        (d.map (chunkVals na) = some vals[k] ∨ d = none ∧ vals[k] = []) ∧
        ∀ e, d = some e → ∃ c, xs[k]? = some (some c) ∧ (Untyped e → Untyped c) := by
      rw [hlen, List.getElem?_eq_getElem hk]
      generalize xs[k] = x at hr
      cases x with
      | none => exact ⟨none, rfl, Or.inr ⟨rfl, hr.2⟩, fun e he => by cases he⟩
      | some c =>
        obtain ⟨d, hd1, hd2, hd3⟩ := recycleFallback_ok na hr
        exact ⟨some d, hd1, Or.inl (by simp [hd2]), fun e he => ⟨c, rfl, by cases he; exact hd3⟩⟩
    obtain ⟨d, hd1, hd2, hd3⟩ := hgo
    refine Ret.bind_eq hd1 (Ret.bind_eq (wr_ok (by omega)) (Ret.ok ⟨by simp [h1], ?_, ?_, ?_⟩))
    · dsimp only
      rw [h2, hlen, List.take_succ_eq_append_getElem hkl, List.flatten_append, List.length_append, List.flatten_singleton]
    · intro j hj
      dsimp only
      rw [List.getElem?_set_ne (by omega)]
      exact h3 j (by omega)
    · intro j y v hj hy hvj
      dsimp only at hy
      by_cases hjk : j = k
      · subst hjk
        rw [List.getElem?_set_self (by omega)] at hy
        injection hy with hy
        subst hy
        rw [List.getElem?_eq_getElem hkv] at hvj
        injection hvj with hvj
        subst hvj
        exact ⟨hd2, hd3⟩
      · rw [List.getElem?_set_ne (by omega)] at hy
        exact h4 j y v (by omega) hy hvj

theorem exists_last (ls : List Int) (p : Nat) (h : (p : Int) + 1 ∈ ls) :
    ∃ i, LastOccurrence (fun i => ls[i]?) ls.length p i := by
  induction ls with
  | nil => cases h
  | cons a ls ih =>
    by_cases hin : (p : Int) + 1 ∈ ls
    · obtain ⟨i, h1, h2, h3⟩ := ih hin
      refine ⟨i + 1, by simp; omega, by simpa using h2, fun j hj hjl => ?_⟩
      obtain ⟨k, rfl⟩ : ∃ k, j = k + 1 := ⟨j - 1, by omega⟩
      have := h3 k (by omega) (by simp at hjl; omega)
      simpa using this
    · rcases List.mem_cons.1 h with h | h
      · subst h
        refine ⟨0, by simp, by simp, fun j hj hjl hc => ?_⟩
        obtain ⟨k, rfl⟩ : ∃ k, j = k + 1 := ⟨j - 1, by omega⟩
        simp only [List.getElem?_cons_succ] at hc
        exact hin (List.mem_of_getElem? hc)
      · exact absurd h hin

/-- The inverse of the indices, and what slicing with it gives. -/
theorem invert_ok (na : α) {ls : List Int} {vs : List α} (hlen : vs.length = ls.length) (hok : LocsOk ls.length ls) :
    ∃ out, (do
      let locations ← forN ls.length (fun i (p : List Int) => do
        let index ← rd ls i
        if index = naInt then .ok p
        else wrI p (index - 1) ((i : Int) + 1)) (List.replicate ls.length naInt)
      rBracket na vs locations) = .ok out ∧ out.length = ls.length ∧
      (∀ p i, LastOccurrence (fun i => ls[i]?) ls.length p i → out[p]? = vs[i]?) ∧
      (∀ p : Nat, p < out.length → (p : Int) + 1 ∉ ls → out[p]? = some na) := by
  let value : List Int := (List.range ls.length).map (fun i : Nat => (i : Int) + 1)
  have hvl : value.length = ls.length := by simp [value]
  have hloop : forN ls.length (fun i (p : List Int) => do
        let index ← rd ls i
        if index = naInt then .ok p
        else wrI p (index - 1) ((i : Int) + 1)) (List.replicate ls.length naInt) =
      assignIndex (List.replicate ls.length naInt) ls value := by
    unfold assignIndex
    rw [if_neg (by omega)]
    refine forN_congr (fun i s hi => ?_)
    rw [rd_ok hi, ok_bind, ok_bind, rd_ok (l := value) (by omega)]
    by_cases hn : ls[i] = naInt
    · rw [if_pos hn, if_neg (by simp [hn])]
    · rw [if_neg hn, if_pos hn, ok_bind]
      simp [value]
  obtain ⟨locations, h1, h2, h3, h4⟩ := C46_assign (x := List.replicate ls.length naInt) (s := .locs ls) (value := value)
    (by rw [List.length_replicate]; exact hok) trivial (by simp only [subscriptSize]; omega)
  rw [List.length_replicate] at h2
  have hentry : ∀ p : Nat, p < ls.length →
      (∃ i, LastOccurrence (fun i => ls[i]?) ls.length p i ∧ locations[p]? = some ((i : Int) + 1)) ∨
      ((p : Int) + 1 ∉ ls ∧ locations[p]? = some naInt) := by
    intro p hp
    by_cases hin : (p : Int) + 1 ∈ ls
    · obtain ⟨i, hi⟩ := exists_last ls p hin
      refine Or.inl ⟨i, hi, ?_⟩
      rw [h3 p i (by rw [hvl]; exact hi)]
      simp [value, hi.1]
    · refine Or.inr ⟨hin, ?_⟩
      rw [h4 p (fun i _ hc => hin (List.mem_of_getElem? hc)), List.getElem?_replicate, if_pos hp]
  have hpos : ∀ e ∈ locations, e = naInt ∨ 1 ≤ e ∧ e ≤ (ls.length : Int) := by
    intro e he
    obtain ⟨p, hp, rfl⟩ := List.getElem_of_mem he
    rcases hentry p (by omega) with ⟨i, hi, h⟩ | ⟨_, h⟩
    · rw [List.getElem?_eq_getElem hp] at h
      injection h with h
      have := hi.1
      omega
    · rw [List.getElem?_eq_getElem hp] at h
      injection h with h
      exact Or.inl h
  have hflat : locations.flatMap (rBracketAt na vs) = locations.map (fun e => match atLoc na vs e with | some a => a | none => na) := by
    clear h1 h2 h3 h4 hentry
    induction locations with
    | nil => rfl
    | cons e l ih =>
      rw [List.flatMap_cons, ih (fun e he => hpos e (by simp [he])), List.map_cons]
      have : rBracketAt na vs e = [match atLoc na vs e with | some a => a | none => na] := by
        unfold rBracketAt atLoc
        rcases hpos e (by simp) with h | h
        · subst h; rfl
        · rw [if_neg (by omega), if_neg (by simp only [naInt]; omega), if_neg (by simp only [naInt]; omega)]
          cases vs[(e - 1).toNat]? <;> rfl
      rw [this]; rfl
  refine ⟨_, by rw [hloop]; simp only [assignBase] at h1; rw [h1, ok_bind]; exact rBracket_eq na vs (fun e he => by
    rcases hpos e he with h | h
    · exact Or.inl h
    · exact Or.inr (by omega)), by rw [hflat]; simpa using h2, ?_, ?_⟩
  · intro p i hi
    have hp : p < ls.length := by
      have := hi.2.1
      rcases hok _ (List.mem_of_getElem? this) with h | h
      · simp only [naInt] at h; omega
      · omega
    have hloc : locations[p]? = some ((i : Int) + 1) := by
      rw [h3 p i (by rw [hvl]; exact hi)]
      simp [value, hi.1]
    rw [hflat, List.getElem?_map, hloc]
    have hiv : i < vs.length := by have := hi.1; omega
    have : atLoc na vs ((i : Int) + 1) = some vs[i] := by
      unfold atLoc
      rw [if_neg (by simp only [naInt]; omega)]
      have : ((i : Int) + 1 - 1).toNat = i := by omega
      rw [this, List.getElem?_eq_getElem hiv]
    simp only [Option.map_some, this]
    rw [List.getElem?_eq_getElem hiv]
  · intro p hp hnot
    have hp' : p < ls.length := by rw [hflat, List.length_map, h2] at hp; exact hp
    rcases hentry p hp' with ⟨i, hi, _⟩ | ⟨_, h⟩
    · exact absurd (List.mem_of_getElem? hi.2.1) hnot
    · rw [hflat, List.getElem?_map, h]
      simp [atLoc]

/-- **C86** (`list_unchop()` of a foreign class), partial: the result has the total length of the indices;
position `p` holds the value for the last location equal to `p`, with values recycled to their index,
and is missing when there is none.  This needs that the index of every `NULL` is empty (`RecChunk`), and that no index is empty
when an input is unspecified.  Both conditions are missing from the property as it should be: see
`C86_unchop_wrong` and `C86_c_wrong`. -/
theorem C86_unchop_partial (na : α) {bc : List (List α) → C (List α)} (hbc : ∀ ls, bc ls = .ok ls.flatten)
    {xs : List (Option (FChunk α))} {indices : List RSubscript} {locs : List (List Int)} {vals : List (List α)}
    (hl : xs.length = indices.length) (h : List.Forall₂ (IndexIs locs.flatten.length) indices locs)
    (hv : List.Forall₂ (fun p v => RecChunk na p.2 p.1 v) (xs.zip locs) vals)
    (he : (∀ c, some c ∈ xs → ¬ Untyped c) ∨ ∀ (j : Nat) c, xs[j]? = some (some c) → locs[j]? ≠ some []) :
    ∃ out, unchopFallback na bc false xs indices = .ok out ∧ out.length = locs.flatten.length ∧
      (∀ p i, LastOccurrence (fun i => locs.flatten[i]?) locs.flatten.length p i → out[p]? = vals.flatten[i]?) ∧
      (∀ p : Nat, p < out.length → (p : Int) + 1 ∉ locs.flatten → out[p]? = some na) := by
  have h' : List.Forall₂ (fun i l => indexInts i = some l ∧ LocsOk locs.flatten.length l) indices locs :=
    h.imp (fun i l hil => indexIs_iff.1 hil)
  have hll : xs.length = locs.length := hl.trans h.length_eq
  have hzl : (xs.zip locs).length = locs.length := by simp [hll]
  have hvl : vals.length = locs.length := by rw [← hv.length_eq, hzl]
  have hpt : ∀ (j : Nat) x l v, xs[j]? = some x → locs[j]? = some l → vals[j]? = some v → RecChunk na l x v := by
    intro j x l v h1 h2 h3
    have hz : (xs.zip locs)[j]? = some (x, l) := List.getElem?_zip_eq_some.2 ⟨h1, h2⟩
    have := (List.forall₂_iff_get.1 hv).2 j (List.getElem?_eq_some_iff.1 hz).1 (List.getElem?_eq_some_iff.1 h3).1
    simp only [List.get_eq_getElem] at this
    rw [(List.getElem?_eq_some_iff.1 hz).2, (List.getElem?_eq_some_iff.1 h3).2] at this
    exact this
  obtain ⟨ys, hy1, hy2, hy3⟩ := recycle_loop na (h'.imp (fun _ _ h => h.1)) hll hpt hvl
  have hcomb : combined na ys = vals.flatten := by
    have key : ∀ (ys : List (Option (FChunk α))) (vals : List (List α)), ys.length = vals.length →
        (∀ (j : Nat) y v, ys[j]? = some y → vals[j]? = some v → y.map (chunkVals na) = some v ∨ y = none ∧ v = []) →
        combined na ys = vals.flatten := by
      intro ys
      induction ys with
      | nil => intro vals hlen _; cases vals with | nil => rfl | cons _ _ => cases hlen
      | cons y ys ih =>
        intro vals hlen hj
        cases vals with
        | nil => cases hlen
        | cons v vals =>
          have hrest := ih vals (by simpa using hlen) (fun j y v h1 h2 => hj (j + 1) y v h1 h2)
          unfold combined at hrest ⊢
          rcases hj 0 y v rfl rfl with h | ⟨h1, h2⟩
          · rw [List.filterMap_cons, h]
            simp only [List.flatten_cons]
            rw [hrest]
          · subst h1; subst h2
            rw [List.filterMap_cons]
            simp only [Option.map_none, List.flatten_cons, List.nil_append]
            exact hrest
    exact key ys vals (by omega) (fun j y v h1 h2 => (hy3 j y v h1 h2).1)
  have hlens : vals.flatten.length = locs.flatten.length := by
    rw [List.length_flatten, List.length_flatten]
    congr 1
    refine List.ext_getElem (by simp [hvl]) (fun j h1 h2 => ?_)
    rw [List.length_map] at h1 h2
    rw [List.getElem_map, List.getElem_map]
    have := hpt j xs[j] locs[j] vals[j] (List.getElem?_eq_getElem (by omega)) (List.getElem?_eq_getElem (by omega))
      (List.getElem?_eq_getElem (by omega))
    generalize xs[j] = x at this
    cases x with
    | none => obtain ⟨h1, h2⟩ := this; rw [h1, h2]; rfl
    | some c => exact Recycles.length this
  have hgood : NoEmptyOrTyped na ys := by
    rcases he with he | he
    · left
      intro d hd hu
      obtain ⟨j, hj, hjd⟩ := List.getElem_of_mem hd
      obtain ⟨c, hc, himp⟩ := (hy3 j (some d) vals[j] (by rw [List.getElem?_eq_getElem hj, hjd])
        (List.getElem?_eq_getElem (by omega))).2 d rfl
      exact he c (List.mem_of_getElem? hc) (himp hu)
    · right
      intro d hd h0
      obtain ⟨j, hj, hjd⟩ := List.getElem_of_mem hd
      have hgv : vals[j]? = some vals[j] := List.getElem?_eq_getElem (by omega)
      have hgl : locs[j]? = some locs[j] := List.getElem?_eq_getElem (by omega)
      obtain ⟨h1, h2⟩ := hy3 j (some d) vals[j] (by rw [List.getElem?_eq_getElem hj, hjd]) hgv
      obtain ⟨c, hc, _⟩ := h2 d rfl
      rcases h1 with h1 | ⟨h1, _⟩
      · simp only [Option.map_some, Option.some.injEq] at h1
        have hr : RecChunk na locs[j] (some c) vals[j] := hpt j _ _ _ hc hgl hgv
        have := Recycles.length hr
        rw [← h1, h0] at this
        refine he j c hc ?_
        rw [hgl, List.length_eq_zero_iff.1 this.symm]
      · cases h1
  obtain ⟨out, ho, hrest⟩ := invert_ok na hlens (fun e he => by
    rw [List.mem_flatten] at he
    obtain ⟨l, hl, he⟩ := he
    obtain ⟨k, hk, rfl⟩ := List.getElem_of_mem hl
    exact ((List.forall₂_iff_get.1 h').2 k (by rw [h.length_eq]; exact hk) hk).2 e he)
  refine ⟨out, ?_, hrest⟩
  unfold unchopFallback
  rw [if_neg (by omega), hy1, ok_bind]
  dsimp only
  rw [listAsLocations_ok h', ok_bind, C86_c_partial na hbc hgood, hcomb, ok_bind]
  exact ho

example : unchopFallback 0 (fun l => .ok l.flatten) false [some (.vec [7]), none, some (.lgl 1), some (.vec [1, 2])]
    [.int [4, 1], .null, .lgl [none], .int [2, 4]] = .ok [7, 1, 0, 2, 0] := by decide +kernel
example : List.Forall₂ (fun p v => RecChunk 0 p.2 p.1 v)
    ([some (.vec [7]), none, some (.lgl 1), some (.vec [1, 2])].zip [[4, 1], [], [naInt], [2, 4]])
    [[7, 7], [], [0], [1, 2]] := by
  refine .cons (Or.inr ⟨7, rfl, rfl⟩) (.cons ⟨rfl, rfl⟩ (.cons (Or.inl ⟨rfl, rfl⟩) (.cons (Or.inl ⟨rfl, rfl⟩) .nil)))
example : List.Forall₂ (IndexIs ([[4, 1], [], [naInt], [2, 4]] : List (List Int)).flatten.length)
    [.int [4, 1], .null, .lgl [none], .int [2, 4]] [[4, 1], [], [naInt], [2, 4]] := by
  simp [IndexIs]
  exact ⟨1, rfl, rfl⟩
example : ∀ (j : Nat) (c : FChunk Int), ([some (.vec [7]), none, some (.lgl 1), some (.vec [1, 2])] : List _)[j]? = some (some c) →
    ([[4, 1], [], [naInt], [2, 4]] : List (List Int))[j]? ≠ some [] := by
  intro j c h
  rcases j with _ | _ | _ | _ | j <;> simp at h ⊢

/-- **C86**: the property fails for a `NULL` whose index is not empty.  The native `list_unchop()` leaves the
position missing (C47); the fallback takes the wrong elements: `list_unchop(list(NULL, foo(c(1, 2))), indices =
list(3, 1:2))` is `foo(2, NA, 1)`. -/
theorem C86_unchop_wrong : ¬ ∀ (xs : List (Option (List Int))) (indices : List RSubscript) (out : List Int),
    listUnchop 0 xs indices = .ok (some out) →
    unchopFallback 0 (fun l => .ok l.flatten) false (xs.map (Option.map FChunk.vec)) indices = .ok out := by
  intro h
  have h1 := h [none, some [1, 2]] [.int [3], .int [1, 2]] [1, 2, 0] (by decide +kernel)
  have h2 : unchopFallback (0 : Int) (fun l => .ok l.flatten) false [none, some (.vec [1, 2])] [.int [3], .int [1, 2]] =
      .ok [2, 0, 1] := by decide +kernel
  have h3 : (Except.ok [2, 0, 1] : C (List Int)) = .ok [1, 2, 0] := h2.symm.trans h1
  revert h3
  decide

/-- **C86**: as many indices as elements are needed. -/
theorem C86_unchop_error (na : α) (bc : List (List α) → C (List α)) (ns : Bool) {xs : List (Option (FChunk α))}
    {indices : List RSubscript} (h : xs.length ≠ indices.length) :
    unchopFallback na bc ns xs indices = .error .abort := by
  unfold unchopFallback
  rw [if_pos h]

example : ([some (.vec [1])] : List (Option (FChunk Int))).length ≠ ([] : List RSubscript).length := by simp

end Vctrs
