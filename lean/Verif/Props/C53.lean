import Verif.Lemmas.Altrep

/-!
# C53: run-length ALTREP strings behave like the expanded vector
-/

namespace Vctrs

open Spec

/-- Runs `a a b`, with an empty run in between. -/
def C53_rle : List Int := [2, 0, 1]
/-- The strings of `C53_rle`; the last is missing. -/
def C53_names : List Name := [some "a".toList, some "z".toList, none]

theorem C53_isRle : IsRle C53_rle C53_names := by unfold IsRle; decide
example : expandRle C53_rle C53_names = [some "a".toList, some "a".toList, none] := by decide

/-- The length is that of the expanded vector. -/
theorem C53_length (rle : List Int) (names : List Name) (h : IsRle rle names) :
    rleLength (rleMake rle names) = .ok ((expandRle rle names).length : Int) := by
  suffices H : Ret (rleLength (rleMake rle names)) (fun r => r = rleSum rle rle.length) by
    obtain ⟨r, hr, rfl⟩ := H
    rw [hr, expandRle_length h]
  unfold rleLength rleMake
  dsimp only
  refine Ret.forN (fun k sz => sz = rleSum rle k) rfl ?_
  rintro i sz hi rfl
  rw [rd_ok hi, ok_bind]
  exact Ret.ok (rleSum_succ (List.getElem?_eq_getElem hi)).symm

example : rleLength (rleMake C53_rle C53_names) = .ok 3 := by decide +kernel

/-- The element at every position is that of the expanded vector. -/
theorem C53_elt (rle : List Int) (names : List Name) (h : IsRle rle names) (i : Nat) (a : Name)
    (ha : (expandRle rle names)[i]? = some a) : rleElt (rleMake rle names) i = .ok a := by
  unfold rleElt rleMake
  dsimp only
  obtain ⟨s, hs, h1⟩ := rleWalk_get h ha
  rw [hs, ok_bind, h1]

example : rleElt (rleMake C53_rle C53_names) 1 = .ok (some "a".toList) ∧
    rleElt (rleMake C53_rle C53_names) 2 = .ok none := by decide +kernel

/-- C53 asks that `rleExtractSubset` on every vector of positive or missing locations gives
`locs.map (subsetLoc (expandRle rle names))`.  This is the case of locations within bounds; beyond
them see `C53_extract_out_of_bounds`. -/
theorem C53_extract_partial (rle : List Int) (names : List Name) (h : IsRle rle names)
    (locs : List Int)
    (hl : ∀ l ∈ locs, l = naInt ∨ (1 ≤ l ∧ l ≤ (expandRle rle names).length)) :
    rleExtractSubset (rleMake rle names) locs
      = .ok (some (locs.map (subsetLoc (expandRle rle names)))) := by
  let R : Nat → Name → Prop := fun j v =>
    (locs.map (subsetLoc (expandRle rle names)))[j]? = some v
  suffices H : Ret (rleExtractSubset (rleMake rle names) locs)
      (fun r => r = some (locs.map (subsetLoc (expandRle rle names)))) by
    obtain ⟨r, hr, rfl⟩ := H; exact hr
  unfold rleExtractSubset rleMake
  dsimp only
  refine Ret.bind (P := Filled R locs.length locs.length) ?_ ?_
  · refine Ret.forN (Filled R locs.length) (Filled.start R _) ?_
    intro i out hi hf
    unfold rleExtractStep
    obtain ⟨w, f⟩ := hf.step (r := subsetLoc (expandRle rle names) locs[i]) hi (by simp [R, hi])
    rw [rd_ok hi, ok_bind]
    by_cases hn : locs[i] = naInt
    · rw [if_pos hn]
      have e : subsetLoc (expandRle rle names) locs[i] = none := if_pos hn
      rw [e] at w f
      exact Ret.of_eq w f
    · rw [if_neg hn]
      obtain ⟨b1, b2⟩ := (hl _ (List.getElem_mem hi)).resolve_left hn
      have hb : (locs[i] - 1).toNat < (expandRle rle names).length := by omega
      have ha := List.getElem?_eq_getElem hb
      have e : subsetLoc (expandRle rle names) locs[i] = (expandRle rle names)[(locs[i] - 1).toNat] := by
        unfold subsetLoc
        rw [if_neg hn, ha]
        rfl
      rw [e] at w f
      obtain ⟨s, hs, h1⟩ := rleWalk_get h ha
      have hc : (((locs[i] - 1).toNat : Nat) : Int) = locs[i] - 1 := by omega
      rw [hc] at hs
      unfold findRleIndex
      dsimp only
      rw [hs, ok_bind, ok_bind, h1, ok_bind]
      exact Ret.of_eq w f
  · intro out hf
    obtain ⟨r, hr, h1, h2⟩ := hf.done
    rw [hr, ok_bind]
    refine Ret.ok ?_
    congr 1
    refine List.ext_getElem? fun i => ?_
    by_cases hi : i < r.length
    · rw [List.getElem?_eq_getElem hi]
      exact (h2 i _ (List.getElem?_eq_getElem hi)).symm
    · rw [List.getElem?_eq_none (by omega), List.getElem?_eq_none (by rw [List.length_map]; omega)]

example : ∀ l ∈ [(3 : Int), naInt, 1, 1],
    l = naInt ∨ (1 ≤ l ∧ l ≤ (expandRle C53_rle C53_names).length) := by decide +kernel
example : rleExtractSubset (rleMake C53_rle C53_names) [3, naInt, 1, 1]
    = .ok (some [none, none, some "a".toList, some "a".toList]) := by decide +kernel

/-- Beyond the end the lazy vector repeats its last string where the expanded vector gives a
missing value, and an empty one is read out of bounds. -/
theorem C53_extract_out_of_bounds :
    (∃ rle names locs, IsRle rle names ∧ (∀ l ∈ locs, 1 ≤ l) ∧
      ∃ out, rleExtractSubset (rleMake rle names) locs = .ok (some out) ∧
        out ≠ locs.map (subsetLoc (expandRle rle names))) ∧
    (∃ rle names locs, IsRle rle names ∧ (∀ l ∈ locs, 1 ≤ l) ∧
      rleExtractSubset (rleMake rle names) locs = .error .ub) := by
  refine ⟨⟨[2], [some "a".toList], [5], ⟨rfl, by decide⟩, by decide, [some "a".toList], ?_, ?_⟩,
    ⟨[], [], [1], ⟨rfl, by decide⟩, by decide, ?_⟩⟩ <;> decide +kernel

/-- Materialising gives the expanded vector and remembers it. -/
theorem C53_materialize (rle : List Int) (names : List Name) (h : IsRle rle names) :
    rleMaterialize (rleMake rle names)
      = .ok (expandRle rle names, { rleMake rle names with data2 := some (expandRle rle names) }) := by
  suffices H : Ret (rleMaterialize (rleMake rle names)) (fun r =>
      r = (expandRle rle names, { rleMake rle names with data2 := some (expandRle rle names) })) by
    obtain ⟨r, hr, rfl⟩ := H; exact hr
  have hlen := C53_length rle names h
  have hsum := expandRle_length h
  let R : Nat → Name → Prop := fun j v => (expandRle rle names)[j]? = some v
  unfold rleMaterialize
  unfold rleMake at hlen ⊢
  dsimp only
  rw [hlen, ok_bind, if_neg (by omega), Int.toNat_natCast]
  refine Ret.bind (P := fun s => Filled R (expandRle rle names).length
    (expandRle rle names).length s.1) ?_ ?_
  · have H := Ret.forN (n := rle.length) (f := rleMatStep ⟨rle, names, none⟩)
      (s := (alloc Name (expandRle rle names).length, 0))
      (fun k (s : List (Option Name) × Nat) => (s.2 : Int) = rleSum rle k ∧
        Filled R (expandRle rle names).length s.2 s.1) ⟨rfl, Filled.start R _⟩ ?_
    · refine H.mono ?_
      rintro ⟨out, idx⟩ ⟨h1, h2⟩
      dsimp only at h1 h2 ⊢
      have : idx = (expandRle rle names).length := by omega
      rw [this] at h2
      exact h2
    · rintro k ⟨out, idx⟩ hk ⟨h1, h2⟩
      dsimp only at h1 h2
      have hn := List.getElem?_eq_getElem hk
      have hnn := h.2 _ (List.getElem_mem hk)
      have hsk := rleSum_succ hn
      unfold rleMatStep
      dsimp only
      rw [rd_ok hk, ok_bind]
      have H := Ret.forN (n := rle[k].toNat) (f := rleMatInner ⟨rle, names, none⟩ k) (s := (out, idx))
        (fun j (s : List (Option Name) × Nat) => s.2 = idx + j ∧
          Filled R (expandRle rle names).length s.2 s.1) ⟨rfl, h2⟩ ?_
      · refine H.mono ?_
        rintro ⟨out', idx'⟩ ⟨g1, g2⟩
        dsimp only at g1 g2 ⊢
        exact ⟨by rw [hsk, g1]; omega, g2⟩
      · rintro j ⟨out', idx'⟩ hj ⟨g1, g2⟩
        dsimp only at g1 g2
        have hkn : k < names.length := by rw [← h.1]; exact hk
        have hget := expandRle_get h (p := k) (i := idx') (by omega) (by omega)
        rw [List.getElem?_eq_getElem hkn] at hget
        have hib := (List.getElem?_eq_some_iff.mp hget).1
        obtain ⟨w, f⟩ := g2.step hib hget
        unfold rleMatInner
        dsimp only
        rw [rd_ok hkn, ok_bind, w, ok_bind]
        exact Ret.ok ⟨by dsimp only; omega, f⟩
  · rintro ⟨out, idx⟩ hf
    obtain ⟨r, hr, h1, h2⟩ := hf.done
    dsimp only
    rw [hr, ok_bind]
    refine Ret.ok ?_
    have e : r = expandRle rle names := by
      refine List.ext_getElem? fun i => ?_
      by_cases hi : i < r.length
      · rw [List.getElem?_eq_getElem hi]
        exact (h2 i _ (List.getElem?_eq_getElem hi)).symm
      · rw [List.getElem?_eq_none (by omega), List.getElem?_eq_none (by omega)]
    rw [e]

example : (rleMaterialize (rleMake C53_rle C53_names)).map Prod.fst
    = .ok [some "a".toList, some "a".toList, none] := by decide +kernel

/-- Once materialised, length, elements and materialisation are still those of the expanded vector,
and subsetting is left to R. -/
theorem C53_materialized (rle : List Int) (names : List Name) (h : IsRle rle names) :
    ∃ v, rleMaterialize (rleMake rle names) = .ok (expandRle rle names, v) ∧
      rleLength v = .ok ((expandRle rle names).length : Int) ∧
      (∀ (i : Nat) a, (expandRle rle names)[i]? = some a → rleElt v i = .ok a) ∧
      (∀ locs, rleExtractSubset v locs = .ok none) ∧
      rleMaterialize v = .ok (expandRle rle names, v) := by
  refine ⟨_, C53_materialize rle names h, rfl, ?_, fun _ => rfl, rfl⟩
  intro i a ha
  unfold rleElt rdI
  dsimp only
  rw [if_neg (by omega)]
  exact rd_of_getElem? ha

end Vctrs
