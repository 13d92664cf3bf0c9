import Verif.Lemmas.Subscript
import Verif.Spec

/-!
# C18: logical subscripts select exactly the TRUE positions
-/

namespace Vctrs

open Spec

theorem maskLocs_eq (na : Bool) (x : List (Option Bool)) (k : Nat) :
    ((x.zipIdx k).filter (fun v => if na then decide (v.1 ≠ some false) else decide (v.1 = some true))).map whichVal =
      maskLocs na naInt ((k : Int) + 1) x := by
  induction x generalizing k with
  | nil => rfl
  | cons v x ih =>
    have hk : ((k + 1 : Nat) : Int) + 1 = (k : Int) + 1 + 1 := by omega
    have := ih (k + 1)
    rw [hk] at this
    rw [List.zipIdx_cons, List.filter_cons]
    match v with
    | some true => cases na <;> simp [maskLocs, whichVal, ← this]
    | some false => cases na <;> simp [maskLocs, ← this]
    | none => cases na <;> simp [maskLocs, whichVal, ← this]

theorem whichLocs_mask (x : List (Option Bool)) (na : Bool) :
    (whichLocs x na).map whichVal = maskLocs na naInt 1 x := by
  rw [show (1 : Int) = ((0 : Nat) : Int) + 1 from rfl, ← maskLocs_eq]
  unfold whichLocs kept
  congr 2

/-- **C18** (size `n`): the locations of the `TRUE`s in order; missing elements propagate or are
removed. -/
theorem C18_full {x : List (Option Bool)} (hx : x.length ≤ intMax) (names : Option (List RStr))
    (opts : LocOpts) (h : opts.missing = .error → none ∉ x) :
    vecAsLocation (.lgl x) x.length names opts =
      .ok (maskLocs (decide (opts.missing = .propagate)) naInt 1 x) := by
  rw [← whichLocs_mask]
  exact lglAsLocation_full hx opts h

example : vecAsLocation (.lgl [some true, none, some false, some true]) 4 none {} = .ok [1, naInt, 4] := by
  decide
example : vecAsLocation (.lgl [some true, none, some false, some true]) 4 none { missing := .remove } =
    .ok [1, 4] := by decide

/-- **C18** (missing elements as errors). -/
theorem C18_missing_error {x : List (Option Bool)} (names : Option (List RStr)) {opts : LocOpts}
    (h : opts.missing = .error) (hx : none ∈ x) :
    vecAsLocation (.lgl x) x.length names opts = .error .abort :=
  lglAsLocation_missing opts h hx

example : vecAsLocation (.lgl [some true, none]) 2 none { missing := .error } = .error .abort := by decide

/-- **C18** (membership): position `i` is selected exactly when it is `TRUE`, and the selected
positions come in increasing order without repetition. -/
theorem C18_selected {x : List (Option Bool)} (hx : x.length ≤ intMax) (names : Option (List RStr)) :
    ∃ out, vecAsLocation (.lgl x) x.length names { missing := .remove } = .ok out ∧
      out.Pairwise (· < ·) ∧ (∀ i : Nat, ((i : Int) + 1) ∈ out ↔ x[i]? = some (some true)) ∧
      ∀ v ∈ out, ∃ i : Nat, v = (i : Int) + 1 ∧ i < x.length := by
  refine ⟨_, lglAsLocation_full hx { missing := .remove } (by simp), ?_, ?_, ?_⟩
  · simp only [reduceCtorEq, decide_false, whichLocs, kept]
    rw [List.pairwise_map]
    have h1 : (x.zipIdx.map Prod.snd).Pairwise (· < ·) := by
      rw [List.zipIdx_map_snd]; exact List.pairwise_lt_range'
    rw [List.pairwise_map] at h1
    refine (List.Pairwise.and_mem.1 (h1.filter _)).imp ?_
    rintro a b ⟨ha, hb, hab⟩
    have ha' := (List.mem_filter.1 ha).2
    have hb' := (List.mem_filter.1 hb).2
    simp at ha' hb'
    simp [whichVal, ha', hb', hab]
  · intro i
    simp only [List.mem_map, reduceCtorEq, decide_false]
    constructor
    · rintro ⟨⟨v, j⟩, hv, hw⟩
      have ht : v = some true := whichLocs_true hv
      have hm := (kept_mem.1 hv).1
      simp only [whichVal, ht, reduceCtorEq, if_false] at hw
      have : j = i := by omega
      subst this
      rw [hm, ht]
    · intro h
      exact ⟨(some true, i), kept_mem.2 ⟨h, by simp⟩, by simp [whichVal]⟩
  · intro v hv
    simp only [List.mem_map, reduceCtorEq, decide_false] at hv
    obtain ⟨⟨w, j⟩, hv, rfl⟩ := hv
    have ht : w = some true := whichLocs_true hv
    have hm := (kept_mem.1 hv).1
    refine ⟨j, by simp [whichVal, ht], (List.getElem?_eq_some_iff.1 hm).1⟩

/-- **C18** (size 1): `TRUE` selects everything, `FALSE` nothing, `NA` all missing, nothing or an
error. -/
theorem C18_scalar {n : Nat} (hn : n ≠ 1) (names : Option (List RStr)) (opts : LocOpts) :
    vecAsLocation (.lgl [some true]) n names opts = .ok ((List.range n).map (fun i : Nat => (i : Int) + 1)) ∧
    vecAsLocation (.lgl [some false]) n names opts = .ok [] ∧
    (opts.missing = .propagate → vecAsLocation (.lgl [none]) n names opts = .ok (List.replicate n naInt)) ∧
    (opts.missing = .remove → vecAsLocation (.lgl [none]) n names opts = .ok []) ∧
    (opts.missing = .error → vecAsLocation (.lgl [none]) n names opts = .error .abort) := by
  have h1 : ¬ 1 = n := fun h => hn h.symm
  refine ⟨?_, ?_, fun h => ?_, fun h => ?_, fun h => ?_⟩ <;>
    simp [vecAsLocation, lglAsLocation, h1, rd, *]

example : vecAsLocation (.lgl [some true]) 3 none {} = .ok [1, 2, 3] := by decide

/-- **C18** (other sizes are errors). -/
theorem C18_size {x : List (Option Bool)} {n : Nat} (h1 : x.length ≠ n) (h2 : x.length ≠ 1)
    (names : Option (List RStr)) (opts : LocOpts) :
    vecAsLocation (.lgl x) n names opts = .error .abort := by
  simp only [vecAsLocation, lglAsLocation]
  rw [if_neg h1, if_neg h2]

example : vecAsLocation (.lgl [some true, some true]) 3 none {} = .error .abort :=
  C18_size (by decide) (by decide) _ _

/-- **C18** (names of the mask, `r_lgl_which()`): the names of the selected elements. -/
theorem C18_names {ν : Type} {x : List (Option Bool)} {nms : List ν} (hx : x.length ≤ intMax)
    (hn : nms.length = x.length) (na : Bool) :
    lglWhich x (some nms) na = .ok (maskLocs na naInt 1 x, some (maskKeep na x nms)) := by
  obtain ⟨outNames, h1, h2, h3⟩ := lglWhich_some_ok hx hn na
  rw [h1, whichLocs_mask]
  congr 3
  have key : ∀ (k : Nat) (x : List (Option Bool)) (l : List ν), l.length = x.length →
      ((x.zipIdx k).filter (fun v => if na then decide (v.1 ≠ some false) else decide (v.1 = some true))).map
        (fun v => l[v.2 - k]?) = (maskKeep na x l).map some := by
    intro k x
    induction x generalizing k with
    | nil => intro l _; cases l <;> rfl
    | cons v x ih =>
      intro l hl
      cases l with
      | nil => simp at hl
      | cons a l =>
        have hrec : ((x.zipIdx (k + 1)).filter (fun v => if na then decide (v.1 ≠ some false) else decide (v.1 = some true))).map
            (fun v => (a :: l)[v.2 - k]?) = (maskKeep na x l).map some := by
          rw [← ih (k + 1) l (by simpa using hl)]
          refine List.map_congr_left (fun v hv => ?_)
          have := List.le_snd_of_mem_zipIdx (List.mem_filter.1 hv).1
          rw [show v.2 - k = (v.2 - (k + 1)) + 1 by omega, List.getElem?_cons_succ]
        rw [List.zipIdx_cons, List.filter_cons]
        match v with
        | some true => cases na <;> simp at hrec <;> simp [maskKeep, hrec]
        | some false => cases na <;> simp at hrec <;> simp [maskKeep, hrec]
        | none => cases na <;> simp at hrec <;> simp [maskKeep, hrec]
  have hw : whichLocs x na =
      x.zipIdx.filter (fun v => if na then decide (v.1 ≠ some false) else decide (v.1 = some true)) := by
    unfold whichLocs kept
    congr 1
  refine List.map_injective_iff.2 (Option.some_injective ν) ?_
  have hk := key 0 x nms hn
  rw [← hw] at hk
  simp only [Nat.sub_zero] at hk
  rw [← hk]
  refine List.ext_getElem? (fun i => ?_)
  rw [List.getElem?_map, List.getElem?_map]
  by_cases hi : i < (whichLocs x na).length
  · have hg := List.getElem?_eq_getElem hi
    have := h3 i _ hg
    rw [hg]
    simp only [Option.map_some]
    rw [← this, List.getElem?_eq_getElem (by omega)]
    rfl
  · rw [List.getElem?_eq_none (by omega), List.getElem?_eq_none (by omega)]
    rfl

example : lglWhich [some true, none, some false] (some ["a", "b", "c"]) true =
    .ok ([1, naInt], some ["a", "b"]) := by decide

end Vctrs
