import Verif.Props.C47
import Verif.Props.C01

/-!
# C48: vec_interleave alternates the inputs
-/

namespace Vctrs

open Spec

variable {α : Type}

theorem interleaveElt_ok (start n size : Nat) :
    (do
      let elt ← forN size (fun j (elt : List (Option Nat)) => wr elt j (some (start + n * j))) (alloc Nat size)
      initd elt) = .ok ((List.range size).map (fun j => start + n * j)) := by
  suffices h : Ret (forN size (fun j (elt : List (Option Nat)) => wr elt j (some (start + n * j))) (alloc Nat size))
      (fun r => initd r = .ok ((List.range size).map (fun j => start + n * j))) by
    obtain ⟨r, hr, h⟩ := h
    rw [hr]; exact h
  refine Ret.mono (Ret.forN (fun i s => Wrote ((List.range i).map (fun j => start + n * j)) size s)
    (by simpa using Wrote.start size) ?_) ?_
  · intro i s hi h
    obtain ⟨h1, h2⟩ := h.step (start + n * i) (k := i) (by simp) hi
    refine Ret.of_eq h1 ?_
    rw [List.range_succ, List.map_append]; exact h2
  · intro r h
    exact h.done (by simp)

/-- **C48** (indices): the indices of input `i` are `i + 1, i + 1 + n, i + 1 + 2n, …`. -/
theorem C48_indices {n size : Nat} (h : n * size ≤ intMax) :
    interleaveIndices n size =
      .ok ((List.range n).map (fun i => (List.range size).map (fun j => i + 1 + n * j))) := by
  have hm : n * size ≤ ssizeMax := Nat.le_trans h (by decide)
  unfold interleaveIndices
  rw [ssizeMult_ok hm]
  simp only [ok_bind]
  rw [if_neg (by omega)]
  suffices hh : Ret (forN n (fun i (out : List (Option (List Nat))) => do
      let elt ← forN size (fun j (elt : List (Option Nat)) =>
        wr elt j (some (i + 1 + n * j))) (alloc Nat size)
      let elt ← initd elt
      wr out i (some elt)) (alloc (List Nat) n))
      (fun r => initd r = .ok ((List.range n).map (fun i => (List.range size).map (fun j => i + 1 + n * j)))) by
    obtain ⟨r, hr, h⟩ := hh
    rw [hr]; exact h
  refine Ret.mono (Ret.forN (fun i s => Wrote ((List.range i).map
    (fun i => (List.range size).map (fun j => i + 1 + n * j))) n s) (by simpa using Wrote.start n) ?_) ?_
  · intro i s hi h
    obtain ⟨h1, h2⟩ := h.step ((List.range size).map (fun j => i + 1 + n * j)) (k := i) (by simp) hi
    have := interleaveElt_ok (i + 1) n size
    simp only [← bind_assoc] at this ⊢
    refine Ret.bind_eq this ?_
    refine Ret.of_eq h1 ?_
    rw [List.range_succ, List.map_append]; exact h2
  · intro r h
    exact h.done (by simp)

example : interleaveIndices 3 2 = .ok [[1, 4], [2, 5], [3, 6]] := by decide +kernel

/-- **C48** (too large): a result beyond `INT_MAX` is an error and no index is computed (an internal
one when even the product overflows). -/
theorem C48_too_large {n size : Nat} (h : n * size > intMax) :
    interleaveIndices n size = .error (if n * size ≤ ssizeMax then .abort else .internal) := by
  unfold interleaveIndices
  by_cases hm : n * size ≤ ssizeMax
  · rw [ssizeMult_ok hm, if_pos hm]
    simp only [ok_bind]
    rw [if_pos h]
  · rw [ssizeMult_err (by omega), if_neg hm]; rfl

example : interleaveIndices 65536 32768 = .error .abort := C48_too_large (by decide)

/-- **C48** (permutation): together the indices are `1..n*size`, each exactly once. -/
theorem C48_permutation {n size : Nat} :
    (((List.range n).map (fun i => (List.range size).map (fun j => i + 1 + n * j))).flatten).Perm
      ((List.range (n * size)).map (· + 1)) := by
  rw [← List.flatMap_def]
  refine (List.perm_ext_iff_of_nodup ?_ ?_).2 ?_
  · rw [List.nodup_flatMap]
    refine ⟨fun i hi => ?_, ?_⟩
    · refine List.nodup_range.map ?_
      intro a b hab
      rw [List.mem_range] at hi
      have : n * a = n * b := by simp only at hab; omega
      exact Nat.eq_of_mul_eq_mul_left (by omega) this
    · have hp : (List.range n).Pairwise (fun a b => a < n ∧ b < n ∧ a ≠ b) := by
        rw [List.pairwise_iff_getElem]
        intro a b ha hb hab
        simp at ha hb ⊢; omega
      refine hp.imp ?_
      intro a b ⟨ha, hb, hne⟩ e h1 h2
      rw [List.mem_map] at h1 h2
      obtain ⟨j, _, rfl⟩ := h1
      obtain ⟨k, _, hk⟩ := h2
      have h1 : (a + n * j) % n = a := by rw [Nat.add_mul_mod_self_left, Nat.mod_eq_of_lt ha]
      have h2 : (b + n * k) % n = b := by rw [Nat.add_mul_mod_self_left, Nat.mod_eq_of_lt hb]
      have : a + n * j = b + n * k := by omega
      rw [this] at h1
      omega
  · exact List.nodup_range.map (fun a b h => by simpa using h)
  · intro e
    simp only [List.mem_flatMap, List.mem_map, List.mem_range]
    constructor
    · rintro ⟨i, hi, j, hj, rfl⟩
      refine ⟨i + n * j, ?_, by omega⟩
      calc i + n * j < n + n * j := by omega
        _ = n * (j + 1) := by ring
        _ ≤ n * size := Nat.mul_le_mul_left _ hj
    · rintro ⟨p, hp, rfl⟩
      have hn : 0 < n := by
        rcases Nat.eq_zero_or_pos n with rfl | h
        · simp at hp
        · exact h
      refine ⟨p % n, Nat.mod_lt _ hn, p / n, Nat.div_lt_of_lt_mul hp, ?_⟩
      have := Nat.mod_add_div p n
      omega

example : ([[1, 4], [2, 5], [3, 6]] : List (List Nat)).flatten = [1, 4, 2, 5, 3, 6] := rfl

theorem dropNull_ok (args : List (Option (List α))) (hl : args.length ≤ intMax) :
    (if (args.map (fun x => x.isNone)).any id then do
      let loc ← lglAsLocation (args.map (fun x => some (!x.isNone))) args.length {}
      sliceBase none args (.locs loc)
    else .ok args : C (List (Option (List α)))) = .ok ((args.filterMap id).map some) := by
  have hfil : args.filter (fun x => x.isSome) = (args.filterMap id).map some := by
    clear hl
    induction args with
    | nil => rfl
    | cons a l ih => cases a <;> simp [ih]
  by_cases h : (args.map (fun x => x.isNone)).any id = true
  · rw [if_pos h]
    have := slice_filter (none : Option (List α)) (x := args) hl (fun x => x.isSome)
    rw [← hfil]
    have hm : (args.map (fun x => some (!x.isNone))) = args.map (fun x => some x.isSome) := by
      refine List.map_congr_left (fun x _ => by cases x <;> rfl)
    rw [hm]
    exact this
  · rw [if_neg h, ← hfil]
    congr 1
    rw [eq_comm, List.filter_eq_self]
    intro a ha
    cases a with
    | some x => rfl
    | none => exact absurd (List.any_eq_true.2 ⟨true, List.mem_map.2 ⟨none, ha, rfl⟩, rfl⟩) h

theorem flatten_uniform {β : Type} {L : List (List β)} {m i j : Nat} {l : List β} (h : ∀ l ∈ L, l.length = m)
    (hj : j < m) (hi : L[i]? = some l) : L.flatten[i * m + j]? = l[j]? := by
  induction L generalizing i with
  | nil => simp at hi
  | cons a L ih =>
    have ha := h a (by simp)
    rw [List.flatten_cons]
    cases i with
    | zero =>
      simp at hi
      subst hi
      rw [List.getElem?_append_left (by omega)]; simp
    | succ i =>
      rw [List.getElem?_append_right (by rw [ha, Nat.succ_mul]; omega)]
      rw [← ih (fun l hl => h l (by simp [hl])) (by simpa using hi)]
      congr 1
      rw [ha, Nat.succ_mul]; omega

theorem interleave_argSizes (ys : List (List α)) :
    argSizes (((ys.map some).map (fun x => Dot.plain (optArg x))).flatMap Dot.flat) = ys.map List.length ∧
    Arg.scalar ∉ ((ys.map some).map (fun x => Dot.plain (optArg x))).flatMap Dot.flat := by
  induction ys with
  | nil => exact ⟨rfl, by simp⟩
  | cons y ys ih =>
    simp only [List.map_cons, List.flatMap_cons, Dot.flat, List.singleton_append]
    refine ⟨?_, ?_⟩
    · have := ih.1
      simp only [argSizes, optArg, List.filterMap_cons] at this ⊢
      rw [this]
    · simp only [List.mem_cons, optArg, reduceCtorEq, false_or]
      exact ih.2

/-- **C48**: element `j * n + i` of the result is element `j` of the `i`-th non-`NULL` input, whose
single element is used for every `j` when its size is 1.  The result has `n * size` elements. -/
theorem C48_interleave (na : α) {args : List (Option (List α))} {size : Nat} (hl : args.length ≤ intMax)
    (hs : CommonSize ((args.filterMap id).map List.length) size)
    (ht : (args.filterMap id).length * size ≤ intMax) :
    ∃ out, vecInterleave na args = .ok (some out) ∧ out.length = (args.filterMap id).length * size ∧
      ∀ (i j : Nat) y, (args.filterMap id)[i]? = some y → j < size →
        out[j * (args.filterMap id).length + i]? = if y.length = 1 then y[0]? else y[j]? := by
  unfold vecInterleave
  simp only
  rw [dropNull_ok args hl]
  simp only [ok_bind]
  generalize args.filterMap id = ys at hs ht
  obtain ⟨h1, h2⟩ := interleave_argSizes ys
  rw [(C01_absent _ (some 0) h2).2.1 size (by rw [h1]; exact hs)]
  simp only [ok_bind, Int.toNat_natCast, List.length_map]
  rw [C48_indices ht]
  simp only [ok_bind, List.map_map]
  have hyl : ys ≠ [] := by
    rintro rfl; exact absurd hs.1 (by simp)
  have hpos : 0 < ys.length := List.length_pos_iff.2 hyl
  -- locations
  let locs : List (List Int) := (List.range ys.length).map (fun i =>
    (List.range size).map (fun j => ((i + 1 + ys.length * j : Nat) : Int)))
  have hflat : locs.flatten = (((List.range ys.length).map (fun i =>
      (List.range size).map (fun j => i + 1 + ys.length * j))).flatten).map (fun i : Nat => (i : Int)) := by
    rw [List.map_flatten, List.map_map]
    congr 1
    refine List.map_congr_left (fun i _ => ?_)
    simp
  have hlen : locs.flatten.length = ys.length * size := by
    rw [hflat, List.length_map, C48_permutation.length_eq]; simp
  have hmem : ∀ e ∈ locs.flatten, 1 ≤ e ∧ e ≤ ((ys.length * size : Nat) : Int) := by
    intro e he
    rw [hflat, List.mem_map] at he
    obtain ⟨k, hk, rfl⟩ := he
    rw [C48_permutation.mem_iff, List.mem_map] at hk
    obtain ⟨p, hp, rfl⟩ := hk
    rw [List.mem_range] at hp
    omega
  have hnd : locs.flatten.Nodup := by
    rw [hflat]
    refine List.Nodup.map (fun a b h => by simpa using h) ?_
    rw [C48_permutation.nodup_iff]
    exact List.nodup_range.map (fun a b h => by simpa using h)
  have hidx : List.Forall₂ (IndexIs locs.flatten.length)
      ((List.range ys.length).map ((fun l => RSubscript.int (l.map (fun i : Nat => (i : Int)))) ∘
        fun i => (List.range size).map (fun j => i + 1 + ys.length * j))) locs := by
    rw [List.forall₂_iff_get]
    refine ⟨by simp [locs], fun i h3 h4 => ?_⟩
    refine ⟨Or.inl ?_, fun e he => Or.inr ?_⟩
    · simp [locs]
    · rw [hlen]
      exact hmem e (List.mem_flatten.2 ⟨_, List.get_mem _ _, he⟩)
  have hsz : ∀ l ∈ locs, l.length = size := by
    intro l hl
    simp only [locs, List.mem_map] at hl
    obtain ⟨i, _, rfl⟩ := hl
    simp
  -- recycled values
  let val : List α → List α := fun y => match y with
    | [a] => List.replicate size a
    | _ => y
  have hval : ∀ y ∈ ys, Recycles y size (val y) := by
    intro y hy
    have := hs.2 y.length (List.mem_map_of_mem hy)
    cases y with
    | nil => exact Or.inl ⟨by simpa using this, rfl⟩
    | cons a y =>
      cases y with
      | nil => exact Or.inr ⟨a, rfl, rfl⟩
      | cons b y =>
        refine Or.inl ⟨?_, rfl⟩
        simpa using this
  have hll : locs.length = ys.length := by simp [locs]
  obtain ⟨out, h3, h4, h5, _⟩ := C47_unchop na (xs := ys.map some) (locs := locs) (vals := ys.map val)
    ⟨some ys[0], List.mem_map_of_mem (List.getElem_mem hpos), by simp⟩
    (by simp) hidx (by omega) (by
      rw [unchopPairs_some, List.forall₂_iff_get]
      refine ⟨by simp [hll], fun k h6 h7 => ?_⟩
      simp only [List.get_eq_getElem, List.getElem_zip, List.getElem_map]
      rw [hsz _ (List.getElem_mem _)]
      exact hval _ (List.getElem_mem _))
  refine ⟨out, h3, by rw [h4, hlen], fun i j y hy hj => ?_⟩
  have hi : i < ys.length := (List.getElem?_eq_some_iff.1 hy).1
  have hsnd : (unchopPairs (ys.map some) locs).map Prod.snd = locs := by
    rw [unchopPairs_some, List.map_snd_zip (by omega)]
  rw [hsnd] at h5
  have hli : locs[i]? = some ((List.range size).map (fun j => ((i + 1 + ys.length * j : Nat) : Int))) := by
    simp [locs, hi]
  have hat : locs.flatten[i * size + j]? = some (((j * ys.length + i : Nat) : Int) + 1) := by
    rw [flatten_uniform hsz hj hli]
    rw [List.getElem?_map, List.getElem?_range hj, Option.map_some]
    congr 1
    rw [Nat.mul_comm j]
    omega
  have hlast := h5 (j * ys.length + i) (i * size + j)
    ⟨(List.getElem?_eq_some_iff.1 hat).1, hat, fun k hk hkl hc => by
      obtain ⟨h6, h7⟩ := List.getElem?_eq_some_iff.1 hat
      obtain ⟨h8, h9⟩ := List.getElem?_eq_some_iff.1 hc
      have := (List.Nodup.getElem_inj_iff hnd).1 (h7.trans h9.symm)
      omega⟩
  rw [hlast, flatten_uniform (m := size) (l := val y) ?_ hj (by rw [List.getElem?_map, hy]; rfl)]
  · cases y with
    | nil => rfl
    | cons a y =>
      cases y with
      | nil => simp [val, hj]
      | cons b y => simp [val]
  · intro l hl
    rw [List.mem_map] at hl
    obtain ⟨y, hy, rfl⟩ := hl
    exact (hval y hy).length

example : vecInterleave 0 [some [1, 2, 3], none, some [9], some [4, 5, 6]] =
    .ok (some [1, 9, 4, 2, 9, 5, 3, 9, 6]) := by decide +kernel
/-- Hypotheses of the theorem for the example. -/
example : CommonSize (([some [1, 2, 3], none, some [9], some [4, 5, 6]].filterMap id).map List.length) 3 := by
  refine ⟨by decide, by decide⟩

/-- **C48**: inputs of incompatible sizes are an error; no inputs give `NULL`. -/
theorem C48_errors (na : α) {args : List (Option (List α))} (hl : args.length ≤ intMax) :
    (SizeConflict ((args.filterMap id).map List.length) → vecInterleave na args = .error .abort) ∧
    (args.filterMap id = [] → vecInterleave na args = .ok none) := by
  unfold vecInterleave
  simp only
  rw [dropNull_ok args hl]
  simp only [ok_bind]
  generalize args.filterMap id = ys
  obtain ⟨h1, h2⟩ := interleave_argSizes ys
  refine ⟨fun h => ?_, ?_⟩
  · rw [(C01_absent _ (some 0) h2).2.2 (by rw [h1]; exact h)]
    rfl
  · rintro rfl
    rfl

example : vecInterleave 0 [some [1, 2, 3], some [4, 5]] = .error .abort := by decide +kernel
example : vecInterleave 0 [(none : Option (List Nat))] = .ok none := by decide +kernel

end Vctrs
