import Verif.Lemmas.Chop

/-!
# C47: chopping and unchopping are inverse
-/

namespace Vctrs

open Spec

variable {α : Type}

/-- `index` is accepted by `vec_chop()` for a vector of size `n` and stands for the locations `l`:
integers (or `NULL`, or all-missing logicals), each missing or in `1..n`. -/
def IndexIs (n : Nat) (index : RSubscript) (l : List Int) : Prop :=
  (index = .int l ∨ (index = .null ∧ l = []) ∨
    ∃ m, index = .lgl (List.replicate m none) ∧ l = List.replicate m naInt) ∧
  ∀ e ∈ l, e = naInt ∨ (1 ≤ e ∧ e ≤ (n : Int))

theorem indexIs_iff {n : Nat} {i : RSubscript} {l : List Int} :
    IndexIs n i l ↔ indexInts i = some l ∧ LocsOk n l := by
  unfold IndexIs
  refine and_congr ?_ Iff.rfl
  cases i with
  | null => simp [indexInts, eq_comm]
  | int l' => simp [indexInts]
  | chr l' => simp [indexInts]
  | lgl l' =>
    simp only [indexInts, reduceCtorEq, false_and, RSubscript.lgl.injEq, false_or]
    constructor
    · rintro ⟨m, rfl, rfl⟩
      rw [if_pos (by simp)]; simp
    · intro h
      split at h
      · rename_i hl
        injection h with h
        refine ⟨l'.length, List.eq_replicate_iff.2 ⟨rfl, fun b hb => ?_⟩, h.symm⟩
        have := List.all_eq_true.1 hl b hb
        simpa using this
      · cases h

/-- `v` holds the elements of `x` at the locations `l`, `na` where the location is missing. -/
def PieceAt (na : α) (x : List α) (l : List Int) (v : List α) : Prop :=
  v.length = l.length ∧
  ∀ (j : Nat) e, l[j]? = some e → v[j]? = if e = naInt then some na else x[(e - 1).toNat]?

theorem exists_pieces (na : α) (x : List α) {locs : List (List Int)} (h : ∀ l ∈ locs, LocsOk x.length l) :
    ∃ V, List.Forall₂ (fun l v => sliceBase na x (.locs l) = .ok v ∧ PieceAt na x l v) locs V := by
  induction locs with
  | nil => exact ⟨[], .nil⟩
  | cons l ls ih =>
    obtain ⟨V, hV⟩ := ih (fun l hl => h l (by simp [hl]))
    obtain ⟨out, h1, h2, h3⟩ := sliceBase_ok na (x := x) (s := .locs l) (h l (by simp))
    refine ⟨out :: V, .cons ⟨h1, ?_, ?_⟩ hV⟩
    · simpa [subscriptSize] using h2
    · intro j e hj
      obtain ⟨loc, h4, h5⟩ := h3 j (by
        simp only [subscriptSize, Int.toNat_natCast]
        exact (List.getElem?_eq_some_iff.1 hj).1)
      simp only [subscriptAt] at h4
      rw [hj] at h4
      injection h4 with h4
      subst h4
      exact h5

theorem chop_locs {na : α} {x : List α} {locs : List (List Int)} {V : List (List α)}
    (h : List.Forall₂ (fun l v => sliceBase na x (.locs l) = .ok v ∧ PieceAt na x l v) locs V) :
    chop na x (.indices locs) = .ok V := by
  refine chop_ok h.length_eq.symm (fun i sub v h1 h2 => ?_)
  simp only [chopSub, Option.map_eq_some_iff] at h1
  obtain ⟨l, hl, rfl⟩ := h1
  have h3 := (List.forall₂_iff_get.1 h).2 i (List.getElem?_eq_some_iff.1 hl).1 (List.getElem?_eq_some_iff.1 h2).1
  simp only [List.get_eq_getElem] at h3
  rw [(List.getElem?_eq_some_iff.1 hl).2, (List.getElem?_eq_some_iff.1 h2).2] at h3
  exact h3.1

/-- **C47** (`vec_chop(x, indices =)`): piece `k` holds the elements of `x` at the locations of
index `k`, for every list of indices (any order, any overlap). -/
theorem C47_chop_indices (na : α) (x : List α) {indices : List RSubscript} {locs : List (List Int)}
    (h : List.Forall₂ (IndexIs x.length) indices locs) :
    ∃ V, vecChop na x (some indices) none = .ok V ∧ List.Forall₂ (PieceAt na x) locs V := by
  have h' : List.Forall₂ (fun i l => indexInts i = some l ∧ LocsOk x.length l) indices locs :=
    h.imp (fun i l hil => indexIs_iff.1 hil)
  have hl : ∀ l ∈ locs, LocsOk x.length l := by
    intro l hl
    obtain ⟨k, hk, rfl⟩ := List.getElem_of_mem hl
    exact ((List.forall₂_iff_get.1 h').2 k (by rw [h.length_eq]; exact hk) hk).2
  obtain ⟨V, hV⟩ := exists_pieces na x hl
  refine ⟨V, ?_, hV.imp (fun _ _ h => h.2)⟩
  simp only [vecChop]
  rw [listAsLocations_ok h']
  simp only [ok_bind]
  exact chop_locs hV

example : vecChop 0 [10, 20, 30] (some [.int [3, 1], .null, .lgl [none], .int [2, 2]]) none =
    .ok [[30, 10], [], [0], [20, 20]] := by decide +kernel
example : List.Forall₂ (IndexIs 3) [.int [3, 1], .null, .lgl [none], .int [2, 2]] [[3, 1], [], [naInt], [2, 2]] := by
  simp [IndexIs]
  exact ⟨1, rfl, rfl⟩

/-- **C47**: `vec_chop()` fails when an index is not accepted, and in no other way. -/
theorem C47_chop_error (na : α) (x : List α) (indices : List RSubscript) :
    (∃ i ∈ indices, ∀ l, ¬ IndexIs x.length i l) ↔ vecChop na x (some indices) none = .error .abort := by
  constructor
  · rintro ⟨i, hi, h⟩
    simp only [vecChop]
    rw [listAsLocations_err ⟨i, hi, fun l hl hok => h l (indexIs_iff.2 ⟨hl, hok⟩)⟩]
    rfl
  · intro he
    rcases listAsLocations_cases indices x.length with ⟨locs, h⟩ | ⟨i, hi, h⟩
    · obtain ⟨V, hV, _⟩ := C47_chop_indices na x (h.imp (fun i l hil => indexIs_iff.2 hil))
      rw [he] at hV; cases hV
    · exact ⟨i, hi, fun l hl => h l (indexIs_iff.1 hl).1 (indexIs_iff.1 hl).2⟩

example : vecChop 0 [10, 20, 30] (some [.int [1], .int [4]]) none = .error .abort := by decide +kernel
example : vecChop 0 [10, 20, 30] (some [.int [1], .int [0]]) none = .error .abort := by decide +kernel
example : vecChop 0 [10, 20, 30] (some [.int [1], .int [-1]]) none = .error .abort := by decide +kernel
example : vecChop 0 [10, 20, 30] (some [.lgl [some true]]) none = .error .abort := by decide +kernel
example : ∀ l, ¬ IndexIs 3 (.int [4]) l := by
  rintro l ⟨h | ⟨h, _⟩ | ⟨m, h, _⟩, h2⟩
  · injection h with h; subst h
    have := h2 4 (by simp)
    simp [naInt] at this
  · cases h
  · cases h

/-- **C47** (`vec_chop(x)`): one piece per element. -/
theorem C47_chop_each (na : α) (x : List α) : vecChop na x none none = .ok (x.map (fun a => [a])) := by
  simp only [vecChop]
  refine chop_ok (by simp [indicesOutSize]) (fun i sub v h1 h2 => ?_)
  simp only [chopSub] at h1
  injection h1 with h1
  subst h1
  rw [List.getElem?_map, Option.map_eq_some_iff] at h2
  obtain ⟨a, ha, rfl⟩ := h2
  have hi := (List.getElem?_eq_some_iff.1 ha).1
  obtain ⟨out, h1, h2⟩ := sliceLocs_eq na (x := x) (l := [(i : Int) + 1]) (by
    intro v hv; simp at hv; subst hv; exact Or.inr ⟨by omega, by omega⟩)
  rw [h1]
  have h3 : out.map some = [a].map some := by
    rw [h2]
    simp only [List.map_cons, List.map_nil, atLoc]
    rw [if_neg (by simp only [naInt]; omega), ← ha]
    congr 2; omega
  exact congrArg _ (List.map_injective_iff.2 (Option.some_injective _) h3)

example : vecChop 0 [10, 20, 30] none none = .ok [[10], [20], [30]] := by decide +kernel

/-- `indices` and `sizes` exclude one another. -/
theorem C47_chop_both (na : α) (x : List α) (indices : List RSubscript) (sizes : List Int) :
    vecChop na x (some indices) (some sizes) = .error .abort := rfl

theorem chopSizes_eq (sizes : List Int) (n : Nat) :
    vecAsChopSizes sizes n =
      if (∀ s ∈ sizes, 0 ≤ s) ∧ sizes.sum = (n : Int) then .ok sizes else .error .abort := by
  have hf : ∀ (l : List Int) (t : Int), l.foldlM (fun (total : Int) elt =>
      if elt = naInt then Except.error Err.abort
      else if elt < 0 then .error .abort
      else if elt > (n : Int) then .error .abort
      else .ok (total + elt)) t =
        if ∀ s ∈ l, 0 ≤ s ∧ s ≤ (n : Int) then .ok (t + l.sum) else .error .abort := by
    intro l
    induction l with
    | nil => intro t; simp
    | cons a l ih =>
      intro t
      rw [List.foldlM_cons]
      by_cases h1 : 0 ≤ a ∧ a ≤ (n : Int)
      · rw [if_neg (by simp only [naInt]; omega), if_neg (by omega), if_neg (by omega), ok_bind, ih]
        by_cases h2 : ∀ s ∈ l, 0 ≤ s ∧ s ≤ (n : Int)
        · rw [if_pos h2, if_pos (by simpa using ⟨h1, h2⟩)]
          simp [add_assoc]
        · rw [if_neg h2, if_neg (by simp only [List.forall_mem_cons]; exact fun h => h2 h.2)]
      · rw [if_neg (c := ∀ s ∈ a :: l, 0 ≤ s ∧ s ≤ (n : Int))
          (by simp only [List.forall_mem_cons]; exact fun h => h1 h.1)]
        by_cases ha : a = naInt
        · rw [if_pos ha]; rfl
        · rw [if_neg ha]
          by_cases ha : a < 0
          · rw [if_pos ha]; rfl
          · rw [if_neg ha, if_pos (by omega)]; rfl
  have hle : ∀ l : List Int, (∀ s ∈ l, 0 ≤ s) → 0 ≤ l.sum ∧ ∀ s ∈ l, s ≤ l.sum := by
    intro l
    induction l with
    | nil => simp
    | cons a l ih =>
      intro h
      simp only [List.forall_mem_cons] at h
      obtain ⟨h1, h2⟩ := ih h.2
      refine ⟨by simp; omega, ?_⟩
      simp only [List.forall_mem_cons, List.sum_cons]
      exact ⟨by omega, fun s hs => by have := h2 s hs; omega⟩
  unfold vecAsChopSizes
  have := forN_rd_foldlM (fun (elt : Int) (total : Int) =>
      if elt = naInt then Except.error Err.abort
      else if elt < 0 then .error .abort
      else if elt > (n : Int) then .error .abort
      else .ok (total + elt)) sizes 0
  rw [this, hf]
  by_cases h1 : ∀ s ∈ sizes, 0 ≤ s ∧ s ≤ (n : Int)
  · rw [if_pos h1, ok_bind]
    by_cases h2 : sizes.sum = (n : Int)
    · rw [if_neg (by omega), if_pos ⟨fun s hs => (h1 s hs).1, h2⟩]
    · rw [if_pos (by omega), if_neg (by intro h; exact h2 h.2)]
  · rw [if_neg h1, if_neg]
    · rfl
    · rintro ⟨h2, h3⟩
      exact h1 (fun s hs => ⟨h2 s hs, by rw [← h3]; exact (hle sizes h2).2 s hs⟩)

/-- **C47** (`vec_chop(x, sizes =)`): accepted iff the sizes are non-missing, non-negative and sum to
the size of `x`; the pieces then have these sizes and concatenate to `x`.  Every other vector of
sizes is an error. -/
theorem C47_chop_sizes (na : α) (x : List α) (sizes : List Int) :
    ((∀ s ∈ sizes, 0 ≤ s) ∧ sizes.sum = (x.length : Int) →
      ∃ V, vecChop na x none (some sizes) = .ok V ∧ V.flatten = x ∧
        V.map (fun v => (v.length : Int)) = sizes) ∧
    (¬ ((∀ s ∈ sizes, 0 ≤ s) ∧ sizes.sum = (x.length : Int)) →
      vecChop na x none (some sizes) = .error .abort) := by
  refine ⟨fun h => ?_, fun h => ?_⟩
  · suffices hs : ∃ V : List (List α), V.length = sizes.length ∧ V.flatten = x ∧
        V.map (fun v => (v.length : Int)) = sizes by
      obtain ⟨V, hl, h1, h2⟩ := hs
      refine ⟨V, ?_, h1, h2⟩
      simp only [vecChop]
      rw [chopSizes_eq, if_pos h]
      simp only [ok_bind]
      refine chop_ok hl (fun i sub v h3 h4 => ?_)
      simp only [chopSub, Option.map_eq_some_iff] at h3
      obtain ⟨s, hs, rfl⟩ := h3
      obtain ⟨hi, hv⟩ := List.getElem?_eq_some_iff.1 h4
      have hsv : s = (v.length : Int) := by
        rw [← h2, List.getElem?_map, h4] at hs
        simpa using hs.symm
      have hsum : (sizes.take i).sum = ((V.take i).flatten.length : Int) := by
        rw [← h2, ← List.map_take]
        generalize V.take i = W
        induction W with
        | nil => rfl
        | cons w W ih => simp [ih]
      have hx : x = (V.take i).flatten ++ v ++ (V.drop (i + 1)).flatten := by
        rw [← h1]
        conv_lhs => rw [← List.take_append_drop i V]
        rw [List.flatten_append, List.drop_eq_getElem_cons hi, List.flatten_cons, hv, List.append_assoc]
      rw [hsum, hsv, sliceSeq_eq na (by rw [hx]; simp only [List.length_append]; omega)]
      congr 1
      rw [hx, List.append_assoc, List.drop_left', List.take_left']
      · rfl
      · rfl
    obtain ⟨h1, h2⟩ := h
    induction sizes generalizing x with
    | nil =>
      simp at h2
      exact ⟨[], rfl, (List.length_eq_zero_iff.1 (by omega)).symm, rfl⟩
    | cons a l ih =>
      simp only [List.forall_mem_cons, List.sum_cons] at h1 h2
      have hpos : 0 ≤ l.sum := by
        have h1 := h1.2
        clear h2 ih
        induction l with
        | nil => simp
        | cons b l ih =>
          simp only [List.forall_mem_cons, List.sum_cons] at h1 ⊢
          have := ih ⟨by omega, h1.2⟩ h1.2
          omega
      obtain ⟨V, h3, h4, h5⟩ := ih (x.drop a.toNat) h1.2 (by simp; omega)
      refine ⟨x.take a.toNat :: V, by simp [h3], by simp [h4], ?_⟩
      simp only [List.map_cons, h5, List.length_take, List.cons.injEq, and_true]
      omega
  · simp only [vecChop]
    rw [chopSizes_eq, if_neg h]
    rfl

example : vecChop 0 [10, 20, 30] none (some [2, 0, 1]) = .ok [[10, 20], [], [30]] := by decide +kernel
example : vecChop 0 [10, 20, 30] none (some [4, -1]) = .error .abort := by decide +kernel
example : vecChop 0 [10, 20, 30] none (some [naInt]) = .error .abort := by decide +kernel
example : vecChop 0 [10, 20, 30] none (some [1, 1]) = .error .abort := by decide +kernel

/-! ## Data frames -/

/-- Row `j` of the pieces after the first `i` columns have been chopped. -/
def chopRow (cols : List (List α)) (F : List α → List (List α)) (i j : Nat) : List (Option (List α)) :=
  (cols.take i).map (fun c => (F c)[j]?) ++ List.replicate (cols.length - i) none

theorem chopRow_set {cols : List (List α)} {F : List α → List (List α)} {i j : Nat} (hi : i < cols.length) :
    (chopRow cols F i j).set i (F cols[i])[j]? = chopRow cols F (i + 1) j := by
  unfold chopRow
  rw [List.set_append_right _ _ (by simp)]
  have : cols.length - i = (cols.length - (i + 1)) + 1 := by omega
  rw [this, List.replicate_succ, List.take_succ_eq_append_getElem hi, List.map_append]
  simp [Nat.min_eq_left (Nat.le_of_lt hi)]

theorem chopDf_ok (na : α) {cols : List (List α)} {size : Nat} {by_ : ChopBy} {F : List α → List (List α)}
    {sz : Nat → Int} (hsz : ∀ (i : Nat) sub, i < indicesOutSize by_ size → chopSub by_ i = some sub → subscriptSize sub = sz i)
    (hF : ∀ c ∈ cols, chop na c by_ = .ok (F c) ∧ (F c).length = indicesOutSize by_ size) :
    ∃ out, chopDf na size cols by_ = .ok out ∧ out.length = indicesOutSize by_ size ∧
      ∀ j, j < indicesOutSize by_ size → ∃ cs, out[j]? = some (sz j, cs) ∧
        cs.map some = cols.map (fun c => (F c)[j]?) := by
  generalize hm : indicesOutSize by_ size = m at *
  let st (i k : Nat) : List (Option (Int × List (Option (List α)))) :=
    (List.range m).map (fun j => some (sz j, chopRow cols F (if j < k then i + 1 else i) j))
  have hst : ∀ i, st i m = st (i + 1) 0 := by
    intro i
    refine List.map_congr_left (fun j hj => ?_)
    rw [List.mem_range] at hj
    rw [if_pos hj, if_neg (by omega)]
  suffices hh : Ret (chopDf na size cols by_) (fun out => out.length = m ∧
      ∀ j, j < m → ∃ cs, out[j]? = some (sz j, cs) ∧ cs.map some = cols.map (fun c => (F c)[j]?)) by
    obtain ⟨out, h1, h2⟩ := hh
    exact ⟨out, h1, h2⟩
  unfold chopDf
  simp only
  rw [hm]
  refine Ret.bind (Ret.forN (fun i (s : List (Option (Int × List (Option (List α)))) × (Nat × Int × Int)) =>
    Wrote ((List.range i).map (fun j => (sz j, chopRow cols F 0 j))) m s.1 ∧ ChopState by_ i s.2)
    ⟨by simpa using Wrote.start m, rfl, ?_⟩ ?_) ?_
  · cases by_ <;> simp
  · rintro i ⟨out, s⟩ hi ⟨h1, h2⟩
    simp only at h1 h2 ⊢
    obtain ⟨sub, s', h3, h4, h5⟩ := indicesNext_ok (n := size) h2 (by omega)
    refine Ret.bind_eq h4 ?_
    obtain ⟨hw, hW⟩ := h1.step (subscriptSize sub, alloc (List α) cols.length) (k := i) (by simp) hi
    refine Ret.bind_eq hw (Ret.ok ⟨?_, h5⟩)
    simp only
    rw [List.range_succ, List.map_append]
    have : chopRow cols F 0 i = alloc (List α) cols.length := by simp [chopRow, alloc]
    simpa [this, hsz i sub hi h3] using hW
  · rintro ⟨out, s⟩ ⟨h1, hcs⟩
    simp only at h1 ⊢
    have hout : out = st 0 0 := by
      refine List.ext_getElem? (fun j => ?_)
      by_cases hj : j < m
      · rw [h1.val j (sz j, chopRow cols F 0 j) (by simp [hj])]
        simp [st, hj]
      · rw [List.getElem?_eq_none (by rw [h1.len]; omega), List.getElem?_eq_none (by simp [st]; omega)]
    subst hout
    refine Ret.bind (Ret.forN (fun i s => s = st i 0) rfl ?_) ?_
    · rintro i _ hi rfl
      refine Ret.bind_eq (rd_ok hi) ?_
      obtain ⟨hc1, hc2⟩ := hF _ (List.getElem_mem hi)
      refine Ret.bind_eq hc1 ?_
      refine Ret.mono (Ret.forN (fun k s => s = st i k) rfl ?_) (fun s hs => by rw [hs, hst])
      rintro k _ hk rfl
      refine Ret.bind_eq (rdU_ok (a := (sz k, chopRow cols F i k)) (by simp [st, hk])) ?_
      refine Ret.bind_eq (rd_ok (by omega)) ?_
      refine Ret.bind_eq (wr_ok (by simp [chopRow]; omega)) ?_
      refine Ret.of_eq (wr_ok (by simp [st, hk])) ?_
      have hset := chopRow_set (F := F) (j := k) hi
      rw [List.getElem?_eq_getElem (by omega)] at hset
      simp only
      rw [hset]
      refine List.ext_getElem? (fun j => ?_)
      rw [getElem?_set' (by simp [st, hk])]
      by_cases hj : j < m
      · by_cases hjk : j = k
        · subst hjk
          simp [st, hj]
        · simp only [st, List.getElem?_map, List.getElem?_range hj, Option.map_some, List.length_map,
            List.length_range]
          rw [if_neg (by omega)]
          congr 3
          by_cases h : j < k
          · rw [if_pos h, if_pos (by omega)]
          · rw [if_neg h, if_neg (by omega)]
      · rw [if_neg (by omega)]
        simp [st, hj]
    · rintro _ rfl
      have hi1 : initd (st cols.length 0) = .ok ((List.range m).map (fun j => (sz j, chopRow cols F cols.length j))) := by
        rw [← initd_map_some]
        congr 1
        simp [st]
      refine Ret.bind_eq hi1 ?_
      have hrow : ∀ j, j < m → ∃ cs, initd (chopRow cols F cols.length j) = .ok cs ∧
          cs.map some = cols.map (fun c => (F c)[j]?) := by
        intro j hj
        have : ∃ cs : List (List α), cs.map some = cols.map (fun c => (F c)[j]?) := by
          clear hi1 h1 hst hcs
          induction cols with
          | nil => exact ⟨[], rfl⟩
          | cons c cols ih =>
            obtain ⟨cs, h⟩ := ih (fun c hc => hF c (by simp [hc]))
            have := (hF c (by simp)).2
            exact ⟨(F c)[j] :: cs, by simp [h, List.getElem?_eq_getElem (show j < (F c).length by omega)]⟩
        obtain ⟨cs, h⟩ := this
        refine ⟨cs, ?_, h⟩
        unfold chopRow
        rw [List.take_length, Nat.sub_self, List.replicate_zero, List.append_nil, ← h, initd_map_some]
      choose! G hG1 hG2 using hrow
      refine Ret.of_eq (mapM_ok (f := fun e => (e.1, match initd e.2 with | .ok c => c | .error _ => [])) ?_) ?_
      · intro e he
        rw [List.mem_map] at he
        obtain ⟨j, hj, rfl⟩ := he
        rw [List.mem_range] at hj
        simp only
        rw [hG1 j hj]; rfl
      · refine ⟨by simp, fun j hj => ⟨G j, ?_, hG2 j hj⟩⟩
        simp only [List.map_map, List.getElem?_map, List.getElem?_range hj, Option.map_some, Function.comp]
        rw [hG1 j hj]

/-- **C47** (data frames): piece `j` of a data frame has as many rows as its index and, as columns,
the `j`-th pieces of the columns chopped one by one. -/
theorem C47_chop_df (na : α) {size : Nat} {cols : List (List α)} {locs : List (List Int)}
    (hc : ∀ c ∈ cols, c.length = size) (h : ∀ l ∈ locs, ∀ e ∈ l, e = naInt ∨ (1 ≤ e ∧ e ≤ (size : Int))) :
    ∃ out, chopDf na size cols (.indices locs) = .ok out ∧
      List.Forall₂ (fun l e => e.1 = (l.length : Int) ∧ List.Forall₂ (fun c v => PieceAt na c l v) cols e.2)
        locs out := by
  have hex : ∀ c : List α, c ∈ cols → ∃ V, List.Forall₂ (fun l v => sliceBase na c (.locs l) = .ok v ∧ PieceAt na c l v)
      locs V := fun c hcm => exists_pieces na c (fun l hl => by rw [hc c hcm]; exact h l hl)
  choose! F hF using hex
  obtain ⟨out, h1, h2, h3⟩ := chopDf_ok na (cols := cols) (size := size) (by_ := .indices locs) (F := F)
    (sz := fun i => match locs[i]? with | some l => (l.length : Int) | none => 0)
    (by
      intro i sub _ hs
      simp only [chopSub, Option.map_eq_some_iff] at hs
      obtain ⟨l, hl, rfl⟩ := hs
      rw [hl]; rfl)
    (fun c hcm => ⟨chop_locs (hF c hcm), (hF c hcm).length_eq.symm⟩)
  refine ⟨out, h1, List.forall₂_iff_get.2 ⟨h2.symm, fun j hj hj' => ?_⟩⟩
  obtain ⟨cs, h4, h5⟩ := h3 j hj
  simp only [List.get_eq_getElem]
  rw [(List.getElem?_eq_some_iff.1 h4).2]
  rw [List.getElem?_eq_getElem hj]
  refine ⟨rfl, List.forall₂_iff_get.2 ⟨?_, fun i hi hi' => ?_⟩⟩
  · have := congrArg List.length h5
    simpa using this.symm
  · simp only [List.get_eq_getElem]
    have h6 := congrArg (fun l => l[i]?) h5
    simp only [List.getElem?_map, List.getElem?_eq_getElem hi', List.getElem?_eq_getElem hi, Option.map_some] at h6
    injection h6 with h6
    have h7 := (List.forall₂_iff_get.1 (hF _ (List.getElem_mem hi))).2 j hj
      (by rw [← (hF _ (List.getElem_mem hi)).length_eq]; exact hj)
    simp only [List.get_eq_getElem] at h7
    rw [List.getElem?_eq_getElem (by rw [← (hF _ (List.getElem_mem hi)).length_eq]; exact hj)] at h6
    injection h6 with h6
    rw [h6]
    exact h7.2

example : chopDf 0 3 [[1, 2, 3], [4, 5, 6]] (.indices [[3, 1], [], [2]]) =
    .ok [(2, [[3, 1], [6, 4]]), (0, [[], []]), (1, [[2], [5]])] := by decide +kernel

/-! ## `list_unchop()` -/

theorem outSize_eq (indices : List RSubscript) :
    forN indices.length (fun i (n : Nat) => do
      let index ← rd indices i
      .ok (n + indexLength index)) 0 = .ok (indices.map indexLength).sum := by
  have := forN_rd_foldlM (fun (index : RSubscript) (n : Nat) => (.ok (n + indexLength index) : C Nat)) indices 0
  rw [this]
  suffices h : ∀ (l : List RSubscript) (n : Nat), l.foldlM (fun (n : Nat) index =>
      (.ok (n + indexLength index) : C Nat)) n = .ok (n + (l.map indexLength).sum) by
    simpa using h indices 0
  intro l
  induction l with
  | nil => intro n; rfl
  | cons a l ih =>
    intro n
    rw [List.foldlM_cons, ok_bind, ih]
    simp [add_assoc]

theorem outSize_flatten {indices : List RSubscript} {locs : List (List Int)} {n : Nat}
    (h : List.Forall₂ (IndexIs n) indices locs) : (indices.map indexLength).sum = locs.flatten.length := by
  induction h with
  | nil => rfl
  | cons h _ ih =>
    simp only [List.map_cons, List.sum_cons, List.flatten_cons, List.length_append]
    rw [ih, indexInts_length (indexIs_iff.1 h).1]

theorem listUnchop_assign (na : α) {xs : List (Option (List α))} {indices : List RSubscript}
    {locs : List (List Int)} {vals : List (List α)} (hx : ∃ x ∈ xs, x ≠ none) (hl : xs.length = indices.length)
    (h : List.Forall₂ (IndexIs locs.flatten.length) indices locs) (hn : locs.flatten.length ≤ intMax)
    (hv : List.Forall₂ (fun p v => Recycles p.1 p.2.length v) (unchopPairs xs locs) vals) :
    listUnchop na xs indices = (do
      let out ← assignIndex (List.replicate locs.flatten.length na)
        ((unchopPairs xs locs).map Prod.snd).flatten vals.flatten
      .ok (some out)) := by
  unfold listUnchop
  rw [if_neg (by omega), if_neg]
  · rw [hl, outSize_eq, outSize_flatten h]
    simp only [ok_bind]
    rw [listAsLocations_ok (h.imp (fun _ _ h => indexIs_iff.1 h)), vecInit_ok na hn]
    simp only [ok_bind]
    rw [← hl, unchopLoop_fold na (by rw [hl, h.length_eq]), unchopFold_ok na _ hv]
    rfl
  · rw [List.all_eq_true]
    intro h
    obtain ⟨x, hx, hne⟩ := hx
    have := h x hx
    cases x <;> simp at *

/-- **C47** (`list_unchop()`): the result has the total length of the indices; position `p` holds the
value written by the last location equal to `p` among the indices of the non-`NULL` elements (values
recycled to their index), and is missing when there is none. -/
theorem C47_unchop (na : α) {xs : List (Option (List α))} {indices : List RSubscript}
    {locs : List (List Int)} {vals : List (List α)} (hx : ∃ x ∈ xs, x ≠ none) (hl : xs.length = indices.length)
    (h : List.Forall₂ (IndexIs locs.flatten.length) indices locs) (hn : locs.flatten.length ≤ intMax)
    (hv : List.Forall₂ (fun p v => Recycles p.1 p.2.length v) (unchopPairs xs locs) vals) :
    ∃ out, listUnchop na xs indices = .ok (some out) ∧ out.length = locs.flatten.length ∧
      let ls := ((unchopPairs xs locs).map Prod.snd).flatten
      (∀ p i, LastOccurrence (fun i => ls[i]?) ls.length p i → out[p]? = vals.flatten[i]?) ∧
      (∀ p : Nat, p < out.length → (p : Int) + 1 ∉ ls → out[p]? = some na) := by
  have hlen : ((unchopPairs xs locs).map Prod.snd).flatten.length = vals.flatten.length := by
    generalize unchopPairs xs locs = qs at hv
    induction hv with
    | nil => rfl
    | cons h _ ih =>
      simp only [List.map_cons, List.flatten_cons, List.length_append]
      rw [ih, h.length]
  have hs : SubscriptOk (List.replicate locs.flatten.length na).length
      (.locs ((unchopPairs xs locs).map Prod.snd).flatten) := by
    intro e he
    simp only [List.length_replicate]
    rw [List.mem_flatten] at he
    obtain ⟨l, hl1, he⟩ := he
    rw [List.mem_map] at hl1
    obtain ⟨⟨x, l'⟩, hp, rfl⟩ := hl1
    simp only [unchopPairs, List.mem_filterMap] at hp
    obtain ⟨⟨x', l''⟩, hp, hp2⟩ := hp
    cases x' with
    | none => simp at hp2
    | some x' =>
      simp only [Option.map_some, Option.some.injEq, Prod.mk.injEq] at hp2
      obtain ⟨rfl, rfl⟩ := hp2
      have hm := (List.of_mem_zip hp).2
      obtain ⟨k, hk, rfl⟩ := List.getElem_of_mem hm
      exact ((List.forall₂_iff_get.1 h).2 k (by rw [h.length_eq]; exact hk) hk).2 e he
  obtain ⟨out, h1, h2, h3, h4⟩ := C46_assign hs trivial (value := vals.flatten)
    (by simp only [subscriptSize]; omega)
  refine ⟨out, ?_, by simpa using h2, ?_, ?_⟩
  · rw [listUnchop_assign na hx hl h hn hv]
    simp only [assignBase] at h1
    rw [h1]; rfl
  · intro p i hi
    refine h3 p i ?_
    rw [← hlen]; exact hi
  · intro p hp hnot
    rw [h4 p (fun i _ hc => hnot (List.mem_of_getElem? hc))]
    rw [h2, List.length_replicate] at hp
    rw [List.getElem?_replicate, if_pos hp]

example : listUnchop 0 [some [1, 2], none, some [9], some [7]] [.int [4, 2], .int [3], .int [1, 4], .null] =
    .ok (some [9, 2, 0, 9, 0]) := by decide +kernel
/-- Hypotheses of the theorem for the example. -/
example : List.Forall₂ (IndexIs 5) [.int [4, 2], .int [3], .int [1, 4], .null] [[4, 2], [3], [1, 4], []] ∧
    unchopPairs [some [1, 2], none, some [9], some [7]] [[4, 2], [3], [1, 4], []] =
      [([1, 2], [4, 2]), ([9], [1, 4]), ([7], [])] ∧
    List.Forall₂ (fun p v => Recycles p.1 p.2.length v)
      [([1, 2], [4, 2]), ([9], [1, 4]), ([7], ([] : List Int))] [[1, 2], [9, 9], []] := by
  refine ⟨by simp [IndexIs], rfl, ?_⟩
  refine .cons (Or.inl ⟨rfl, rfl⟩) (.cons (Or.inr ⟨9, rfl, rfl⟩) (.cons (Or.inr ⟨7, rfl, rfl⟩) .nil))

/-- **C47**: `list_unchop()` reports a different number of elements and indices, and indices that are
not accepted for the total length. -/
theorem C47_unchop_error (na : α) {xs : List (Option (List α))} {indices : List RSubscript}
    (h : xs.length ≠ indices.length ∨ ((∃ x ∈ xs, x ≠ none) ∧
      ∃ i ∈ indices, ∀ l, ¬ IndexIs (indices.map indexLength).sum i l)) :
    listUnchop na xs indices = .error .abort := by
  unfold listUnchop
  by_cases hl : xs.length = indices.length
  · rcases h with h | ⟨hx, i, hi, h⟩
    · exact absurd hl h
    · rw [if_neg (by omega), if_neg]
      · rw [hl, outSize_eq]
        simp only [ok_bind]
        rw [listAsLocations_err ⟨i, hi, fun l hl hok => h l (indexIs_iff.2 ⟨hl, hok⟩)⟩]
        rfl
      · rw [List.all_eq_true]
        intro h
        obtain ⟨x, hx, hne⟩ := hx
        have := h x hx
        cases x <;> simp at *
  · rw [if_pos hl]

example : listUnchop 0 [some [1, 2], some [3]] [.int [1, 2], .int [4]] = .error .abort := by decide +kernel
example : listUnchop 0 [some [1, 2]] [.int [1, 2], .int [3]] = .error .abort := by decide +kernel

theorem unchopPairs_some (V : List (List α)) (locs : List (List Int)) :
    unchopPairs (V.map some) locs = V.zip locs := by
  unfold unchopPairs
  induction V generalizing locs with
  | nil => simp
  | cons v V ih =>
    cases locs with
    | nil => simp
    | cons l locs => simp [ih]

theorem pieceAt_flatten {na : α} {x : List α} {locs : List (List Int)} {V : List (List α)}
    (h : List.Forall₂ (PieceAt na x) locs V) : PieceAt na x locs.flatten V.flatten := by
  induction h with
  | nil => exact ⟨rfl, by simp⟩
  | @cons l v _ _ h _ ih =>
    refine ⟨by simp only [List.flatten_cons, List.length_append]; rw [h.1, ih.1], fun j e he => ?_⟩
    rw [List.flatten_cons] at he ⊢
    by_cases hj : j < l.length
    · rw [List.getElem?_append_left hj] at he
      rw [List.getElem?_append_left (by rw [h.1]; exact hj)]
      exact h.2 j e he
    · rw [List.getElem?_append_right (by omega)] at he
      rw [List.getElem?_append_right (by rw [h.1]; omega), h.1]
      exact ih.2 _ e he

/-- **C47** (round trip): unchopping the pieces with the indices that produced them gives back the
vector, whenever the indices cover `1..n` exactly once. -/
theorem C47_round_trip (na : α) {x : List α} {indices : List RSubscript} {locs : List (List Int)}
    (hne : indices ≠ []) (h : List.Forall₂ (IndexIs x.length) indices locs) (hn : x.length ≤ intMax)
    (hp : locs.flatten.Perm ((List.range x.length).map (fun i : Nat => (i : Int) + 1))) :
    ∃ V, vecChop na x (some indices) none = .ok V ∧ listUnchop na (V.map some) indices = .ok (some x) := by
  obtain ⟨V, hV, hP⟩ := C47_chop_indices na x h
  refine ⟨V, hV, ?_⟩
  have hlen : locs.flatten.length = x.length := by rw [hp.length_eq]; simp
  have hVl : V.length = locs.length := hP.length_eq.symm
  have hsnd : (unchopPairs (V.map some) locs).map Prod.snd = locs := by
    rw [unchopPairs_some, List.map_snd_zip (by omega)]
  obtain ⟨out, h1, h2, h3, _⟩ := C47_unchop na (xs := V.map some) (indices := indices) (locs := locs) (vals := V)
    (by
      have : 0 < V.length := by rw [hVl, ← h.length_eq]; exact List.length_pos_iff.2 hne
      exact ⟨some V[0], List.mem_map_of_mem (List.getElem_mem this), by simp⟩)
    (by rw [List.length_map, hVl, h.length_eq])
    (by rw [hlen]; exact h) (by omega)
    (by
      rw [unchopPairs_some]
      clear hV h hp hlen hVl hsnd hne
      induction hP with
      | nil => exact .nil
      | cons h _ ih => exact .cons (Or.inl ⟨h.1, rfl⟩) ih)
  rw [h1]
  congr 2
  rw [hsnd] at h3
  refine List.ext_getElem? (fun p => ?_)
  by_cases hpx : p < x.length
  · have hm : (p : Int) + 1 ∈ locs.flatten := by
      rw [hp.mem_iff, List.mem_map]; exact ⟨p, by simp [hpx], rfl⟩
    have hnd : locs.flatten.Nodup := by
      rw [hp.nodup_iff]
      exact (List.nodup_range).map (fun a b hab => by omega)
    obtain ⟨i, hi, hie⟩ := List.getElem_of_mem hm
    rw [h3 p i ⟨hi, by simp only; rw [List.getElem?_eq_getElem hi, hie], fun j hj hjl hc => by
      obtain ⟨hj', hje⟩ := List.getElem?_eq_some_iff.1 hc
      have := (List.Nodup.getElem_inj_iff hnd).1 (hje.trans hie.symm)
      omega⟩]
    have hall := pieceAt_flatten hP
    rw [hall.2 i _ (by rw [List.getElem?_eq_getElem hi, hie]), if_neg (by simp only [naInt]; omega)]
    congr 1; omega
  · rw [List.getElem?_eq_none (by omega), List.getElem?_eq_none (by omega)]

example : listUnchop 0 [some [30, 10], some [], some [40, 20]] [.int [3, 1], .null, .int [4, 2]] =
    .ok (some [10, 20, 30, 40]) := by decide +kernel
example : ([[3, 1], [], [4, 2]] : List (List Int)).flatten.Perm
    ((List.range 4).map (fun i : Nat => (i : Int) + 1)) := by decide +kernel

/-- The round trip fails for a vector of size zero chopped into no piece at all: the common type of
no pieces is `NULL`. -/
theorem C47_round_trip_empty (na : α) :
    vecChop na ([] : List α) (some []) none = .ok [] ∧ listUnchop na ([] : List (Option (List α))) [] = .ok none :=
  ⟨rfl, rfl⟩

/-- **C47**: chopping by sizes and concatenating gives back the vector. -/
theorem C47_sizes_round_trip (na : α) {x : List α} {sizes : List Int} (hne : sizes ≠ [])
    (h : (∀ s ∈ sizes, 0 ≤ s) ∧ sizes.sum = (x.length : Int)) (hn : x.length ≤ intMax) :
    ∃ V, vecChop na x none (some sizes) = .ok V ∧ listUnchopNull na (V.map some) = .ok (some x) := by
  obtain ⟨V, hV, h1, h2⟩ := (C47_chop_sizes na x sizes).1 h
  refine ⟨V, hV, ?_⟩
  have hf : (V.map some).filterMap id = V := by
    rw [List.filterMap_map]
    exact List.filterMap_some
  have hl : 0 < V.length := by
    have := congrArg List.length h2
    rw [List.length_map] at this
    rw [this]; exact List.length_pos_iff.2 hne
  unfold listUnchopNull
  rw [vecC_ok na ⟨some V[0], List.mem_map_of_mem (List.getElem_mem hl), by simp⟩ (by rw [hf, h1]; exact hn),
    hf, h1]

example : listUnchopNull 0 [some [10, 20], some [], some [30]] = .ok (some [10, 20, 30]) := by decide +kernel

end Vctrs
