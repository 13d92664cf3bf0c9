import Verif.Model.Split
import Verif.Lemmas.RetOr
import Verif.Props.C12
import Verif.Props.C18
import Verif.Props.C67

/-!
# C73: vec_split(), list_drop_empty() and checks of sizes
-/

namespace Vctrs

open Spec

variable {α β : Type} {ops : PolyOps α}

theorem groups_index {n : Nat} {locs : List (List Nat)} (hn : n ≤ 2147483647)
    (hp : locs.flatten.Perm ((List.range n).map (· + 1))) :
    List.Forall₂ (IndexIs n) (locs.map (fun l => RSubscript.int (l.map (fun (k : Nat) => (k : Int)))))
      (locs.map (fun l => l.map (fun (k : Nat) => (k : Int)))) := by
  rw [List.forall₂_map_left_iff, List.forall₂_map_right_iff]
  refine List.forall₂_same.2 ?_
  intro l hl
  refine indexIs_iff.2 ⟨rfl, ?_⟩
  intro v hv
  obtain ⟨k, hk, rfl⟩ := List.mem_map.1 hv
  have hk' := hp.mem_iff.1 (List.mem_flatten.2 ⟨l, hl, hk⟩)
  obtain ⟨p, hp1, rfl⟩ := List.mem_map.1 hk'
  have := List.mem_range.1 hp1
  exact Or.inr ⟨by omega, by omega⟩

/-- **C73** (`vec_split()`): one key for each distinct value of `by`, in order of first appearance, and beside each key
the rows of `x`, in order, where `by` equals it. -/
theorem C73_split (he : EqvHash ops) (h : Name → BitVec 32) {x : NVal} {by_ : List α} (hx : IsTab by_.length x)
    (hn : by_.length ≤ 2147483647) :
    ∃ key val locs, vecSplit ops h x by_ = .ok (key, val) ∧ key = nub ops.eq by_ ∧ val.length = key.length ∧
      List.Forall₂ (fun (l : List Nat) y => SlicedAs (l.map some) x y) locs val ∧
      (∀ (k : Nat) c l, key[k]? = some c → locs[k]? = some l → l.Pairwise (· < ·) ∧
        ∀ j, j ∈ l ↔ ∃ a, by_[j]? = some a ∧ ops.eq c a = true) := by
  obtain ⟨keys, locs, h1, h2, h3, h4, h5, h6, h7⟩ := C12_group_loc he by_ hn
  have hidx := groups_index hn h6
  have hlen : ∀ l ∈ locs, l.length ≤ by_.length := by
    intro l hl
    have := length_le_flatten (locs := locs.map (fun l => l.map (fun (k : Nat) => (k : Int)))) (List.mem_map.2 ⟨l, hl, rfl⟩)
    rw [← List.map_flatten, List.length_map, List.length_map, h6.length_eq] at this
    simpa using this
  obtain ⟨ys, g1, g2⟩ := C67_indices h hx hidx (by
    intro l hl
    obtain ⟨l0, hl0, rfl⟩ := List.mem_map.1 hl
    have := hlen l0 hl0
    rw [List.length_map]
    omega)
  have hchop : nvalChop h (.indices (locs.map (fun l => l.map (fun (k : Nat) => (k : Int))))) x = .ok ys := by
    unfold vecChopNames at g1
    dsimp only at g1
    rw [hx.size_eq, listAsLocations_ok (hidx.imp (fun _ _ h => indexIs_iff.1 h)), ok_bind] at g1
    exact g1
  have hpos : ∀ l ∈ locs, ∀ k ∈ l, 1 ≤ k := by
    intro l hl k hk
    have hk' := h6.mem_iff.1 (List.mem_flatten.2 ⟨l, hl, hk⟩)
    obtain ⟨p, _, rfl⟩ := List.mem_map.1 hk'
    omega
  refine ⟨keys, ys, locs.map (fun l => l.map (fun k => k - 1)), ?_, h2, ?_, ?_, ?_⟩
  · unfold vecSplit
    rw [if_neg (by rw [hx.size_eq]; simp), h1, ok_bind]
    dsimp only
    rw [hchop]
    rfl
  · rw [← h3]
    have := forall₂_length g2
    rw [List.length_map] at this
    exact this.symm
  · rw [List.forall₂_map_left_iff] at g2 ⊢
    have key : ∀ (ls : List (List Nat)) (vs : List NVal), (∀ l ∈ ls, ∀ k ∈ l, 1 ≤ k) →
        List.Forall₂ (fun (l : List Nat) y => SlicedAs (locations (l.map (fun (k : Nat) => (k : Int)))) x y) ls vs →
        List.Forall₂ (fun (l : List Nat) y => SlicedAs ((l.map (fun k => k - 1)).map some) x y) ls vs := by
      intro ls vs hp hf
      induction hf with
      | nil => exact .nil
      | @cons l y _ _ ha _ ih =>
        refine .cons ?_ (ih (fun l hl => hp l (List.mem_cons_of_mem _ hl)))
        have e : locations (l.map (fun (k : Nat) => (k : Int))) = (l.map (fun k => k - 1)).map some := by
          unfold locations
          rw [List.map_map, List.map_map]
          refine List.map_congr_left ?_
          intro k hk
          have := hp l List.mem_cons_self k hk
          simp only [Function.comp_apply]
          rw [if_neg (by unfold naInt; omega)]
          congr 1
          omega
        rwa [e] at ha
    exact key _ _ hpos g2
  · intro k c l hc hl
    rw [List.getElem?_map, Option.map_eq_some_iff] at hl
    obtain ⟨l0, hl0, rfl⟩ := hl
    have hm := List.mem_of_getElem? hl0
    obtain ⟨q1, _, q3⟩ := h4 k c l0 hc hl0
    refine ⟨?_, ?_⟩
    · rw [List.pairwise_map]
      refine (List.Pairwise.and_mem.1 q1).imp ?_
      rintro a b ⟨ha, hb, hab⟩
      have := hpos l0 hm a ha
      omega
    · intro j
      constructor
      · intro hj
        obtain ⟨p, hp, rfl⟩ := List.mem_map.1 hj
        obtain ⟨j, a, rfl, ha⟩ := (q3 p).1 hp
        exact ⟨a, ha⟩
      · rintro ⟨a, ha⟩
        exact List.mem_map.2 ⟨j + 1, (q3 (j + 1)).2 ⟨j, a, rfl, ha⟩, by omega⟩

/-- **C73**: `x` and `by` of different sizes are an error. -/
theorem C73_split_error (h : Name → BitVec 32) {n : Nat} {x : NVal} {by_ : List α} (hx : IsTab n x)
    (hn : by_.length ≠ n) : vecSplit ops h x by_ = .error .abort := by
  unfold vecSplit
  rw [if_pos (by rw [hx.size_eq]; omega)]

/-- **C73** (round trip): the pieces put back at the locations of the groups are `x`. -/
theorem C73_split_unchop (he : EqvHash ops) (h : Name → BitVec 32) {ptype x : NVal} {by_ : List α} {spec : NameSpec}
    {repair : NameRepair} (hx : PtypeOf by_.length ptype x) (hn : by_.length ≤ 2147483647) (hne : by_ ≠ [])
    (hs : spec ≠ .zap) (hr : KeepsNames repair (namesOf x))
    (hsh : ∀ l, namesOf x = some l → ∀ s, some s ∈ l → s.length ≤ 2147483619) :
    ∃ key val keys locs, vecSplit ops h x by_ = .ok (key, val) ∧ groupLoc ops by_ = .ok (keys, locs) ∧
      listUnchopNames h val (locs.map (fun l => .int (l.map (fun (k : Nat) => (k : Int))))) none ptype spec repair =
        .ok x := by
  obtain ⟨keys, locs, h1, h2, h3, h4, h5, h6, h7⟩ := C12_group_loc he by_ hn
  have hidx := groups_index hn h6
  have hlne : locs.map (fun l => l.map (fun (k : Nat) => (k : Int))) ≠ [] := by
    intro e
    have e := List.map_eq_nil_iff.1 e
    rw [e] at h6
    have := h6.length_eq
    have := List.length_pos_iff.2 hne
    simp at *
    omega
  obtain ⟨ys, g1, g2⟩ := C67_round_trip h hx hn hidx hlne (by
    rw [← List.map_flatten]
    have := h6.map (fun (k : Nat) => (k : Int))
    rw [List.map_map] at this
    exact this) hs hr hsh
  refine ⟨keys, ys, keys, locs, ?_, h1, g2⟩
  have hchop : nvalChop h (.indices (locs.map (fun l => l.map (fun (k : Nat) => (k : Int))))) x = .ok ys := by
    unfold vecChopNames at g1
    dsimp only at g1
    rw [hx.isTab.size_eq, listAsLocations_ok (hidx.imp (fun _ _ h => indexIs_iff.1 h)), ok_bind] at g1
    exact g1
  unfold vecSplit
  rw [if_neg (by rw [hx.isTab.size_eq]; simp), h1, ok_bind]
  dsimp only
  rw [hchop]
  rfl

/-! ## Dropping empty elements -/

theorem firstEmpty_ok {vsize : β → C Nat} {xs : List β} {sizes : List Nat}
    (hs : List.Forall₂ (fun x n => vsize x = .ok n) xs sizes) :
    Ret (firstEmpty vsize xs) (fun i => i ≤ xs.length ∧ (∀ (j n : Nat), j < i → sizes[j]? = some n → n ≠ 0) ∧
      ∀ n, sizes[i]? = some n → n = 0) := by
  have hlen := forall₂_length hs
  refine Ret.forBrk (fun i k => k = i ∧ i ≤ xs.length ∧ ∀ (j n : Nat), j < i → sizes[j]? = some n → n ≠ 0)
    _ ⟨rfl, by omega, fun j n hj => by omega⟩ ?_ ?_
  · rintro i k hi ⟨rfl, h1, h2⟩
    obtain ⟨n, hn1, hn2⟩ := forall₂_get hs (List.getElem?_eq_getElem hi)
    refine Ret.bind_eq (rd_ok hi) (Ret.bind_eq hn2 ?_)
    by_cases hn : n = 0
    · rw [if_pos hn]
      refine Ret.ok ⟨h1, h2, fun m hm => ?_⟩
      rw [hn1] at hm
      cases hm
      exact hn
    · rw [if_neg hn]
      refine Ret.ok ⟨rfl, by omega, fun j m hj hm => ?_⟩
      by_cases hjk : j = k
      · subst hjk
        rw [hn1] at hm
        cases hm
        exact hn
      · exact h2 j m (by omega) hm
  · rintro k ⟨rfl, h1, h2⟩
    refine ⟨h1, h2, fun n hn => ?_⟩
    have := (List.getElem?_eq_some_iff.1 hn).1
    omega

theorem keepMask_ok {vsize : β → C Nat} {xs : List β} {sizes : List Nat}
    (hs : List.Forall₂ (fun x n => vsize x = .ok n) xs sizes) {i : Nat} (hi : i < xs.length)
    (h1 : ∀ (j n : Nat), j < i → sizes[j]? = some n → n ≠ 0) (h2 : ∀ n, sizes[i]? = some n → n = 0) :
    Ret (keepMask vsize xs i) (fun keep => keep = sizes.map (fun n => decide (n ≠ 0))) := by
  have hlen := forall₂_length hs
  unfold keepMask
  dsimp only
  -- the prefix of length `k` has been written
  have hpre : ∀ (k : Nat) (v : Bool) (buf : List (Option Bool)), k < xs.length →
      buf = ((sizes.map (fun n => decide (n ≠ 0))).take k).map some ++ List.replicate (xs.length - k) none →
      (sizes.map (fun n => decide (n ≠ 0)))[k]? = some v →
      wr buf k (some v) = .ok (((sizes.map (fun n => decide (n ≠ 0))).take (k + 1)).map some ++
        List.replicate (xs.length - (k + 1)) none) := by
    intro k v buf hk hb hv
    subst hb
    rw [wr_ok (by simp; omega)]
    congr 1
    rw [take_succ_of hv, List.map_append, List.set_append_right _ _ (by simp)]
    simp only [List.length_map, List.length_take, hlen.symm, Nat.min_eq_left (Nat.le_of_lt hk), Nat.sub_self]
    rw [show xs.length - k = (xs.length - (k + 1)) + 1 by omega, List.replicate_succ]
    simp
  refine Ret.bind (Ret.forN (fun k buf => buf = ((sizes.map (fun n => decide (n ≠ 0))).take k).map some ++
      List.replicate (xs.length - k) none) (by simp [alloc]) ?_) ?_
  · intro j buf hj hb
    refine Ret.of_eq (hpre j true buf (by omega) hb ?_) rfl
    have hjs : j < sizes.length := by omega
    rw [List.getElem?_map, List.getElem?_eq_getElem hjs]
    have := h1 j _ hj (List.getElem?_eq_getElem hjs)
    simpa using this
  · intro buf hb
    have his : i < sizes.length := by omega
    refine Ret.bind_eq (hpre i false buf hi hb ?_) ?_
    · rw [List.getElem?_map, List.getElem?_eq_getElem his]
      have := h2 _ (List.getElem?_eq_getElem his)
      simpa using this
    · refine Ret.bind (Ret.forFrom (fun k buf => buf = ((sizes.map (fun n => decide (n ≠ 0))).take k).map some ++
        List.replicate (xs.length - k) none) rfl ?_) ?_
      · intro k buf hk hk' hb
        have hkl : k < xs.length := by omega
        obtain ⟨n, hn1, hn2⟩ := forall₂_get hs (List.getElem?_eq_getElem hkl)
        refine Ret.bind_eq (rd_ok hkl) (Ret.bind_eq hn2 (Ret.of_eq (hpre k _ buf hkl hb ?_) rfl))
        rw [List.getElem?_map, hn1]
        rfl
      · intro buf hb
        rw [show i + 1 + (xs.length - (i + 1)) = xs.length by omega] at hb
        rw [List.take_of_length_le (by simp; omega), Nat.sub_self, List.replicate_zero, List.append_nil] at hb
        subst hb
        exact Ret.of_eq (initd_ok (by simp) (fun i hi => by rw [List.getElem?_map, List.getElem?_eq_getElem hi]; rfl)) rfl

theorem mask_slice {nil : β} {mask : List Bool} {xs : List β} (hl : xs.length = mask.length) (hn : mask.length ≤ intMax) :
    sliceBase nil xs (.locs (maskLocs true naInt 1 (mask.map some))) =
      .ok (((xs.zip mask).filter (fun p => p.2)).map (fun p => p.1)) := by
  have hlocs : ∀ (m : List Bool) (k : Nat), ∀ v ∈ maskLocs true naInt ((k : Int) + 1) (m.map some),
      (k : Int) + 1 ≤ v ∧ v ≤ (k : Int) + m.length := by
    intro m
    induction m with
    | nil => intro k v hv; cases hv
    | cons b m ih =>
      intro k v hv
      have hrec := ih (k + 1) v
      rw [show ((k + 1 : Nat) : Int) + 1 = (k : Int) + 1 + 1 by omega] at hrec
      cases b with
      | true =>
        simp only [List.map_cons, maskLocs, List.mem_cons] at hv
        rcases hv with rfl | hv
        · simp only [List.length_cons]; omega
        · have := hrec hv
          simp only [List.length_cons]; omega
      | false =>
        simp only [List.map_cons, maskLocs] at hv
        have := hrec hv
        simp only [List.length_cons]; omega
  have hok : SubscriptOk xs.length (.locs (maskLocs true naInt 1 (mask.map some))) := by
    intro v hv
    have := hlocs mask 0 v (by simpa using hv)
    exact Or.inr ⟨by omega, by omega⟩
  obtain ⟨out, h1, h2, h3⟩ := sliceBase_ok nil hok
  rw [h1]
  congr 1
  -- compare element by element
  have hmap : ∀ (m : List Bool) (pre xs : List β), xs.length = m.length → m.length + pre.length ≤ intMax →
      (maskLocs true naInt ((pre.length : Int) + 1) (m.map some)).map
        (fun l => if l = naInt then some nil else (pre ++ xs)[(l - 1).toNat]?) =
      (((xs.zip m).filter (fun p => p.2)).map (fun p => p.1)).map some := by
    intro m
    induction m with
    | nil => intro pre xs _ _; simp [maskLocs]
    | cons b m ih =>
      intro pre xs hl hb
      cases xs with
      | nil => simp at hl
      | cons x xs =>
        have := ih (pre ++ [x]) xs (by simpa using hl) (by simp at hb ⊢; omega)
        simp only [List.append_assoc, List.singleton_append, List.length_append, List.length_singleton] at this
        rw [show ((pre.length + 1 : Nat) : Int) + 1 = (pre.length : Int) + 1 + 1 by omega] at this
        cases b with
        | true =>
          simp only [List.map_cons, maskLocs, List.zip_cons_cons, List.filter_cons_of_pos, List.map_cons]
          rw [this, if_neg (by unfold naInt; omega)]
          congr 1
          rw [show ((pre.length : Int) + 1 - 1).toNat = pre.length by omega]
          simp
        | false =>
          simp only [List.map_cons, maskLocs, List.zip_cons_cons]
          rw [this, List.filter_cons_of_neg (by simp)]
  have := hmap mask [] xs hl (by simpa using hn)
  simp only [List.length_nil, List.nil_append] at this
  rw [show ((0 : Nat) : Int) + 1 = 1 by omega] at this
  have hout : out.map some = (maskLocs true naInt 1 (mask.map some)).map
      (fun l => if l = naInt then some nil else xs[(l - 1).toNat]?) := by
    refine List.ext_getElem? (fun k => ?_)
    rw [List.getElem?_map, List.getElem?_map]
    by_cases hk : k < (subscriptSize (.locs (maskLocs true naInt 1 (mask.map some)))).toNat
    · obtain ⟨loc, g1, g2⟩ := h3 k hk
      have g1' : (maskLocs true naInt 1 (mask.map some))[k]? = some loc := g1
      rw [g1', Option.map_some, ← g2]
      rw [List.getElem?_eq_getElem (by omega)]
      rfl
    · have hk' : (maskLocs true naInt 1 (mask.map some)).length ≤ k := by
        simp only [subscriptSize] at hk
        omega
      rw [List.getElem?_eq_none (by omega), List.getElem?_eq_none hk']
      rfl
  rw [this] at hout
  exact (List.map_inj_right (fun _ _ h => Option.some.inj h)).1 hout

/-- **C73** (`list_drop_empty()`): exactly the elements of size zero are dropped, with their names; without any, `x`
itself is returned. -/
theorem C73_drop_empty {vsize : β → C Nat} {nil : β} {xs : List β} {names : Option (List Name)} {sizes : List Nat}
    (hs : List.Forall₂ (fun x n => vsize x = .ok n) xs sizes) (hn : xs.length ≤ intMax)
    (hnm : ∀ l, names = some l → l.length = xs.length) :
    ((0 ∉ sizes) ∧ listDropEmpty vsize nil xs names = .ok none) ∨
    (0 ∈ sizes ∧ listDropEmpty vsize nil xs names =
      .ok (some (((xs.zip sizes).filter (fun p => p.2 ≠ 0)).map (fun p => p.1),
        names.map (fun l => ((l.zip sizes).filter (fun p => p.2 ≠ 0)).map (fun p => p.1))))) := by
  have hlen := forall₂_length hs
  obtain ⟨i, h0, h1, h2, h3⟩ := firstEmpty_ok hs
  have hfil : ∀ {γ : Type} (l : List γ), ((l.zip (sizes.map (fun n => decide (n ≠ 0)))).filter (fun p => p.2)).map (fun p => p.1) =
      ((l.zip sizes).filter (fun p => p.2 ≠ 0)).map (fun p => p.1) := by
    intro γ l
    rw [List.zip_map_right, List.filter_map, List.map_map]
    rfl
  unfold listDropEmpty
  rw [h0, ok_bind]
  by_cases hi : i = xs.length
  · left
    refine ⟨?_, by rw [if_pos hi]⟩
    intro hm
    obtain ⟨j, hj⟩ := List.mem_iff_getElem?.1 hm
    have := (List.getElem?_eq_some_iff.1 hj).1
    exact h2 j 0 (by omega) hj rfl
  · right
    have hil : i < xs.length := by omega
    have his : i < sizes.length := by omega
    have hz := h3 _ (List.getElem?_eq_getElem his)
    refine ⟨hz ▸ List.getElem_mem his, ?_⟩
    rw [if_neg hi]
    obtain ⟨keep, hk, rfl⟩ := keepMask_ok hs hil h2 h3
    rw [hk, ok_bind]
    have hml : (sizes.map (fun n => decide (n ≠ 0))).length = xs.length := by rw [List.length_map]; omega
    have hloc := C18_full (x := (sizes.map (fun n => decide (n ≠ 0))).map some) (by rw [List.length_map, hml]; exact hn)
      (nameStrings names) {} (by simp)
    rw [List.length_map, hml] at hloc
    rw [hloc, ok_bind]
    have hxs := mask_slice (nil := nil) (xs := xs) hml.symm (by rw [hml]; exact hn)
    simp only [decide_true]
    rw [hxs, ok_bind, hfil]
    cases names with
    | none => rfl
    | some l =>
      unfold sliceNames
      dsimp only
      rw [mask_slice (xs := l) (by rw [hnm l rfl, hml]) (by rw [hml]; exact hn), hfil]
      rfl

/-- **C73**: an element without a size (a scalar) is an error, that of the first one. -/
theorem C73_drop_empty_error {vsize : β → C Nat} {nil : β} {pre post : List β} {x : β} {e : Err}
    {names : Option (List Name)} {sizes : List Nat} (hs : List.Forall₂ (fun x n => vsize x = .ok n) pre sizes)
    (hx : vsize x = .error e) : listDropEmpty vsize nil (pre ++ x :: post) names = .error e := by
  have hlen := forall₂_length hs
  have hxl : (pre ++ x :: post)[pre.length]? = some x := by simp
  have hpl : ∀ {j : Nat}, j < pre.length → ∃ y n, (pre ++ x :: post)[j]? = some y ∧ sizes[j]? = some n ∧ vsize y = .ok n := by
    intro j hj
    obtain ⟨n, h1, h2⟩ := forall₂_get hs (List.getElem?_eq_getElem hj)
    exact ⟨_, n, by rw [List.getElem?_append_left hj, List.getElem?_eq_getElem hj], h1, h2⟩
  have h1 : RetOr (firstEmpty vsize (pre ++ x :: post)) (fun i => i < pre.length) (fun e' => e' = e) := by
    refine RetOr.forBrk (fun i k => k = i ∧ i ≤ pre.length) _ ⟨rfl, by omega⟩ ?_ ?_
    · rintro i k hi ⟨rfl, h1⟩
      by_cases hk : k = pre.length
      · subst hk
        refine RetOr.bind_eq (rd_of_getElem? hxl) ?_
        rw [hx]
        exact Or.inr ⟨e, rfl, rfl⟩
      · obtain ⟨y, n, g1, g2, g3⟩ := hpl (j := k) (by omega)
        refine RetOr.bind_eq (rd_of_getElem? g1) (RetOr.bind_eq g3 ?_)
        by_cases hn : n = 0
        · rw [if_pos hn]
          exact RetOr.ok (by show k < pre.length; omega)
        · rw [if_neg hn]
          exact RetOr.ok ⟨rfl, by omega⟩
    · rintro k ⟨rfl, h1⟩
      rw [List.length_append, List.length_cons] at h1
      omega
  have h2 : ∀ i, i < pre.length → RetOr (keepMask vsize (pre ++ x :: post) i) (fun _ => False) (fun e' => e' = e) := by
    intro i hi
    unfold keepMask
    dsimp only
    have hL : (pre ++ x :: post).length = pre.length + 1 + post.length := by simp; omega
    refine RetOr.bind (RetOr.forN (fun _ buf => buf.length = (pre ++ x :: post).length) (by simp [alloc]) ?_) ?_
    · intro j buf hj hb
      rw [wr_ok (by omega)]
      exact RetOr.ok (by rw [List.length_set]; exact hb)
    · intro buf hb
      refine RetOr.bind_eq (wr_ok (by omega)) ?_
      refine RetOr.bind (P := fun _ => False) (RetOr.mono (RetOr.forFrom (fun k buf => k ≤ pre.length ∧
        buf.length = (pre ++ x :: post).length) _ _ _ ⟨by omega, by rw [List.length_set]; exact hb⟩ ?_) ?_)
          (fun _ h => h.elim)
      · rintro k buf hk hk' ⟨h3, h4⟩
        by_cases hkp : k = pre.length
        · subst hkp
          refine RetOr.bind_eq (rd_of_getElem? hxl) ?_
          rw [hx]
          exact Or.inr ⟨e, rfl, rfl⟩
        · obtain ⟨y, n, g1, g2, g3⟩ := hpl (j := k) (by omega)
          refine RetOr.bind_eq (rd_of_getElem? g1) (RetOr.bind_eq g3 ?_)
          rw [wr_ok (by omega)]
          exact RetOr.ok ⟨by omega, by rw [List.length_set]; exact h4⟩
      · rintro buf ⟨h3, _⟩
        omega
  have h3 : RetOr (listDropEmpty vsize nil (pre ++ x :: post) names) (fun _ => False) (fun e' => e' = e) := by
    unfold listDropEmpty
    refine RetOr.bind h1 ?_
    intro i hi
    rw [if_neg (by simp; omega)]
    exact RetOr.bind (h2 i hi) (fun _ h => h.elim)
  rcases h3 with ⟨_, _, h⟩ | ⟨e', h, rfl⟩
  · exact h.elim
  · exact h

/-! ## Checks -/

/-- **C73** (`list_check_all_size()`): passes exactly the lists whose elements all have the size. -/
theorem C73_check_size {vsize : β → C Nat} {xs : List β} {size : Int} {sizes : List Nat}
    (hs : List.Forall₂ (fun x n => vsize x = .ok n) xs sizes) :
    ((∀ n ∈ sizes, (n : Int) = size) ∧ listCheckAllSize vsize xs size = .ok ()) ∨
    ((∃ n ∈ sizes, (n : Int) ≠ size) ∧ listCheckAllSize vsize xs size = .error .abort) := by
  have hlen := forall₂_length hs
  by_cases hall : ∀ n ∈ sizes, (n : Int) = size
  · left
    refine ⟨hall, ?_⟩
    obtain ⟨u, h1, _⟩ := Ret.forN (n := xs.length) (s := ()) (f := fun i _ => do
      let x ← rd xs i
      vecCheckSize vsize x size) (fun _ _ => True) trivial (by
        intro i _ hi _
        obtain ⟨n, h1, h2⟩ := forall₂_get hs (List.getElem?_eq_getElem hi)
        refine Ret.bind_eq (rd_ok hi) (Ret.bind_eq h2 ?_)
        rw [if_neg (by simpa using hall n (List.mem_of_getElem? h1))]
        exact Ret.ok trivial)
    exact h1
  · right
    have hex : ∃ n ∈ sizes, (n : Int) ≠ size := by
      by_contra hno
      exact hall (fun n hn => by
        by_contra hne
        exact hno ⟨n, hn, hne⟩)
    refine ⟨hex, ?_⟩
    obtain ⟨n, hn, hne⟩ := hex
    obtain ⟨j, hj⟩ := List.mem_iff_getElem?.1 hn
    have hjl := (List.getElem?_eq_some_iff.1 hj).1
    have h3 : RetOr (listCheckAllSize vsize xs size) (fun _ => False) (fun e => e = .abort) := by
      refine RetOr.mono (RetOr.forN (fun i _ => i ≤ j) (by omega) ?_) ?_
      · intro i _ hi hij
        obtain ⟨m, h1, h2⟩ := forall₂_get hs (List.getElem?_eq_getElem hi)
        refine RetOr.bind_eq (rd_ok hi) (RetOr.bind_eq h2 ?_)
        by_cases hm : (m : Int) = size
        · rw [if_neg (by simpa using hm)]
          refine RetOr.ok ?_
          show i + 1 ≤ j
          have : i ≠ j := by
            rintro rfl
            rw [hj] at h1
            cases h1
            exact hne hm
          omega
        · rw [if_pos hm]
          exact Or.inr ⟨_, rfl, rfl⟩
      · intro _ h
        omega
    rcases h3 with ⟨_, _, h⟩ | ⟨e', h, rfl⟩
    · exact h.elim
    · exact h

/-- **C73** (`list_check_all_vectors()`). -/
theorem C73_check_vectors {isVector : β → Bool} {xs : List β} :
    listCheckAllVectors isVector xs = if xs.all isVector then .ok () else .error .abort := by
  by_cases hall : xs.all isVector = true
  · rw [if_pos hall]
    obtain ⟨u, h1, _⟩ := Ret.forN (n := xs.length) (s := ()) (f := fun i _ => do
      let x ← rd xs i
      if isVector x then .ok () else .error .abort) (fun _ _ => True) trivial (by
        intro i _ hi _
        refine Ret.bind_eq (rd_ok hi) ?_
        rw [if_pos (List.all_eq_true.1 hall _ (List.getElem_mem hi))]
        exact Ret.ok trivial)
    exact h1
  · rw [if_neg hall]
    have h3 : RetOr (listCheckAllVectors isVector xs) (fun _ => False) (fun e => e = .abort) := by
      refine RetOr.mono (RetOr.forN (fun i _ => ∀ x ∈ xs.take i, isVector x = true) (by simp) ?_) ?_
      · intro i _ hi hI
        refine RetOr.bind_eq (rd_ok hi) ?_
        by_cases hx : isVector xs[i] = true
        · rw [if_pos hx]
          refine RetOr.ok ?_
          intro x hxm
          rw [take_succ_of (List.getElem?_eq_getElem hi)] at hxm
          rcases List.mem_append.1 hxm with hxm | hxm
          · exact hI x hxm
          · rw [List.mem_singleton.1 hxm]
            exact hx
        · rw [if_neg hx]
          exact Or.inr ⟨_, rfl, rfl⟩
      · intro _ h
        rw [List.take_length] at h
        exact hall (List.all_eq_true.2 h)
    rcases h3 with ⟨_, _, h⟩ | ⟨e', h, rfl⟩
    · exact h.elim
    · exact h

/-! ## Examples -/

/-- Two equal rows and another one, split by numbers equal modulo ten. -/
private def exSplitX : NVal := .vec (.atom .int) ([5, 6, 7, 8] : List Int) (some [some ['a'], none, some [], some ['a']])

/-- The values and names of a split. -/
private def exShowSplit (r : C (List Nat × List NVal)) : C (List Nat × List (List Int) × List (Option (List Name))) := do
  let (key, val) ← r
  .ok (key, val.map (fun y => match y with | .vec (.atom .int) xs _ => xs | _ => []), val.map NVal.vnames)

example : exShowSplit (vecSplit exOps10 exHash exSplitX [3, 2, 13, 7]) =
    .ok ([3, 2, 7], [[5, 7], [6], [8]], [some [some ['a'], some []], some [none], some [some ['a']]]) := by
  rfl
example : IsTab 4 exSplitX := .vec rfl (fun l hl => by cases hl; rfl)
example : vecSplit exOps10 exHash exSplitX [3, 2] = .error .abort :=
  C73_split_error (n := 4) _ (.vec rfl (fun l hl => by cases hl; rfl)) (by decide)

/-- Sizes of examples: a scalar is an error. -/
private def exSize (n : Nat) : C Nat := if n = 99 then .error .abort else .ok n

example : listDropEmpty exSize 0 [3, 0, 2, 0] (some [some ['a'], none, some ['b'], some []]) =
    .ok (some ([3, 2], some [some ['a'], some ['b']])) := rfl
example : listDropEmpty exSize 0 [3, 2] none = .ok none := rfl
example : listDropEmpty exSize 0 [3, 0, 99, 0] none = .error .abort :=
  C73_drop_empty_error (pre := [3, 0]) (sizes := [3, 0]) (post := [0]) (.cons rfl (.cons rfl .nil)) rfl
example : List.Forall₂ (fun x n => exSize x = .ok n) [3, 0, 2, 0] [3, 0, 2, 0] :=
  .cons rfl (.cons rfl (.cons rfl (.cons rfl .nil)))
example : listCheckAllSize exSize [2, 2] 2 = .ok () ∧ listCheckAllSize exSize [2, 1] 2 = .error .abort := by
  refine ⟨?_, ?_⟩ <;> decide +kernel
example : listCheckAllVectors (fun n => decide (n ≠ 99)) [2, 99] = .error .abort := by decide +kernel

end Vctrs
