import Verif.Lemmas.Table
import Verif.Lemmas.OrderInsert
import Verif.Props.C01

/-!
# Lemmas about df_list()
-/

namespace Vctrs

open Spec

theorem Spec.IsTab.rowsOf {n : Nat} {x : NVal} (h : IsTab n x) : rowsOf x = some n := by
  cases h with
  | vec h1 _ => simp [Spec.rowsOf, h1]
  | df => rfl

theorem nvalRecycle_tab (h : Name → BitVec 32) {x : NVal} {n : Nat} (hne : x.isNull = false) :
    nvalRecycle h x n = (if x.size = n then .ok x else if x.size = 1 then nvalSlice h (.rep 1 n) x else .error .abort) := by
  have e : compactRep 1 n = .ok (.rep 1 n) := by rw [compactRep, if_neg (by omega)]
  have : nvalRecycle h x n = (if (x.size : Int) = n then .ok x
    else if x.size = 1 then (do let i ← compactRep 1 n; nvalSlice h i x) else .error .abort) := by
    cases x with
    | null => cases hne
    | vec => rw [nvalRecycle]; nofun
    | df => rw [nvalRecycle]; nofun
  rw [this, e, ok_bind]
  by_cases hs : x.size = n
  · rw [if_pos (by omega), if_pos hs]
  · rw [if_neg (by omega), if_neg hs]

theorem Spec.IsTab.notNull {n : Nat} {x : NVal} (h : IsTab n x) : x.isNull = false := by
  cases h <;> rfl

theorem nvalRecycle_ok (h : Name → BitVec 32) {x : NVal} {m n : Nat} (hx : IsTab m x) (hn : n ≤ 2147483647)
    (hm : m = n ∨ m = 1) : Ret (nvalRecycle h x n) (Recycled n x) := by
  rw [nvalRecycle_tab h hx.notNull, hx.size_eq]
  by_cases hmn : m = n
  · rw [if_pos hmn]; exact Ret.ok (Or.inl ⟨hmn ▸ hx.rowsOf, rfl⟩)
  · have h1 : m = 1 := by omega
    rw [if_neg hmn, if_pos h1]
    subst h1
    exact (nvalSlice_rep1 h hx hn).mono (fun y hy => Or.inr ⟨hx.rowsOf, by omega, hy⟩)

/-- Inputs that cannot be recycled. -/
theorem nvalRecycle_bad (h : Name → BitVec 32) {x : NVal} {m n : Nat} (hx : IsTab m x)
    (hm : m ≠ n ∧ m ≠ 1) : nvalRecycle h x n = .error .abort := by
  rw [nvalRecycle_tab h hx.notNull, hx.size_eq, if_neg hm.1, if_neg hm.2]

/-- `NULL` stays, others are recycled. -/
def RecycledOr (n : Nat) (x y : NVal) : Prop := (x = .null ∧ y = .null) ∨ Recycled n x y

theorem nvalRecycle_input (h : Name → BitVec 32) {x : NVal} {n : Nat} (hx : IsInput x) (hn : n ≤ 2147483647)
    (hm : ∀ m, rowsOf x = some m → m = n ∨ m = 1) : Ret (nvalRecycle h x n) (RecycledOr n x) := by
  rcases hx with rfl | ⟨m, hx⟩
  · exact Ret.ok (Or.inl ⟨rfl, rfl⟩)
  · exact (nvalRecycle_ok h hx hn (hm m hx.rowsOf)).mono (fun y hy => Or.inr hy)

theorem nvalRecycleAll_step {h : Name → BitVec 32} {xs ys : List NVal} {n : Nat} {i : Nat} (hi : i < xs.length)
    (hl : ys.length = xs.length) (h2 : ∀ k x, i ≤ k → xs[k]? = some x → ys[k]? = some x)
    (hp : ∀ k x y, k < i → xs[k]? = some x → ys[k]? = some y → RecycledOr n x y)
    (hr : Ret (nvalRecycle h xs[i] n) (RecycledOr n xs[i])) :
    Ret (do let elt ← rd ys i; let r ← nvalRecycle h elt n; wr ys i r) (fun zs => zs.length = xs.length ∧
      (∀ k x, i + 1 ≤ k → xs[k]? = some x → zs[k]? = some x) ∧
      ∀ k x y, k < i + 1 → xs[k]? = some x → zs[k]? = some y → RecycledOr n x y) := by
  refine Ret.bind_eq (rd_of_getElem? (h2 i _ (Nat.le_refl _) (List.getElem?_eq_getElem hi))) ?_
  refine Ret.bind hr ?_
  intro y hy
  refine Ret.of_eq (wr_ok (by rw [hl]; exact hi)) ⟨by simpa using hl, ?_, ?_⟩
  · intro k x hk hx
    rw [getElem?_set' (by rw [hl]; exact hi), if_neg (by omega)]
    exact h2 k x (by omega) hx
  · intro k x z hk hx hz
    rw [getElem?_set' (by rw [hl]; exact hi)] at hz
    by_cases hki : k = i
    · subst hki
      rw [if_pos rfl] at hz; cases hz
      rw [List.getElem?_eq_getElem hi] at hx; cases hx
      exact hy
    · rw [if_neg hki] at hz
      exact hp k x z (by omega) hx hz

theorem nvalRecycleAll_ok (h : Name → BitVec 32) {xs : List NVal} {n : Nat} (hx : ∀ x ∈ xs, IsInput x)
    (hn : n ≤ 2147483647) (hm : ∀ m ∈ xs.filterMap rowsOf, m = n ∨ m = 1) :
    Ret (nvalRecycleAll h xs n) (fun ys => ys.length = xs.length ∧
      ∀ (i : Nat) x y, xs[i]? = some x → ys[i]? = some y → RecycledOr n x y) := by
  rw [nvalRecycleAll, if_neg (by omega)]
  refine (Ret.forN (fun i ys => ys.length = xs.length ∧ (∀ k x, i ≤ k → xs[k]? = some x → ys[k]? = some x) ∧
      ∀ k x y, k < i → xs[k]? = some x → ys[k]? = some y → RecycledOr n x y) ⟨rfl, fun k x _ hx => hx, by omega⟩ ?_).mono ?_
  · rintro i ys hi ⟨h1, h2, h3⟩
    refine nvalRecycleAll_step hi h1 h2 h3 (nvalRecycle_input h (hx _ (List.getElem_mem hi)) hn ?_)
    intro m hm'
    exact hm m (List.mem_filterMap.2 ⟨_, List.getElem_mem hi, hm'⟩)
  · rintro ys ⟨h1, _, h3⟩
    refine ⟨h1, ?_⟩
    intro i x y hi hy
    exact h3 i x y (List.getElem?_eq_some_iff.1 hi).1 hi hy

theorem nvalRecycleAll_bad (h : Name → BitVec 32) {xs : List NVal} {n : Nat} (hx : ∀ x ∈ xs, IsInput x)
    (hn : n ≤ 2147483647) (hm : ∃ m ∈ xs.filterMap rowsOf, m ≠ n ∧ m ≠ 1) :
    nvalRecycleAll h xs n = .error .abort := by
  rw [nvalRecycleAll, if_neg (by omega)]
  classical
  -- the first input that cannot be recycled
  have hex : ∃ k : Nat, ∃ x m, xs[k]? = some x ∧ rowsOf x = some m ∧ m ≠ n ∧ m ≠ 1 := by
    obtain ⟨m, h1, h2⟩ := hm
    obtain ⟨x, h3, h4⟩ := List.mem_filterMap.1 h1
    obtain ⟨k, hk, rfl⟩ := List.getElem_of_mem h3
    exact ⟨k, _, m, List.getElem?_eq_getElem hk, h4, h2⟩
  obtain ⟨x, m, h1, h2, h3⟩ := Nat.find_spec hex
  have hmin := fun k (hk : k < Nat.find hex) => Nat.find_min hex hk
  generalize Nat.find hex = k at h1 hmin
  have hk := (List.getElem?_eq_some_iff.1 h1).1
  refine forN_err (k := k) (fun i ys => ys.length = xs.length ∧ (∀ k x, i ≤ k → xs[k]? = some x → ys[k]? = some x) ∧
      ∀ k x y, k < i → xs[k]? = some x → ys[k]? = some y → RecycledOr n x y) hk ⟨rfl, fun k x _ hx => hx, by omega⟩ ?_ ?_
  · rintro i ys hi ⟨g1, g2, g3⟩
    refine nvalRecycleAll_step (by omega) g1 g2 g3 (nvalRecycle_input h (hx _ (List.getElem_mem (by omega))) hn ?_)
    intro m' hm'
    by_contra hc
    exact hmin i hi ⟨_, m', List.getElem?_eq_getElem (by omega), hm', by omega⟩
  · rintro ys ⟨g1, g2, g3⟩
    rw [rd_of_getElem? (g2 k x (Nat.le_refl _) h1), ok_bind]
    rcases hx x (List.mem_of_getElem? h1) with rfl | ⟨m', hx'⟩
    · cases h2
    · rw [hx'.rowsOf] at h2; cases h2
      rw [nvalRecycle_bad h hx' h3]; rfl

/-! ## Buffers filled from the left -/

/-- The state of the loops: `L` is written, `tot` is the capacity. -/
def bufOf (L : List (Name × NVal)) (tot : Nat) : List NVal × List Name × Nat :=
  (L.map (·.2) ++ List.replicate (tot - L.length) .null,
   L.map (·.1) ++ List.replicate (tot - L.length) (some []), L.length)

theorem wr_bufOf {α β : Type} {f : β → α} {L : List β} {tot : Nat} {b : α} {p : β} (h : L.length < tot) :
    wr (L.map f ++ List.replicate (tot - L.length) b) L.length (f p) =
      .ok ((L ++ [p]).map f ++ List.replicate (tot - (L ++ [p]).length) b) := by
  rw [show tot - L.length = (tot - (L.length + 1)) + 1 by omega, List.replicate_succ,
    wr_append_mid (by simp)]
  simp

theorem bufOf_put {L : List (Name × NVal)} {tot : Nat} {p : Name × NVal} (h : L.length < tot) :
    wr (bufOf L tot).1 L.length p.2 = .ok (bufOf (L ++ [p]) tot).1 ∧
    wr (bufOf L tot).2.1 L.length p.1 = .ok (bufOf (L ++ [p]) tot).2.1 :=
  ⟨wr_bufOf (f := fun (q : Name × NVal) => q.2) h, wr_bufOf (f := fun (q : Name × NVal) => q.1) h⟩

theorem bufOf_full (L : List (Name × NVal)) : bufOf L L.length = (L.map (·.2), L.map (·.1), L.length) := by
  simp [bufOf]

theorem zip_get {x : NList} (hl : x.2.length = x.1.length) {i : Nat} (hi : i < x.1.length) :
    ∃ p, (x.2.zip x.1)[i]? = some p ∧ rd x.1 i = .ok p.2 ∧ rd x.2 i = .ok p.1 := by
  have h2 : i < x.2.length := by omega
  refine ⟨(x.2[i], x.1[i]), ?_, rd_ok hi, rd_ok h2⟩
  rw [List.getElem?_zip_eq_some]
  exact ⟨List.getElem?_eq_getElem h2, List.getElem?_eq_getElem hi⟩

theorem zip_fst_snd {α β : Type} (l : List (α × β)) : (l.map (·.1)).zip (l.map (·.2)) = l := by
  induction l with
  | nil => rfl
  | cons p l ih => simp [ih]

theorem take_succ_of {α : Type} {l : List α} {i : Nat} {p : α} (h : l[i]? = some p) :
    l.take (i + 1) = l.take i ++ [p] := by
  rw [List.take_add_one, h]; rfl

/-- Inputs that are not `NULL`. -/
def keepCol (p : Name × NVal) : Bool := !p.2.isNull

theorem dfListDropNull_ok {x : NList} (hl : x.2.length = x.1.length) :
    dfListDropNull x = .ok (((x.2.zip x.1).filter keepCol).map (·.2), ((x.2.zip x.1).filter keepCol).map (·.1)) := by
  have hz : (x.2.zip x.1).length = x.1.length := by simp [hl]
  rw [dfListDropNull]
  dsimp only
  obtain ⟨c, h1, h2⟩ := Ret.forN (n := x.1.length) (s := (0 : Nat)) (f := fun i count => do
      let col ← rd x.1 i
      (.ok (count + if col.isNull then 1 else 0) : C Nat))
    (fun i c => c + (((x.2.zip x.1).take i).filter keepCol).length = i) (by simp) (by
      intro i c hi hI
      obtain ⟨p, h1, h2, h3⟩ := zip_get hl hi
      refine Ret.bind_eq h2 (Ret.ok ?_)
      rw [take_succ_of h1, List.filter_append, List.length_append]
      by_cases hp : p.2.isNull = true
      · rw [if_pos hp, List.filter_cons_of_neg (by simp [keepCol, hp])]; simp; omega
      · rw [if_neg hp, List.filter_cons_of_pos (by simpa [keepCol] using hp)]; simp; omega)
  rw [h1, ok_bind]
  rw [List.take_of_length_le (by omega)] at h2
  have hle := List.length_filter_le keepCol (x.2.zip x.1)
  by_cases hc : c = 0
  · rw [if_pos hc]
    have : (x.2.zip x.1).filter keepCol = x.2.zip x.1 := by
      rw [List.filter_eq_self]
      exact List.length_filter_eq_length_iff.1 (by omega)
    rw [this, List.map_snd_zip (by omega), List.map_fst_zip (by omega)]
  · rw [if_neg hc]
    have hcap : x.1.length - c = ((x.2.zip x.1).filter keepCol).length := by omega
    obtain ⟨s, h3, h4⟩ := Ret.forN (n := x.1.length)
      (s := ((List.replicate (x.1.length - c) NVal.null, List.replicate (x.1.length - c) (some []), 0) : List NVal × List Name × Nat))
      (f := fun i (s : List NVal × List Name × Nat) => do
        let col ← rd x.1 i
        if !col.isNull then do
          let out ← wr s.1 s.2.2 col
          let nm ← rd x.2 i
          let outNames ← wr s.2.1 s.2.2 nm
          .ok (out, outNames, s.2.2 + 1)
        else .ok s)
      (fun i s => s = bufOf (((x.2.zip x.1).take i).filter keepCol) (x.1.length - c)) (by simp [bufOf]) (by
        rintro i s hi rfl
        obtain ⟨p, g1, g2, g3⟩ := zip_get hl hi
        refine Ret.bind_eq g2 ?_
        rw [take_succ_of g1, List.filter_append]
        by_cases hp : p.2.isNull = true
        · rw [hp, List.filter_cons_of_neg (by simp [keepCol, hp])]
          simp only [Bool.not_true, Bool.false_eq_true, if_false, List.filter_nil, List.append_nil]
          exact Ret.ok rfl
        · have hp' : p.2.isNull = false := by simpa using hp
          rw [hp', List.filter_cons_of_pos (by simp [keepCol, hp'])]
          simp only [Bool.not_false, if_true, List.filter_nil]
          have hlt : (((x.2.zip x.1).take i).filter keepCol).length < x.1.length - c := by
            rw [hcap]
            have e := congrArg (fun l => (l.filter keepCol).length) (List.take_append_drop (i + 1) (x.2.zip x.1))
            simp only [List.filter_append, take_succ_of g1,
              List.filter_cons_of_pos (show keepCol p = true by simp [keepCol, hp']), List.length_append,
              List.length_cons, List.filter_nil, List.length_nil] at e
            omega
          obtain ⟨w1, w2⟩ := bufOf_put (p := p) hlt
          refine Ret.bind_eq w1 (Ret.bind_eq g3 (Ret.bind_eq w2 (Ret.ok ?_)))
          simp [bufOf])
    rw [h3, ok_bind]
    rw [List.take_of_length_le (by omega), hcap, bufOf_full] at h4
    subst h4
    rfl

/-! ## Unpacking -/

/-- Unnamed data frames are unpacked. -/
def flatTest (p : Name × NVal) : Bool := decide (p.1 = some []) && p.2.isDf

/-- The columns of an input. -/
def flatCol (p : Name × NVal) : List (Name × NVal) :=
  if flatTest p then
    match p.2 with
    | .df _ cn cols _ => cn.zip cols
    | _ => []
  else [p]

/-- A data frame has a name for every column. -/
def NamedCols (x : NVal) : Prop := ∀ m cn cols rn, x = .df m cn cols rn → cn.length = cols.length

theorem unpackTest_ok {x : NList} {i : Nat} {p : Name × NVal} (h2 : rd x.1 i = .ok p.2) (h3 : rd x.2 i = .ok p.1) :
    unpackTest x i = .ok (flatTest p) := by
  rw [unpackTest, h3, ok_bind]
  by_cases hp : p.1 = some []
  · rw [if_neg (by simp [hp]), h2, ok_bind]; simp [flatTest, hp]
  · rw [if_pos hp]; simp [flatTest, hp]

theorem flatCol_neg {p : Name × NVal} (h : flatTest p = false) : flatCol p = [p] := by simp [flatCol, h]

theorem flatCol_pos {p : Name × NVal} (h : flatTest p = true) (hc : NamedCols p.2) :
    ∃ m cn cols rn, p.2 = .df m cn cols rn ∧ cn.length = cols.length ∧ flatCol p = cn.zip cols := by
  obtain ⟨nm, v⟩ := p
  cases v with
  | null => simp [flatTest, NVal.isDf] at h
  | vec => simp [flatTest, NVal.isDf] at h
  | df m cn cols rn => exact ⟨m, cn, cols, rn, rfl, hc _ _ _ _ rfl, by rw [flatCol, if_pos h]⟩

theorem unpackCols_ok {cn : List Name} {cols : List NVal} (hl : cn.length = cols.length) {L : List (Name × NVal)}
    {tot : Nat} (h : L.length + cols.length ≤ tot) :
    unpackCols cn cols (bufOf L tot) = .ok (bufOf (L ++ cn.zip cols) tot) := by
  rw [unpackCols]
  obtain ⟨s, h1, h2⟩ := Ret.forN (n := cols.length) (s := bufOf L tot) (f := fun j (s : List NVal × List Name × Nat) => do
    let c ← rd cols j
    let out ← wr s.1 s.2.2 c
    let nm ← rd cn j
    let outNames ← wr s.2.1 s.2.2 nm
    .ok (out, outNames, s.2.2 + 1)) (fun j s => s = bufOf (L ++ (cn.zip cols).take j) tot) (by simp) (by
      rintro j s hj rfl
      obtain ⟨p, g1, g2, g3⟩ := zip_get (x := (cols, cn)) hl hj
      dsimp only at g1 g2 g3
      have hlt : (L ++ (cn.zip cols).take j).length < tot := by
        rw [List.length_append, List.length_take, List.length_zip]; omega
      obtain ⟨w1, w2⟩ := bufOf_put (p := p) hlt
      refine Ret.bind_eq g2 (Ret.bind_eq w1 (Ret.bind_eq g3 (Ret.bind_eq w2 (Ret.ok ?_))))
      rw [take_succ_of g1]
      simp only [bufOf, List.append_assoc, List.length_append, List.length_cons, List.length_nil]
      rfl)
  rw [h1, h2, List.take_of_length_le (by simp [hl])]

theorem dfListUnpack_ok {x : NList} (hl : x.2.length = x.1.length) (hc : ∀ v ∈ x.1, NamedCols v) :
    dfListUnpack x = .ok (((x.2.zip x.1).flatMap flatCol).map (·.2), ((x.2.zip x.1).flatMap flatCol).map (·.1)) := by
  have hz : (x.2.zip x.1).length = x.1.length := by simp [hl]
  have hcz : ∀ p ∈ x.2.zip x.1, NamedCols p.2 := fun p hp => hc _ (List.of_mem_zip hp).2
  -- the first input to be unpacked
  have hfirst : Ret (forBrk x.1.length (fun i (_ : Nat) => do
      let b ← unpackTest x i
      .ok (if b then .brk i else .next (i + 1))) 0) (fun i => i ≤ x.1.length ∧
        ∀ (k : Nat) p, k < i → (x.2.zip x.1)[k]? = some p → flatTest p = false) := by
    refine Ret.forBrk (fun i s => s = i ∧ ∀ (k : Nat) p, k < i → (x.2.zip x.1)[k]? = some p → flatTest p = false) _
      ⟨rfl, by omega⟩ ?_ ?_
    · rintro i s hi ⟨rfl, h2⟩
      obtain ⟨p, g1, g2, g3⟩ := zip_get hl hi
      refine Ret.bind_eq (unpackTest_ok g2 g3) (Ret.ok ?_)
      cases hp : flatTest p with
      | true => exact ⟨by omega, h2⟩
      | false =>
        refine ⟨rfl, ?_⟩
        intro k q hk hq
        by_cases hks : k = s
        · subst hks; rw [g1] at hq; cases hq; exact hp
        · exact h2 k q (by omega) hq
    · rintro s ⟨rfl, h2⟩
      exact ⟨Nat.le_refl _, h2⟩
  obtain ⟨i, h1, h2, h3⟩ := hfirst
  rw [dfListUnpack]
  dsimp only
  rw [h1, ok_bind]
  have hpre : ∀ k, k ≤ i → ((x.2.zip x.1).take k).flatMap flatCol = (x.2.zip x.1).take k := by
    intro k hk
    induction k with
    | zero => simp
    | succ k ih =>
      obtain ⟨p, g1, _⟩ := zip_get hl (i := k) (by omega)
      rw [take_succ_of g1, List.flatMap_append, ih (by omega)]
      simp [flatCol_neg (h3 k p (by omega) g1)]
  by_cases hin : i = x.1.length
  · rw [if_pos hin]
    have := hpre i (Nat.le_refl _)
    rw [List.take_of_length_le (by omega)] at this
    rw [this, List.map_snd_zip (by omega), List.map_fst_zip (by omega)]
  · rw [if_neg hin]
    have hcount := Ret.forFrom (f := unpackCount x) (i := i) (r := x.1.length - i) (s := (i, List.replicate x.1.length false))
      (fun j s => s.1 = (((x.2.zip x.1).take j).flatMap flatCol).length ∧ s.2.length = x.1.length ∧
        ∀ (k : Nat) p, (x.2.zip x.1)[k]? = some p → s.2[k]? = some (decide (k < j) && flatTest p)) ?_ ?_
    · obtain ⟨⟨width, flags⟩, g1, g2, g3, g4⟩ := hcount
      dsimp only at g2 g3 g4
      rw [show i + (x.1.length - i) = x.1.length by omega, List.take_of_length_le (by omega)] at g2
      rw [g1, ok_bind]
      dsimp only
      obtain ⟨s, g5, g6⟩ := Ret.forN (n := x.1.length) (f := unpackTurn x flags)
        (s := (List.replicate width .null, List.replicate width (some []), 0))
        (fun j s => s = bufOf (((x.2.zip x.1).take j).flatMap flatCol) width) (by simp [bufOf]) (by
          rintro j s hj rfl
          obtain ⟨p, f1, f2, f3⟩ := zip_get hl hj
          have hlt : (((x.2.zip x.1).take j).flatMap flatCol).length + (flatCol p).length ≤ width := by
            rw [g2]
            have e := congrArg (fun l => (l.flatMap flatCol).length) (List.take_append_drop (j + 1) (x.2.zip x.1))
            simp only [List.flatMap_append, take_succ_of f1, List.flatMap_cons, List.flatMap_nil, List.length_append,
              List.append_nil] at e
            omega
          rw [unpackTurn]
          refine Ret.bind_eq (rd_of_getElem? (g4 j p f1)) (Ret.bind_eq f2 ?_)
          rw [show decide (j < i + (x.1.length - i)) = true by simp; omega, Bool.true_and, take_succ_of f1,
            List.flatMap_append, List.flatMap_cons, List.flatMap_nil, List.append_nil]
          cases hp : flatTest p with
          | false =>
            simp only [Bool.not_false, if_true]
            rw [flatCol_neg hp] at hlt ⊢
            obtain ⟨w1, w2⟩ := bufOf_put (p := p) (L := ((x.2.zip x.1).take j).flatMap flatCol) (tot := width)
              (Nat.lt_of_succ_le hlt)
            refine Ret.bind_eq w1 (Ret.bind_eq f3 (Ret.bind_eq w2 (Ret.ok ?_)))
            simp only [bufOf, List.length_append, List.length_cons, List.length_nil]
          | true =>
            simp only [Bool.not_true, Bool.false_eq_true, if_false]
            obtain ⟨m, cn, cols, rn, e1, e2, e3⟩ := flatCol_pos hp (hcz p (List.mem_of_getElem? f1))
            rw [e1, unpackCol, e3]
            rw [e3, List.length_zip] at hlt
            exact Ret.of_eq (unpackCols_ok e2 (by omega)) rfl)
      rw [g5, ok_bind]
      rw [List.take_of_length_le (by omega), g2, bufOf_full] at g6
      subst g6
      rfl
    · refine ⟨?_, by simp, ?_⟩
      · rw [hpre i (Nat.le_refl _), List.length_take]; simp; omega
      · intro k p hk
        have := (List.getElem?_eq_some_iff.1 hk).1
        rw [List.getElem?_replicate, if_pos (by omega)]
        by_cases hki : k < i
        · rw [h3 k p hki hk]; simp
        · simp [hki]
    · rintro j ⟨w, fl⟩ hj1 hj2 ⟨g1, g2, g3⟩
      dsimp only at g1 g2 g3
      obtain ⟨p, f1, f2, f3⟩ := zip_get hl (i := j) (by omega)
      rw [unpackCount]
      refine Ret.bind_eq (unpackTest_ok f2 f3) ?_
      have key : ∀ k q, (x.2.zip x.1)[k]? = some q → k ≠ j →
          (decide (k < j + 1) && flatTest q) = (decide (k < j) && flatTest q) := by
        intro k q _ hk
        congr 1
        simp; omega
      rw [take_succ_of f1, List.flatMap_append, List.flatMap_cons, List.flatMap_nil, List.append_nil, List.length_append]
      cases hp : flatTest p with
      | false =>
        simp only [Bool.false_eq_true, if_false]
        refine Ret.ok ⟨by rw [flatCol_neg hp, ← g1]; rfl, g2, ?_⟩
        intro k q hq
        rw [g3 k q hq]
        by_cases hkj : k = j
        · subst hkj; rw [f1] at hq; cases hq; simp [hp]
        · rw [key k q hq hkj]
      | true =>
        simp only [if_true]
        obtain ⟨m, cn, cols, rn, e1, e2, e3⟩ := flatCol_pos hp (hcz p (List.mem_of_getElem? f1))
        refine Ret.bind_eq f2 (Ret.bind_eq (wr_ok (by omega)) (Ret.ok ⟨?_, by simpa using g2, ?_⟩))
        · rw [e1, e3, ← g1]; simp [NVal.width, e2]
        · intro k q hq
          dsimp only
          rw [getElem?_set' (by omega)]
          by_cases hkj : k = j
          · subst hkj; rw [f1] at hq; cases hq; simp [hp]
          · rw [if_neg hkj, key k q hq hkj]; exact g3 k q hq

/-! ## What the columns are -/

/-- The columns left by the two passes. -/
def finalCols (unpack : Bool) (ps : List (Name × NVal)) : List (Name × NVal) :=
  if unpack then (ps.filter keepCol).flatMap flatCol else ps.filter keepCol

theorem Spec.Recycled.kind {n : Nat} {x y : NVal} (h : Recycled n x y) :
    (∀ m cn cols rn, x = .df m cn cols rn → ∃ cn' cols' rn', y = .df n cn' cols' rn' ∧
      (cn.length = cols.length → cn'.length = cols'.length)) ∧
    ((∀ m cn cols rn, x ≠ .df m cn cols rn) → y.isDf = false) ∧ y.isNull = false := by
  rcases h with ⟨h1, rfl⟩ | ⟨h1, h2, h3⟩
  · cases y with
    | null => cases h1
    | vec => exact ⟨nofun, fun _ => rfl, rfl⟩
    | df m cn cols rn =>
      cases h1
      refine ⟨?_, fun h => absurd rfl (h _ _ _ _), rfl⟩
      intro m' cn' cols' rn' h
      cases h
      exact ⟨_, _, _, rfl, fun h => h⟩
  · cases h3 with
    | vec => exact ⟨nofun, fun _ => rfl, rfl⟩
    | df g1 g2 g3 =>
      refine ⟨?_, fun h => absurd rfl (h _ _ _ _), rfl⟩
      intro m' cn' cols' rn' h
      cases h
      exact ⟨_, _, _, by rw [List.length_replicate], fun h => by rw [g1, h]⟩

theorem columns_ok (n : Nat) (unpack : Bool) : ∀ (xs ys : List NVal) (nms : List Name), ys.length = xs.length →
    nms.length = xs.length → (∀ (i : Nat) x y, xs[i]? = some x → ys[i]? = some y → RecycledOr n x y) →
    Columns n unpack (nms.zip xs) (finalCols unpack (nms.zip ys)) := by
  intro xs
  induction xs with
  | nil =>
    intro ys nms h1 h2 _
    have : nms = [] := List.length_eq_zero_iff.1 h2
    subst this
    cases unpack <;> exact .nil
  | cons x xs ih =>
    intro ys nms h1 h2 h3
    obtain ⟨y, ys, rfl⟩ := List.exists_of_length_succ ys h1
    obtain ⟨nm, nms, rfl⟩ := List.exists_of_length_succ nms h2
    have hrest := ih ys nms (by simpa using h1) (by simpa using h2) (fun i a b ha hb => h3 (i + 1) a b (by simpa using ha) (by simpa using hb))
    rw [List.zip_cons_cons, List.zip_cons_cons]
    rcases h3 0 x y rfl rfl with ⟨rfl, rfl⟩ | hr
    · have e : finalCols unpack ((nm, NVal.null) :: nms.zip ys) = finalCols unpack (nms.zip ys) := by
        simp only [finalCols]
        rw [List.filter_cons_of_neg (by simp [keepCol, NVal.isNull])]
      rw [e]; exact .null hrest
    · obtain ⟨k1, k2, k3⟩ := hr.kind
      have hk : keepCol (nm, y) = true := by simp [keepCol, k3]
      cases unpack with
      | false =>
        have e : finalCols false ((nm, y) :: nms.zip ys) = (nm, y) :: finalCols false (nms.zip ys) := by
          simp only [finalCols, Bool.false_eq_true, if_false]
          rw [List.filter_cons_of_pos hk]
        rw [e]; exact .one (Or.inl rfl) hr hrest
      | true =>
        have e : finalCols true ((nm, y) :: nms.zip ys) = flatCol (nm, y) ++ finalCols true (nms.zip ys) := by
          simp only [finalCols, if_true]
          rw [List.filter_cons_of_pos hk, List.flatMap_cons]
        rw [e]
        by_cases hnm : nm = some []
        · cases x with
          | df m cn cols rn =>
            obtain ⟨cn', cols', rn', rfl, _⟩ := k1 _ _ _ _ rfl
            subst hnm
            exact .flat rfl hr hrest
          | null =>
            rw [flatCol_neg (by simp [flatTest, k2 nofun])]
            exact .one (Or.inr (Or.inr nofun)) hr hrest
          | vec =>
            rw [flatCol_neg (by simp [flatTest, k2 nofun])]
            exact .one (Or.inr (Or.inr nofun)) hr hrest
        · rw [flatCol_neg (by simp [flatTest, hnm])]
          exact .one (Or.inr (Or.inl hnm)) hr hrest

theorem namedCols_of_recycled {n : Nat} {x y : NVal} (hx : IsInput x) (h : RecycledOr n x y) : NamedCols y := by
  intro m cn cols rn hy
  subst hy
  rcases h with ⟨_, h⟩ | h
  · cases h
  · obtain ⟨k1, k2, _⟩ := h.kind
    cases x with
    | df m' cn' cols' rn' =>
      obtain ⟨cn'', cols'', rn'', h1, h2⟩ := k1 _ _ _ _ rfl
      cases h1
      refine h2 ?_
      rcases hx with hx | ⟨_, hx⟩
      · cases hx
      · cases hx with
        | df g1 _ _ => exact g1
    | null => have := k2 nofun; cases this
    | vec => have := k2 nofun; cases this

theorem vecAsNames_ok (h : Name → BitVec 32) {repair : NameRepair} {a : List Name} (ha : FitsRepair repair a) :
    Ret (vecAsNames h a repair) (Repaired repair a) := by
  cases repair with
  | none => exact Ret.ok rfl
  | minimal => exact asMinimalNames_ok a
  | unique => exact vecAsUniqueNames_ok h a ha.1 (short_base ha.2)

/-- The names of the inputs as the code completes them. -/
def namesOr (n : Nat) (names : Option (List Name)) : List Name :=
  match names with
  | none => List.replicate n (some [])
  | some nms => nms

theorem Spec.InputNames.eq {xs : List NVal} {names : Option (List Name)} {nms : List Name} (h : InputNames xs names nms) :
    namesOr xs.length names = nms ∧ ∀ l, names = some l → l.length = xs.length := by
  rcases h with ⟨rfl, h⟩ | ⟨rfl, rfl⟩
  · exact ⟨rfl, fun l hl => by cases hl; exact h⟩
  · exact ⟨rfl, nofun⟩

theorem dfList_ok (h : Name → BitVec 32) {xs : List NVal} {names : Option (List Name)} {n : Nat} {unpack : Bool}
    {repair : NameRepair} (hx : ∀ x ∈ xs, IsInput x) (hnm : ∀ l, names = some l → l.length = xs.length)
    (hn : n ≤ 2147483647) (hm : ∀ m ∈ xs.filterMap rowsOf, m = n ∨ m = 1)
    (hf : ∀ outs, Columns n unpack ((namesOr xs.length names).zip xs) outs → FitsRepair repair (outs.map (·.1))) :
    Ret (dfList h xs names n unpack repair) (fun r => ∃ outs,
      Columns n unpack ((namesOr xs.length names).zip xs) outs ∧ r.1 = outs.map (·.2) ∧
      Repaired repair (outs.map (·.1)) r.2) := by
  rw [dfList]
  refine Ret.bind (nvalRecycleAll_ok h hx hn hm) ?_
  rintro ys ⟨h1, h2⟩
  have hlen : (namesOr ys.length names).length = ys.length := by
    cases names with
    | none => simp [namesOr]
    | some l => simp only [namesOr]; rw [hnm l rfl, h1]
  have hcol := columns_ok n unpack xs ys (namesOr ys.length names) h1 (by rw [hlen, h1]) h2
  have hnamed : ∀ v ∈ ys, NamedCols v := by
    intro v hv
    obtain ⟨i, hi, rfl⟩ := List.getElem_of_mem hv
    have hi' : i < xs.length := by omega
    exact namedCols_of_recycled (hx _ (List.getElem_mem hi')) (h2 i _ _ (List.getElem?_eq_getElem hi') (List.getElem?_eq_getElem hi))
  have e1 := dfListDropNull_ok (x := (ys, namesOr ys.length names)) hlen
  refine Ret.bind_eq e1 ?_
  dsimp only
  have e2 : (if unpack = true then dfListUnpack ((((namesOr ys.length names).zip ys).filter keepCol).map (·.2),
      (((namesOr ys.length names).zip ys).filter keepCol).map (·.1)) else
      (.ok ((((namesOr ys.length names).zip ys).filter keepCol).map (·.2),
      (((namesOr ys.length names).zip ys).filter keepCol).map (·.1)) : C NList)) =
      .ok ((finalCols unpack ((namesOr ys.length names).zip ys)).map (·.2),
        (finalCols unpack ((namesOr ys.length names).zip ys)).map (·.1)) := by
    cases unpack with
    | false => rfl
    | true =>
      rw [if_pos rfl, dfListUnpack_ok (by simp)]
      · simp only [finalCols, if_true]
        rw [zip_fst_snd]
      · intro v hv
        obtain ⟨p, hp, rfl⟩ := List.mem_map.1 hv
        exact hnamed _ (List.of_mem_zip (List.mem_of_mem_filter hp)).2
  refine Ret.bind_eq e2 ?_
  rw [h1] at hcol ⊢
  refine Ret.bind (vecAsNames_ok h (hf _ hcol)) ?_
  intro nms' hr
  exact Ret.ok ⟨_, hcol, rfl, hr⟩

/-! ## The size -/

theorem argSizes_inputs (xs : List NVal) :
    argSizes ((xs.map (fun x => Dot.plain (sizeArg x))).flatMap Dot.flat) = xs.filterMap rowsOf := by
  induction xs with
  | nil => rfl
  | cons x xs ih =>
    simp only [argSizes, List.map_cons, List.flatMap_cons, Dot.flat, List.filterMap_append] at ih ⊢
    rw [ih]
    cases x with
    | null => rfl
    | vec t a nms => simp [sizeArg, Spec.rowsOf, NVal.size]
    | df m cn cols rn => simp [sizeArg, Spec.rowsOf, NVal.size]

theorem sizeOrCommon_ok {xs : List NVal} {size : Option Nat} {n : Nat} (h : RowCount xs size n) :
    sizeOrCommon xs size = .ok n := by
  have hs : Arg.scalar ∉ (xs.map (fun x => Dot.plain (sizeArg x))).flatMap Dot.flat := by
    intro hc
    simp only [List.mem_flatMap, List.mem_map] at hc
    obtain ⟨_, ⟨x, _, rfl⟩, hc⟩ := hc
    simp only [Dot.flat, List.mem_cons, List.not_mem_nil, or_false] at hc
    cases x <;> simp [sizeArg] at hc
  rcases h with rfl | ⟨rfl, h | ⟨h, rfl⟩⟩
  · rfl
  · exact (C01_size_common _ 0 hs).2.1 n (by rw [argSizes_inputs]; exact h)
  · exact (C01_size_common _ 0 hs).1 (by rw [argSizes_inputs]; exact h)

theorem sizeOrCommon_bad {xs : List NVal} (h : SizeConflict (xs.filterMap rowsOf)) :
    sizeOrCommon xs none = .error .abort := by
  have hs : Arg.scalar ∉ (xs.map (fun x => Dot.plain (sizeArg x))).flatMap Dot.flat := by
    intro hc
    simp only [List.mem_flatMap, List.mem_map] at hc
    obtain ⟨_, ⟨x, _, rfl⟩, hc⟩ := hc
    simp only [Dot.flat, List.mem_cons, List.not_mem_nil, or_false] at hc
    cases x <;> simp [sizeArg] at hc
  exact (C01_size_common _ 0 hs).2.2 (by rw [argSizes_inputs]; exact h)

end Vctrs
