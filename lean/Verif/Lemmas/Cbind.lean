import Verif.Lemmas.DfList

/-!
# Lemmas about vec_cbind()
-/

namespace Vctrs

open Spec

/-- Assigning to the first free places of a buffer. -/
theorem assignBase_next {α β : Type} {f : β → α} {L M : List β} {tot : Nat} {b : α}
    (h : L.length + M.length ≤ tot) :
    assignBase (L.map f ++ List.replicate (tot - L.length) b) (.seq L.length M.length 1) (M.map f) =
      .ok ((L ++ M).map f ++ List.replicate (tot - (L ++ M).length) b) := by
  simp only [assignBase]
  rw [assignCompact, if_neg (by simp)]
  obtain ⟨s, h1, h2⟩ := Ret.forN (n := M.length) (s := (L.map f ++ List.replicate (tot - L.length) b, (L.length : Int)))
    (f := fun i (s : List α × Int) => do
      let v ← rd (M.map f) i
      let out ← wrI s.1 s.2 v
      .ok (out, s.2 + 1))
    (fun i s => s = ((L ++ M.take i).map f ++ List.replicate (tot - (L ++ M.take i).length) b, ((L ++ M.take i).length : Int)))
    (by simp) (by
      rintro i s hi rfl
      have hm := List.getElem?_eq_getElem hi
      refine Ret.bind_eq (rd_of_getElem? (a := f M[i]) (by simp [hm])) ?_
      dsimp only
      have hlt : (L ++ M.take i).length < tot := by rw [List.length_append, List.length_take]; omega
      have hw : wrI ((L ++ M.take i).map f ++ List.replicate (tot - (L ++ M.take i).length) b)
          ((L ++ M.take i).length : Int) (f M[i]) =
          .ok ((L ++ M.take i ++ [M[i]]).map f ++ List.replicate (tot - (L ++ M.take i ++ [M[i]]).length) b) := by
        rw [wrI, if_neg (by omega), Int.toNat_natCast]
        exact wr_bufOf (f := f) (L := L ++ M.take i) (p := M[i]) hlt
      refine Ret.bind_eq hw (Ret.ok ?_)
      rw [take_succ_of hm, ← List.append_assoc, List.length_append (as := L ++ M.take i)]
      simp)
  rw [Int.toNat_natCast, h1, ok_bind, h2, List.take_of_length_le (Nat.le_refl _)]

/-- The outer name left after the conversion. -/
def outerLeft (nm : Name) (y : NVal) : Name := if y.isDf then nm else some []

theorem flatCol_df {m : Nat} {cn : List Name} {cols : List NVal} {rn : Option (List Name)} :
    flatCol (some [], .df m cn cols rn) = cn.zip cols := by simp [flatCol, flatTest, NVal.isDf]

theorem cbindPut_ok {nm : Name} {y : NVal} {d : CbindCol} (hd : asDfCol y nm = .ok d) (hc : NamedCols y)
    {L : List (Name × NVal)} {tot : Nat} (h : L.length + (flatCol (nm, y)).length ≤ tot) :
    cbindPut (outerLeft nm y) d (bufOf L tot) = .ok (bufOf (L ++ flatCol (nm, y)) tot) := by
  cases y with
  | null => cases hd
  | vec t xs nms =>
    cases hd
    rw [flatCol_neg (by simp [flatTest, NVal.isDf])] at h ⊢
    simp only [outerLeft, NVal.isDf, Bool.false_eq_true, if_false, cbindPut, ne_eq, not_true_eq_false, if_neg]
    dsimp only [bufOf]
    have h1 := assignBase_next (f := fun q : Name × NVal => q.2) (b := NVal.null) h
    have h2 := assignBase_next (f := fun q : Name × NVal => q.1) (b := some []) h
    simp only [List.map_cons, List.map_nil] at h1 h2
    refine bind_eq_of h1 ?_
    by_cases hnm : nm = some []
    · subst hnm
      simp only [not_true_eq_false, if_false, cbindNames, ok_bind]
      rw [show tot - L.length = (tot - (L.length + 1)) + 1 by simp at h; omega, List.replicate_succ]
      simp
    · simp only [hnm, not_false_eq_true, if_true, cbindNames]
      refine bind_eq_of h2 ?_
      simp
  | df m cn cols rn =>
    cases hd
    have hcl := hc _ _ _ _ rfl
    by_cases hnm : nm = some []
    · subst hnm
      rw [flatCol_df] at h ⊢
      have h1 := assignBase_next (f := fun q : Name × NVal => q.2) (b := NVal.null) h
      have h2 := assignBase_next (f := fun q : Name × NVal => q.1) (b := some []) h
      rw [List.map_snd_zip (by omega)] at h1
      rw [List.map_fst_zip (by omega)] at h2
      have e : (cn.zip cols).length = cols.length := by rw [List.length_zip]; omega
      rw [e] at h1 h2
      simp only [outerLeft, NVal.isDf, if_true, cbindPut, ne_eq, not_true_eq_false, if_false]
      refine bind_eq_of h1 (bind_eq_of h2 ?_)
      simp [bufOf, hcl]
    · rw [flatCol_neg (by simp [flatTest, hnm])] at h ⊢
      simp only [outerLeft, NVal.isDf, if_true, cbindPut, ne_eq, hnm, not_false_eq_true]
      obtain ⟨w1, w2⟩ := bufOf_put (p := (nm, NVal.df m cn cols rn)) (Nat.lt_of_succ_le h)
      refine bind_eq_of w1 (bind_eq_of w2 ?_)
      simp [bufOf]

/-- What `as_df_col` counts. -/
theorem asDfCol_ok {nm : Name} {y : NVal} (hy : y.isNull = false) (hc : NamedCols y) :
    ∃ d, asDfCol y nm = .ok d ∧ d.allowPack = y.isDf ∧
      (if nm = some [] then d.cols.length else 1) = (flatCol (nm, y)).length := by
  cases y with
  | null => cases hy
  | vec t xs nms =>
    refine ⟨_, rfl, rfl, ?_⟩
    rw [flatCol_neg (by simp [flatTest, NVal.isDf])]
    split <;> rfl
  | df m cn cols rn =>
    refine ⟨_, rfl, rfl, ?_⟩
    have hcl := hc _ _ _ _ rfl
    by_cases hnm : nm = some []
    · subst hnm
      rw [if_pos rfl, flatCol_df, List.length_zip]; dsimp only; omega
    · rw [if_neg hnm, flatCol_neg (by simp [flatTest, hnm])]; rfl

/-! ## The conversion loop -/

/-- After `i` turns of the conversion loop: `ys` are the recycled inputs. -/
structure Converted (n : Nat) (xs : List NVal) (nms : List Name) (ys : List NVal) (s : CbindState) : Prop where
  le : ys.length ≤ xs.length
  conv_len : s.conv.length = xs.length
  recd : ∀ (k : Nat) x y, xs[k]? = some x → ys[k]? = some y → RecycledOr n x y
  empty : ∀ k : Nat, k < xs.length → (ys.length ≤ k ∨ ys[k]? = some .null) → s.conv[k]? = some none
  full : ∀ (k : Nat) y nm, ys[k]? = some y → nms[k]? = some nm → y.isNull = false →
    ∃ d, asDfCol y nm = .ok d ∧ s.conv[k]? = some (some d) ∧ outerName s.outer k = .ok (outerLeft nm y)
  left : ∀ (k : Nat) nm, ys.length ≤ k → nms[k]? = some nm → outerName s.outer k = .ok nm
  ncol : s.ncol = (finalCols true (nms.zip ys)).length

theorem pokeEmpty_ok {o : Option (List Name)} {i n : Nat} (hi : i < n) (ho : ∀ l, o = some l → l.length = n) :
    ∃ o', pokeEmpty o i = .ok o' ∧ (∀ l, o' = some l → l.length = n) ∧ outerName o' i = .ok (some []) ∧
      ∀ k, k ≠ i → outerName o' k = outerName o k := by
  cases o with
  | none => exact ⟨none, rfl, nofun, rfl, fun _ _ => rfl⟩
  | some l =>
    have hl := ho l rfl
    refine ⟨some (l.set i (some [])), ?_, ?_, ?_, ?_⟩
    · rw [pokeEmpty, wr_ok (by omega)]; rfl
    · intro l' hl'; cases hl'; simpa using hl
    · exact rd_of_getElem? (by rw [getElem?_set' (by omega), if_pos rfl])
    · intro k hk
      simp only [outerName, rd]
      rw [getElem?_set' (by omega), if_neg hk]

theorem zip_snoc {nms : List Name} {ys : List NVal} {nm : Name} {y : NVal} (h : nms[ys.length]? = some nm) :
    nms.zip (ys ++ [y]) = nms.zip ys ++ [(nm, y)] := by
  induction ys generalizing nms with
  | nil =>
    cases nms with
    | nil => simp at h
    | cons a nms => simp at h; simp [h]
  | cons z ys ih =>
    cases nms with
    | nil => simp at h
    | cons a nms =>
      simp only [List.length_cons, List.getElem?_cons_succ] at h
      simp [ih h]

theorem finalCols_snoc (ps : List (Name × NVal)) (p : Name × NVal) :
    finalCols true (ps ++ [p]) = finalCols true ps ++ (if p.2.isNull then [] else flatCol p) := by
  simp only [finalCols, if_true, List.filter_append, List.flatMap_append]
  congr 1
  by_cases hp : p.2.isNull = true
  · rw [List.filter_cons_of_neg (by simp [keepCol, hp]), if_pos hp]; rfl
  · rw [List.filter_cons_of_pos (by simpa [keepCol] using hp), if_neg hp]; simp

theorem getElem?_snoc {α : Type} {l : List α} {a b : α} {k : Nat} (h : (l ++ [a])[k]? = some b) :
    (k < l.length ∧ l[k]? = some b) ∨ (k = l.length ∧ b = a) := by
  rw [List.getElem?_append] at h
  split at h
  · rename_i hk; exact Or.inl ⟨hk, h⟩
  · rename_i hk
    have : k - l.length = 0 := by
      have := (List.getElem?_eq_some_iff.1 h).1
      simp at this; omega
    rw [this] at h
    simp at h
    exact Or.inr ⟨by omega, h.symm⟩

theorem cbindConvert_ok (h : Name → BitVec 32) {n : Nat} {xs : List NVal} {nms : List Name} {ys : List NVal}
    {s : CbindState} (hnm : nms.length = xs.length) (hc : Converted n xs nms ys s)
    (ho : ∀ l, s.outer = some l → l.length = xs.length) {x : NVal} (hx : xs[ys.length]? = some x) (hin : IsInput x)
    (hn : n ≤ 2147483647) (hm : ∀ m, rowsOf x = some m → m = n ∨ m = 1) :
    ∃ y s', cbindConvert h xs n ys.length s = .ok s' ∧ Converted n xs nms (ys ++ [y]) s' ∧
      ∀ l, s'.outer = some l → l.length = xs.length := by
  have hlt := (List.getElem?_eq_some_iff.1 hx).1
  obtain ⟨nm, hnmi⟩ : ∃ nm, nms[ys.length]? = some nm := ⟨_, List.getElem?_eq_getElem (by omega)⟩
  have hrec : ∀ y, RecycledOr n x y → ∀ (k : Nat) x' y', xs[k]? = some x' → (ys ++ [y])[k]? = some y' →
      RecycledOr n x' y' := by
    intro y hy k x' y' hx' hy'
    rcases getElem?_snoc hy' with ⟨_, h2⟩ | ⟨rfl, rfl⟩
    · exact hc.recd k x' y' hx' h2
    · rw [hx] at hx'; cases hx'; exact hy
  by_cases hnull : x.isNull = true
  · have hxn : x = .null := by cases x <;> simp [NVal.isNull] at hnull; rfl
    subst hxn
    refine ⟨.null, s, ?_, ⟨by simp; omega, hc.conv_len, hrec _ (Or.inl ⟨rfl, rfl⟩), ?_, ?_, ?_, ?_⟩, ho⟩
    · rw [cbindConvert, rd_of_getElem? hx, ok_bind, if_pos hnull]
    · intro k hk hk2
      refine hc.empty k hk ?_
      by_cases hlk : ys.length ≤ k
      · exact Or.inl hlk
      · refine Or.inr ?_
        rcases hk2 with h2 | h2
        · simp at h2; omega
        · rwa [List.getElem?_append_left (by omega)] at h2
    · intro k y nm' hy hnm' hyn
      rcases getElem?_snoc hy with ⟨_, h2⟩ | ⟨rfl, rfl⟩
      · exact hc.full k y nm' h2 hnm' hyn
      · cases hyn
    · intro k nm' hk hnm'
      exact hc.left k nm' (by simp at hk; omega) hnm'
    · rw [hc.ncol, zip_snoc hnmi, finalCols_snoc]; simp [NVal.isNull]
  · obtain ⟨y, hy, hry⟩ := nvalRecycle_input h hin hn hm
    have hyn : y.isNull = false := by
      rcases hry with ⟨rfl, _⟩ | hr
      · exact absurd rfl hnull
      · exact hr.kind.2.2
    obtain ⟨d, hd1, hd2, hd3⟩ := asDfCol_ok (nm := nm) hyn (namedCols_of_recycled hin hry)
    have hout := hc.left ys.length nm (Nat.le_refl _) hnmi
    have hpoke : ∃ o', (if !d.allowPack then pokeEmpty s.outer ys.length else .ok s.outer : C (Option (List Name))) = .ok o' ∧
        (∀ l, o' = some l → l.length = xs.length) ∧ outerName o' ys.length = .ok (outerLeft nm y) ∧
        ∀ k, k ≠ ys.length → outerName o' k = outerName s.outer k := by
      rw [hd2]
      cases hdf : y.isDf with
      | true => exact ⟨s.outer, rfl, ho, by rw [hout, outerLeft, hdf]; rfl, fun _ _ => rfl⟩
      | false =>
        obtain ⟨o', g1, g2, g3, g4⟩ := pokeEmpty_ok hlt ho
        exact ⟨o', by simpa using g1, g2, by rw [g3, outerLeft, hdf]; rfl, g4⟩
    obtain ⟨o', g1, g2, g3, g4⟩ := hpoke
    have hcl : ys.length < s.conv.length := by rw [hc.conv_len]; exact hlt
    refine ⟨y, ⟨s.conv.set ys.length (some d), o', s.ncol + (flatCol (nm, y)).length⟩, ?_,
      ⟨by simp; omega, by simpa using hc.conv_len, hrec y hry, ?_, ?_, ?_, ?_⟩, g2⟩
    · rw [cbindConvert, rd_of_getElem? hx, ok_bind, if_neg hnull]
      refine bind_eq_of hy (bind_eq_of hout (bind_eq_of hd1 (bind_eq_of g1 (bind_eq_of (wr_ok hcl) ?_))))
      rw [hd3]
    · intro k hk hk2
      dsimp only
      have hne : k ≠ ys.length := by
        rintro rfl
        rcases hk2 with h2 | h2
        · simp at h2
        · rw [List.getElem?_append_right (Nat.le_refl _)] at h2
          simp at h2; subst h2; cases hyn
      rw [getElem?_set' hcl, if_neg hne]
      refine hc.empty k hk ?_
      by_cases hlk : ys.length ≤ k
      · exact Or.inl hlk
      · refine Or.inr ?_
        rcases hk2 with h2 | h2
        · simp at h2; omega
        · rwa [List.getElem?_append_left (by omega)] at h2
    · intro k y' nm' hy' hnm' hyn'
      dsimp only
      rcases getElem?_snoc hy' with ⟨hk, h2⟩ | ⟨rfl, rfl⟩
      · rw [getElem?_set' hcl, if_neg (by omega), g4 k (by omega)]
        exact hc.full k y' nm' h2 hnm' hyn'
      · rw [hnmi] at hnm'; cases hnm'
        rw [getElem?_set' hcl, if_pos rfl]
        exact ⟨d, hd1, rfl, g3⟩
    · intro k nm' hk hnm'
      dsimp only
      simp at hk
      rw [g4 k (by omega)]
      exact hc.left k nm' (by omega) hnm'
    · dsimp only
      rw [hc.ncol, zip_snoc hnmi, finalCols_snoc]; simp [hyn]

theorem converted_start {n : Nat} {xs : List NVal} {names : Option (List Name)} {nms : List Name}
    (hnm : InputNames xs names nms) : Converted n xs nms [] ⟨List.replicate xs.length none, names, 0⟩ := by
  refine ⟨by simp, by simp, by simp, ?_, by simp, ?_, by simp [finalCols]⟩
  · intro k hk _
    simp [hk]
  · intro k nm _ hk
    rcases hnm with ⟨rfl, _⟩ | ⟨rfl, rfl⟩
    · exact rd_of_getElem? hk
    · have := List.mem_of_getElem? hk
      rw [List.eq_of_mem_replicate this]; rfl

/-- The loop invariant as a function of the turn. -/
def ConvertedAt (n : Nat) (xs : List NVal) (nms : List Name) (i : Nat) (s : CbindState) : Prop :=
  (∀ l, s.outer = some l → l.length = xs.length) ∧ ∃ ys, ys.length = i ∧ Converted n xs nms ys s

theorem cbindLoop_ok (h : Name → BitVec 32) {n : Nat} {xs : List NVal} {names : Option (List Name)} {nms : List Name}
    (hnm : InputNames xs names nms) (hx : ∀ x ∈ xs, IsInput x) (hn : n ≤ 2147483647)
    (hm : ∀ m ∈ xs.filterMap rowsOf, m = n ∨ m = 1) :
    Ret (forN xs.length (cbindConvert h xs n) ⟨List.replicate xs.length none, names, 0⟩)
      (ConvertedAt n xs nms xs.length) := by
  have hl : nms.length = xs.length := by
    rcases hnm with ⟨_, h⟩ | ⟨_, rfl⟩
    · exact h
    · simp
  refine Ret.forN (ConvertedAt n xs nms) ⟨hnm.eq.2, [], rfl, converted_start hnm⟩ ?_
  rintro i s hi ⟨h1, ys, rfl, h2⟩
  obtain ⟨y, s', h3, h4, h5⟩ := cbindConvert_ok h hl h2 h1 (List.getElem?_eq_getElem hi) (hx _ (List.getElem_mem hi)) hn
    (fun m hm' => hm m (List.mem_filterMap.2 ⟨_, List.getElem_mem hi, hm'⟩))
  exact ⟨s', h3, h5, ys ++ [y], by simp, h4⟩

theorem cbindLoop_bad (h : Name → BitVec 32) {n : Nat} {xs : List NVal} {names : Option (List Name)} {nms : List Name}
    (hnm : InputNames xs names nms) (hx : ∀ x ∈ xs, IsInput x) (hn : n ≤ 2147483647)
    (hm : ∃ m ∈ xs.filterMap rowsOf, m ≠ n ∧ m ≠ 1) :
    forN xs.length (cbindConvert h xs n) ⟨List.replicate xs.length none, names, 0⟩ = .error .abort := by
  have hl : nms.length = xs.length := by
    rcases hnm with ⟨_, h⟩ | ⟨_, rfl⟩
    · exact h
    · simp
  classical
  have hex : ∃ k : Nat, ∃ x m, xs[k]? = some x ∧ rowsOf x = some m ∧ m ≠ n ∧ m ≠ 1 := by
    obtain ⟨m, h1, h2⟩ := hm
    obtain ⟨x, h3, h4⟩ := List.mem_filterMap.1 h1
    obtain ⟨k, hk, rfl⟩ := List.getElem_of_mem h3
    exact ⟨k, _, m, List.getElem?_eq_getElem hk, h4, h2⟩
  obtain ⟨x, m, h1, h2, h3⟩ := Nat.find_spec hex
  have hmin := fun k (hk : k < Nat.find hex) => Nat.find_min hex hk
  generalize Nat.find hex = k at h1 hmin
  have hk := (List.getElem?_eq_some_iff.1 h1).1
  refine forN_err (k := k) (ConvertedAt n xs nms) hk ⟨hnm.eq.2, [], rfl, converted_start hnm⟩ ?_ ?_
  · rintro i s hi ⟨g1, ys, rfl, g2⟩
    have hi' : ys.length < xs.length := by omega
    obtain ⟨y, s', h3, h4, h5⟩ := cbindConvert_ok h hl g2 g1 (List.getElem?_eq_getElem hi') (hx _ (List.getElem_mem hi')) hn
      (fun m' hm' => by
        by_contra hc
        exact hmin _ hi ⟨_, m', List.getElem?_eq_getElem hi', hm', by omega⟩)
    exact ⟨s', h3, h5, ys ++ [y], by simp, h4⟩
  · rintro s ⟨g1, ys, rfl, g2⟩
    rcases hx x (List.mem_of_getElem? h1) with rfl | ⟨m', hx'⟩
    · cases h2
    · rw [hx'.rowsOf] at h2; cases h2
      rw [cbindConvert, rd_of_getElem? h1, ok_bind, if_neg (by simp [hx'.notNull]), nvalRecycle_bad h hx' h3]; rfl

/-! ## The filling loop -/

theorem cbindFill_ok {n : Nat} {xs : List NVal} {nms : List Name} {ys : List NVal} {c : CbindState}
    (hx : ∀ x ∈ xs, IsInput x) (hl : nms.length = xs.length) (hc : Converted n xs nms ys c) (hy : ys.length = xs.length) :
    forN xs.length (cbindFill c) (List.replicate c.ncol .null, List.replicate c.ncol (some []), 0) =
      .ok ((finalCols true (nms.zip ys)).map (·.2), (finalCols true (nms.zip ys)).map (·.1),
        (finalCols true (nms.zip ys)).length) := by
  have hz : (nms.zip ys).length = xs.length := by rw [List.length_zip]; omega
  obtain ⟨s, h1, h2⟩ := Ret.forN (n := xs.length) (f := cbindFill c)
    (s := (List.replicate c.ncol NVal.null, List.replicate c.ncol (some []), 0))
    (fun i s => s = bufOf (finalCols true ((nms.zip ys).take i)) c.ncol) (by simp [bufOf, finalCols]) (by
      rintro i s hi rfl
      obtain ⟨y, hyi⟩ : ∃ y, ys[i]? = some y := ⟨_, List.getElem?_eq_getElem (by omega)⟩
      obtain ⟨nm, hni⟩ : ∃ nm, nms[i]? = some nm := ⟨_, List.getElem?_eq_getElem (by omega)⟩
      have hp : (nms.zip ys)[i]? = some (nm, y) := by rw [List.getElem?_zip_eq_some]; exact ⟨hni, hyi⟩
      rw [take_succ_of hp, finalCols_snoc]
      have hnc : (finalCols true ((nms.zip ys).take i)).length + (if y.isNull then [] else flatCol (nm, y)).length ≤ c.ncol := by
        rw [hc.ncol]
        have e := congrArg (fun l => (finalCols true l).length) (List.take_append_drop (i + 1) (nms.zip ys))
        have e2 : ∀ a b : List (Name × NVal), finalCols true (a ++ b) = finalCols true a ++ finalCols true b := by
          intro a b; simp [finalCols]
        have e3 : finalCols true [(nm, y)] = if y.isNull then [] else flatCol (nm, y) := finalCols_snoc [] (nm, y)
        simp only [e2, take_succ_of hp, e3, List.length_append] at e
        omega
      rw [cbindFill]
      cases hyn : y.isNull with
      | true =>
        have : y = .null := by cases y <;> simp [NVal.isNull] at hyn; rfl
        subst this
        refine Ret.bind_eq (rd_of_getElem? (hc.empty i hi (Or.inr hyi))) ?_
        exact Ret.ok (by simp)
      | false =>
        obtain ⟨d, g1, g2, g3⟩ := hc.full i y nm hyi hni hyn
        refine Ret.bind_eq (rd_of_getElem? g2) ?_
        refine Ret.bind_eq g3 ?_
        rw [hyn] at hnc
        refine Ret.of_eq (cbindPut_ok g1 ?_ (by simpa using hnc)) (by simp)
        have hxi := List.getElem?_eq_getElem hi
        exact namedCols_of_recycled (hx _ (List.getElem_mem hi)) (hc.recd i _ _ hxi hyi))
  rw [h1, h2, List.take_of_length_le (by omega), hc.ncol, bufOf_full]

/-! ## Row names -/

/-- Row names found so far. -/
def FirstRowNames (xs : List NVal) (rn : Option (List Name)) : Prop :=
  (NoRowNames xs ∧ rn = none) ∨
  ∃ pre m cn cols l post, xs = pre ++ .df m cn cols (some l) :: post ∧ NoRowNames pre ∧ rn = some l

theorem cbindRownames_ok (xs : List NVal) : Ret (cbindRownames xs) (FirstRowNames xs) := by
  rw [cbindRownames]
  refine (Ret.forN (fun i rn => FirstRowNames (xs.take i) rn) (Or.inl ⟨by simp [NoRowNames], rfl⟩) ?_).mono ?_
  · intro i rn hi hI
    have hxi := List.getElem?_eq_getElem hi
    refine Ret.bind_eq (rd_of_getElem? hxi) (Ret.ok ?_)
    rw [take_succ_of hxi]
    rcases hI with ⟨h1, rfl⟩ | ⟨pre, m, cn, cols, l, post, h1, h2, rfl⟩
    · generalize xs[i] = x
      cases x with
      | null =>
        refine Or.inl ⟨?_, rfl⟩
        intro x hx
        rcases List.mem_append.1 hx with hx | hx
        · exact h1 x hx
        · simp at hx; subst hx; nofun
      | vec =>
        refine Or.inl ⟨?_, rfl⟩
        intro x hx
        rcases List.mem_append.1 hx with hx | hx
        · exact h1 x hx
        · simp at hx; subst hx; nofun
      | df m cn cols rn =>
        cases rn with
        | none =>
          refine Or.inl ⟨?_, rfl⟩
          intro x hx
          rcases List.mem_append.1 hx with hx | hx
          · exact h1 x hx
          · simp at hx; subst hx
            intro m' cn' cols' rn' he; cases he; rfl
        | some l => exact Or.inr ⟨_, m, cn, cols, l, [], rfl, h1, rfl⟩
    · refine Or.inr ⟨pre, m, cn, cols, l, post ++ [xs[i]], by rw [h1]; simp, h2, ?_⟩
      simp
  · intro rn h
    rwa [List.take_of_length_le (Nat.le_refl _)] at h

theorem cbindRows_ok (h : Name → BitVec 32) {n : Nat} {xs : List NVal} {rn : Option (List Name)}
    (hf : FirstRowNames xs rn) (hx : ∀ x ∈ xs, IsInput x) (hn : n ≤ 2147483647)
    (hm : ∀ m ∈ xs.filterMap rowsOf, m = n ∨ m = 1) :
    ∃ a b, cbindRecycleRownames h rn n = .ok a ∧ restoreRownames h a = .ok b ∧ BoundRowNames n xs b := by
  rcases hf with ⟨h1, rfl⟩ | ⟨pre, m, cn, cols, l, post, h1, h2, rfl⟩
  · exact ⟨none, none, rfl, rfl, Or.inl ⟨h1, rfl⟩⟩
  · have hmem : NVal.df m cn cols (some l) ∈ xs := by rw [h1]; simp
    have hmm := hm m (List.mem_filterMap.2 ⟨_, hmem, rfl⟩)
    obtain ⟨hl1, hl2⟩ : l.length = m ∧ ∀ s, some s ∈ l → s.length ≤ 2147483619 := by
      rcases hx _ hmem with hx | ⟨k, hx⟩
      · cases hx
      · cases hx with
        | df _ _ g3 => exact g3 l rfl
    by_cases hmn : m = n
    · obtain ⟨c, h3, h4⟩ := vecAsUniqueNames_ok h l (by omega) (short_base hl2)
      refine ⟨some l, some c, ?_, ?_, Or.inr ⟨pre, m, cn, cols, l, post, c, h1, h2, rfl, Or.inl ⟨hmn, h4⟩⟩⟩
      · rw [cbindRecycleRownames, if_pos (by omega)]
      · simp only [restoreRownames, h3, ok_bind]
    · have hm1 : m = 1 := by omega
      obtain ⟨nm, rfl⟩ := List.length_eq_one_iff.1 (hl1.trans hm1)
      obtain ⟨c, d, h3, h4, h5, h6⟩ := uniqueNames_twice h (b := List.replicate n nm) (by simpa using hn)
        (short_base (fun s hs => hl2 s (by rw [List.eq_of_mem_replicate hs]; simp)))
      refine ⟨some c, some d, ?_, ?_, Or.inr ⟨pre, m, cn, cols, [nm], post, d, h1, h2, rfl,
        Or.inr ⟨hm1, by omega, nm, c, rfl, h5, h6⟩⟩⟩
      · rw [cbindRecycleRownames, if_neg (by omega), vecCheckRecycle_ok]
        simp only [ok_bind, h3]
      · simp only [restoreRownames, h4, ok_bind]

theorem vecCbind_ok (h : Name → BitVec 32) {xs : List NVal} {names : Option (List Name)} {nms : List Name}
    {size : Option Nat} {n : Nat} {repair : NameRepair} (hx : ∀ x ∈ xs, IsInput x) (hnm : InputNames xs names nms)
    (hs : RowCount xs size n) (hn : n ≤ 2147483647) (hm : ∀ m ∈ xs.filterMap rowsOf, m = n ∨ m = 1)
    (hf : ∀ outs, Columns n true (nms.zip xs) outs → FitsRepair repair (outs.map (·.1))) :
    ∃ cols cn rn outs, vecCbind h xs names size repair = .ok (.df n cn cols rn) ∧
      Columns n true (nms.zip xs) outs ∧ cols = outs.map (·.2) ∧ Repaired repair (outs.map (·.1)) cn ∧
      BoundRowNames n xs rn := by
  have hl : nms.length = xs.length := by
    rcases hnm with ⟨_, h⟩ | ⟨_, rfl⟩
    · exact h
    · simp
  obtain ⟨rn, h1, h2⟩ := cbindRownames_ok xs
  obtain ⟨a, b, h3, h4, h5⟩ := cbindRows_ok h h2 hx hn hm
  obtain ⟨c, h6, _, ys, h7, h8⟩ := cbindLoop_ok h hnm hx hn hm
  have h9 := cbindFill_ok hx hl h8 h7
  have hcol := columns_ok n true xs ys nms h7 hl h8.recd
  obtain ⟨cn, h10, h11⟩ := vecAsNames_ok h (hf _ hcol)
  refine ⟨_, cn, b, _, ?_, hcol, rfl, h11, h5⟩
  rw [vecCbind, h1, ok_bind, sizeOrCommon_ok hs, ok_bind, h3, ok_bind, h6, ok_bind, h9, ok_bind]
  dsimp only
  rw [h10, ok_bind, h4, ok_bind, Int.toNat_natCast]

theorem vecCbind_bad (h : Name → BitVec 32) {xs : List NVal} {names : Option (List Name)} {nms : List Name}
    {size : Option Nat} {repair : NameRepair} (hx : ∀ x ∈ xs, IsInput x) (hnm : InputNames xs names nms)
    (hb : (size = none ∧ SizeConflict (xs.filterMap rowsOf)) ∨
      ∃ n, size = some n ∧ n ≤ 2147483647 ∧ ∃ m ∈ xs.filterMap rowsOf, m ≠ n ∧ m ≠ 1) :
    vecCbind h xs names size repair = .error .abort := by
  obtain ⟨rn, h1, h2⟩ := cbindRownames_ok xs
  rw [vecCbind, h1, ok_bind]
  rcases hb with ⟨rfl, hb⟩ | ⟨n, rfl, hn, hb⟩
  · rw [sizeOrCommon_bad hb]; rfl
  · rw [sizeOrCommon, ok_bind]
    have hrows : (∃ a, cbindRecycleRownames h rn n = .ok a) ∨ cbindRecycleRownames h rn n = .error .abort := by
      rcases h2 with ⟨_, rfl⟩ | ⟨pre, m, cn, cols, l, post, h3, h4, rfl⟩
      · exact Or.inl ⟨_, rfl⟩
      · have hmem : NVal.df m cn cols (some l) ∈ xs := by rw [h3]; simp
        obtain ⟨hl1, hl2⟩ : l.length = m ∧ ∀ s, some s ∈ l → s.length ≤ 2147483619 := by
          rcases hx _ hmem with hx | ⟨k, hx⟩
          · cases hx
          · cases hx with
            | df _ _ g3 => exact g3 l rfl
        rw [cbindRecycleRownames]
        by_cases hmn : (l.length : Int) = n
        · rw [if_pos hmn]; exact Or.inl ⟨_, rfl⟩
        · rw [if_neg hmn, vecCheckRecycle_ok]
          split
          · rename_i nm
            obtain ⟨c, h5, _⟩ := vecAsUniqueNames_ok h (List.replicate n nm) (by simpa using hn)
              (short_base (fun s hs => hl2 s (by rw [List.eq_of_mem_replicate hs]; simp)))
            left
            simp only [ok_bind, h5]
            exact ⟨_, rfl⟩
          · rw [if_neg (by omega)]; exact Or.inr rfl
    rcases hrows with ⟨a, h3⟩ | h3
    · rw [h3, ok_bind, cbindLoop_bad h hnm hx hn hb]; rfl
    · rw [h3]; rfl

end Vctrs
