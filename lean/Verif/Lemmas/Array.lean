import Verif.Lemmas.Rep
import Verif.Model.Array
import Verif.Spec

namespace Vctrs

open Spec

variable {α : Type}

theorem chkNat_ok {n : Nat} (h : n ≤ intMax) : chkNat n = .ok n := by
  unfold chkNat; rw [if_neg (by omega)]

theorem chkInt_ok {n : Int} (h1 : n ≤ (intMax : Int)) (h2 : naInt ≤ n) : chkInt n = .ok n := by
  unfold chkInt; rw [if_neg (by omega), if_neg (by omega)]

theorem rdI_nat {l : List α} {k : Nat} (h : k < l.length) : rdI l (k : Int) = .ok l[k] := by
  have := rdI_ok (l := l) (i := (k : Int)) (a := l[k]) (by omega) (by simp [h])
  exact this

theorem validIndex_length : ∀ {ds js : List Nat}, ValidIndex ds js → js.length = ds.length := by
  intro ds
  induction ds with
  | nil => intro js h; cases js with
    | nil => rfl
    | cons => exact h.elim
  | cons d ds ih => intro js h; cases js with
    | nil => exact h.elim
    | cons j js => simp [ih h.2]

theorem validIndex_get : ∀ {ds js : List Nat}, ValidIndex ds js → ∀ (i : Nat) d j, ds[i]? = some d →
    js[i]? = some j → j < d := by
  intro ds
  induction ds with
  | nil => intro js _ i d j h; simp at h
  | cons d ds ih =>
    intro js h i d' j' h1 h2
    cases js with
    | nil => simp at h2
    | cons j js =>
      cases i with
      | zero => simp at h1 h2; subst h1 h2; exact h.1
      | succ i => exact ih h.2 i d' j' (by simpa using h1) (by simpa using h2)

theorem offset_lt : ∀ {ds js : List Nat}, ValidIndex ds js → arrayOffset ds js < ds.prod := by
  intro ds
  induction ds with
  | nil => intro js h; cases js with
    | nil => simp [arrayOffset]
    | cons => exact h.elim
  | cons d ds ih =>
    intro js h
    cases js with
    | nil => exact h.elim
    | cons j js =>
      simp only [arrayOffset, List.prod_cons]
      have h1 := h.1
      have h2 := ih h.2
      calc j + d * arrayOffset ds js < d + d * arrayOffset ds js := by omega
        _ = d * (arrayOffset ds js + 1) := by rw [Nat.mul_succ]; omega
        _ ≤ d * ds.prod := Nat.mul_le_mul_left _ h2

/-- Offsets of a split multi-index. -/
theorem offset_append : ∀ (ds1 js1 ds2 js2 : List Nat), ds1.length = js1.length →
    arrayOffset (ds1 ++ ds2) (js1 ++ js2) =
      arrayOffset ds1 js1 + ds1.prod * arrayOffset ds2 js2 := by
  intro ds1
  induction ds1 with
  | nil => intro js1 ds2 js2 h; cases js1 <;> simp [arrayOffset] at h ⊢
  | cons d ds1 ih =>
    intro js1 ds2 js2 h
    cases js1 with
    | nil => simp at h
    | cons j js1 =>
      simp only [List.cons_append, arrayOffset, List.prod_cons]
      rw [ih js1 ds2 js2 (by simpa using h), Nat.mul_add]
      have : d * (ds1.prod * arrayOffset ds2 js2) = d * ds1.prod * arrayOffset ds2 js2 := by
        rw [Nat.mul_assoc]
      omega

theorem offset_zero (ds : List Nat) (k : Nat) : arrayOffset ds (List.replicate k 0) = 0 := by
  induction ds generalizing k with
  | nil => cases k <;> rfl
  | cons d ds ih =>
    cases k with
    | zero => rfl
    | succ k => simp [List.replicate_succ, arrayOffset, ih]

theorem validIndex_append : ∀ {ds1 js1 ds2 js2 : List Nat}, ds1.length = js1.length →
    (ValidIndex (ds1 ++ ds2) (js1 ++ js2) ↔ ValidIndex ds1 js1 ∧ ValidIndex ds2 js2) := by
  intro ds1
  induction ds1 with
  | nil => intro js1 ds2 js2 h; cases js1 <;> simp [ValidIndex] at h ⊢
  | cons d ds1 ih =>
    intro js1 ds2 js2 h
    cases js1 with
    | nil => simp at h
    | cons j js1 =>
      simp only [List.cons_append, ValidIndex, ih (js1 := js1) (ds2 := ds2) (js2 := js2) (by simpa using h), and_assoc]

theorem validIndex_zero {ds : List Nat} (h : ds.prod ≠ 0) :
    ValidIndex ds (List.replicate ds.length 0) := by
  induction ds with
  | nil => trivial
  | cons d ds ih =>
    simp only [List.prod_cons] at h
    have h1 : d ≠ 0 := fun h0 => h (by simp [h0])
    have h2 : ds.prod ≠ 0 := fun h0 => h (by simp [h0])
    exact ⟨by omega, ih h2⟩

/-- Incrementing the shape index moves to the next column. -/
theorem shapeIncr_ok (d : Nat) {ds js : List Nat} (hv : ValidIndex ds js) :
    Ret (shapeIncr (d :: ds) ds.length js) (fun r => r.length = ds.length ∧
      (arrayOffset ds js + 1 < ds.prod → ValidIndex ds r ∧ arrayOffset ds r = arrayOffset ds js + 1)) := by
  have hlen := validIndex_length hv
  refine Ret.forBrk (fun j (s : List Nat) => s = List.replicate j 0 ++ js.drop j ∧
      arrayOffset (ds.take j) (js.take j) + 1 = (ds.take j).prod) _ ⟨by simp, by simp [arrayOffset]⟩ ?_ ?_
  · rintro j s hj ⟨rfl, h2⟩
    have hjj : j < js.length := by omega
    have hread : (List.replicate j 0 ++ js.drop j)[j]? = some js[j] := by
      rw [List.getElem?_append_right (by simp)]; simp [hjj]
    refine Ret.bind_eq (rd_of_getElem? hread) ?_
    refine Ret.bind_eq (wr_ok (by simp; omega)) ?_
    refine Ret.bind_eq (rd_of_getElem? (a := ds[j]) (by simp [hj])) ?_
    have hset : ∀ v, (List.replicate j 0 ++ js.drop j).set j v =
        List.replicate j 0 ++ v :: js.drop (j + 1) := by
      intro v
      rw [List.set_append_right _ _ (by simp)]
      simp only [List.length_replicate, Nat.sub_self]
      conv_lhs => rw [List.drop_eq_getElem_cons hjj]
      rfl
    have hds : ds = ds.take j ++ ds[j] :: ds.drop (j + 1) := by
      rw [← List.drop_eq_getElem_cons hj, List.take_append_drop]
    have hjs : js = js.take j ++ js[j] :: js.drop (j + 1) := by
      rw [← List.drop_eq_getElem_cons hjj, List.take_append_drop]
    have hoff : arrayOffset ds js = arrayOffset (ds.take j) (js.take j) + (ds.take j).prod *
        (js[j] + ds[j] * arrayOffset (ds.drop (j + 1)) (js.drop (j + 1))) := by
      conv_lhs => rw [hds, hjs]
      rw [offset_append _ _ _ _ (by simp; omega)]
      rfl
    rw [hset]
    by_cases hlt : js[j] + 1 < ds[j]
    · rw [if_pos hlt]
      refine Ret.ok ⟨by simp; omega, fun _ => ?_⟩
      constructor
      · conv => arg 1; rw [hds]
        rw [validIndex_append (by simp; omega)]
        have hvv := hv
        conv at hvv => arg 1; rw [hds]
        conv at hvv => arg 2; rw [hjs]
        rw [validIndex_append (by simp; omega)] at hvv
        refine ⟨?_, hlt, hvv.2.2⟩
        have := validIndex_zero (ds := ds.take j) (by omega)
        rw [List.length_take, Nat.min_eq_left (by omega)] at this
        exact this
      · rw [hoff]
        conv_lhs => rw [hds]
        rw [offset_append _ _ _ _ (by simp; omega), offset_zero]
        simp only [arrayOffset]
        have e : (ds.take j).prod * (js[j] + 1 + ds[j] * arrayOffset (ds.drop (j + 1)) (js.drop (j + 1)))
          = (ds.take j).prod * (js[j] + ds[j] * arrayOffset (ds.drop (j + 1)) (js.drop (j + 1)))
            + (ds.take j).prod := by
          rw [← Nat.mul_succ]; congr 1; omega
        rw [e]
        omega
    · rw [if_neg hlt]
      refine Ret.bind_eq (wr_ok (by simp)) (Ret.ok ⟨?_, ?_⟩)
      · rw [List.set_append_right _ _ (by simp)]
        simp [List.replicate_succ']
      · rw [List.take_add_one, List.take_add_one, List.getElem?_eq_getElem hj,
          List.getElem?_eq_getElem hjj]
        simp only [Option.toList_some]
        rw [offset_append _ _ _ _ (by simp; omega), List.prod_append_nat]
        have := validIndex_get hv j _ _ (List.getElem?_eq_getElem hj) (List.getElem?_eq_getElem hjj)
        have : ds[j] = js[j] + 1 := by omega
        simp only [arrayOffset, List.prod_cons, List.prod_nil, Nat.mul_one, Nat.mul_zero, Nat.add_zero]
        rw [this, Nat.mul_succ]
        omega
  · rintro s ⟨rfl, h2⟩
    rw [List.take_length, ← hlen, List.take_length] at h2
    refine ⟨by simp [hlen], fun h => ?_⟩
    omega

/-- No `int` computation about the array overflows. -/
structure DimOk (d : Nat) (ds : List Nat) : Prop where
  strides : ∀ k, k < ds.length → d * (ds.take k).prod ≤ intMax
  shape : ∀ k, k ≤ ds.length → (ds.take k).prod ≤ intMax
  total : d * ds.prod ≤ intMax

theorem vecStrides_ok {d : Nat} {ds : List Nat} (h : DimOk d ds) :
    vecStrides (d :: ds) ds.length =
      .ok ((List.range ds.length).map (fun k => d * (ds.take k).prod)) := by
  suffices hh : Ret (vecStrides (d :: ds) ds.length)
      (fun r => r = (List.range ds.length).map (fun k => d * (ds.take k).prod)) by
    obtain ⟨r, hr, rfl⟩ := hh; exact hr
  unfold vecStrides
  refine Ret.bind (Ret.forN (fun i (s : List (Option Nat) × Nat) =>
    Wrote ((List.range i).map (fun k => d * (ds.take k).prod)) ds.length s.1 ∧
      s.2 = ((d :: ds).take i).prod) ⟨Wrote.start _, by simp⟩ ?_) ?_
  · rintro i ⟨out, st⟩ hi ⟨h1, h2⟩
    simp only at h1 h2 ⊢
    have hi' : i < (d :: ds).length := by simp; omega
    refine Ret.bind_eq (rd_ok hi') ?_
    have hst : st * (d :: ds)[i] = d * (ds.take i).prod := by
      have : ((d :: ds).take (i + 1)).prod = st * (d :: ds)[i] := by
        rw [List.take_add_one, List.prod_append_nat, List.getElem?_eq_getElem hi', h2]
        simp
      rw [← this]; simp
    rw [hst]
    refine Ret.bind_eq (chkNat_ok (h.strides i hi)) ?_
    obtain ⟨hw, hW⟩ := h1.step (d * (ds.take i).prod) (by simp) hi
    refine Ret.bind_eq hw (Ret.ok ⟨?_, by simp⟩)
    simpa [List.range_succ] using hW
  · rintro ⟨out, st⟩ ⟨h1, _⟩
    exact Ret.of_eq (h1.done (by simp)) rfl

theorem shapeElemN_ok {d : Nat} {ds : List Nat} (h : DimOk d ds) :
    shapeElemN (d :: ds) = .ok ds.prod := by
  suffices hh : Ret (shapeElemN (d :: ds)) (fun r => r = ds.prod) by
    obtain ⟨r, hr, rfl⟩ := hh; exact hr
  unfold shapeElemN
  simp only [List.length_cons, Nat.add_sub_cancel]
  refine Ret.mono (Ret.forFrom (fun i (s : Nat) => s = (ds.take (i - 1)).prod) (by simp) ?_) ?_
  · rintro i s h1 h2 rfl
    have hi : i - 1 < ds.length := by omega
    have : (d :: ds)[i]? = some ds[i - 1] := by
      rw [List.getElem?_cons, if_neg (by omega)]; simp [hi]
    refine Ret.bind_eq (rd_of_getElem? this) ?_
    have e : (ds.take (i - 1)).prod * ds[i - 1] = (ds.take (i + 1 - 1)).prod := by
      rw [show i + 1 - 1 = (i - 1) + 1 by omega, List.take_add_one, List.prod_append_nat,
        List.getElem?_eq_getElem hi]
      simp
    rw [e]
    exact Ret.of_eq (chkNat_ok (h.shape _ (by omega))) rfl
  · rintro s rfl
    rw [show 1 + ds.length - 1 = ds.length by omega, List.take_length]

theorem stridedLoc_ok {d : Nat} {ds js : List Nat} (h : DimOk d ds) (hv : ValidIndex ds js) :
    stridedLoc js ((List.range ds.length).map (fun k => d * (ds.take k).prod)) ds.length =
      .ok (d * arrayOffset ds js) := by
  suffices hh : Ret (stridedLoc js ((List.range ds.length).map (fun k => d * (ds.take k).prod))
      ds.length) (fun r => r = d * arrayOffset ds js) by
    obtain ⟨r, hr, rfl⟩ := hh; exact hr
  have hlen := validIndex_length hv
  unfold stridedLoc
  refine Ret.mono (Ret.forN (fun i (s : Nat) => s = d * arrayOffset (ds.take i) (js.take i))
    (by simp [arrayOffset]) ?_) ?_
  · rintro i s hi rfl
    have hij : i < js.length := by omega
    have e : d * arrayOffset (ds.take (i + 1)) (js.take (i + 1)) =
        d * arrayOffset (ds.take i) (js.take i) + d * (ds.take i).prod * js[i] := by
      rw [List.take_add_one, List.take_add_one, List.getElem?_eq_getElem hi,
        List.getElem?_eq_getElem hij]
      simp only [Option.toList_some]
      rw [offset_append _ _ _ _ (by simp; omega), Nat.mul_add, Nat.mul_assoc]
      simp [arrayOffset]
    have hle : d * arrayOffset (ds.take (i + 1)) (js.take (i + 1)) ≤ intMax := by
      have hvi : ValidIndex (ds.take (i + 1)) (js.take (i + 1)) := by
        have hvv := hv
        rw [← List.take_append_drop (i + 1) ds, ← List.take_append_drop (i + 1) js,
          validIndex_append (by simp; omega)] at hvv
        exact hvv.1
      have h1 := offset_lt hvi
      have hpos : 0 < ds.prod := Nat.lt_of_le_of_lt (Nat.zero_le _) (offset_lt hv)
      have hdrop : 1 ≤ (ds.drop (i + 1)).prod := by
        rcases Nat.eq_zero_or_pos (ds.drop (i + 1)).prod with h0 | h0
        · rw [← List.take_append_drop (i + 1) ds, List.prod_append_nat, h0] at hpos
          simp at hpos
        · exact h0
      have : (ds.take (i + 1)).prod ≤ ds.prod := by
        conv_rhs => rw [← List.take_append_drop (i + 1) ds, List.prod_append_nat]
        exact Nat.le_mul_of_pos_right _ hdrop
      calc d * arrayOffset (ds.take (i + 1)) (js.take (i + 1)) ≤ d * ds.prod :=
            Nat.mul_le_mul_left _ (by omega)
        _ ≤ intMax := h.total
    refine Ret.bind_eq (rd_of_getElem? (a := d * (ds.take i).prod) (by simp [hi])) ?_
    refine Ret.bind_eq (rd_ok hij) ?_
    refine Ret.bind_eq (chkNat_ok (by omega)) ?_
    refine Ret.of_eq (chkNat_ok (by omega)) e.symm
  · rintro s rfl
    rw [List.take_length, ← hlen, List.take_length]

/-- The loop over the shape visits the columns in order. -/
theorem forShape_ok {S : Type} {d : Nat} {ds : List Nat} (h : DimOk d ds) {body : Nat → S → C S}
    {s : S} (I : Nat → S → Prop) (h0 : I 0 s)
    (hb : ∀ c s, c < ds.prod → I c s → Ret (body (d * c) s) (I (c + 1))) :
    Ret (newStridesInfo (d :: ds) >>= fun info => forShape info body s) (I ds.prod) := by
  have hinfo : newStridesInfo (d :: ds) = .ok ⟨d :: ds,
      (List.range ds.length).map (fun k => d * (ds.take k).prod), ds.length, ds.prod⟩ := by
    simp only [newStridesInfo, List.length_cons, Nat.add_sub_cancel, vecStrides_ok h,
      shapeElemN_ok h, ok_bind]
  refine Ret.bind_eq hinfo ?_
  unfold forShape
  simp only
  refine Ret.bind (Ret.forN (fun c (st : List Nat × S) => st.1.length = ds.length ∧
    (c < ds.prod → ValidIndex ds st.1 ∧ arrayOffset ds st.1 = c) ∧ I c st.2)
    ⟨by simp, fun hlt => ⟨validIndex_zero (by omega), offset_zero _ _⟩, h0⟩ ?_) ?_
  · rintro c ⟨si, s⟩ hc ⟨_, h2, h3⟩
    simp only at h2 h3 ⊢
    obtain ⟨hv, ho⟩ := h2 hc
    refine Ret.bind_eq (stridedLoc_ok h hv) ?_
    rw [ho]
    refine Ret.bind (hb c s hc h3) ?_
    intro s' hs'
    refine Ret.bind (shapeIncr_ok d hv) ?_
    rintro si' ⟨h4, h5⟩
    rw [ho] at h5
    exact Ret.ok ⟨h4, h5, hs'⟩
  · rintro ⟨si, s⟩ ⟨_, _, h3⟩
    exact Ret.ok h3

/-- `vec_steps`: the last non-missing location before each element (1 at the start). -/
def prevLoc (index : List Int) : Nat → Int
  | 0 => 1
  | j + 1 => match index[j]? with
    | some v => if v = naInt then prevLoc index j else v
    | none => prevLoc index j

theorem prevLoc_range {index : List Int} {n : Nat}
    (hidx : ∀ v ∈ index, v = naInt ∨ (1 ≤ v ∧ v ≤ (n : Int))) (j : Nat) :
    prevLoc index j = 1 ∨ (1 ≤ prevLoc index j ∧ prevLoc index j ≤ (n : Int)) := by
  induction j with
  | zero => exact Or.inl rfl
  | succ j ih =>
    simp only [prevLoc]
    split
    · rename_i v hv
      by_cases h : v = naInt
      · rw [if_pos h]; exact ih
      · rw [if_neg h]
        rcases hidx v (List.mem_of_getElem? hv) with h1 | h1
        · exact absurd h1 h
        · exact Or.inr h1
    · exact ih

theorem vecSteps_ok {index : List Int} {n : Nat} (hn : n ≤ intMax)
    (hidx : ∀ v ∈ index, v = naInt ∨ (1 ≤ v ∧ v ≤ (n : Int))) :
    Ret (vecSteps index) (fun st => st.length = index.length ∧ ∀ (j : Nat) v, index[j]? = some v →
      st[j]? = some (if v = naInt then naInt else v - prevLoc index j) ∧
      (v ≠ naInt → v - prevLoc index j ≠ naInt)) := by
  unfold vecSteps
  have hrange : ∀ (j : Nat) v, index[j]? = some v → v ≠ naInt →
      v - prevLoc index j ≤ (intMax : Int) ∧ naInt < v - prevLoc index j := by
    intro j v hv hna
    have h1 : 1 ≤ v ∧ v ≤ (n : Int) := by
      rcases hidx v (List.mem_of_getElem? hv) with h | h
      · exact absurd h hna
      · exact h
    have h2 := prevLoc_range hidx j
    simp only [intMax, naInt] at hn ⊢
    omega
  refine Ret.bind (Ret.forN (fun i (s : List (Option Int) × Int) =>
    Filled (fun j (st : Int) => ∀ v, index[j]? = some v →
      st = (if v = naInt then naInt else v - prevLoc index j)) index.length i s.1 ∧
    s.2 = prevLoc index i) ⟨Filled.start _ _, rfl⟩ ?_) ?_
  · rintro i ⟨out, prev⟩ hi ⟨h1, h2⟩
    simp only at h1 h2 ⊢
    have hvi := List.getElem?_eq_getElem hi
    refine Ret.bind_eq (rd_of_getElem? hvi) ?_
    by_cases hna : index[i] = naInt
    · rw [if_pos hna]
      obtain ⟨hw, hF⟩ := h1.step (r := naInt) hi (by
        intro v hv; rw [hvi] at hv; cases hv; rw [if_pos hna])
      refine Ret.bind_eq hw (Ret.ok ⟨hF, ?_⟩)
      simp only [prevLoc, hvi, if_pos hna]; exact h2
    · rw [if_neg hna, h2]
      have hr := hrange i _ hvi hna
      refine Ret.bind_eq (chkInt_ok hr.1 (by omega)) ?_
      obtain ⟨hw, hF⟩ := h1.step (r := index[i] - prevLoc index i) hi (by
        intro v hv; rw [hvi] at hv; cases hv; rw [if_neg hna])
      refine Ret.bind_eq hw (Ret.ok ⟨hF, ?_⟩)
      simp only [prevLoc, hvi, if_neg hna]
  · rintro ⟨out, prev⟩ ⟨h1, _⟩
    refine h1.done.mono ?_
    rintro st ⟨h3, h4⟩
    refine ⟨h3, ?_⟩
    intro j v hv
    have hj : j < st.length := by rw [h3]; exact (List.getElem?_eq_some_iff.1 hv).1
    refine ⟨?_, fun hna => by have := hrange j v hv hna; omega⟩
    rw [List.getElem?_eq_getElem hj, h4 j _ (List.getElem?_eq_getElem hj) v hv]

/-- Element `k` of the sliced array, column `k / m`, row `k % m`. -/
def ArrVal (na : α) (d : Nat) (x : List α) (m : Nat) (loc : Nat → Option Int) (k : Nat) (v : α) : Prop :=
  ∃ w, loc (k % m) = some w ∧
    ((w = naInt ∧ v = na) ∨ (w ≠ naInt ∧ 1 ≤ w ∧ x[d * (k / m) + (w - 1).toNat]? = some v))

theorem arrVal_at {na : α} {d m c j : Nat} {x : List α} {loc : Nat → Option Int} {v : α} (hj : j < m) :
    ArrVal na d x m loc (m * c + j) v ↔ ∃ w, loc j = some w ∧
      ((w = naInt ∧ v = na) ∨ (w ≠ naInt ∧ 1 ≤ w ∧ x[d * c + (w - 1).toNat]? = some v)) := by
  unfold ArrVal
  rw [Nat.mul_add_mod, Nat.mod_eq_of_lt hj, Nat.mul_add_div (by omega), Nat.div_eq_of_lt hj, Nat.add_zero]

theorem col_lt {d c p r : Nat} (hc : c < p) (hr : r < d) : d * c + r < d * p := by
  calc d * c + r < d * c + d := by omega
    _ = d * (c + 1) := by rw [Nat.mul_succ]
    _ ≤ d * p := Nat.mul_le_mul_left _ hc

theorem sliceShapedIndex_ok (na : α) {d : Nat} {ds : List Nat} (h : DimOk d ds) {x : List α}
    (hx : x.length = d * ds.prod) {index : List Int} (hd : d ≤ intMax)
    (hidx : ∀ v ∈ index, v = naInt ∨ (1 ≤ v ∧ v ≤ (d : Int))) :
    Ret (sliceShapedIndex na (d :: ds) x index) (fun r => r.1 = index.length :: ds ∧
      r.2.length = index.length * ds.prod ∧
      ∀ k v, r.2[k]? = some v → ArrVal na d x index.length (fun j => index[j]?) k v) := by
  obtain ⟨steps, hsteps, hsl, hsv⟩ := vecSteps_ok hd hidx
  have key := forShape_ok (s := (alloc α (index.length * ds.prod), 0)) h
    (body := fun loc (s : List (Option α) × Nat) => do
      let (s, _) ← forN index.length (fun j (s : (List (Option α) × Nat) × Int) => do
        let ((out, k), loc) := s
        let step ← rd steps j
        if step = naInt then do
          let out ← wr out k (some na)
          .ok ((out, k + 1), loc)
        else do
          let loc ← chkInt (loc + step)
          let v ← rdI x loc
          let out ← wr out k (some v)
          .ok ((out, k + 1), loc)) (s, (loc : Int))
      .ok s)
    (fun c s => s.2 = index.length * c ∧ Filled (ArrVal na d x index.length (fun j => index[j]?))
      (index.length * ds.prod) s.2 s.1) ⟨by simp, Filled.start _ _⟩ ?_
  · obtain ⟨s, hs, h1, h2⟩ := key
    unfold sliceShapedIndex
    cases hinfo : newStridesInfo (d :: ds) with
    | error e => rw [hinfo] at hs; cases hs
    | ok info =>
      rw [hinfo] at hs
      simp only [ok_bind] at hs
      simp only [ok_bind, hsteps, List.set_cons_zero, List.prod_cons]
      refine Ret.bind_eq hs ?_
      rw [h1] at h2
      refine Ret.bind h2.done ?_
      rintro out ⟨h3, h4⟩
      exact Ret.ok ⟨rfl, h3, h4⟩
  · rintro c ⟨out, k⟩ hc ⟨h1, h2⟩
    simp only at h1 h2 ⊢
    subst h1
    refine Ret.bind (Ret.forN (fun j (s : (List (Option α) × Nat) × Int) =>
      s.1.2 = index.length * c + j ∧
      Filled (ArrVal na d x index.length (fun j => index[j]?)) (index.length * ds.prod) s.1.2 s.1.1 ∧
      s.2 = ((d * c : Nat) : Int) + (prevLoc index j - 1)) ⟨rfl, h2, by simp [prevLoc]⟩ ?_) ?_
    · rintro j ⟨⟨out, k⟩, loc⟩ hj ⟨h1, h2, h3⟩
      simp only at h1 h2 h3 ⊢
      subst h1
      have hvj := List.getElem?_eq_getElem hj
      obtain ⟨hst, hne⟩ := hsv j _ hvj
      refine Ret.bind_eq (rd_of_getElem? hst) ?_
      by_cases hna : index[j] = naInt
      · rw [if_pos hna, if_pos rfl]
        obtain ⟨hw, hF⟩ := h2.step (r := na) (col_lt hc hj)
          ((arrVal_at hj).2 ⟨_, hvj, Or.inl ⟨hna, rfl⟩⟩)
        refine Ret.bind_eq hw (Ret.ok ⟨by simp only; omega, hF, ?_⟩)
        simp only [prevLoc, hvj, if_pos hna, h3]
      · rw [if_neg hna, if_neg (hne hna)]
        have hr : 1 ≤ index[j] ∧ index[j] ≤ (d : Int) := by
          rcases hidx _ (List.getElem_mem hj) with h | h
          · exact absurd h hna
          · exact h
        have hlt : d * c + (index[j] - 1).toNat < x.length := by
          rw [hx]; exact col_lt hc (by omega)
        have htot : x.length ≤ intMax := by rw [hx]; exact h.total
        have hloc : loc + (index[j] - prevLoc index j) = ((d * c + (index[j] - 1).toNat : Nat) : Int) := by
          rw [h3]; push_cast; omega
        rw [hloc]
        refine Ret.bind_eq (chkInt_ok (by omega) (by simp only [naInt]; omega)) ?_
        refine Ret.bind_eq (rdI_nat hlt) ?_
        obtain ⟨hw, hF⟩ := h2.step (r := x[d * c + (index[j] - 1).toNat]) (col_lt hc hj)
          ((arrVal_at hj).2 ⟨_, hvj, Or.inr ⟨hna, hr.1, List.getElem?_eq_getElem hlt⟩⟩)
        refine Ret.bind_eq hw (Ret.ok ⟨by simp only; omega, hF, ?_⟩)
        simp only [prevLoc, hvj, if_neg hna]
        push_cast; omega
    · rintro ⟨⟨out, k⟩, loc⟩ ⟨h1, h2, h3⟩
      exact Ret.ok ⟨h1, h2⟩

theorem sliceShapedRep_ok (na : α) {d : Nat} {ds : List Nat} (h : DimOk d ds) {x : List α}
    (hx : x.length = d * ds.prod) {i : Int} {n : Nat} (hn : n * ds.prod ≤ intMax)
    (hidx : i = naInt ∨ (1 ≤ i ∧ i ≤ (d : Int))) :
    Ret (sliceShapedRep na (d :: ds) x i n) (fun r => r.1 = n :: ds ∧
      r.2.length = n * ds.prod ∧
      ∀ k v, r.2[k]? = some v → ArrVal na d x n (fun _ => some i) k v) := by
  by_cases hna : i = naInt
  · have hinfo : newStridesInfo (d :: ds) = .ok ⟨d :: ds,
        (List.range ds.length).map (fun k => d * (ds.take k).prod), ds.length, ds.prod⟩ := by
      simp only [newStridesInfo, List.length_cons, Nat.add_sub_cancel, vecStrides_ok h,
        shapeElemN_ok h, ok_bind]
    unfold sliceShapedRep
    refine Ret.bind_eq hinfo ?_
    simp only [Int.toNat_natCast, if_pos hna, List.set_cons_zero, List.prod_cons]
    rw [Nat.mul_comm ds.prod n]
    refine Ret.bind_eq (chkNat_ok hn) ?_
    refine Ret.bind (Ret.forN (fun k out => Filled (ArrVal na d x n (fun _ => some i)) (n * ds.prod) k out)
      (Filled.start _ _) ?_) ?_
    · intro k out hk hF
      obtain ⟨hw, hF'⟩ := hF.step (r := na) hk ⟨i, rfl, Or.inl ⟨hna, rfl⟩⟩
      exact Ret.of_eq hw hF'
    · intro out hF
      refine Ret.bind hF.done ?_
      rintro out ⟨h3, h4⟩
      exact Ret.ok ⟨rfl, h3, h4⟩
  · have hr : 1 ≤ i ∧ i ≤ (d : Int) := by
      rcases hidx with h | h
      · exact absurd h hna
      · exact h
    have key := forShape_ok (s := (alloc α (n * ds.prod), 0)) h
      (body := fun loc (s : List (Option α) × Nat) => do
        let loc ← chkInt (loc + (i - 1))
        let elt ← rdI x loc
        forN n (fun _ (s : List (Option α) × Nat) => do
          let out ← wr s.1 s.2 (some elt)
          .ok (out, s.2 + 1)) s)
      (fun c s => s.2 = n * c ∧ Filled (ArrVal na d x n (fun _ => some i))
        (n * ds.prod) s.2 s.1) ⟨by simp, Filled.start _ _⟩ ?_
    · obtain ⟨s, hs, h1, h2⟩ := key
      unfold sliceShapedRep
      cases hinfo : newStridesInfo (d :: ds) with
      | error e => rw [hinfo] at hs; cases hs
      | ok info =>
        rw [hinfo] at hs
        simp only [ok_bind] at hs
        simp only [ok_bind, List.set_cons_zero, List.prod_cons, Int.toNat_natCast, if_neg hna]
        refine Ret.bind_eq hs ?_
        rw [h1] at h2
        refine Ret.bind h2.done ?_
        rintro out ⟨h3, h4⟩
        exact Ret.ok ⟨rfl, h3, h4⟩
    · rintro c ⟨out, k⟩ hc ⟨h1, h2⟩
      simp only at h1 h2 ⊢
      subst h1
      have hlt : d * c + (i - 1).toNat < x.length := by
        rw [hx]; exact col_lt hc (by omega)
      have htot : x.length ≤ intMax := by rw [hx]; exact h.total
      have hloc : ((d * c : Nat) : Int) + (i - 1) = ((d * c + (i - 1).toNat : Nat) : Int) := by
        push_cast; omega
      rw [hloc]
      refine Ret.bind_eq (chkInt_ok (by omega) (by simp only [naInt]; omega)) ?_
      refine Ret.bind_eq (rdI_nat hlt) ?_
      refine Ret.mono (Ret.forN (fun j (s : List (Option α) × Nat) => s.2 = n * c + j ∧
        Filled (ArrVal na d x n (fun _ => some i)) (n * ds.prod) s.2 s.1) ⟨rfl, h2⟩ ?_) ?_
      · rintro j ⟨out, k⟩ hj ⟨h1, h2⟩
        simp only at h1 h2 ⊢
        subst h1
        obtain ⟨hw, hF⟩ := h2.step (r := x[d * c + (i - 1).toNat]) (col_lt hc hj)
          ((arrVal_at hj).2 ⟨i, rfl, Or.inr ⟨hna, hr.1, List.getElem?_eq_getElem hlt⟩⟩)
        exact Ret.bind_eq hw (Ret.ok ⟨by omega, hF⟩)
      · rintro s ⟨h1, h2⟩; exact ⟨h1, h2⟩

theorem sliceShapedSeq_ok (na : α) {d : Nat} {ds : List Nat} (h : DimOk d ds) {x : List α}
    (hx : x.length = d * ds.prod) {start step : Int} {n : Nat} (hs : step = 1 ∨ step = -1)
    (h0 : 0 ≤ start) (hd : start < d ∨ n = 0 ∧ start ≤ d)
    (hidx : ∀ j : Nat, j < n → 0 ≤ start + j * step ∧ start + j * step < (d : Int)) :
    Ret (sliceShapedSeq (d :: ds) x start n step) (fun r => r.1 = n :: ds ∧
      r.2.length = n * ds.prod ∧
      ∀ k v, r.2[k]? = some v → ArrVal na d x n (fun j => some (start + 1 + j * step)) k v) := by
  have key := forShape_ok (s := (alloc α (n * ds.prod), 0)) h
    (body := fun loc (s : List (Option α) × Nat) => do
      let loc ← chkInt (loc + start)
      let (s, _) ← forN n (fun _ (s : (List (Option α) × Nat) × Int) => do
        let ((out, k), loc) := s
        let v ← rdI x loc
        let out ← wr out k (some v)
        let loc ← chkInt (loc + step)
        .ok ((out, k + 1), loc)) (s, loc)
      .ok s)
    (fun c s => s.2 = n * c ∧ Filled (ArrVal na d x n (fun j => some (start + 1 + j * step)))
      (n * ds.prod) s.2 s.1) ⟨by simp, Filled.start _ _⟩ ?_
  · obtain ⟨s, hs, h1, h2⟩ := key
    unfold sliceShapedSeq
    cases hinfo : newStridesInfo (d :: ds) with
    | error e => rw [hinfo] at hs; cases hs
    | ok info =>
      rw [hinfo] at hs
      simp only [ok_bind] at hs
      simp only [ok_bind, List.set_cons_zero, List.prod_cons, Int.toNat_natCast]
      refine Ret.bind_eq hs ?_
      rw [h1] at h2
      refine Ret.bind h2.done ?_
      rintro out ⟨h3, h4⟩
      exact Ret.ok ⟨rfl, h3, h4⟩
  · rintro c ⟨out, k⟩ hc ⟨h1, h2⟩
    simp only at h1 h2 ⊢
    subst h1
    have htot : x.length ≤ intMax := by rw [hx]; exact h.total
    have hcd : d * c + d ≤ x.length := by
      rw [hx, ← Nat.mul_succ]; exact Nat.mul_le_mul_left _ hc
    refine Ret.bind_eq (chkInt_ok (by omega) (by simp only [naInt]; omega)) ?_
    refine Ret.bind (Ret.forN (fun j (s : (List (Option α) × Nat) × Int) =>
      s.1.2 = n * c + j ∧
      Filled (ArrVal na d x n (fun j => some (start + 1 + j * step))) (n * ds.prod) s.1.2 s.1.1 ∧
      s.2 = ((d * c : Nat) : Int) + (start + j * step)) ⟨rfl, h2, by simp⟩ ?_) ?_
    · rintro j ⟨⟨out, k⟩, loc⟩ hj ⟨h1, h2, h3⟩
      simp only at h1 h2 h3 ⊢
      subst h1
      have hr := hidx j hj
      have hloc : loc = ((d * c + (start + j * step).toNat : Nat) : Int) := by
        rw [h3]; push_cast; omega
      have hlt : d * c + (start + j * step).toNat < x.length := by
        rw [hx]; exact col_lt hc (by omega)
      rw [hloc]
      refine Ret.bind_eq (rdI_nat hlt) ?_
      obtain ⟨hw, hF⟩ := h2.step (r := x[d * c + (start + j * step).toNat]) (col_lt hc hj)
        ((arrVal_at hj).2 ⟨_, rfl, Or.inr ⟨by simp only [naInt]; omega, by omega, by
          rw [show (start + 1 + j * step - 1).toNat = (start + j * step).toNat by omega]
          exact List.getElem?_eq_getElem hlt⟩⟩)
      refine Ret.bind_eq hw ?_
      refine Ret.bind_eq (chkInt_ok (by omega) (by simp only [naInt]; omega)) (Ret.ok ⟨by simp only; omega, hF, ?_⟩)
      push_cast
      rw [Int.add_mul, Int.one_mul]
      omega
    · rintro ⟨⟨out, k⟩, loc⟩ ⟨h1, h2, h3⟩
      exact Ret.ok ⟨h1, h2⟩

end Vctrs
