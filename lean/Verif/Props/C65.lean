import Verif.Lemmas.Unchop
import Verif.Props.C64

/-!
# C65: list_unchop() puts elements, columns and names at their locations

The inputs have been cast to the common type; `HasType` is what the cast gives.
-/

namespace Vctrs

open Spec

theorem listUnchopNames_eq (h : Name → BitVec 32) {xs : List NVal} {indices : List RSubscript} {locs : List (List Int)}
    {names : Option (List Name)} {ptype : NVal} {spec : NameSpec} {repair : NameRepair} (hp : IsPtype ptype)
    (hl : xs.length = indices.length) (hi : List.Forall₂ (IndexIs locs.flatten.length) indices locs) :
    listUnchopNames h xs indices names ptype spec repair = (do
      let out ← nvalInit h ptype (locs.flatten.length : Nat)
      let s ← forN xs.length (unchopNamesTurn h spec xs locs locs.flatten.length (if ptype.isDf then none else names)) ⟨out, none⟩
      cFinish h spec repair s.out s.outNames) := by
  unfold listUnchopNames
  rw [if_neg (by omega), hp.isTab.notNull, if_neg (by simp)]
  unfold unchopNamesFrom
  rw [outSize_eq, outSize_flatten hi, ok_bind, listAsLocations_ok (hi.imp (fun _ _ h => indexIs_iff.1 h)), ok_bind]

/-- The inputs as a list of outer names, locations and values. -/
theorem unchop_input {names names' : Option (List Name)} {xs : List NVal} {outer : List (Option Name)} {locs : List (List Int)}
    (hn : names = names') (ho : OuterNames names' xs outer) {i : Nat} {o : Option Name} {loc : List Int} {x : NVal}
    (h : (outer.zip (locs.zip xs))[i]? = some (o, loc, x)) :
    outerOf names i = .ok o ∧ locs[i]? = some loc ∧ xs[i]? = some x := by
  subst hn
  obtain ⟨hq1, hq2⟩ := List.getElem?_zip_eq_some.1 h
  obtain ⟨hq2, hq3⟩ := List.getElem?_zip_eq_some.1 hq2
  refine ⟨?_, hq2, hq3⟩
  rcases ho with ⟨h1, rfl⟩ | ⟨l, h1, h2, rfl⟩
  · have hi : i < xs.length := (List.getElem?_eq_some_iff.1 hq3).1
    rw [List.getElem?_replicate, if_pos hi] at hq1
    have hq1 := Option.some.inj hq1
    dsimp only at hq1
    rw [h1, outerOf, ← hq1]
  · rw [List.getElem?_map, Option.map_eq_some_iff] at hq1
    obtain ⟨o, ho1, ho2⟩ := hq1
    dsimp only at ho2
    rw [h1, outerOf, rd_of_getElem? ho1, ok_bind, ← ho2]

theorem locs_of {indices : List RSubscript} {locs : List (List Int)} {n : Nat}
    (hi : List.Forall₂ (IndexIs n) indices locs) : ∀ l ∈ locs, LocsOk n l := by
  intro l hl
  obtain ⟨i, _, h⟩ := forall₂_mem_right hi hl
  exact (indexIs_iff.1 h).2

theorem length_le_flatten {locs : List (List Int)} {l : List Int} (h : l ∈ locs) : l.length ≤ locs.flatten.length := by
  obtain ⟨a, b, rfl⟩ := List.append_of_mem h
  simp; omega

/-- The names that count: those of the inputs do not for data frames. -/
def NamesFor (ptype : NVal) (names names' : Option (List Name)) : Prop :=
  (∃ t e nms, ptype = .vec t e nms ∧ names' = names) ∨ (∃ m cn cols rn, ptype = .df m cn cols rn ∧ names' = none)

theorem NamesFor.eq {ptype : NVal} {names names' : Option (List Name)} (h : NamesFor ptype names names') :
    (if ptype.isDf then none else names) = names' := by
  rcases h with ⟨t, e, nms, rfl, rfl⟩ | ⟨m, cn, cols, rn, rfl, rfl⟩ <;> rfl

/-- The loop up to the input `k`. -/
theorem unchopLoop_inv (h : Name → BitVec 32) {xs : List NVal} {locs : List (List Int)}
    {names names' : Option (List Name)} {ptype base : NVal} {spec : NameSpec} {outer : List (Option Name)} {n : Nat}
    (hn : names = names') (ho : OuterNames names' xs outer) (hll : locs.length = xs.length)
    (hlo : ∀ l ∈ locs, LocsOk n l ∧ l.length ≤ 2147483647) (hb : HasType n ptype base) {i : Nat}
    (hi : i < xs.length) {s : UState} (hs : UInv spec n ptype base ((outer.zip (locs.zip xs)).take i) s)
    (hok : ∀ o loc x, (outer.zip (locs.zip xs))[i]? = some (o, loc, x) →
      x = .null ∨ (∃ m, IsTab m x) ∧ ∃ y, Recycled loc.length x y ∧ PieceOk spec ptype (o, loc, y)) :
    Ret (unchopNamesTurn h spec xs locs n names i s) (UInv spec n ptype base ((outer.zip (locs.zip xs)).take (i + 1))) := by
  have hol := ho.length
  have hil : i < (outer.zip (locs.zip xs)).length := by simp; omega
  have hg := List.getElem?_eq_getElem hil
  generalize (outer.zip (locs.zip xs))[i] = e at hg
  obtain ⟨o, loc, x⟩ := e
  obtain ⟨g1, g2, g3⟩ := unchop_input hn ho hg
  rw [take_succ_of hg]
  have := hlo loc (List.mem_of_getElem? g2)
  exact unchopTurn_ok h hs hb g3 g2 g1 this.1 this.2 (hok o loc x hg)

theorem uinv_start {spec : NameSpec} {n : Nat} {ptype base : NVal} (hb : HasType n ptype base) :
    UInv spec n ptype base [] ⟨base, none⟩ :=
  ⟨[], [], .nil, nofun, .nil, nofun, Scattered.start hb, Or.inl ⟨nofun, rfl⟩⟩

/-- **C65**: if every input can be recycled to its locations and its names can be merged with its own, the result
has one element for each location given; at each location it has the last element put there, in every column of a
data frame at any depth, missing values elsewhere, and the merged names, repaired. -/
theorem C65_unchop (h : Name → BitVec 32) {xs : List NVal} {indices : List RSubscript} {locs : List (List Int)}
    {names names' : Option (List Name)} {ptype : NVal} {spec : NameSpec} {repair : NameRepair}
    {outer : List (Option Name)} {pieces : List Piece} (hp : IsPtype ptype) (hl : xs.length = indices.length)
    (hi : List.Forall₂ (IndexIs locs.flatten.length) indices locs) (ht : locs.flatten.length ≤ 2147483647)
    (hx : ∀ x ∈ xs, x = .null ∨ ∃ m, IsTab m x) (hn : NamesFor ptype names names') (ho : OuterNames names' xs outer)
    (hpc : Pieces (outer.zip (locs.zip xs)) pieces)
    (hpt : ∀ p ∈ pieces, HasType p.2.1.length ptype p.2.2 ∧ ∃ q, PieceNames spec p q ∧
      ∀ l, q.1 = some l → ∀ s, some s ∈ l → s.length ≤ 2147483619) :
    ∃ y, listUnchopNames h xs indices names ptype spec repair = .ok y ∧
      Unchopped spec repair locs.flatten.length ptype pieces y := by
  have hll : locs.length = xs.length := by rw [hl]; exact (forall₂_length hi).symm
  obtain ⟨base, hb1, hb2⟩ := nvalInit_ok h hp.isTab (n := locs.flatten.length) ht
  have hb := hasType_init hp hb2
  have hol := ho.length
  suffices hs : Ret (listUnchopNames h xs indices names ptype spec repair)
      (Unchopped spec repair locs.flatten.length ptype pieces) from hs
  rw [listUnchopNames_eq h hp hl hi, hn.eq]
  refine Ret.bind_eq hb1 ?_
  refine Ret.bind (Ret.forN (fun i s => UInv spec locs.flatten.length ptype base ((outer.zip (locs.zip xs)).take i) s) ?_ ?_) ?_
  · rw [List.take_zero]; exact uinv_start hb
  · intro i s hil hs
    refine unchopLoop_inv h rfl ho hll (fun l hl => ⟨locs_of hi l hl, Nat.le_trans (length_le_flatten hl) ht⟩) hb hil hs ?_
    intro o loc x hg
    have hm := List.mem_of_getElem? hg
    rcases hpc.get hm with h1 | ⟨y, h1, h2⟩
    · exact Or.inl h1
    · refine Or.inr ⟨?_, y, h1, hpt _ h2⟩
      rcases hx x (List.of_mem_zip (List.of_mem_zip hm).2).2 with rfl | h
      · rcases h1 with ⟨h, _⟩ | ⟨h, _⟩ <;> cases h
      · exact h
  · intro s hs
    rw [List.take_of_length_le (by simp)] at hs
    exact unchopFinish_ok h repair hs hb2 hb ht hpc

/-- Without a common type (every input is `NULL`) the result is `NULL`, and the indices are not looked at. -/
theorem C65_null (h : Name → BitVec 32) {k : Nat} {indices : List RSubscript} {names : Option (List Name)}
    {spec : NameSpec} {repair : NameRepair} (hl : indices.length = k) :
    listUnchopNames h (List.replicate k .null) indices names .null spec repair = .ok .null := by
  unfold listUnchopNames
  rw [if_neg (by simp [hl])]
  rfl

example (h : Name → BitVec 32) : listUnchopNames h [.null] [.int [5]] none .null .null .minimal = .ok .null :=
  C65_null (k := 1) h rfl

/-- **C65** (errors): as many indices as inputs are needed, and each index must have missing locations or
locations up to their number. -/
theorem C65_index_error (h : Name → BitVec 32) {xs : List NVal} {indices : List RSubscript} {names : Option (List Name)}
    {ptype : NVal} {spec : NameSpec} {repair : NameRepair} (hp : IsPtype ptype)
    (hi : xs.length ≠ indices.length ∨ ∃ i ∈ indices, ∀ l, ¬ IndexIs (indices.map indexLength).sum i l) :
    listUnchopNames h xs indices names ptype spec repair = .error .abort := by
  unfold listUnchopNames
  by_cases hl : xs.length = indices.length
  · rcases hi with hi | ⟨i, hi, hbad⟩
    · exact absurd hl hi
    · rw [if_neg (by omega), hp.isTab.notNull, if_neg (by simp)]
      unfold unchopNamesFrom
      rw [outSize_eq, ok_bind, listAsLocations_err ⟨i, hi, fun l hl hok => hbad l (indexIs_iff.2 ⟨hl, hok⟩)⟩]
      rfl
  · rw [if_pos (by omega)]

/-- **C65** (errors): an input that cannot be recycled to its locations is an error, and without a name
specification the name of an input beside several locations or names. -/
theorem C65_input_error (h : Name → BitVec 32) {xs : List NVal} {indices : List RSubscript} {locs : List (List Int)}
    {names names' : Option (List Name)} {ptype : NVal} {spec : NameSpec} {repair : NameRepair}
    {outer : List (Option Name)} {pre post : List (Option Name × List Int × NVal)} {pieces : List Piece}
    {o : Option Name} {loc : List Int} {x : NVal} {m : Nat} (hp : IsPtype ptype) (hl : xs.length = indices.length)
    (hi : List.Forall₂ (IndexIs locs.flatten.length) indices locs) (ht : locs.flatten.length ≤ 2147483647)
    (hx : ∀ x ∈ xs, x = .null ∨ ∃ m, IsTab m x) (hn : NamesFor ptype names names') (ho : OuterNames names' xs outer)
    (hq : outer.zip (locs.zip xs) = pre ++ (o, loc, x) :: post) (hpc : Pieces pre pieces)
    (hpt : ∀ p ∈ pieces, HasType p.2.1.length ptype p.2.2 ∧ ∃ q, PieceNames spec p q ∧
      ∀ l, q.1 = some l → ∀ s, some s ∈ l → s.length ≤ 2147483619) (hxt : IsTab m x)
    (hbad : (m ≠ loc.length ∧ m ≠ 1) ∨ ∃ y, Recycled loc.length x y ∧ Unmerged spec loc.length o (namesOf y)) :
    listUnchopNames h xs indices names ptype spec repair = .error .abort := by
  have hll : locs.length = xs.length := by rw [hl]; exact (forall₂_length hi).symm
  obtain ⟨base, hb1, hb2⟩ := nvalInit_ok h hp.isTab (n := locs.flatten.length) ht
  have hb := hasType_init hp hb2
  have hol := ho.length
  have hget : (outer.zip (locs.zip xs))[pre.length]? = some (o, loc, x) := by rw [hq]; simp
  have htake : ∀ i, i ≤ pre.length → (outer.zip (locs.zip xs)).take i = pre.take i := by
    intro i hi
    rw [hq, List.take_append_of_le_length hi]
  obtain ⟨g1, g2, g3⟩ := unchop_input rfl ho hget
  have hpl : pre.length < xs.length := (List.getElem?_eq_some_iff.1 g3).1
  rw [listUnchopNames_eq h hp hl hi, hn.eq, hb1, ok_bind]
  have := forN_err (n := xs.length) (k := pre.length) (e := .abort) (s := (⟨base, none⟩ : UState))
    (f := unchopNamesTurn h spec xs locs locs.flatten.length names')
    (fun i s => UInv spec locs.flatten.length ptype base ((outer.zip (locs.zip xs)).take i) s) hpl
    (by rw [List.take_zero]; exact uinv_start hb)
    (fun i s hil hs => by
      refine unchopLoop_inv h rfl ho hll (fun l hl => ⟨locs_of hi l hl, Nat.le_trans (length_le_flatten hl) ht⟩) hb
        (by omega) hs ?_
      intro o loc x hg
      have hm := List.mem_of_getElem? hg
      have hm' : (o, loc, x) ∈ pre := by
        rw [hq, List.getElem?_append_left hil] at hg
        exact List.mem_of_getElem? hg
      rcases hpc.get hm' with h1 | ⟨y, h1, h2⟩
      · exact Or.inl h1
      · refine Or.inr ⟨?_, y, h1, hpt _ h2⟩
        rcases hx x (List.of_mem_zip (List.of_mem_zip hm).2).2 with rfl | h
        · rcases h1 with ⟨h, _⟩ | ⟨h, _⟩ <;> cases h
        · exact h)
    (fun s hs => unchopTurn_bad h s g3 g2 g1
      (Nat.le_trans (length_le_flatten (List.mem_of_getElem? g2)) ht) ⟨m, hxt, hbad⟩)
  rw [this]; rfl

/-! ## Determined -/

theorem Spec.Writes.covered {α : Type} {ws : List (Int × α)} {a a' b c : List α} (h : Writes ws a b)
    (h' : Writes ws a' c) (hl : a.length = a'.length) (hc : ∀ p : Nat, p < a.length → ∃ w ∈ ws, w.1 = (p : Int) + 1) : b = c := by
  refine List.ext_getElem? (fun p => ?_)
  by_cases hp : p < a.length
  · obtain ⟨w, hw1, hw2⟩ := hc p hp
    rcases h.2 p hp with ⟨pre, v, post, e, hpost, hv⟩ | ⟨hno, _⟩
    · rcases h'.2 p (by omega) with ⟨pre', v', post', e', hpost', hv'⟩ | ⟨hno', _⟩
      · rw [hv, hv', last_write_unique (e.symm.trans e') hpost hpost']
      · exact absurd hw2 (hno' w hw1)
    · exact absurd hw2 (hno w hw1)
  · rw [List.getElem?_eq_none (by rw [h.1]; omega), List.getElem?_eq_none (by rw [h'.1]; omega)]

/-- Every element is located. -/
def Covered (n : Nat) (locs : List (List Int)) : Prop := ∀ p : Nat, p < n → ∃ l ∈ locs, (p : Int) + 1 ∈ l

theorem scattered_covered {keep : Bool} {n : Nat} {x y : NVal} {parts : List (List Int × NVal)} (h : Scattered keep x parts y) :
    ∀ {p x' z : NVal}, IsPtype p → SlicedAs (List.replicate n none) p x → SlicedAs (List.replicate n none) p x' →
      PartsTyped p parts → Covered n (parts.map (fun q => q.1)) → Scattered keep x' parts z → y = z := by
  induction h with
  | @vec t xs ys a b parts hw hn =>
    intro p x' z hp hx hx' hpt hc hz
    cases hx with
    | @vec _ e _ nms0 _ h1 h2 =>
      cases hx' with
      | @vec _ _ xs' _ a' g1 g2 =>
        have hxl : xs.length = n := by rw [h1.1, List.length_replicate]
        have hxl' : xs'.length = n := by rw [g1.1, List.length_replicate]
        have ha : a = a' := by
          rcases h2 with ⟨k1, k2⟩ | ⟨u, v, k1, k2, k3⟩ <;> rcases g2 with ⟨j1, j2⟩ | ⟨u', v', j1, j2, j3⟩
          · rw [k2, j2]
          · rw [k1] at j1; cases j1
          · rw [k1] at j1; cases j1
          · rw [k2, j2, located_none k3, located_none j3]
        subst ha
        generalize he : parts.map (fun p => (p.1, NVal.vec t p.2.1 p.2.2)) = ps at hz
        cases hz with
        | @vec _ _ ys' _ b' parts' hw' hn' =>
          have := parts_inj he
          subst this
          rw [hxl] at hn
          rw [hxl'] at hn'
          rw [hn.unique hn']
          rw [hw.covered hw' (by omega) ?_]
          intro k hk
          obtain ⟨l, hl1, hl2⟩ := hc k (by omega)
          rw [List.map_map, List.mem_map] at hl1
          obtain ⟨q, hq1, rfl⟩ := hl1
          have hty := hpt (q.1, .vec t q.2.1 q.2.2) (List.mem_map.2 ⟨q, hq1, rfl⟩)
          obtain ⟨j, hj⟩ := List.mem_iff_getElem?.1 hl2
          have hlen : q.2.1.length = q.1.length := hty.size
          have hjl : j < q.1.length := (List.getElem?_eq_some_iff.1 hj).1
          have hv := List.getElem?_eq_getElem (l := q.2.1) (i := j) (by omega)
          exact ⟨((k : Int) + 1, _), List.mem_flatMap.2 ⟨q, hq1, List.mem_of_getElem? (List.getElem?_zip_eq_some.2 ⟨hj, hv⟩)⟩, rfl⟩
  | @df n' cn cols cols' a b parts colsOf rows hl hc hp hrow hn ih =>
    intro p x' z hpp hx hx' hpt hcov hz
    cases hx with
    | @df m _ pcols _ prn _ h1 h2 h3 =>
      cases hpp with
      | df f1 f2 =>
        cases hx' with
        | @df _ _ _ cols1 _ a1 g1 g2 g3 =>
          have ha : a = none := by
            rcases h3 with ⟨_, h⟩ | ⟨_, _, _, _, h, _⟩
            · exact h
            · cases h
          have ha1 : a1 = none := by
            rcases g3 with ⟨_, h⟩ | ⟨_, _, _, _, h, _⟩
            · exact h
            · cases h
          subst ha ha1
          cases hz with
          | @df _ _ _ cols2 _ b2 _ colsOf2 rows2 hl2 hc2 hp2 hrow2 hn2 =>
            have hr : rows = rows2 := forall₂_unique (by
              rintro p q q' ⟨h1, m, n1, cn1, c1, r1, e1, e1'⟩ ⟨g1, m', n2, cn2, c2, r2, e2, e2'⟩
              rw [e1] at e2
              cases e2
              injection e1' with _ e1'
              injection e2' with _ e2'
              exact Prod.ext (h1.trans g1.symm) (e1'.trans e2'.symm)) hrow hrow2
            subst hr
            have hcols : cols' = cols2 := by
              refine List.ext_getElem? (fun c => ?_)
              by_cases hcl : c < cols.length
              · have k1 := List.getElem?_eq_getElem (l := cols') (i := c) (by omega)
                have k2 := List.getElem?_eq_getElem (l := cols2) (i := c) (by omega)
                have k3 := List.getElem?_eq_getElem (l := cols) (i := c) hcl
                have k4 := List.getElem?_eq_getElem (l := cols1) (i := c) (by omega)
                have k5 := List.getElem?_eq_getElem (l := pcols) (i := c) (by omega)
                have hco : colsOf c = colsOf2 c := forall₂_unique (by
                  rintro p q q' ⟨k1, k2⟩ ⟨j1, j2⟩
                  exact Prod.ext (k1.trans j1.symm) (k2.unique j2)) (hc c hcl) (hc2 c (by omega))
                have := hp2 c _ _ k4 k2
                rw [← hco] at this
                rw [k1, k2, ih c _ _ k3 k1 (f2 _ (List.mem_of_getElem? k5)) (h2 c _ _ k5 k3) (g2 c _ _ k5 k4) ?_ ?_ this]
                · intro q hq
                  obtain ⟨q', hq1, hq2, n2, cn2, cols2, rn2, e1, e2⟩ := forall₂_mem_right (hc c hcl) hq
                  have := hpt q' hq1
                  rw [e1] at this
                  cases this with
                  | df j1 j2 j3 =>
                    rw [hq2]
                    exact j2 c _ _ k5 e2
                · intro k hk
                  obtain ⟨l, hl1, hl2⟩ := hcov k hk
                  obtain ⟨q, hq1, rfl⟩ := List.mem_map.1 hl1
                  obtain ⟨j, hj⟩ := List.mem_iff_getElem?.1 hq1
                  obtain ⟨q', hq2, hq3, _⟩ := forall₂_get (hc c hcl) hj
                  exact ⟨q'.1, List.mem_map.2 ⟨q', List.mem_of_getElem? hq2, rfl⟩, by rw [hq3]; exact hl2⟩
              · rw [List.getElem?_eq_none (by omega), List.getElem?_eq_none (by omega)]
            rw [hcols, hn.unique hn2]

theorem Spec.PieceNames.unique {spec : NameSpec} {p : Piece} {a b : Option (List Name) × List Int × Option (List Name)}
    (h : PieceNames spec p a) (h' : PieceNames spec p b) : a = b := by
  obtain ⟨h1, h2, h3⟩ := h
  obtain ⟨g1, g2, g3⟩ := h'
  have e1 := h1.unique g1
  refine Prod.ext e1 (Prod.ext (h2.trans g2.symm) ?_)
  rcases h3 with ⟨h3, h4⟩ | ⟨h3, h4⟩ <;> rcases g3 with ⟨g3, g4⟩ | ⟨g3, g4⟩
  · rw [h4, g4]
  · exact absurd h3 g3
  · exact absurd g3 h3
  · rw [h4, g4, e1]

theorem Spec.UnchopNames.unique {repair : NameRepair} {n : Nat} {qs : List (Option (List Name) × List Int × Option (List Name))}
    {a b : Option (List Name)} (h : UnchopNames repair n qs a) (h' : UnchopNames repair n qs b) : a = b := by
  rcases h with ⟨h1, h2⟩ | ⟨⟨q, h1, h1'⟩, s, r, h2, h3, h4⟩ <;> rcases h' with ⟨g1, g2⟩ | ⟨⟨q', g1, g1'⟩, s', r', g2, g3, g4⟩
  · rw [h2, g2]
  · exact absurd (h1 q' g1) g1'
  · exact absurd (g1 q h1) h1'
  · have := h2.unique g2
    subst this
    rw [h4, g4, h3.unique g3]

theorem Spec.Renamed.unique {a : Option (List Name)} {x y z : NVal} (h : Renamed a x y) (h' : Renamed a x z) : y = z := by
  cases h with
  | vec => cases h'; rfl
  | df h => cases h' with
    | df h' => rw [h.unique h']

/-- **C65** (determined): if every element is located, the specification leaves no choice. -/
theorem C65_determined {spec : NameSpec} {repair : NameRepair} {n : Nat} {ptype : NVal} {pieces : List Piece} {y z : NVal}
    (hp : IsPtype ptype) (ht : ∀ p ∈ pieces, HasType p.2.1.length ptype p.2.2)
    (hc : Covered n (pieces.map (fun p => p.2.1))) (h : Unchopped spec repair n ptype pieces y)
    (h' : Unchopped spec repair n ptype pieces z) : y = z := by
  obtain ⟨keep, base, mid, fin, qs, a, h1, h2, h3, h4, h5, h6, h7⟩ := h
  obtain ⟨keep', base', mid', fin', qs', a', g1, g2, g3, g4, g5, g6, g7⟩ := h'
  have hk : keep = keep' := by
    have := h1.trans g1.symm
    cases keep <;> cases keep' <;> simp_all
  subst hk
  have hm := scattered_covered h3 hp h2 g2 (by
    intro q hq
    obtain ⟨p, hp1, rfl⟩ := List.mem_map.1 hq
    exact (ht p hp1).unnamed) (by
    rw [List.map_map]; exact hc) g3
  subst hm
  have := h4.unique g4
  subst this
  have : qs = qs' := forall₂_unique (by intro _ _ _ a b; exact Spec.PieceNames.unique a b) h5 g5
  subst this
  have := h6.unique g6
  subst this
  rcases h7 with ⟨k1, k2, k3⟩ | ⟨k1, k3⟩ <;> rcases g7 with ⟨j1, j2, j3⟩ | ⟨j1, j3⟩
  · rw [k3, j3]
  · rcases j1 with j | j
    · exact absurd k1 j
    · exact absurd j k2
  · rcases k1 with j | j
    · exact absurd j1 j
    · exact absurd j j2
  · exact k3.unique j3

/-! ## Examples -/

/-! `list_unchop(list(u = 1L, NULL, c(u = 2L, s = 3L), k = 4:5), indices = list(2L, 6L, c(4L, NA), 2:1),
name_spec = f)`; the name of the third input is missing. -/

def unIdx : List RSubscript := [.int [2], .int [6], .int [4, naInt], .int [2, 1]]

def unLocs : List (List Int) := [[2], [6], [4, naInt], [2, 1]]

def unPieces : List Piece :=
  [(some (some ['u']), [2], .vec (.atom .int) ([1] : List Int) none),
   (some none, [4, naInt], .vec (.atom .int) ([2, 3] : List Int) (some [some ['u'], some ['s']])),
   (some (some ['k']), [2, 1], .vec (.atom .int) ([4, 5] : List Int) none)]

theorem un_index : List.Forall₂ (IndexIs unLocs.flatten.length) unIdx unLocs := by
  simp [IndexIs, unIdx, unLocs, naInt]

theorem un_tab : ∀ x ∈ cxXs, x = .null ∨ ∃ m, IsTab m x := by
  intro x hx
  rcases cx_inputs x hx with h | ⟨k, h⟩
  · exact Or.inl h
  · exact Or.inr ⟨k, h.isTab cx_ptype⟩

theorem un_pieces : Pieces ((cxNames.map some).zip (unLocs.zip cxXs)) unPieces :=
  .cons (Or.inl ⟨rfl, rfl⟩) (.null (.cons (Or.inl ⟨rfl, rfl⟩) (.cons (Or.inl ⟨rfl, rfl⟩) .nil)))

theorem un_small {l : List Name} (h : ∀ q ∈ l, q.all (fun s => s.length ≤ 1) = true) :
    ∀ s, some s ∈ l → s.length ≤ 2147483619 :=
  fun s hs => Nat.le_trans (by simpa using h _ hs) (by decide)

example : ∃ y, listUnchopNames exHash cxXs unIdx (some cxNames) cxP rbSpec .unique = .ok y ∧
    Unchopped rbSpec .unique 6 cxP unPieces y := by
  refine C65_unchop exHash (locs := unLocs) (outer := cxNames.map some) cx_ptype rfl un_index (by decide) un_tab
    (Or.inl ⟨_, _, _, rfl, rfl⟩) (Or.inr ⟨_, rfl, rfl, rfl⟩) un_pieces ?_
  intro p hp
  simp only [unPieces, List.mem_cons, List.not_mem_nil, or_false] at hp
  rcases hp with rfl | rfl | rfl
  · refine ⟨.vec rfl nofun, (some [some ['u']], [2], some [some ['u']]),
      ⟨.one (fun h => by cases h) (by decide) nofun rfl, rfl, Or.inr ⟨?_, rfl⟩⟩, fun l hl => by cases hl; exact un_small (by decide)⟩
    rintro ⟨⟨o, h1, h2⟩, _⟩
    cases h1
    rcases h2 with h | h <;> cases h
  · refine ⟨.vec rfl (fun l hl => by cases hl; rfl), (some [some ['u'], some ['s']], [4, naInt], some [some ['u'], some ['s']]),
      ⟨.inner (fun h => by cases h) (Or.inl rfl), rfl, Or.inr ⟨?_, rfl⟩⟩, fun l hl => by cases hl; exact un_small (by decide)⟩
    rintro ⟨_, h⟩
    cases h
  · refine ⟨.vec rfl nofun, (some [some ['k'], some ['k']], [2, 1], some [some ['k'], some ['k']]),
      ⟨.index rfl (by decide) nofun (by decide) rfl (Or.inr ⟨_, _, rfl, rfl, Or.inl ⟨rfl, rfl⟩⟩), rfl, Or.inr ⟨?_, rfl⟩⟩,
      fun l hl => by cases hl; exact un_small (by decide)⟩
    rintro ⟨⟨o, h1, h2⟩, _⟩
    cases h1
    rcases h2 with h | h <;> cases h

example :
    exShow exInts (listUnchopNames exHash cxXs unIdx (some cxNames) cxP rbSpec .unique) =
      .ok (some [5, 4, naInt, 2, naInt, naInt]) ∧
    exShow NVal.vnames (listUnchopNames exHash cxXs unIdx (some cxNames) cxP rbSpec .unique) =
      .ok (some [some "k...1".toList, some "k...2".toList, some "...3".toList, some ['u'], some "...5".toList,
        some "...6".toList]) := by
  refine ⟨?_, ?_⟩ <;> decide +kernel

/-! An index of three locations for an input of two, a location beyond the number of them, and a name beside two
elements without a specification. -/

example : listUnchopNames exHash cxXs [.int [1], .null, .int [2, 3, 4], .int [5, 6]] (some cxNames) cxP rbSpec .unique =
    .error .abort := by
  refine C65_input_error exHash (locs := [[1], [], [2, 3, 4], [5, 6]]) (outer := cxNames.map some)
    (pre := [(some (some ['u']), [1], .vec (.atom .int) ([1] : List Int) none), (some (some []), [], .null)])
    (pieces := [(some (some ['u']), [1], .vec (.atom .int) ([1] : List Int) none)])
    cx_ptype rfl (by simp [IndexIs]) (by decide) un_tab (Or.inl ⟨_, _, _, rfl, rfl⟩) (Or.inr ⟨_, rfl, rfl, rfl⟩)
    rfl (.cons (Or.inl ⟨rfl, rfl⟩) (.null .nil)) ?_ (m := 2) (.vec rfl (fun l hl => by cases hl; rfl)) (Or.inl ⟨by decide, by decide⟩)
  intro p hp
  simp only [List.mem_cons, List.not_mem_nil, or_false] at hp
  subst hp
  refine ⟨.vec rfl nofun, (some [some ['u']], [1], some [some ['u']]),
    ⟨.one (fun h => by cases h) (by decide) nofun rfl, rfl, Or.inr ⟨?_, rfl⟩⟩, fun l hl => by cases hl; exact un_small (by decide)⟩
  rintro ⟨⟨o, h1, h2⟩, _⟩
  cases h1
  rcases h2 with h | h <;> cases h

example : listUnchopNames exHash cxXs [.int [2], .int [6], .int [4, naInt], .int [2, 7]] (some cxNames) cxP rbSpec .unique =
    .error .abort :=
  C65_index_error exHash cx_ptype (Or.inr ⟨.int [2, 7], by decide, by simp [IndexIs, indexLength, naInt]⟩)

example : listUnchopNames exHash [.vec (.atom .int) ([4, 5] : List Int) none] [.int [2, 1]] (some [some ['k']]) cxP .null .minimal =
    .error .abort :=
  C65_input_error exHash (locs := [[2, 1]]) (outer := [some (some ['k'])]) (pre := []) (post := []) (pieces := [])
    cx_ptype rfl (by simp [IndexIs]) (by decide) (fun x hx => by
      rw [List.mem_singleton] at hx; subst hx; exact Or.inr ⟨2, .vec rfl nofun⟩)
    (Or.inl ⟨_, _, _, rfl, rfl⟩) (Or.inr ⟨_, rfl, rfl, rfl⟩)
    rfl .nil nofun (m := 2) (.vec rfl nofun)
    (Or.inr ⟨_, Or.inl ⟨rfl, rfl⟩, rfl, _, by decide, rfl, Or.inl (by decide)⟩)

/-! Data frames: the names of the inputs do not count; each row of the result is located. -/

def unRows : List RSubscript := [.int [6], .null, .int [1, 3], .int [], .int [5, 4], .int [2]]

theorem un_rows : Covered 6 [[6], [1, 3], [], [5, 4], [2]] := by
  intro p hp
  match p, hp with
  | 0, _ => exact ⟨[1, 3], by decide, by decide⟩
  | 1, _ => exact ⟨[2], by decide, by decide⟩
  | 2, _ => exact ⟨[1, 3], by decide, by decide⟩
  | 3, _ => exact ⟨[5, 4], by decide, by decide⟩
  | 4, _ => exact ⟨[5, 4], by decide, by decide⟩
  | 5, _ => exact ⟨[6], by decide, by decide⟩
  | p + 6, hp => omega

def unRowPieces : List Piece :=
  [(none, [6], rbA), (none, [1, 3], rbB), (none, [], rbE), (none, [5, 4], rbC), (none, [2], rbD)]

theorem un_row_typed : ∀ p ∈ unRowPieces, HasType p.2.1.length (.df 0 rbCn rbCols none) p.2.2 := by
  intro p hp
  have hm : p.2.2 ∈ rbXs ∧ rowsOf p.2.2 = some p.2.1.length := by
    simp only [unRowPieces, List.mem_cons, List.not_mem_nil, or_false] at hp
    rcases hp with rfl | rfl | rfl | rfl | rfl <;> exact ⟨by simp [rbXs], rfl⟩
  rcases rb_inputs _ hm.1 with h | ⟨k, h⟩
  · rw [h] at hm; cases hm.2
  · have := (h.isTab rb_ptype).rowsOf
    rw [hm.2] at this
    cases this
    exact h

example : ∃ y, listUnchopNames exHash rbXs unRows (some rbNames) (.df 0 rbCn rbCols none) .null .minimal = .ok y ∧
    (∀ z, Unchopped .null .minimal 6 (.df 0 rbCn rbCols none) unRowPieces z ↔ z = y) := by
  obtain ⟨y, h1, h2⟩ := C65_unchop exHash (xs := rbXs) (indices := unRows) (locs := [[6], [], [1, 3], [], [5, 4], [2]])
    (names := some rbNames) (spec := .null) (repair := .minimal) (pieces := unRowPieces)
    (outer := List.replicate 6 none) rb_ptype rfl (by simp [IndexIs, unRows]) (by decide) (by
      intro x hx
      rcases rb_inputs x hx with h | ⟨k, h⟩
      · exact Or.inl h
      · exact Or.inr ⟨k, h.isTab rb_ptype⟩) (Or.inr ⟨_, _, _, _, rfl, rfl⟩) (Or.inl ⟨rfl, rfl⟩)
    (.cons (Or.inl ⟨rfl, rfl⟩) (.null (.cons (Or.inl ⟨rfl, rfl⟩) (.cons (Or.inl ⟨rfl, rfl⟩) (.cons (Or.inl ⟨rfl, rfl⟩)
      (.cons (Or.inl ⟨rfl, rfl⟩) .nil)))))) (by
      intro p hp
      refine ⟨un_row_typed p hp, (namesOf p.2.2, p.2.1, namesOf p.2.2), ⟨?_, rfl, Or.inr ⟨?_, rfl⟩⟩, ?_⟩
      · simp only [unRowPieces, List.mem_cons, List.not_mem_nil, or_false] at hp
        rcases hp with rfl | rfl | rfl | rfl | rfl <;> exact .unnamed (fun h => by cases h)
      · simp only [unRowPieces, List.mem_cons, List.not_mem_nil, or_false] at hp
        rcases hp with rfl | rfl | rfl | rfl | rfl <;> (rintro ⟨⟨o, h, _⟩, _⟩; cases h)
      · simp only [unRowPieces, List.mem_cons, List.not_mem_nil, or_false] at hp
        rcases hp with rfl | rfl | rfl | rfl | rfl <;> (intro l hl; cases hl) <;> exact un_small (by decide))
  exact ⟨y, h1, fun z => ⟨fun hz => C65_determined rb_ptype un_row_typed un_rows hz h2, fun h => h ▸ h2⟩⟩

example :
    exShow exFirst (listUnchopNames exHash rbXs unRows (some rbNames) (.df 0 rbCn rbCols none) .null .minimal) =
      .ok (some [2, 6, 3, 5, 4, 1]) ∧
    exShow NVal.vnames (listUnchopNames exHash rbXs unRows (some rbNames) (.df 0 rbCn rbCols none) .null .minimal) =
      .ok (some [some "r...1".toList, some "r...2".toList, some ['s'], some "...4".toList, some "...5".toList,
        some "...6".toList]) := by
  refine ⟨?_, ?_⟩ <;> decide +kernel

/-! An input without names whose name is empty writes no names: with a location given twice the second input has the
name of the first.  `list_unchop(list(a = 1L, 2L), indices = list(1L, 1L))`. -/

/-- **C65** (overlapping locations): the value of an unnamed input can be given the name of another input. -/
theorem C65_stale_name :
    exShow exInts (listUnchopNames exHash [.vec (.atom .int) ([1] : List Int) none, .vec (.atom .int) ([2] : List Int) none]
      [.int [1], .int [1]] (some [some ['a'], some []]) cxP .null .minimal) = .ok (some [2, naInt]) ∧
    exShow NVal.vnames (listUnchopNames exHash [.vec (.atom .int) ([1] : List Int) none, .vec (.atom .int) ([2] : List Int) none]
      [.int [1], .int [1]] (some [some ['a'], some []]) cxP .null .minimal) = .ok (some [some ['a'], some []]) := by
  refine ⟨?_, ?_⟩ <;> decide +kernel

end Vctrs
