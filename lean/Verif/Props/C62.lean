import Verif.Lemmas.RbindTop
import Verif.Lemmas.BindUnique
import Verif.Props.C59
import Verif.Model.NamesTo
import Verif.Lemmas.Cbind
import Verif.Lemmas.TableUnique

/-!
# C62: vec_rbind() gives the rows of its inputs in order, with their row names

The inputs have been cast to the common type; `HasType` is what the cast gives.
-/

namespace Vctrs

open Spec

theorem mem_zip_right {α : Type} {a : List α} {xs : List NVal} {p : α × NVal} (h : p ∈ a.zip xs) : p.2 ∈ xs :=
  (List.of_mem_zip (a := p.1) (b := p.2) h).2

theorem totOf_eq {α : Type} {ins : List (Labelled α)} {xs : List NVal} (h : valsOf ins = xs) :
    totOf ins = totalRows xs := by
  subst h
  rw [totOf, totalRows]
  generalize valsOf ins = xs
  induction xs with
  | nil => rfl
  | cons x xs ih => cases x <;> simp [rowsOf, NVal.size, ih, List.filterMap_cons]

theorem sizeOf'_blocks {α : Type} {spec : NameSpec} {ins : List (Labelled α)} {blocks : List (Nat × Option (List Name))}
    (hb : List.Forall₂ (LBlock spec) (keptOf ins) blocks) : sizeOf' blocks = totOf ins := by
  rw [← labels_length]
  generalize keptOf ins = kept at hb ⊢
  induction hb with
  | nil => rfl
  | @cons p b ps bs hpb _ ih =>
    simp only [sizeOf', labels, List.map_cons, List.sum_cons, List.flatMap_cons, List.length_append,
      List.length_replicate] at ih ⊢
    rw [ih, rowsOf_size hpb.1]

/-- The names of the inputs as labels. -/
def labelled (α : Type) (outer : List (Option Name)) (xs : List NVal) : List (Labelled α) :=
  (outer.zip xs).map (fun p => ((p.1, none), p.2))

theorem Spec.OuterNames.length {names : Option (List Name)} {xs : List NVal} {outer : List (Option Name)}
    (h : OuterNames names xs outer) : outer.length = xs.length := by
  rcases h with ⟨_, rfl⟩ | ⟨l, _, h1, rfl⟩
  · simp
  · simpa using h1

theorem labelled_vals {α : Type} {outer : List (Option Name)} {xs : List NVal} (h : outer.length = xs.length) :
    valsOf (labelled α outer xs) = xs := by
  rw [valsOf, labelled, List.map_map]
  exact List.map_snd_zip (by omega)

theorem labelled_ins {α : Type} {outer : List (Option Name)} {xs : List NVal} {names : Option (List Name)} {cn : List Name}
    {pcols : List NVal} (ho : OuterNames names xs outer)
    (hx : ∀ x ∈ xs, x = .null ∨ ∃ k, HasType k (.df 0 cn pcols none) x) :
    RbindIns (labelled α outer xs) names none cn pcols := by
  refine ⟨?_, ?_⟩
  · intro i p hp
    have hl := ho.length
    refine ⟨?_, ?_, nofun⟩
    · have := congrArg (Option.map (fun q : Labelled α => q.2)) hp
      rwa [← List.getElem?_map] at this
    · simp only [labelled, List.getElem?_map, Option.map_eq_some_iff] at hp
      obtain ⟨q, hq, rfl⟩ := hp
      obtain ⟨hq1, hq2⟩ := List.getElem?_zip_eq_some.1 hq
      rcases ho with ⟨rfl, rfl⟩ | ⟨l, rfl, h1, rfl⟩
      · have hi : i < xs.length := (List.getElem?_eq_some_iff.1 hq2).1
        rw [List.getElem?_replicate, if_pos hi] at hq1
        rw [outerOf, ← Option.some.inj hq1]
      · rw [List.getElem?_map, Option.map_eq_some_iff] at hq1
        obtain ⟨o, ho1, ho2⟩ := hq1
        rw [outerOf, rd_of_getElem? ho1, ok_bind, ← ho2]
  · intro p hp
    obtain ⟨q, hq, rfl⟩ := List.mem_map.1 hp
    exact hx q.2 (mem_zip_right hq)

theorem labelled_kept {α : Type} {outer : List (Option Name)} {xs : List NVal} {kept : List (Option Name × NVal)}
    (hk : KeptRows (outer.zip xs) kept) : keptOf (labelled α outer xs) = kept.map (fun p => ((p.1, none), p.2)) := by
  rw [hk.eq]
  exact keptOf_map (fun o => (o, (none : Option α))) _

theorem lblocks_of {α : Type} {spec : NameSpec} {kept : List (Option Name × NVal)} {blocks : List (Nat × Option (List Name))}
    (hb : List.Forall₂ (Block spec) kept blocks) :
    List.Forall₂ (LBlock spec) (kept.map (fun p => ((p.1, (none : Option α)), p.2))) blocks := by
  induction hb with
  | nil => exact .nil
  | cons h _ ih => exact .cons h ih

/-- Inputs with names.  Every input whose names can be merged with its row names gives its rows in
order, and the row names are the merged names, made unique.  Missing: an input without row names
beside others that are named must have one row; see `C62_blank`. -/
theorem C62_rbind_named_partial (h : Name → BitVec 32) {xs : List NVal} {names : Option (List Name)} {cn : List Name}
    {pcols : List NVal} {spec : NameSpec} {outer : List (Option Name)} {kept : List (Option Name × NVal)}
    {blocks : List (Nat × Option (List Name))} (hp : IsPtype (.df 0 cn pcols none))
    (hx : ∀ x ∈ xs, x = .null ∨ ∃ k, HasType k (.df 0 cn pcols none) x) (ht : totalRows xs ≤ 2147483647)
    (ho : OuterNames names xs outer) (hk : KeptRows (outer.zip xs) kept)
    (hb : List.Forall₂ (Block spec) kept blocks) (hs : ShortNames blocks)
    (hn : ∀ p ∈ kept, ∀ n, rowsOf p.2 = some n → ¬ BlankNames spec n p.1 (namesOf p.2)) :
    ∃ cols rn, vecRbind h xs names (.df 0 cn pcols none) spec none = .ok (.df (totalRows xs) cn cols rn) ∧
      RowBound spec cn pcols kept (totalRows xs) cols rn := by
  have hl := ho.length
  have hkept := labelled_kept (α := (VTy.atom .int).El) hk
  have hb2 : List.Forall₂ (LBlock spec) (keptOf (labelled (VTy.atom .int).El outer xs)) blocks := by
    rw [hkept]; exact lblocks_of hb
  have htot : sizeOf' blocks = totalRows xs := by
    rw [sizeOf'_blocks hb2, totOf_eq (labelled_vals hl)]
  obtain ⟨s, cols, rn, h1, _, h3⟩ := rbindLoop_ok h (ty := .atom .int) hp (labelled_ins ho hx) hb2 (by
    rw [hkept]
    intro p hp n hr
    obtain ⟨q, hq, rfl⟩ := List.mem_map.1 hp
    exact hn q hq n hr) hs (by omega) none
  have hv : valsOf (labelled (VTy.atom .int).El outer xs) = xs := labelled_vals hl
  rw [hv, htot] at h1
  refine ⟨cols, rn, h1, ?_⟩
  rw [htot] at h3
  have e : (keptOf (labelled (VTy.atom .int).El outer xs)).map (fun p => (p.1.1, p.2)) = kept := by
    rw [hk.eq, labelled, keptOf_map (fun o => (o, (none : Option (VTy.atom .int).El))), List.map_map]
    exact List.map_id _
  rw [e] at h3
  exact h3

/-- Inputs without names (in particular the default `.names_to = zap()`, which removes them): the rows
in order, with the row names of the inputs, made unique. -/
theorem C62_rbind (h : Name → BitVec 32) {xs : List NVal} {cn : List Name} {pcols : List NVal} {spec : NameSpec}
    {kept : List (Option Name × NVal)} (hp : IsPtype (.df 0 cn pcols none))
    (hx : ∀ x ∈ xs, x = .null ∨ ∃ k, HasType k (.df 0 cn pcols none) x) (ht : totalRows xs ≤ 2147483647)
    (hk : KeptRows ((List.replicate xs.length none).zip xs) kept) :
    ∃ cols rn, vecRbind h xs none (.df 0 cn pcols none) spec none = .ok (.df (totalRows xs) cn cols rn) ∧
      RowBound spec cn pcols kept (totalRows xs) cols rn := by
  have hkm : ∀ p ∈ kept, p.1 = none ∧ ∃ k, HasType k (.df 0 cn pcols none) p.2 := by
    intro p hpk
    rw [hk.eq] at hpk
    obtain ⟨hp1, hp2⟩ := List.mem_filter.1 hpk
    have hm := List.of_mem_zip (a := p.1) (b := p.2) hp1
    refine ⟨(List.mem_replicate.1 hm.1).2, (hx _ hm.2).resolve_left ?_⟩
    intro h0
    rw [h0] at hp2; simp [NVal.size] at hp2
  obtain ⟨blocks, hb, hs⟩ : ∃ blocks, List.Forall₂ (Block spec) kept blocks ∧ ShortNames blocks := by
    clear hk
    induction kept with
    | nil => exact ⟨[], .nil, nofun⟩
    | cons p ps ih =>
      obtain ⟨bs, h1, h2⟩ := ih (fun q hq => hkm q (by simp [hq]))
      obtain ⟨g1, k, g2⟩ := hkm p (by simp)
      rcases p with ⟨o, x⟩
      dsimp only at g1 g2
      subst g1
      cases g2 with
      | @df _ _ _ cols rn a1 a2 a3 =>
        by_cases hz : spec = .zap
        · exact ⟨(k, none) :: bs, .cons ⟨rfl, .zap hz⟩ h1, by
            intro q hq l hl
            rcases List.mem_cons.1 hq with rfl | hq
            · cases hl
            · exact h2 q hq l hl⟩
        · refine ⟨(k, rn) :: bs, .cons ⟨rfl, .unnamed hz⟩ h1, ?_⟩
          intro q hq l hl
          rcases List.mem_cons.1 hq with rfl | hq
          · exact (a3 l hl).2
          · exact h2 q hq l hl
  refine C62_rbind_named_partial h hp hx ht (Or.inl ⟨rfl, rfl⟩) hk hb hs ?_
  rintro p hpk n _ ⟨_, ⟨o, ho, _⟩, _⟩
  rw [(hkm p hpk).1] at ho
  cases ho

/-! ## The column of names -/

theorem replaced_set {cols : List NVal} {k : Nat} (hk : k < cols.length) (col : NVal) :
    Replaced k col cols (cols.set k col) := by
  refine ⟨by simp, by simp [hk], ?_⟩
  intro c hc
  rw [List.getElem?_set_ne (fun h => hc h.symm)]

theorem repeated_labels {α : Type} {ins : List (α × NVal)} (hr : ∀ p ∈ ins, ∃ n, rowsOf p.2 = some n) :
    ∃ out, Repeated ins out ∧ labels (ins.map (fun p => (((none : Option Name), some p.1), p.2))) = out.map some := by
  induction ins with
  | nil => exact ⟨[], .nil, rfl⟩
  | cons p ins ih =>
    obtain ⟨out, h1, h2⟩ := ih (fun q hq => hr q (by simp [hq]))
    obtain ⟨n, hn⟩ := hr p (by simp)
    refine ⟨_, .cons hn h1, ?_⟩
    simp only [labels, List.map_cons, List.flatMap_cons] at h2 ⊢
    rw [h2, List.map_append, List.map_replicate, rowsOf_size hn]

theorem rbindTo_ok (h : Name → BitVec 32) {ty : VTy} {xs : List NVal} {index : List ty.El} {cn : List Name} {pcols : List NVal}
    {spec : NameSpec} {kept : List (ty.El × NVal)} {k : Nat} (hz : spec ≠ .zap) (hp : IsPtype (.df 0 cn pcols none))
    (hx : ∀ x ∈ xs, x = .null ∨ ∃ k, HasType k (.df 0 cn pcols none) x) (ht : totalRows xs ≤ 2147483647)
    (hi : index.length = xs.length) (hk : KeptRows (index.zip xs) kept) (hkl : k < pcols.length) :
    ∃ cols cols' rn col, rbindWith h ty spec xs none (.df 0 cn pcols none) (some index) (some k) =
        .ok (.df (totalRows xs) cn cols' rn) ∧
      RowBound spec cn pcols (kept.map (fun p => (none, p.2))) (totalRows xs) cols rn ∧
      Repeated kept col ∧ Replaced k (.vec ty col none) cols cols' := by
  let ins : List (Labelled ty.El) := (index.zip xs).map (fun p => ((none, some p.1), p.2))
  have hv : valsOf ins = xs := by
    show ((index.zip xs).map _).map _ = xs
    rw [List.map_map]
    exact List.map_snd_zip (by omega)
  have hke : keptOf ins = kept.map (fun p => ((none, some p.1), p.2)) := by
    rw [hk.eq]
    exact keptOf_map (fun v => ((none : Option Name), some v)) _
  have hins : RbindIns ins none (some index) cn pcols := by
    refine ⟨?_, ?_⟩
    · intro i p hp
      refine ⟨?_, ?_, ?_⟩
      · have := congrArg (Option.map (fun q : Labelled ty.El => q.2)) hp
        rwa [← List.getElem?_map] at this
      all_goals
        simp only [ins, List.getElem?_map, Option.map_eq_some_iff] at hp
        obtain ⟨q, hq, rfl⟩ := hp
        obtain ⟨hq1, hq2⟩ := List.getElem?_zip_eq_some.1 hq
      · rfl
      · rintro ix hix
        cases hix
        exact ⟨q.1, rfl, hq1⟩
    · intro p hp
      obtain ⟨q, hq, rfl⟩ := List.mem_map.1 hp
      exact hx q.2 (mem_zip_right hq)
  have hkm : ∀ p ∈ kept, ∃ n, HasType n (.df 0 cn pcols none) p.2 := by
    intro p hpk
    rw [hk.eq] at hpk
    obtain ⟨hp1, hp2⟩ := List.mem_filter.1 hpk
    refine (hx _ (mem_zip_right hp1)).resolve_left ?_
    intro h0
    rw [h0] at hp2; simp [NVal.size] at hp2
  obtain ⟨blocks, hb, hs⟩ : ∃ blocks, List.Forall₂ (LBlock spec) (keptOf ins) blocks ∧ ShortNames blocks := by
    rw [hke]
    clear hk hke
    induction kept with
    | nil => exact ⟨[], .nil, nofun⟩
    | cons p ps ih =>
      obtain ⟨bs, h1, h2⟩ := ih (fun q hq => hkm q (by simp [hq]))
      obtain ⟨n, g2⟩ := hkm p (by simp)
      rcases p with ⟨o, x⟩
      dsimp only at g2
      cases g2 with
      | @df _ _ _ cols rn a1 a2 a3 =>
        refine ⟨(n, rn) :: bs, .cons ⟨rfl, .unnamed hz⟩ h1, ?_⟩
        intro q hq l hl
        rcases List.mem_cons.1 hq with rfl | hq
        · exact (a3 l hl).2
        · exact h2 q hq l hl
  have htot : sizeOf' blocks = totalRows xs := by rw [sizeOf'_blocks hb, totOf_eq hv]
  obtain ⟨s, cols, rn, h1, h2, h3⟩ := rbindLoop_ok h (ty := ty) hp hins hb (by
    rw [hke]
    rintro p hp n _ ⟨_, ⟨o, ho, _⟩, _⟩
    obtain ⟨q, hq, rfl⟩ := List.mem_map.1 hp
    cases ho) hs (by omega) (some k)
  obtain ⟨col, hc1, hc2⟩ := repeated_labels (ins := kept) (fun p hpk => by
    obtain ⟨n, hn⟩ := hkm p hpk
    generalize p.2 = x at hn
    cases hn; exact ⟨n, rfl⟩)
  rw [htot, hv] at h1
  rw [htot, hke, List.map_map] at h3
  have hcl : k < cols.length := by
    obtain ⟨_, _, _, _, ⟨hl, _⟩, _⟩ := h3
    omega
  refine ⟨cols, cols.set k (.vec ty col none), rn, col, ?_, h3, hc1, replaced_set hcl _⟩
  rw [h1, rbindPoke, h2 rfl, hke, hc2, initd_map_some, ok_bind, wr_ok hcl]
  rfl

/-- With `.names_to` and named inputs: a column of names beside the rows in order. -/
theorem C62_names_to (h : Name → BitVec 32) {xs : List NVal} {names : List Name} {cn : List Name} {pcols : List NVal}
    {spec : NameSpec} {kept : List (Name × NVal)} {k : Nat} (hz : spec ≠ .zap) (hp : IsPtype (.df 0 cn pcols none))
    (hx : ∀ x ∈ xs, x = .null ∨ ∃ k, HasType k (.df 0 cn pcols none) x) (ht : totalRows xs ≤ 2147483647)
    (hi : names.length = xs.length) (hk : KeptRows (names.zip xs) kept) (hkl : k < pcols.length) :
    ∃ cols cols' rn col, vecRbind h xs (some names) (.df 0 cn pcols none) spec (some k) =
        .ok (.df (totalRows xs) cn cols' rn) ∧
      RowBound spec cn pcols (kept.map (fun p => (none, p.2))) (totalRows xs) cols rn ∧
      Repeated kept col ∧ Replaced k (.vec (.atom .chr) col none) cols cols' := by
  rw [vecRbind, isZap_false hz, if_neg (by simp)]
  exact rbindTo_ok h (ty := .atom .chr) hz hp hx ht hi hk hkl

/-- With `.names_to` and inputs without names: a column of positions. -/
theorem C62_positions (h : Name → BitVec 32) {xs : List NVal} {cn : List Name} {pcols : List NVal} {spec : NameSpec}
    {pos : List Int} {kept : List (Int × NVal)} {k : Nat} (hz : spec ≠ .zap) (hp : IsPtype (.df 0 cn pcols none))
    (hx : ∀ x ∈ xs, x = .null ∨ ∃ k, HasType k (.df 0 cn pcols none) x) (ht : totalRows xs ≤ 2147483647)
    (hi : pos.length = xs.length) (hpos : ∀ (i : Nat) v, pos[i]? = some v → v = i + 1)
    (hk : KeptRows (pos.zip xs) kept) (hkl : k < pcols.length) :
    ∃ cols cols' rn col, vecRbind h xs none (.df 0 cn pcols none) spec (some k) =
        .ok (.df (totalRows xs) cn cols' rn) ∧
      RowBound spec cn pcols (kept.map (fun p => (none, p.2))) (totalRows xs) cols rn ∧
      Repeated kept col ∧ Replaced k (.vec (.atom .int) col none) cols cols' := by
  have e : (List.range xs.length).map (fun (i : Nat) => (i : Int) + 1) = pos := by
    refine List.ext_getElem? (fun i => ?_)
    by_cases hl : i < xs.length
    · have := List.getElem?_eq_getElem (l := pos) (i := i) (by omega)
      rw [this, hpos i _ this]
      simp [hl]
    · rw [List.getElem?_eq_none (by simp; omega), List.getElem?_eq_none (by omega)]
  rw [vecRbind, isZap_false hz, if_neg (by simp), e]
  exact rbindTo_ok h (ty := .atom .int) hz hp hx ht hi hk hkl

/-! ## The place of the column -/

theorem chrFind_ok (x : List Name) (v : Name) : (∃ k, chrFind x v = .ok (some k) ∧ x[k]? = some v ∧ ∀ j, j < k → x[j]? ≠ some v) ∨
    (chrFind x v = .ok none ∧ v ∉ x) := by
  have h : Ret (chrFind x v) (fun o => (∀ k, o = some k → x[k]? = some v ∧ ∀ j, j < k → x[j]? ≠ some v) ∧ (o = none → v ∉ x)) := by
    unfold chrFind
    refine Ret.forBrk (fun i (o : Option Nat) => o = none ∧ ∀ j, j < i → x[j]? ≠ some v) _ ⟨rfl, fun j hj => by omega⟩ ?_ ?_
    · rintro i o hi ⟨rfl, h2⟩
      have hg := List.getElem?_eq_getElem hi
      by_cases he : x[i] = v
      · refine ⟨.brk (some i), ?_, ?_⟩
        · rw [rd_of_getElem? hg, ok_bind, if_pos he]
        · refine ⟨?_, nofun⟩
          intro k hk
          cases hk
          exact ⟨by rw [hg, he], h2⟩
      · refine ⟨.next none, ?_, rfl, ?_⟩
        · rw [rd_of_getElem? hg, ok_bind, if_neg he]
        · intro j hj
          rcases Nat.lt_succ_iff_lt_or_eq.1 hj with hj | rfl
          · exact h2 j hj
          · rw [hg]
            exact fun h => he (Option.some.inj h)
    · rintro o ⟨rfl, h2⟩
      refine ⟨nofun, fun _ hm => ?_⟩
      obtain ⟨j, hj, hv⟩ := List.mem_iff_getElem.1 hm
      exact h2 j hj (by rw [List.getElem?_eq_getElem hj, hv])
  obtain ⟨o, h1, h2, h3⟩ := h
  cases o with
  | none => exact Or.inr ⟨h1, h3 rfl⟩
  | some k => exact Or.inl ⟨k, h1, h2 k rfl⟩

theorem IsPtype_isTab {p : NVal} (h : IsPtype p) : IsTab 0 p := by
  induction h with
  | vec h => exact .vec rfl (fun l hl => by rw [h l hl]; rfl)
  | df h1 _ ih => exact .df h1 ih nofun

/-- `.names_to` is the first column that has this name, or a new column in front of the others. -/
theorem C62_place (h : Name → BitVec 32) (hasNames : Bool) {t : Name} {cn : List Name} {pcols : List NVal}
    (hp : IsPtype (.df 0 cn pcols none)) :
    (∃ k, namesToPlace h hasNames t (.df 0 cn pcols none) = .ok (.df 0 cn pcols none, k) ∧ cn[k]? = some t ∧
      ∀ j, j < k → cn[j]? ≠ some t) ∨
    (namesToPlace h hasNames t (.df 0 cn pcols none) = .ok (.df 0 (t :: cn) (indexPtype hasNames :: pcols) none, 0) ∧ t ∉ cn) := by
  unfold namesToPlace
  rw [show (NVal.df 0 cn pcols none).colNames = .ok cn from rfl, ok_bind]
  rcases chrFind_ok cn t with ⟨k, h1, h2, h3⟩ | ⟨h1, h2⟩
  · rw [h1]
    exact Or.inl ⟨k, rfl, h2, h3⟩
  · rw [h1, ok_bind]
    refine Or.inr ⟨?_, h2⟩
    have hcl : cn.length = pcols.length := by cases hp with | df h _ => exact h
    have hi : IsPtype (indexPtype hasNames) := by
      cases hasNames
      · exact .vec nofun
      · exact .vec nofun
    have hir : rowsOf (indexPtype hasNames) = some 0 := by cases hasNames <;> rfl
    have hidf : ∀ m cn cols rn, indexPtype hasNames ≠ .df m cn cols rn := by
      intro m cn cols rn
      cases hasNames <;> exact nofun
    have hsz : [indexPtype hasNames, .df 0 cn pcols none].filterMap rowsOf = [0, 0] := by
      cases hasNames <;> rfl
    have hcol : Columns 0 true ([t, some []].zip [indexPtype hasNames, .df 0 cn pcols none])
        ((t, indexPtype hasNames) :: (cn.zip pcols ++ [])) :=
      .one (Or.inr (Or.inr hidf)) (Or.inl ⟨hir, rfl⟩) (.flat rfl (Or.inl ⟨rfl, rfl⟩) .nil)
    obtain ⟨cols, cn', rn, outs, k1, k2, k3, k4, k5⟩ := vecCbind_ok h (xs := [indexPtype hasNames, .df 0 cn pcols none])
      (names := some [t, some []]) (nms := [t, some []]) (size := none) (n := 0) (repair := .none)
      (by
        intro x hx
        simp only [List.mem_cons, List.not_mem_nil, or_false] at hx
        rcases hx with rfl | rfl
        · exact Or.inr ⟨0, IsPtype_isTab hi⟩
        · exact Or.inr ⟨0, IsPtype_isTab hp⟩)
      (Or.inl ⟨rfl, rfl⟩) (Or.inr ⟨rfl, Or.inl (by rw [hsz]; exact ⟨by decide, by decide⟩)⟩) (by decide)
      (by rw [hsz]; simp) (fun _ _ => trivial)
    have e := Spec.Columns.unique k2 _ hcol
    subst e
    have hcols : cols = indexPtype hasNames :: pcols := by
      rw [k3, List.append_nil, List.map_cons]
      exact congrArg _ (List.map_snd_zip (by omega))
    have hcn : cn' = t :: cn := by
      have : cn' = _ := k4
      rw [this, List.append_nil, List.map_cons]
      exact congrArg _ (List.map_fst_zip (by omega))
    have hrn : rn = none := by
      rcases k5 with ⟨_, h⟩ | ⟨pre, m, c, cs, r, post, res, he, -, -⟩
      · exact h
      · match pre, he with
        | [], he =>
          injection he with he _
          exact absurd he (hidf _ _ _ _)
        | [_], he =>
          injection he with _ he
          injection he with he _
          cases he
        | _ :: _ :: pre, he =>
          injection he with _ he
          injection he with _ he
          cases pre <;> cases he
    subst hcols hcn hrn
    show (do .ok (← cbindNamesTo h hasNames t (.df 0 cn pcols none), 0)) = _
    unfold cbindNamesTo
    rw [k1]
    rfl

/-- The type of the rows when `.names_to = t`, and the place of the column. -/
def Spec.NamesToType (hasNames : Bool) (t : Name) (cn : List Name) (pcols : List NVal) (cn' : List Name) (pcols' : List NVal)
    (k : Nat) : Prop :=
  (cn' = cn ∧ pcols' = pcols ∧ cn[k]? = some t ∧ ∀ j, j < k → cn[j]? ≠ some t) ∨
  (t ∉ cn ∧ k = 0 ∧ cn' = t :: cn ∧
    pcols' = (if hasNames then NVal.vec (.atom .chr) ([] : List Name) none else .vec (.atom .int) ([] : List Int) none) :: pcols)

theorem namesToType_ptype {hasNames : Bool} {t : Name} {cn cn' : List Name} {pcols pcols' : List NVal} {k : Nat}
    (hp : IsPtype (.df 0 cn pcols none)) (h : NamesToType hasNames t cn pcols cn' pcols' k) :
    IsPtype (.df 0 cn' pcols' none) ∧ k < pcols'.length := by
  have hcl : cn.length = pcols.length ∧ ∀ p ∈ pcols, IsPtype p := by cases hp with | df h h' => exact ⟨h, h'⟩
  rcases h with ⟨rfl, rfl, h1, -⟩ | ⟨-, rfl, rfl, rfl⟩
  · have := (List.getElem?_eq_some_iff.1 h1).1
    exact ⟨hp, by omega⟩
  · refine ⟨.df (by simp [hcl.1]) ?_, by simp⟩
    intro p hpm
    rcases List.mem_cons.1 hpm with rfl | hpm
    · cases hasNames
      · exact .vec nofun
      · exact .vec nofun
    · exact hcl.2 p hpm

theorem vecRbindTo_eq (h : Name → BitVec 32) {cast : List NVal → NVal → C (List NVal)} {xs ys : List NVal}
    {names : Option (List Name)} {t : Name} {cn cn' : List Name} {pcols pcols' : List NVal} {spec : NameSpec} {k : Nat}
    (hz : spec ≠ .zap) (hp : IsPtype (.df 0 cn pcols none)) (hn : NamesToType names.isSome t cn pcols cn' pcols' k)
    (hc : cast xs (.df 0 cn' pcols' none) = .ok ys) :
    vecRbindTo h cast xs names (.df 0 cn pcols none) spec (some t) = vecRbind h ys names (.df 0 cn' pcols' none) spec (some k) := by
  have hpl : namesToPlace h names.isSome t (.df 0 cn pcols none) = .ok (.df 0 cn' pcols' none, k) := by
    rcases hn with ⟨rfl, rfl, h1, h2⟩ | ⟨h1, rfl, rfl, rfl⟩
    · rcases C62_place h names.isSome (t := t) hp with ⟨k', g1, g2, g3⟩ | ⟨-, g2⟩
      · rcases Nat.lt_trichotomy k k' with hk | rfl | hk
        · exact absurd h1 (g3 k hk)
        · exact g1
        · exact absurd g2 (h2 k' hk)
      · exact absurd (List.mem_of_getElem? h1) g2
    · rcases C62_place h names.isSome (t := t) hp with ⟨k', g1, g2, g3⟩ | ⟨g1, -⟩
      · exact absurd (List.mem_of_getElem? g2) h1
      · exact g1
  unfold vecRbindTo
  dsimp only
  rw [isZap_false hz, if_neg (by simp), hpl, ok_bind]
  dsimp only
  rw [hc, ok_bind]

/-- `.names_to` as a string, with named inputs: the names are in the column of that name, which is the first
one with it if there is one, and else a new one in front. -/
theorem C62_column (h : Name → BitVec 32) {cast : List NVal → NVal → C (List NVal)} {xs ys : List NVal} {names : List Name}
    {t : Name} {cn cn' : List Name} {pcols pcols' : List NVal} {spec : NameSpec} {kept : List (Name × NVal)} {k : Nat}
    (hz : spec ≠ .zap) (hp : IsPtype (.df 0 cn pcols none)) (hn : NamesToType true t cn pcols cn' pcols' k)
    (hc : cast xs (.df 0 cn' pcols' none) = .ok ys)
    (hx : ∀ x ∈ ys, x = .null ∨ ∃ k, HasType k (.df 0 cn' pcols' none) x) (ht : totalRows ys ≤ 2147483647)
    (hi : names.length = ys.length) (hk : KeptRows (names.zip ys) kept) :
    ∃ cols cols' rn col, vecRbindTo h cast xs (some names) (.df 0 cn pcols none) spec (some t) =
        .ok (.df (totalRows ys) cn' cols' rn) ∧
      RowBound spec cn' pcols' (kept.map (fun p => (none, p.2))) (totalRows ys) cols rn ∧
      Repeated kept col ∧ Replaced k (.vec (.atom .chr) col none) cols cols' ∧ cn'[k]? = some t := by
  obtain ⟨hp', hkl⟩ := namesToType_ptype hp hn
  obtain ⟨cols, cols', rn, col, h1, h2, h3, h4⟩ := C62_names_to h hz hp' hx ht hi hk hkl
  refine ⟨cols, cols', rn, col, ?_, h2, h3, h4, ?_⟩
  · rw [vecRbindTo_eq h (names := some names) hz hp hn hc]
    exact h1
  · rcases hn with ⟨rfl, -, h1, -⟩ | ⟨-, rfl, rfl, -⟩
    · exact h1
    · rfl

/-- The same with inputs without names: the column has their positions. -/
theorem C62_column_positions (h : Name → BitVec 32) {cast : List NVal → NVal → C (List NVal)} {xs ys : List NVal}
    {t : Name} {cn cn' : List Name} {pcols pcols' : List NVal} {spec : NameSpec} {pos : List Int} {kept : List (Int × NVal)}
    {k : Nat} (hz : spec ≠ .zap) (hp : IsPtype (.df 0 cn pcols none)) (hn : NamesToType false t cn pcols cn' pcols' k)
    (hc : cast xs (.df 0 cn' pcols' none) = .ok ys)
    (hx : ∀ x ∈ ys, x = .null ∨ ∃ k, HasType k (.df 0 cn' pcols' none) x) (ht : totalRows ys ≤ 2147483647)
    (hi : pos.length = ys.length) (hpos : ∀ (i : Nat) v, pos[i]? = some v → v = i + 1) (hk : KeptRows (pos.zip ys) kept) :
    ∃ cols cols' rn col, vecRbindTo h cast xs none (.df 0 cn pcols none) spec (some t) =
        .ok (.df (totalRows ys) cn' cols' rn) ∧
      RowBound spec cn' pcols' (kept.map (fun p => (none, p.2))) (totalRows ys) cols rn ∧
      Repeated kept col ∧ Replaced k (.vec (.atom .int) col none) cols cols' ∧ cn'[k]? = some t := by
  obtain ⟨hp', hkl⟩ := namesToType_ptype hp hn
  obtain ⟨cols, cols', rn, col, h1, h2, h3, h4⟩ := C62_positions h hz hp' hx ht hi hpos hk hkl
  refine ⟨cols, cols', rn, col, ?_, h2, h3, h4, ?_⟩
  · rw [vecRbindTo_eq h (names := none) hz hp hn hc]
    exact h1
  · rcases hn with ⟨rfl, -, h1, -⟩ | ⟨-, rfl, rfl, -⟩
    · exact h1
    · rfl

/-! ## Failures -/

/-- Names cannot be zapped when they are asked for. -/
theorem C62_zap (h : Name → BitVec 32) (xs : List NVal) (names : Option (List Name)) (ptype : NVal) (k : Nat) :
    vecRbind h xs names ptype .zap (some k) = .error .abort := rfl

theorem rbind_fails (h : Name → BitVec 32) {xs : List NVal} {names : Option (List Name)} {cn : List Name}
    {pcols : List NVal} {spec : NameSpec} {outer : List (Option Name)} {pre post kept : List (Option Name × NVal)}
    {blocks : List (Nat × Option (List Name))} {o : Option Name} {x : NVal} {n : Nat} {e : Err}
    (hp : IsPtype (.df 0 cn pcols none))
    (hx : ∀ x ∈ xs, x = .null ∨ ∃ k, HasType k (.df 0 cn pcols none) x) (ht : totalRows xs ≤ 2147483647)
    (ho : OuterNames names xs outer) (hq : outer.zip xs = pre ++ (o, x) :: post) (hk : KeptRows pre kept)
    (hb : List.Forall₂ (Block spec) kept blocks)
    (hn : ∀ p ∈ kept, ∀ n, rowsOf p.2 = some n → ¬ BlankNames spec n p.1 (namesOf p.2))
    (hr : rowsOf x = some n) (h0 : n ≠ 0)
    (hbad : (e = .abort ∧ Unmerged spec n o (namesOf x)) ∨ (e = .internal ∧ BlankNames spec n o (namesOf x))) :
    vecRbind h xs names (.df 0 cn pcols none) spec none = .error e := by
  have hl := ho.length
  have hv : valsOf (labelled (VTy.atom .int).El outer xs) = xs := labelled_vals hl
  have hke : keptOf (pre.map (fun p => ((p.1, (none : Option (VTy.atom .int).El)), p.2))) =
      kept.map (fun p => ((p.1, none), p.2)) := by
    rw [hk.eq]
    exact keptOf_map (fun o => (o, (none : Option (VTy.atom .int).El))) _
  have := rbindLoop_bad h (ty := .atom .int) (spec := spec) hp (labelled_ins ho hx)
    (pre := pre.map (fun p => ((p.1, none), p.2))) (q := ((o, none), x)) (post := post.map (fun p => ((p.1, none), p.2)))
    (by rw [labelled, hq]; simp) (by rw [hke]; exact lblocks_of hb)
    (by
      rw [hke]
      intro p hp n hr
      obtain ⟨q, hq, rfl⟩ := List.mem_map.1 hp
      exact hn q hq n hr)
    (by
      have e2 : totOf (labelled (VTy.atom .int).El outer xs) = totalRows xs := totOf_eq hv
      rw [e2]; exact ht)
    hr h0 hbad none
  rw [hv] at this
  exact this

/-- Without a name specification, an outer name beside row names or several rows is an error. -/
theorem C62_unmerged (h : Name → BitVec 32) {xs : List NVal} {names : Option (List Name)} {cn : List Name}
    {pcols : List NVal} {spec : NameSpec} {outer : List (Option Name)} {pre post kept : List (Option Name × NVal)}
    {blocks : List (Nat × Option (List Name))} {o : Option Name} {x : NVal} {n : Nat}
    (hp : IsPtype (.df 0 cn pcols none))
    (hx : ∀ x ∈ xs, x = .null ∨ ∃ k, HasType k (.df 0 cn pcols none) x) (ht : totalRows xs ≤ 2147483647)
    (ho : OuterNames names xs outer) (hq : outer.zip xs = pre ++ (o, x) :: post) (hk : KeptRows pre kept)
    (hb : List.Forall₂ (Block spec) kept blocks)
    (hn : ∀ p ∈ kept, ∀ n, rowsOf p.2 = some n → ¬ BlankNames spec n p.1 (namesOf p.2))
    (hr : rowsOf x = some n) (h0 : n ≠ 0) (hbad : Unmerged spec n o (namesOf x)) :
    vecRbind h xs names (.df 0 cn pcols none) spec none = .error .abort :=
  rbind_fails h hp hx ht ho hq hk hb hn hr h0 (Or.inl ⟨rfl, hbad⟩)

/-- An input without row names and with an empty name, beside others that are named, makes `vec_rbind()`
fail with an internal error unless it has one row. -/
theorem C62_blank (h : Name → BitVec 32) {xs : List NVal} {names : Option (List Name)} {cn : List Name}
    {pcols : List NVal} {spec : NameSpec} {outer : List (Option Name)} {pre post kept : List (Option Name × NVal)}
    {blocks : List (Nat × Option (List Name))} {o : Option Name} {x : NVal} {n : Nat}
    (hp : IsPtype (.df 0 cn pcols none))
    (hx : ∀ x ∈ xs, x = .null ∨ ∃ k, HasType k (.df 0 cn pcols none) x) (ht : totalRows xs ≤ 2147483647)
    (ho : OuterNames names xs outer) (hq : outer.zip xs = pre ++ (o, x) :: post) (hk : KeptRows pre kept)
    (hb : List.Forall₂ (Block spec) kept blocks)
    (hn : ∀ p ∈ kept, ∀ n, rowsOf p.2 = some n → ¬ BlankNames spec n p.1 (namesOf p.2))
    (hr : rowsOf x = some n) (h0 : n ≠ 0) (hbad : BlankNames spec n o (namesOf x)) :
    vecRbind h xs names (.df 0 cn pcols none) spec none = .error .internal :=
  rbind_fails h hp hx ht ho hq hk hb hn hr h0 (Or.inr ⟨rfl, hbad⟩)

/-- The specification leaves no choice. -/
theorem C62_determined {spec : NameSpec} {cn : List Name} {pcols : List NVal} {ins : List (Option Name × NVal)}
    {n n' : Nat} {cols cols' : List NVal} {rn rn' : Option (List Name)} (h : RowBound spec cn pcols ins n cols rn)
    (h' : RowBound spec cn pcols ins n' cols' rn') : n = n' ∧ cols = cols' ∧ rn = rn' :=
  h.unique h'

/-! ## Examples

An integer column and a data frame column with one string column; three inputs with rows, the second with
row names, the third with row names in its nested data frame; an input without rows and `NULL`. -/

def rbCn : List Name := [some ['x'], some ['y']]

def rbCols : List NVal := [.vec (.atom .int) ([] : List Int) none,
  .df 0 [some ['z']] [.vec (.atom .chr) ([] : List Name) none] none]

def rbIn (xs : List Int) (zs : List Name) (nms nested rn : Option (List Name)) : NVal :=
  .df xs.length rbCn [.vec (.atom .int) xs nms, .df xs.length [some ['z']] [.vec (.atom .chr) zs none] nested] rn

def rbA : NVal := rbIn [1] [some ['a']] none none none
def rbB : NVal := rbIn [2, 3] [some ['b'], none] none none (some [some ['r'], some ['s']])
def rbC : NVal := rbIn [4, 5] [some ['d'], some ['e']] (some [some ['n'], some ['o']])
  (some [some ['p'], some ['q']]) none
def rbD : NVal := rbIn [6] [some ['f']] none none (some [some ['r']])
def rbE : NVal := rbIn [] [] none none none

def rbXs : List NVal := [rbA, .null, rbB, rbE, rbC, rbD]

theorem rb_ptype : IsPtype (.df 0 rbCn rbCols none) := by
  refine .df rfl ?_
  intro p hp
  simp only [rbCols, List.mem_cons, List.not_mem_nil, or_false] at hp
  rcases hp with rfl | rfl
  · exact .vec nofun
  · refine .df rfl ?_
    intro p hp
    simp only [List.mem_cons, List.not_mem_nil, or_false] at hp
    subst hp
    exact .vec nofun

theorem rb_typed {xs : List Int} {zs : List Name} {nms nested rn : Option (List Name)} (hz : zs.length = xs.length)
    (h1 : ∀ l, nms = some l → l.length = xs.length)
    (h2 : ∀ l, nested = some l → l.length = xs.length ∧ ∀ s, some s ∈ l → s.length ≤ 2147483619)
    (h3 : ∀ l, rn = some l → l.length = xs.length ∧ ∀ s, some s ∈ l → s.length ≤ 2147483619) :
    HasType xs.length (.df 0 rbCn rbCols none) (rbIn xs zs nms nested rn) := by
  refine .df rfl ?_ h3
  intro c p x hp hx
  rcases c with _ | _ | c
  · cases hp; cases hx; exact .vec rfl h1
  · cases hp; cases hx
    refine .df rfl ?_ h2
    intro c p x hp hx
    rcases c with _ | c
    · cases hp; cases hx; exact .vec hz nofun
    · cases hp
  · cases hp

theorem rb_short {l : List Name} {n : Nat} (h : l.length = n ∧ ∀ s ∈ l, (s.map List.length).all (· ≤ 2) = true) :
    l.length = n ∧ ∀ s, some s ∈ l → s.length ≤ 2147483619 := by
  refine ⟨h.1, fun s hs => ?_⟩
  have := h.2 _ hs
  simp at this
  omega

theorem rb_inputs : ∀ x ∈ rbXs, x = .null ∨ ∃ k, HasType k (.df 0 rbCn rbCols none) x := by
  intro x hx
  simp only [rbXs, List.mem_cons, List.not_mem_nil, or_false] at hx
  rcases hx with rfl | rfl | rfl | rfl | rfl | rfl
  · exact Or.inr ⟨_, rb_typed rfl nofun nofun nofun⟩
  · exact Or.inl rfl
  · exact Or.inr ⟨_, rb_typed rfl nofun nofun (fun l hl => by cases hl; exact rb_short (by decide))⟩
  · exact Or.inr ⟨_, rb_typed rfl nofun nofun nofun⟩
  · exact Or.inr ⟨_, rb_typed rfl (fun l hl => by cases hl; rfl)
      (fun l hl => by cases hl; exact rb_short (by decide)) nofun⟩
  · exact Or.inr ⟨_, rb_typed rfl nofun nofun (fun l hl => by cases hl; exact rb_short (by decide))⟩

example : ∃ cols rn, vecRbind exHash rbXs none (.df 0 rbCn rbCols none) .null none = .ok (.df 6 rbCn cols rn) ∧
    RowBound .null rbCn rbCols [(none, rbA), (none, rbB), (none, rbC), (none, rbD)] 6 cols rn :=
  C62_rbind exHash rb_ptype rb_inputs (by decide) (keptRows_keptOf _)

/-- The row names of the second column. -/
def exNestedRows : NVal → Option (List Name)
  | .df _ _ [_, .df _ _ _ rn] _ => rn
  | _ => none

example :
    exShow exFirst (vecRbind exHash rbXs none (.df 0 rbCn rbCols none) .null none) = .ok (some [1, 2, 3, 4, 5, 6]) ∧
    exShow exFirstNames (vecRbind exHash rbXs none (.df 0 rbCn rbCols none) .null none) =
      .ok (some [some [], some [], some [], some ['n'], some ['o'], some []]) ∧
    exShow exNested (vecRbind exHash rbXs none (.df 0 rbCn rbCols none) .null none) =
      .ok (some [some ['a'], some ['b'], none, some ['d'], some ['e'], some ['f']]) ∧
    exShow exNestedRows (vecRbind exHash rbXs none (.df 0 rbCn rbCols none) .null none) =
      .ok (some [some ['.', '.', '.', '1'], some ['.', '.', '.', '2'], some ['.', '.', '.', '3'], some ['p'],
        some ['q'], some ['.', '.', '.', '6']]) ∧
    exShow NVal.vnames (vecRbind exHash rbXs none (.df 0 rbCn rbCols none) .null none) =
      .ok (some [some ['.', '.', '.', '1'], some ['r', '.', '.', '.', '2'], some ['s'], some ['.', '.', '.', '4'],
        some ['.', '.', '.', '5'], some ['r', '.', '.', '.', '6']]) := by
  refine ⟨?_, ?_, ?_, ?_, ?_⟩ <;> decide +kernel

/-! A name specification that pastes the outer name in front. -/

def rbSpec : NameSpec := .fn (fun o i => match i with
  | .names l => .ok (some (l.map (fun n => n.map (fun s => o ++ s))))
  | .iota n => .ok (some (List.replicate n (some o))))

def rbNames : List Name := [some ['u'], some ['v'], some [], some ['w'], some ['k'], some ['m']]

def rbBlocks : List (Nat × Option (List Name)) := [(1, some [some ['u']]), (2, some [some ['r'], some ['s']]),
  (2, some [some ['k'], some ['k']]), (1, some [some ['m', 'r']])]

def rbKept : List (Option Name × NVal) :=
  [(some (some ['u']), rbA), (some (some []), rbB), (some (some ['k']), rbC), (some (some ['m']), rbD)]

example : ∃ cols rn, vecRbind exHash rbXs (some rbNames) (.df 0 rbCn rbCols none) rbSpec none =
      .ok (.df 6 rbCn cols rn) ∧ RowBound rbSpec rbCn rbCols rbKept 6 cols rn := by
  refine C62_rbind_named_partial exHash (outer := rbNames.map some) (blocks := rbBlocks) rb_ptype rb_inputs (by decide)
    (Or.inr ⟨_, rfl, rfl, rfl⟩) (keptRows_keptOf _) ?_ ?_ ?_
  · refine .cons ⟨rfl, .one (fun h => by cases h) (by decide) nofun rfl⟩
      (.cons ⟨rfl, .inner (fun h => by cases h) (Or.inr rfl)⟩
        (.cons ⟨rfl, .index rfl (by decide) nofun (by decide) rfl (Or.inr ⟨_, _, rfl, rfl, Or.inl ⟨rfl, rfl⟩⟩)⟩
          (.cons ⟨rfl, .both (l := [some ['r']]) rfl (by decide) ?_ rfl (Or.inr ⟨_, _, rfl, rfl, Or.inl ⟨rfl, rfl⟩⟩)⟩ .nil)))
    intro h
    rcases h _ rfl (some ['r']) (by simp) with h | h <;> cases h
  · intro p hp l hl
    simp only [rbBlocks, List.mem_cons, List.not_mem_nil, or_false] at hp
    rcases hp with rfl | rfl | rfl | rfl <;> cases hl <;> exact (rb_short ⟨rfl, by decide⟩).2
  · intro p hp n hr hb
    change p ∈ rbKept at hp
    simp only [rbKept, List.mem_cons, List.not_mem_nil, or_false] at hp
    obtain ⟨_, ⟨o, ho, hn⟩, hi, _⟩ := hb
    rcases hp with rfl | rfl | rfl | rfl <;> cases ho
    · rcases hn with hn | hn <;> cases hn
    · cases hi
    · rcases hn with hn | hn <;> cases hn
    · rcases hn with hn | hn <;> cases hn

example : exShow NVal.vnames (vecRbind exHash rbXs (some rbNames) (.df 0 rbCn rbCols none) rbSpec none) =
    .ok (some [some ['u'], some ['r'], some ['s'], some ['k', '.', '.', '.', '4'], some ['k', '.', '.', '.', '5'],
      some ['m', 'r']]) := by
  decide +kernel

/-! The first column is given the names, or the positions, of the inputs. -/

example : ∃ cols cols' rn col, vecRbind exHash rbXs (some rbNames) (.df 0 rbCn rbCols none) .null (some 0) =
      .ok (.df 6 rbCn cols' rn) ∧
    RowBound .null rbCn rbCols [(none, rbA), (none, rbB), (none, rbC), (none, rbD)] 6 cols rn ∧
    Repeated [(some ['u'], rbA), (some [], rbB), (some ['k'], rbC), (some ['m'], rbD)] col ∧
    Replaced 0 (.vec (.atom .chr) col none) cols cols' :=
  C62_names_to exHash (fun h => by cases h) rb_ptype rb_inputs (by decide) rfl (keptRows_keptOf _) (by decide)

example : ∃ cols cols' rn col, vecRbind exHash rbXs none (.df 0 rbCn rbCols none) .null (some 0) =
      .ok (.df 6 rbCn cols' rn) ∧
    RowBound .null rbCn rbCols [(none, rbA), (none, rbB), (none, rbC), (none, rbD)] 6 cols rn ∧
    Repeated ([(1, rbA), (3, rbB), (5, rbC), (6, rbD)] : List (Int × NVal)) col ∧ Replaced 0 (.vec (.atom .int) col none) cols cols' :=
  C62_positions exHash (pos := [1, 2, 3, 4, 5, 6]) (fun h => by cases h) rb_ptype rb_inputs (by decide) rfl (by
    intro i v hv
    rcases i with _ | _ | _ | _ | _ | _ | i <;> cases hv <;> rfl) (keptRows_keptOf _) (by decide)

example : exShow exFirst (vecRbind exHash rbXs none (.df 0 rbCn rbCols none) .null (some 0)) =
    .ok (some [1, 3, 3, 5, 5, 6]) := by
  decide +kernel

/-! The outer name `k` meets two rows. -/

example : vecRbind exHash rbXs (some rbNames) (.df 0 rbCn rbCols none) .null none = .error .abort := by
  refine C62_unmerged exHash (outer := rbNames.map some)
    (pre := [(some (some ['u']), rbA), (some (some ['v']), .null), (some (some []), rbB), (some (some ['w']), rbE)])
    (post := [(some (some ['m']), rbD)]) (o := some (some ['k'])) (x := rbC) (n := 2)
    (blocks := [(1, some [some ['u']]), (2, some [some ['r'], some ['s']])]) rb_ptype rb_inputs (by decide)
    (Or.inr ⟨_, rfl, rfl, rfl⟩) rfl (keptRows_keptOf _) ?_ ?_ rfl (by decide)
    ⟨rfl, _, (by decide), rfl, Or.inl (by decide)⟩
  · exact .cons ⟨rfl, .one (fun h => by cases h) (by decide) nofun rfl⟩
      (.cons ⟨rfl, .inner (fun h => by cases h) (Or.inr rfl)⟩ .nil)
  · intro p hp n hr hb
    change p ∈ [(some (some ['u']), rbA), (some (some []), rbB)] at hp
    simp only [List.mem_cons, List.not_mem_nil, or_false] at hp
    obtain ⟨_, ⟨o, ho, hn⟩, hi, _⟩ := hb
    rcases hp with rfl | rfl <;> cases ho
    · rcases hn with hn | hn <;> cases hn
    · cases hi

/-! `vec_rbind(u = A, C, .names_to = NULL)`: names could be merged, but the call fails. -/

example : vecRbind exHash [rbA, rbC] (some [some ['u'], some []]) (.df 0 rbCn rbCols none) .null none =
    .error .internal := by
  refine C62_blank exHash (outer := [some (some ['u']), some (some [])]) (pre := [(some (some ['u']), rbA)]) (post := [])
    (o := some (some [])) (x := rbC) (n := 2) (blocks := [(1, some [some ['u']])]) rb_ptype ?_ (by decide)
    (Or.inr ⟨_, rfl, rfl, rfl⟩) rfl (keptRows_keptOf _)
    (.cons ⟨rfl, .one (fun h => by cases h) (by decide) nofun rfl⟩ .nil) ?_ rfl (by decide)
    ⟨(fun h => by cases h), ⟨_, rfl, Or.inr rfl⟩, rfl, by decide⟩
  · intro x hx
    simp only [List.mem_cons, List.not_mem_nil, or_false] at hx
    rcases hx with rfl | rfl
    · exact rb_inputs _ (by simp [rbXs])
    · exact rb_inputs _ (by simp [rbXs])
  · intro p hp n hr hb
    change p ∈ [(some (some ['u']), rbA)] at hp
    simp only [List.mem_cons, List.not_mem_nil, or_false] at hp
    subst hp
    obtain ⟨_, ⟨o, ho, hn⟩, _⟩ := hb
    cases ho
    rcases hn with hn | hn <;> cases hn

example : List.Forall₂ (Block .null) [(some (some ['u']), rbA), (some (some []), rbC)]
    [(1, some [some ['u']]), (2, some [some [], some []])] :=
  .cons ⟨rfl, .one (fun h => by cases h) (by decide) nofun rfl⟩
    (.cons ⟨rfl, .blank (fun h => by cases h) (Or.inr rfl)⟩ .nil)

/-- A new column in front, and an existing one; the cast adds the column with missing values. -/
def rbToCn : List Name := [some ['x']]

def rbToCols : List NVal := [.vec (.atom .int) ([] : List Int) none]

def rbToCast (xs : List NVal) (p : NVal) : C (List NVal) :=
  match p with
  | .df _ [_, _] _ _ => .ok (xs.map (fun x => match x with
    | .df n cn cols rn => .df n (some ['i'] :: cn) (.vec (.atom .chr) (List.replicate n (none : Name)) none :: cols) rn
    | x => x))
  | _ => .ok xs

def rbToIn (xs : List Int) : NVal := .df xs.length rbToCn [.vec (.atom .int) xs none] none

theorem rbTo_ptype : IsPtype (.df 0 rbToCn rbToCols none) := by
  refine .df rfl ?_
  intro p hp
  simp only [rbToCols, List.mem_cons, List.not_mem_nil, or_false] at hp
  subst hp
  exact .vec nofun

example : ∃ cols' rn, vecRbindTo (fun _ => 0) rbToCast [rbToIn [1, 2], rbToIn [3]] (some [some ['a'], some ['b']])
    (.df 0 rbToCn rbToCols none) .null (some (some ['i'])) =
      .ok (.df 3 [some ['i'], some ['x']] cols' rn) ∧
      cols'[0]? = some (.vec (.atom .chr) [some ['a'], some ['a'], some ['b']] none) := by
  obtain ⟨cols, cols', rn, col, h1, h2, h3, h4, -⟩ := C62_column (fun _ => 0) (cast := rbToCast)
    (xs := [rbToIn [1, 2], rbToIn [3]]) (names := [some ['a'], some ['b']]) (t := some ['i']) (cn := rbToCn)
    (cn' := [some ['i'], some ['x']]) (pcols := rbToCols) (k := 0) (spec := .null) (by nofun) rbTo_ptype
    (Or.inr ⟨by decide, rfl, rfl, rfl⟩) rfl (by
      intro x hx
      rcases List.mem_cons.1 hx with rfl | hx
      · refine Or.inr ⟨2, .df rfl ?_ nofun⟩
        intro c p x hp hx
        rcases c with _ | _ | c
        · cases hp; cases hx; exact .vec rfl nofun
        · cases hp; cases hx; exact .vec rfl nofun
        · cases hp
      · rcases List.mem_cons.1 hx with rfl | hx
        · refine Or.inr ⟨1, .df rfl ?_ nofun⟩
          intro c p x hp hx
          rcases c with _ | _ | c
          · cases hp; cases hx; exact .vec rfl nofun
          · cases hp; cases hx; exact .vec rfl nofun
          · cases hp
        · cases hx) (by decide) rfl (.keep ⟨2, rfl, by decide⟩ (.keep ⟨1, rfl, by decide⟩ .nil))
  refine ⟨cols', rn, h1, ?_⟩
  rw [h4.2.1]
  cases h3 with
  | cons a b => cases a; cases b with
    | cons a b => cases a; cases b; rfl

example : namesToPlace (fun _ => 0) true (some ['x']) (.df 0 rbToCn rbToCols none) = .ok (.df 0 rbToCn rbToCols none, 0) := rfl

end Vctrs
