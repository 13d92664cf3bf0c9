import Verif.Lemmas.Scatter

/-!
# Lemmas about list_unchop() with names
-/

namespace Vctrs

open Spec

theorem nvalAssignBody_eq (keep : Bool) (index : Subscript) (out value : NVal) :
    nvalAssignBody keep index out value = nvalAssign keep index out (unnamed value) := by
  have hn : ∀ size nms, assignNamesIf keep size nms index none = .ok nms := by
    intro size nms
    cases keep <;> rfl
  cases out with
  | null => cases value <;> simp only [nvalAssignBody, nvalAssign, unnamed]
  | vec t xs nms =>
    cases value with
    | null => simp only [nvalAssignBody, nvalAssign, unnamed]
    | df => simp only [nvalAssignBody, nvalAssign, unnamed]
    | vec t' ys nms' =>
      simp only [nvalAssignBody, nvalAssign, unnamed, hn]
      split
      · cases assignBase xs index _ <;> rfl
      · rfl
  | df n cn cols rn =>
    cases value with
    | null => simp only [nvalAssignBody, nvalAssign, unnamed]
    | vec => simp only [nvalAssignBody, nvalAssign, unnamed]
    | df n' cn' cols' rn' =>
      simp only [nvalAssignBody, nvalAssign, unnamed, hn, dfAssignCols]
      split
      · rfl
      · cases nvalAssignCols keep index cols cols' <;> rfl

theorem Spec.HasType.unnamed {k : Nat} {p x : NVal} (h : HasType k p x) : HasType k p (Spec.unnamed x) := by
  cases h with
  | vec h1 _ => exact .vec h1 nofun
  | df h1 h2 _ => exact .df h1 h2 nofun

/-- The output before anything is written has the common type. -/
theorem hasType_init {n : Nat} {p y : NVal} (hp : IsPtype p) (h : SlicedAs (List.replicate n none) p y) : HasType n p y := by
  induction h with
  | @vec t xs ys nms nms' h1 h2 =>
    refine .vec (by rw [h1.1, List.length_replicate]) ?_
    rintro l rfl
    rcases h2 with ⟨_, h2⟩ | ⟨a, b, _, h2, h3⟩
    · cases h2
    · cases h2; rw [h3.1, List.length_replicate]
  | @df m cn cols cols' rn rn' h1 h2 h3 ih =>
    cases hp with
    | df g1 g2 =>
      rcases h3 with ⟨_, rfl⟩ | ⟨a, _, _, _, ha, _⟩
      · rw [List.length_replicate]
        exact .df h1 (fun c p x hpc hx => ih c p x hpc hx (g2 p (List.mem_of_getElem? hpc))) nofun
      · cases ha

/-! ## Names -/

/-- Names after some pieces. -/
def UnchopPart (n : Nat) (qs : List (Option (List Name) × List Int × Option (List Name))) (cur : Option (List Name)) : Prop :=
  ((∀ q ∈ qs, q.1 = none) ∧ cur = none) ∨
  ((∃ q ∈ qs, q.1 ≠ none) ∧ ∃ s, Writes (qs.flatMap (fun q => namesWrites q.2)) (List.replicate n (some [])) s ∧
    cur = some s)

theorem unchopPart_zap {spec : NameSpec} {n : Nat} {qs : List (Option (List Name) × List Int × Option (List Name))}
    {cur : Option (List Name)} (h : UnchopPart n qs cur) {p : Piece} {q : Option (List Name) × List Int × Option (List Name)}
    (hq : PieceNames spec p q) (hz : spec = .zap) : UnchopPart n (qs ++ [q]) cur := by
  subst hz
  have h1 : q.1 = none := hq.1.zapped
  have h2 : q.2.2 = none := by
    rcases hq.2.2 with ⟨_, h⟩ | ⟨_, h⟩
    · exact h
    · rw [h, h1]
  rcases h with ⟨g1, g2⟩ | ⟨⟨q', g1, g1'⟩, s, g2, g3⟩
  · refine Or.inl ⟨?_, g2⟩
    intro q' hq'
    rcases List.mem_append.1 hq' with hq' | hq'
    · exact g1 q' hq'
    · simp only [List.mem_singleton] at hq'; rw [hq', h1]
  · refine Or.inr ⟨⟨q', by simp [g1], g1'⟩, s, ?_, g3⟩
    rw [List.flatMap_append]
    simpa [namesWrites, h2] using g2

theorem UnchopPart.lazy {n : Nat} {qs : List (Option (List Name) × List Int × Option (List Name))} {cur : Option (List Name)}
    (hall : ∀ q ∈ qs, q.1 = none → q.2.2 = none) (h : UnchopPart n qs cur) :
    Writes (qs.flatMap (fun q => namesWrites q.2)) (List.replicate n (some [])) (lazyNames cur n) := by
  rcases h with ⟨g1, rfl⟩ | ⟨_, s, g2, rfl⟩
  · have : qs.flatMap (fun q => namesWrites q.2) = [] := by
      rw [List.flatMap_eq_nil_iff]
      intro q hq
      simp only [namesWrites, hall q hq (g1 q hq)]
    rw [this]
    exact Writes.nil _
  · exact g2

theorem pieceNames_none {spec : NameSpec} {p : Piece} {q : Option (List Name) × List Int × Option (List Name)}
    (hq : PieceNames spec p q) : q.1 = none → q.2.2 = none := by
  intro h
  rcases hq.2.2 with ⟨_, h'⟩ | ⟨_, h'⟩
  · exact h'
  · rw [h', h]

theorem unchopPart_step {spec : NameSpec} {n : Nat} {qs : List (Option (List Name) × List Int × Option (List Name))}
    {cur : Option (List Name)} (h : UnchopPart n qs cur) (hall : ∀ q ∈ qs, q.1 = none → q.2.2 = none)
    {o : Option Name} {loc : List Int} {y : NVal}
    {q : Option (List Name) × List Int × Option (List Name)}
    (hq : PieceNames spec (o, loc, y) q) (hz : spec ≠ .zap) (hl : LocsOk n loc)
    (hi : ∀ m, namesOf y = some m → m.length = loc.length) :
    Ret (do
      let nms ← applyNameSpec spec o (namesOf y) loc.length
      cNames cur n (.locs loc) nms) (UnchopPart n (qs ++ [q])) := by
  have hlazy := h.lazy hall
  obtain ⟨hm, h2, h3⟩ := hq
  dsimp only at hm h2 h3
  rcases h3 with ⟨⟨⟨o', ho, hno⟩, hin⟩, h3⟩ | ⟨hnb, h3⟩
  · rw [ho, hin, applyNameSpec_noName hz hno, if_pos rfl]
    refine Ret.of_eq (a := some (lazyNames cur n)) rfl (Or.inr ⟨⟨q, by simp, ?_⟩, lazyNames cur n, ?_, rfl⟩)
    · rw [ho, hin] at hm
      intro hc
      rw [hc] at hm
      cases hm with
      | zap h => exact hz h
      | index h _ _ _ _ _ => rename_i ho2 _ _ _ _; rcases hno with h | h <;> cases h; exact ho2 rfl
    · rw [List.flatMap_append]
      simpa [namesWrites, h3] using hlazy
  · refine Ret.bind (applyNameSpec_ok hm) ?_
    intro r hr
    rcases hr with rfl | ⟨_, ho, hin, _⟩
    · cases hq1 : q.1 with
      | none =>
        refine Ret.of_eq (a := cur) rfl ?_
        rcases h with ⟨g1, g2⟩ | ⟨⟨q', g1, g1'⟩, s, g2, g3⟩
        · refine Or.inl ⟨?_, g2⟩
          intro q' hq'
          rcases List.mem_append.1 hq' with hq' | hq'
          · exact g1 q' hq'
          · simp only [List.mem_singleton] at hq'; rw [hq', hq1]
        · refine Or.inr ⟨⟨q', by simp [g1], g1'⟩, s, ?_, g3⟩
          rw [List.flatMap_append]
          simpa [namesWrites, h3, hq1] using g2
      | some l =>
        rw [hq1] at hm
        have hll := hm.length hi
        rw [innerAsIs, cNames]
        have hlen : (lazyNames cur n).length = n := by rw [hlazy.1, List.length_replicate]
        refine Ret.bind (assignBase_writes (x := lazyNames cur n) (loc := loc) (value := l) (by rw [hlen]; exact hl) hll) ?_
        intro z hzw
        refine Ret.ok (Or.inr ⟨⟨q, by simp, by rw [hq1]; nofun⟩, z, ?_, rfl⟩)
        rw [List.flatMap_append]
        have := hlazy.append hzw
        simpa [namesWrites, h3, hq1, h2] using this
    · exact absurd ⟨ho, hin⟩ hnb

/-! ## Pieces -/

theorem Spec.Pieces.unique {ins : List (Option Name × List Int × NVal)} {ps : List Piece} (h : Pieces ins ps) :
    ∀ {qs : List Piece}, Pieces ins qs → ps = qs := by
  induction h with
  | nil => intro qs h; cases h; rfl
  | null _ ih =>
    intro qs h
    cases h with
    | null h => exact ih h
    | cons hr _ => rcases hr with ⟨h, _⟩ | ⟨h, _⟩ <;> cases h
  | cons hr _ ih =>
    intro qs h
    cases h with
    | null _ => rcases hr with ⟨h, _⟩ | ⟨h, _⟩ <;> cases h
    | cons hr' h' => rw [hr.unique hr', ih h']

theorem Spec.Pieces.snoc {ins : List (Option Name × List Int × NVal)} {ps : List Piece} (h : Pieces ins ps) {o : Option Name}
    {loc : List Int} {x y : NVal} (hr : Recycled loc.length x y) : Pieces (ins ++ [(o, loc, x)]) (ps ++ [(o, loc, y)]) := by
  induction h with
  | nil => exact .cons hr .nil
  | null _ ih => exact .null ih
  | cons h _ ih => exact .cons h ih

theorem Spec.Pieces.snoc_null {ins : List (Option Name × List Int × NVal)} {ps : List Piece} (h : Pieces ins ps)
    {o : Option Name} {loc : List Int} : Pieces (ins ++ [(o, loc, .null)]) ps := by
  induction h with
  | nil => exact .null .nil
  | null _ ih => exact .null ih
  | cons h _ ih => exact .cons h ih

theorem Spec.Pieces.get {ins : List (Option Name × List Int × NVal)} {ps : List Piece} (h : Pieces ins ps) {o : Option Name}
    {loc : List Int} {x : NVal} (hm : (o, loc, x) ∈ ins) : x = .null ∨ ∃ y, Recycled loc.length x y ∧ (o, loc, y) ∈ ps := by
  induction h with
  | nil => cases hm
  | null _ ih =>
    rcases List.mem_cons.1 hm with hm | hm
    · cases hm; exact Or.inl rfl
    · exact ih hm
  | cons hr _ ih =>
    rcases List.mem_cons.1 hm with hm | hm
    · cases hm; exact Or.inr ⟨_, hr, by simp⟩
    · rcases ih hm with h | ⟨y, h1, h2⟩
      · exact Or.inl h
      · exact Or.inr ⟨y, h1, by simp [h2]⟩

/-- What is known of a piece. -/
def PieceOk (spec : NameSpec) (ptype : NVal) (p : Piece) : Prop :=
  HasType p.2.1.length ptype p.2.2 ∧ ∃ q, PieceNames spec p q ∧
    ∀ l, q.1 = some l → ∀ s, some s ∈ l → s.length ≤ 2147483619

/-! ## The loop -/

/-- The state after the inputs `ins`. -/
def UInv (spec : NameSpec) (n : Nat) (ptype base : NVal) (ins : List (Option Name × List Int × NVal)) (s : UState) : Prop :=
  ∃ ps qs, Pieces ins ps ∧ (∀ p ∈ ps, HasType p.2.1.length ptype p.2.2) ∧ List.Forall₂ (PieceNames spec) ps qs ∧
    (∀ q ∈ qs, ∀ l, q.1 = some l → ∀ s, some s ∈ l → s.length ≤ 2147483619) ∧
    Scattered (!spec.isZap) base (ps.map (fun p => (p.2.1, Spec.unnamed p.2.2))) s.out ∧ UnchopPart n qs s.outNames

theorem pieceNames_all {spec : NameSpec} {ps : List Piece} {qs : List (Option (List Name) × List Int × Option (List Name))}
    (h : List.Forall₂ (PieceNames spec) ps qs) : ∀ q ∈ qs, q.1 = none → q.2.2 = none := by
  intro q hq
  obtain ⟨p, _, hp⟩ := forall₂_mem_right h hq
  exact pieceNames_none hp

theorem recycle_piece (h : Name → BitVec 32) {x y : NVal} {n : Nat} (hx : ∃ m, IsTab m x) (hn : n ≤ 2147483647)
    (hr : Recycled n x y) : nvalRecycle h x n = .ok y := by
  obtain ⟨m, hx⟩ := hx
  have hm : m = n ∨ m = 1 := by
    have e := hx.rowsOf
    rcases hr with ⟨h1, _⟩ | ⟨h1, _⟩ <;> rw [e] at h1 <;> cases h1
    · exact Or.inl rfl
    · exact Or.inr rfl
  obtain ⟨z, h1, h2⟩ := nvalRecycle_ok h hx hn hm
  rw [h1, h2.unique hr]

theorem unchopTurn_ok (h : Name → BitVec 32) {spec : NameSpec} {xs : List NVal} {locs : List (List Int)} {n : Nat}
    {names : Option (List Name)} {ptype base : NVal} {pre : List (Option Name × List Int × NVal)} {i : Nat}
    {o : Option Name} {loc : List Int} {x : NVal} {s : UState} (hs : UInv spec n ptype base pre s)
    (hb : HasType n ptype base) (hxi : xs[i]? = some x) (hli : locs[i]? = some loc) (ho : outerOf names i = .ok o)
    (hl : LocsOk n loc) (hln : loc.length ≤ 2147483647)
    (hx : x = .null ∨ (∃ m, IsTab m x) ∧ ∃ y, Recycled loc.length x y ∧ PieceOk spec ptype (o, loc, y)) :
    Ret (unchopNamesTurn h spec xs locs n names i s) (UInv spec n ptype base (pre ++ [(o, loc, x)])) := by
  obtain ⟨ps, qs, h1, h2, h3, h4, h5, h6⟩ := hs
  unfold unchopNamesTurn
  refine Ret.bind_eq (rd_of_getElem? hxi) ?_
  rcases hx with rfl | ⟨hx, y, hr, hy, q, hq, hsh⟩
  · exact Ret.of_eq (a := s) rfl ⟨ps, qs, h1.snoc_null, h2, h3, h4, h5, h6⟩
  · have hnn : x.isNull = false := by obtain ⟨m, hx⟩ := hx; exact hx.notNull
    rw [hnn, if_neg (by simp)]
    refine Ret.bind_eq (rd_of_getElem? hli) ?_
    refine Ret.bind_eq (recycle_piece h hx hln hr) ?_
    have hnames : Ret (if !spec.isZap then do
          let outer ← outerOf names i
          let nms ← applyNameSpec spec outer y.vnames loc.length
          cNames s.outNames n (.locs loc) nms
        else .ok s.outNames : C (Option (List Name))) (UnchopPart n (qs ++ [q])) := by
      by_cases hz : spec = .zap
      · rw [isZap_iff.2 hz, if_neg (by simp)]
        exact Ret.ok (unchopPart_zap h6 hq hz)
      · rw [isZap_false hz, if_pos (by simp)]
        refine Ret.bind_eq ho ?_
        rw [vnames_namesOf]
        refine unchopPart_step h6 (pieceNames_all h3) hq hz hl ?_
        intro m hm
        rw [← vnames_namesOf] at hm
        exact hy.names m hm
    refine Ret.bind hnames ?_
    intro nms hnms
    rw [nvalAssignBody_eq]
    refine Ret.bind (h5.step hb hy.unnamed hl) ?_
    intro out hout
    refine Ret.ok ⟨ps ++ [(o, loc, y)], qs ++ [q], h1.snoc hr, ?_, forall₂_snoc h3 hq, ?_, ?_, hnms⟩
    · intro p hp
      rcases List.mem_append.1 hp with hp | hp
      · exact h2 p hp
      · simp only [List.mem_singleton] at hp; subst hp; exact hy
    · intro q' hq'
      rcases List.mem_append.1 hq' with hq' | hq'
      · exact h4 q' hq'
      · simp only [List.mem_singleton] at hq'; subst hq'; exact hsh
    · rw [List.map_append]; exact hout

theorem unchopTurn_bad (h : Name → BitVec 32) {spec : NameSpec} {xs : List NVal} {locs : List (List Int)} {n : Nat}
    {names : Option (List Name)} {i : Nat} {o : Option Name} {loc : List Int} {x : NVal} (s : UState)
    (hxi : xs[i]? = some x) (hli : locs[i]? = some loc) (ho : outerOf names i = .ok o) (hln : loc.length ≤ 2147483647)
    (hx : ∃ m, IsTab m x ∧ ((m ≠ loc.length ∧ m ≠ 1) ∨
      ∃ y, Recycled loc.length x y ∧ Unmerged spec loc.length o (namesOf y))) :
    unchopNamesTurn h spec xs locs n names i s = .error .abort := by
  obtain ⟨m, hx, hc⟩ := hx
  unfold unchopNamesTurn
  rw [rd_of_getElem? hxi, ok_bind, hx.notNull, if_neg (by simp), rd_of_getElem? hli, ok_bind]
  rcases hc with hc | ⟨y, hr, hu⟩
  · rw [nvalRecycle_bad h hx hc]; rfl
  · rw [recycle_piece h ⟨m, hx⟩ hln hr, ok_bind]
    have hz : spec ≠ .zap := by
      obtain ⟨h, _⟩ := hu
      rw [h]; nofun
    rw [isZap_false hz, if_pos (by simp), ho, ok_bind, vnames_namesOf, applyNameSpec_bad hu]
    rfl

/-! ## The end -/

theorem names_then_rows (h : Name → BitVec 32) (repair : NameRepair) {l : List Name} (hl : l.length ≤ 2147483647)
    (hs : ∀ s, some s ∈ l → s.length ≤ 2147483619) :
    ∃ r d, vecAsNames h l repair = .ok r ∧ Repaired repair l r ∧ restoreRownames h (some r) = .ok d ∧
      RowRepair (some r) d := by
  cases repair with
  | none =>
    obtain ⟨d, g1, g2⟩ := restoreRownames_ok h (a := some l) (fun m hm => by cases hm; exact ⟨by omega, hs⟩)
    exact ⟨l, d, rfl, rfl, g1, g2⟩
  | minimal =>
    obtain ⟨r, g1, g2⟩ := vecAsNames_ok h (repair := .minimal) (a := l) trivial
    obtain ⟨d, g3, g4⟩ := restoreRownames_ok h (a := some r) (fun m hm => by
      cases hm
      refine ⟨by rw [g2.1]; omega, ?_⟩
      intro s hsm
      obtain ⟨i, hi⟩ := List.mem_iff_getElem?.1 hsm
      have hil : i < l.length := by rw [← g2.1]; exact (List.getElem?_eq_some_iff.1 hi).1
      have hli := List.getElem?_eq_getElem hil
      cases hv : l[i] with
      | none =>
        have := g2.2.2 i (by rw [hli, hv])
        rw [hi] at this; cases this; simp
      | some s' =>
        have := g2.2.1 i s' (by rw [hli, hv])
        rw [hi] at this; cases this
        exact hs s (hv ▸ List.getElem_mem hil))
    exact ⟨r, d, g1, g2, g3, g4⟩
  | unique =>
    obtain ⟨c, d, g1, g2, g3, g4⟩ := uniqueNames_twice h (b := l) hl (short_base hs)
    refine ⟨c, some d, g1, g3, ?_, Or.inr ⟨c, d, rfl, rfl, g4⟩⟩
    simp only [restoreRownames, g2, ok_bind]

theorem nvalSetNames_ok (h : Name → BitVec 32) {x : NVal} (hx : x.isNull = false) {a d : Option (List Name)}
    (hd : restoreRownames h a = .ok d) (hr : RowRepair a d) : Ret (nvalSetNames h x a) (Renamed a x) := by
  cases x with
  | null => cases hx
  | vec t xs nms => exact Ret.ok .vec
  | df n cn cols rn =>
    refine Ret.bind_eq hd (Ret.ok (.df hr))

theorem Spec.RowsRepaired.notNull {x y : NVal} (h : RowsRepaired x y) : y.isNull = false := by
  cases h <;> rfl

theorem unchopFinish_ok (h : Name → BitVec 32) {spec : NameSpec} (repair : NameRepair) {n : Nat} {ptype base : NVal}
    {ins : List (Option Name × List Int × NVal)} {s : UState} (hs : UInv spec n ptype base ins s)
    (hsl : SlicedAs (List.replicate n none) ptype base) (hb : HasType n ptype base) (hn : n ≤ 2147483647)
    {pieces : List Piece} (hp : Pieces ins pieces) :
    Ret (cFinish h spec repair s.out s.outNames) (Unchopped spec repair n ptype pieces) := by
  obtain ⟨ps, qs, h1, h2, h3, h4, h5, h6⟩ := hs
  have := h1.unique hp
  subst this
  unfold cFinish
  refine Ret.bind (h5.restore h hb ?_ hn) ?_
  · intro q hq
    obtain ⟨p, hp1, rfl⟩ := List.mem_map.1 hq
    exact (h2 p hp1).unnamed
  · intro fin hfin
    have hnf := hfin.notNull
    rcases h6 with ⟨g1, g2⟩ | ⟨g1, w, g2, g3⟩
    · rw [g2]
      dsimp only
      by_cases hz : spec = .zap
      · rw [isZap_iff.2 hz, if_pos rfl]
        refine (nvalSetNames_ok h hnf (a := none) rfl (Or.inl ⟨rfl, rfl⟩)).mono ?_
        intro y hy
        exact ⟨_, base, s.out, fin, qs, none, keep_iff, hsl, h5, hfin, h3, Or.inl ⟨g1, rfl⟩, Or.inr ⟨Or.inr hz, hy⟩⟩
      · rw [isZap_false hz, if_neg (by simp)]
        exact Ret.ok ⟨_, base, s.out, fin, qs, none, keep_iff, hsl, h5, hfin, h3, Or.inl ⟨g1, rfl⟩, Or.inl ⟨rfl, hz, rfl⟩⟩
    · rw [g3]
      dsimp only
      have hwl : w.length ≤ 2147483647 := by rw [g2.1, List.length_replicate]; exact hn
      have hws : ∀ s, some s ∈ w → s.length ≤ 2147483619 := by
        intro c hc
        rcases g2.mem hc with hm | ⟨e, he, hec⟩
        · rw [List.mem_replicate] at hm
          cases hm.2; simp
        · rw [List.mem_flatMap] at he
          obtain ⟨q, hq1, hq2⟩ := he
          obtain ⟨p, _, hpq⟩ := forall₂_mem_right h3 hq1
          cases hq3 : q.2.2 with
          | none => simp [namesWrites, hq3] at hq2
          | some l =>
            simp only [namesWrites, hq3] at hq2
            have hq4 : q.1 = some l := by
              rcases hpq.2.2 with ⟨_, h'⟩ | ⟨_, h'⟩
              · rw [hq3] at h'; cases h'
              · rw [← h', hq3]
            refine h4 q hq1 l hq4 c ?_
            rw [← hec]
            exact (List.of_mem_zip hq2).2
      obtain ⟨r, d, k1, k2, k3, k4⟩ := names_then_rows h repair hwl hws
      refine Ret.bind_eq k1 ?_
      refine (nvalSetNames_ok h hnf (a := some r) k3 k4).mono ?_
      intro y hy
      exact ⟨_, base, s.out, fin, qs, some r, keep_iff, hsl, h5, hfin, h3, Or.inr ⟨g1, w, r, g2, k2, rfl⟩,
        Or.inr ⟨Or.inl nofun, hy⟩⟩

end Vctrs
