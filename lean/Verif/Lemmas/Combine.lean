import Verif.Lemmas.RbindTop

/-!
# Lemmas about vec_c() with names
-/

namespace Vctrs

open Spec

/-- A part with empty names. -/
theorem NamesPart.blank {tot : Nat} {start : Option (List Name)} {parts : List (Nat × Option (List Name))}
    {cur : Option (List Name)} (h : NamesPart tot start parts cur) {k : Nat} (hk : sizeOf' parts + k ≤ tot) :
    NamesPart tot start (parts ++ [(k, some (List.replicate k (some [])))]) (some (lazyNames cur tot)) := by
  obtain ⟨h1, h2, h3, h4⟩ := h
  refine ⟨?_, ?_, ?_, by rw [sizeOf'_snoc]; exact hk⟩
  · rw [lazyNames, h1, sizeOf'_snoc]
    have e : tot - sizeOf' parts = k + (tot - (sizeOf' parts + k)) := by omega
    simp only [List.map_append, List.map_cons, List.map_nil, List.flatten_append, List.flatten_cons, List.flatten_nil,
      List.append_nil, List.append_assoc]
    rw [e, List.replicate_add]; rfl
  · refine ⟨nofun, fun h => ?_⟩
    have := h.2 (k, some _) (List.mem_append_right _ (List.mem_singleton.2 rfl))
    cases this
  · intro p hp m hm
    rcases List.mem_append.1 hp with hp | hp
    · exact h3 p hp m hm
    · simp at hp; subst hp; cases hm; simp

theorem cNames_ok {spec : NameSpec} {tot : Nat} {blocks : List (Nat × Option (List Name))}
    {cur : Option (List Name)} (h : NamesPart tot none blocks cur) {k : Nat} (hk : sizeOf' blocks + k ≤ tot)
    {outer : Option Name} {inner out : Option (List Name)} (hm : Merged spec k outer inner out)
    (hi : ∀ m, inner = some m → m.length = k) {r : SpecNames} (hr : MergeAs k outer inner out r) :
    Ret (cNames cur tot (.seq (sizeOf' blocks) k 1) r) (NamesPart tot none (blocks ++ [(k, out)])) := by
  rcases hr with rfl | ⟨rfl, ho, rfl, rfl⟩
  · cases out with
    | none => exact Ret.ok (h.skip hk)
    | some l =>
      refine Ret.bind (h.put hk (hm.length hi)) ?_
      intro r hr
      exact Ret.ok hr
  · exact Ret.ok (h.blank hk)

/-- The output after the values `xs` of `off` elements have been put in place; its own names do not
change. -/
inductive CBody (keep : Bool) (tot off : Nat) : NVal → List NVal → NVal → Prop
  | vec {t : VTy} {e rest : List t.El} {start nms : Option (List Name)}
      {parts : List (List t.El × Option (List Name))} :
      ((parts.map (fun p => p.1)).flatten).length = off → rest.length = tot - off →
      ((start = none ∧ nms = none) ∨ (start ≠ none ∧ nms = some (List.replicate tot (some [])))) →
      CBody keep tot off (.vec t e start) (parts.map (fun p => .vec t p.1 p.2))
        (.vec t ((parts.map (fun p => p.1)).flatten ++ rest) nms)
  | df {cn : List Name} {pcols xs cols : List NVal} : PlacedCols keep tot off pcols xs cols →
      CBody keep tot off (.df 0 cn pcols none) xs (.df tot cn cols none)

theorem CBody.step {keep : Bool} {tot off k : Nat} {p y : NVal} {xs : List NVal}
    (h : CBody keep tot off p xs y) {x : NVal} (hx : HasType k p x) (hk : off + k ≤ tot) :
    Ret (nvalAssignBody keep (.seq off k 1) y x) (CBody keep tot (off + k) p (xs ++ [x])) := by
  cases h with
  | @vec t e rest start nms parts ho hr hn =>
    cases hx with
    | @vec _ _ ys _ nms' h1 h2 =>
      rw [nvalAssignBody, dif_pos rfl]
      have e1 := assignBase_mid (parts.map (fun p => p.1)).flatten ys rest (by omega)
      rw [ho, h1] at e1
      refine Ret.bind_eq e1 (Ret.ok ?_)
      have key := CBody.vec (keep := keep) (tot := tot) (t := t) (e := e) (start := start) (nms := nms) (off := off + k)
        (parts := parts ++ [(ys, nms')]) (rest := rest.drop k)
        (by simp only [List.map_append, List.map_cons, List.map_nil, List.flatten_append, List.flatten_cons,
              List.flatten_nil, List.append_nil, List.length_append, ho, h1])
        (by rw [List.length_drop, hr]; omega) hn
      simpa using key
  | @df cn pcols xs cols h =>
    obtain ⟨vcols, h1, h2⟩ := h.step hx hk
    cases x with
    | null => cases hx
    | vec => cases hx
    | df n cn' cols' rn =>
      cases h1
      rw [nvalAssignBody]
      refine Ret.bind h2 ?_
      intro cols' hc
      exact Ret.ok (.df hc)

theorem CBody.start {keep : Bool} {tot : Nat} {p y : NVal} (hp : IsPtype p)
    (h : SlicedAs (List.replicate tot none) p y) : CBody keep tot 0 p [] y := by
  cases h with
  | @vec t xs ys nms nms' h1 h2 =>
    have hl : ys.length = tot := by rw [h1.1, List.length_replicate]
    have key := CBody.vec (keep := keep) (tot := tot) (t := t) (e := xs) (start := nms) (nms := nms') (off := 0)
        (parts := []) (rest := ys) rfl (by omega) (by
          rcases h2 with ⟨g1, g2⟩ | ⟨a, b, g1, g2, g3⟩
          · exact Or.inl ⟨g1, g2⟩
          · exact Or.inr ⟨by rw [g1]; nofun, by rw [g2, located_none g3]⟩)
    simpa using key
  | @df n cn cols cols' rn rn' h1 h2 h3 =>
    cases hp with
    | df g1 g2 =>
      rcases h3 with ⟨_, hr⟩ | ⟨a, _, _, _, ha, _⟩
      · subst hr
        rw [List.length_replicate]
        refine .df ⟨h1, fun _ => [], fun c _ => .nil, ?_⟩
        intro c p y hp hy
        exact Placed.start (g2 p (List.mem_of_getElem? hp)) (h2 c p y hp hy)
      · cases ha

/-- The state of the loop. -/
structure CInv (keep : Bool) (tot : Nat) (ptype : NVal) (kept : List (Option Name × NVal))
    (blocks : List (Nat × Option (List Name))) (s : CState) : Prop where
  counter : s.counter = sizeOf' blocks
  body : CBody keep tot (sizeOf' blocks) ptype (kept.map (fun p => p.2)) s.out
  names : NamesPart tot none blocks s.outNames

theorem cblock_size {spec : NameSpec} {p : Option Name × NVal} {b : Nat × Option (List Name)} (h : CBlock spec p b) :
    p.2.size = b.1 := by
  rcases h.1 with h | ⟨h1, h2⟩
  · exact rowsOf_size h
  · rw [h1, h2]; rfl

theorem typed_inner {ptype x : NVal} (hx : x = .null ∨ ∃ k, HasType k ptype x) :
    ∀ m, namesOf x = some m → m.length = x.size := by
  intro m hm
  rcases hx with rfl | ⟨k, hk⟩
  · cases hm
  · rw [← vnames_namesOf] at hm
    rw [hk.names m hm, hk.size]

theorem cTurn_ok {spec : NameSpec} {xs : List NVal} {tot : Nat} {names : Option (List Name)} {ptype : NVal}
    {kept : List (Option Name × NVal)} {blocks : List (Nat × Option (List Name))} {s : CState} {i : Nat}
    {p : Option Name × NVal} {b : Nat × Option (List Name)}
    (hs : CInv (!spec.isZap) tot ptype kept blocks s) (hxi : xs[i]? = some p.2) (ho : outerOf names i = .ok p.1)
    (hx : p.2 = .null ∨ ∃ k, HasType k ptype p.2) (hle : sizeOf' blocks + b.1 ≤ tot) (hb : CBlock spec p b) :
    Ret (cTurn spec xs (xs.map (fun x => some x.size)) tot names i s)
      (CInv (!spec.isZap) tot ptype (kept ++ keptOf [p]) (blocks ++ [b])) := by
  have hsz := cblock_size hb
  rw [cTurn]
  refine Ret.bind_eq (rd_of_getElem? hxi) (Ret.bind_eq (rdU_ok (a := b.1) (by
    rw [List.getElem?_map, hxi]; simp [hsz])) (Ret.bind_eq (compactSeq_ok _ _) ?_))
  rw [hs.counter]
  have hnames : Ret (if !spec.isZap then do
        let outer ← outerOf names i
        let nms ← applyNameSpec spec outer p.2.vnames b.1
        cNames s.outNames tot (.seq (sizeOf' blocks) b.1 1) nms
      else .ok s.outNames : C (Option (List Name))) (NamesPart tot none (blocks ++ [(b.1, b.2)])) := by
    by_cases hz : spec = .zap
    · rw [isZap_iff.2 hz, if_neg (by simp)]
      subst hz
      have := hb.2.zapped
      rw [this]
      exact Ret.ok (hs.names.skip hle)
    · rw [isZap_false hz, if_pos (by simp)]
      refine Ret.bind_eq ho ?_
      rw [vnames_namesOf]
      refine Ret.bind (applyNameSpec_ok hb.2) ?_
      intro r hr
      exact cNames_ok hs.names hle hb.2 (fun m hm => by rw [typed_inner hx m hm, hsz]) hr
  refine Ret.bind hnames ?_
  intro nms hnms
  by_cases h0 : b.1 = 0
  · rw [if_pos h0]
    have hk : keptOf [p] = [] := by simp [keptOf, hsz, h0]
    have hsz0 : sizeOf' (blocks ++ [b]) = sizeOf' blocks := by rw [sizeOf'_snoc, h0, Nat.add_zero]
    rw [hk, List.append_nil]
    exact Ret.ok ⟨by dsimp only; rw [hsz0], by dsimp only; rw [hsz0]; exact hs.body, hnms⟩
  · rw [if_neg h0]
    have hk : keptOf [p] = [p] := by simp [keptOf, hsz, h0]
    obtain ⟨k, hk2⟩ := hx.resolve_left (by intro h; rw [h] at hsz; exact h0 hsz.symm)
    have : k = b.1 := by rw [← hk2.size, hsz]
    subst this
    refine Ret.bind (hs.body.step hk2 hle) ?_
    intro out hout
    rw [hk]
    refine Ret.ok ⟨by dsimp only; rw [sizeOf'_snoc], ?_, hnms⟩
    dsimp only
    rw [sizeOf'_snoc, List.map_append]
    exact hout

theorem cTurn_bad {spec : NameSpec} {xs : List NVal} {tot : Nat} {names : Option (List Name)} {s : CState} {i : Nat}
    {p : Option Name × NVal} {n : Nat} (hxi : xs[i]? = some p.2) (ho : outerOf names i = .ok p.1)
    (hr : rowsOf p.2 = some n) (hb : Unmerged spec n p.1 (namesOf p.2)) :
    cTurn spec xs (xs.map (fun x => some x.size)) tot names i s = .error .abort := by
  have hsz := rowsOf_size hr
  rw [cTurn]
  refine bind_eq_of (rd_of_getElem? hxi) (bind_eq_of (rdU_ok (a := n) (by
    rw [List.getElem?_map, hxi]; simp [hsz])) (bind_eq_of (compactSeq_ok _ _) ?_))
  have hz : spec ≠ .zap := by
    obtain ⟨h, _⟩ := hb
    rw [h]; nofun
  rw [isZap_false hz, if_pos (by simp), ho, ok_bind, vnames_namesOf, applyNameSpec_bad hb]
  rfl

/-! ## The end -/

theorem cFinish_ok (h : Name → BitVec 32) {spec : NameSpec} {repair : NameRepair} {tot : Nat} {ptype : NVal}
    {ins kept : List (Option Name × NVal)} {blocks : List (Nat × Option (List Name))} {s : CState}
    (hs : CInv (!spec.isZap) tot ptype kept blocks s) (ht : sizeOf' blocks = tot) (hn : tot ≤ 2147483647)
    (hb : List.Forall₂ (CBlock spec) ins blocks) (hsh : ShortNames blocks) :
    Ret (cFinish h spec repair s.out s.outNames) (Combined spec repair ins kept ptype) := by
  have hbody := hs.body
  have hnms := hs.names
  have hfit := hnms.fits hsh
  have hdone := hnms.done ht
  rw [ht] at hbody
  have hzap : spec = .zap → s.outNames = none := by
    rintro rfl
    refine hnms.2.1.2 ⟨rfl, ?_⟩
    intro b hbm
    clear hnms hfit hdone hs hbody hsh ht
    induction hb with
    | nil => cases hbm
    | cons h1 _ ih =>
      rcases List.mem_cons.1 hbm with rfl | hbm
      · exact h1.2.zapped
      · exact ih hbm
  generalize s.out = out at hbody
  generalize s.outNames = a at hfit hdone hzap
  generalize hkv : kept.map (fun p => p.2) = vals at hbody
  have hfr : ∀ l, a = some l → FitsRepair repair l := by
    intro l hl
    have := hfit l hl
    cases repair with
    | none => trivial
    | minimal => trivial
    | unique => exact ⟨by omega, this.2⟩
  unfold cFinish
  cases hbody with
  | @vec t e rest start nms parts ho hr hst =>
    have : rest = [] := List.eq_nil_of_length_eq_zero (by omega)
    subst this
    rw [List.append_nil]
    refine Ret.bind_eq (a := .vec t (parts.map (fun p => p.1)).flatten nms) (by rw [nvalRestore]) ?_
    cases a with
    | none =>
      by_cases hz : spec = .zap
      · rw [isZap_iff.2 hz]
        exact Ret.of_eq (a := .vec t (parts.map (fun p => p.1)).flatten none) rfl (.vec hkv hb (Or.inl ⟨hz, rfl⟩))
      · rw [isZap_false hz]
        refine Ret.ok (.vec hkv hb (Or.inr ⟨hz, none, hdone, ?_⟩))
        rcases hst with ⟨h1, h2⟩ | ⟨h1, h2⟩
        · exact Or.inl ⟨rfl, h1, h2⟩
        · exact Or.inr (Or.inl ⟨rfl, h1, by rw [ho]; exact h2⟩)
    | some l =>
      have hz : spec ≠ .zap := fun hz => by cases hzap hz
      refine Ret.bind (vecAsNames_ok h (hfr l rfl)) ?_
      intro r hr
      exact Ret.ok (.vec hkv hb (Or.inr ⟨hz, _, hdone, Or.inr (Or.inr ⟨l, r, rfl, hr, rfl⟩)⟩))
  | @df cn pcols xs cols hp =>
    obtain ⟨cols', hc1, hc2⟩ := hp.finish h hn
    refine Ret.bind_eq (a := .df tot cn cols' none) (by rw [nvalRestore, hc1]; rfl) ?_
    rw [← hkv] at hc2
    cases a with
    | none =>
      have e : Ret (if spec.isZap = true then nvalSetNames h (.df tot cn cols' none) none
          else .ok (.df tot cn cols' none)) (fun y => y = .df tot cn cols' none) := by
        cases spec.isZap
        · exact Ret.ok rfl
        · exact Ret.of_eq (a := .df tot cn cols' none) rfl rfl
      refine e.mono ?_
      rintro y rfl
      refine .df keep_iff hc2 hb ht.symm ?_ (Or.inl ⟨rfl, rfl⟩)
      by_cases hz : spec = .zap
      · exact Or.inl ⟨hz, rfl⟩
      · exact Or.inr ⟨hz, none, hdone, Or.inl ⟨rfl, rfl, rfl⟩⟩
    | some l =>
      have hz : spec ≠ .zap := fun hz => by cases hzap hz
      have hl := hfit l rfl
      obtain ⟨r, d, h1, h2, h3, h4⟩ : ∃ r d, vecAsNames h l repair = .ok r ∧ Repaired repair l r ∧
          restoreRownames h (some r) = .ok d ∧ RowRepair (some r) d := by
        cases repair with
        | none =>
          obtain ⟨d, g1, g2⟩ := restoreRownames_ok h (a := some l) (fun m hm => by cases hm; exact ⟨by omega, hl.2⟩)
          exact ⟨l, d, rfl, rfl, g1, g2⟩
        | minimal =>
          obtain ⟨r, g1, g2⟩ := vecAsNames_ok h (repair := .minimal) (a := l) trivial
          obtain ⟨d, g3, g4⟩ := restoreRownames_ok h (a := some r) (fun m hm => by
            cases hm
            refine ⟨by rw [g2.1]; omega, ?_⟩
            intro s hsm
            obtain ⟨i, hi⟩ := List.mem_iff_getElem?.1 hsm
            have hil : i < l.length := by rw [← g2.1]; exact (List.getElem?_eq_some_iff.1 hi).1
            have hli := List.getElem?_eq_getElem hil
            cases hv : l[i] with
            | none =>
              have := g2.2.2 i (by rw [hli, hv])
              rw [hi] at this; cases this; simp
            | some s' =>
              have := g2.2.1 i s' (by rw [hli, hv])
              rw [hi] at this; cases this
              exact hl.2 s (hv ▸ List.getElem_mem hil))
          exact ⟨r, d, g1, g2, g3, g4⟩
        | unique =>
          obtain ⟨c, d, g1, g2, g3, g4⟩ := uniqueNames_twice h (b := l) (by omega) (short_base hl.2)
          refine ⟨c, some d, g1, g3, ?_, Or.inr ⟨c, d, rfl, rfl, g4⟩⟩
          simp only [restoreRownames, g2, ok_bind]
      refine Ret.bind_eq h1 (Ret.bind_eq h3 (Ret.ok ?_))
      exact .df keep_iff hc2 hb ht.symm (Or.inr ⟨hz, _, hdone, Or.inr (Or.inr ⟨l, r, rfl, h2, rfl⟩)⟩) h4

/-! ## The loop -/

/-- What is known of the inputs. -/
structure CIns (ins : List (Option Name × NVal)) (names : Option (List Name)) (ptype : NVal) : Prop where
  outer : ∀ (i : Nat) p, ins[i]? = some p → outerOf names i = .ok p.1
  typed : ∀ p ∈ ins, p.2 = .null ∨ ∃ k, HasType k ptype p.2

theorem cblocks_size {spec : NameSpec} {ins : List (Option Name × NVal)} {blocks : List (Nat × Option (List Name))}
    (hb : List.Forall₂ (CBlock spec) ins blocks) :
    sizeOf' blocks = ((ins.map (fun p => p.2)).map NVal.size).sum := by
  induction hb with
  | nil => rfl
  | cons h _ ih =>
    simp only [sizeOf', List.map_cons, List.sum_cons] at ih ⊢
    rw [ih, cblock_size h]

theorem forall₂_take {α β : Type} {R : α → β → Prop} {l : List α} {m : List β} (h : List.Forall₂ R l m) :
    ∀ i : Nat, List.Forall₂ R (l.take i) (m.take i) := by
  induction h with
  | nil => intro i; simp
  | cons hr _ ih =>
    intro i
    cases i with
    | zero => exact .nil
    | succ i => exact .cons hr (ih i)

theorem sizeOf'_take_le (blocks : List (Nat × Option (List Name))) (i : Nat) : sizeOf' (blocks.take i) ≤ sizeOf' blocks := by
  have : sizeOf' blocks = sizeOf' (blocks.take i) + sizeOf' (blocks.drop i) := by
    rw [sizeOf', sizeOf', sizeOf', ← List.sum_append, ← List.map_append, List.take_append_drop]
  omega

theorem cLoop_step {spec : NameSpec} {ins : List (Option Name × NVal)} {names : Option (List Name)} {ptype : NVal}
    (hi : CIns ins names ptype) {k tot : Nat} {blocks : List (Nat × Option (List Name))}
    (hb : List.Forall₂ (CBlock spec) (ins.take k) blocks) (ht : sizeOf' blocks ≤ tot) {i : Nat} (hik : i < k)
    (hk : k ≤ ins.length) {s : CState}
    (hs : CInv (!spec.isZap) tot ptype (keptOf (ins.take i)) (blocks.take i) s) :
    Ret (cTurn spec (ins.map (fun p => p.2)) ((ins.map (fun p => p.2)).map (fun x : NVal => some x.size)) tot names i s)
      (CInv (!spec.isZap) tot ptype (keptOf (ins.take (i + 1))) (blocks.take (i + 1))) := by
  have hil : i < ins.length := by omega
  have hp := List.getElem?_eq_getElem hil
  have hpk : (ins.take k)[i]? = some ins[i] := by rw [List.getElem?_take, if_pos hik, hp]
  obtain ⟨b, hb1, hb2⟩ := forall₂_get hb hpk
  rw [take_succ_of hp, keptOf_append, take_succ_of hb1]
  refine cTurn_ok hs (by rw [List.getElem?_map, hp]; rfl) (hi.outer i _ hp) (hi.typed _ (List.getElem_mem hil)) ?_ hb2
  have := sizeOf'_take_le blocks (i + 1)
  rw [take_succ_of hb1, sizeOf'_snoc] at this
  omega

theorem vecCNames_ok (h : Name → BitVec 32) {spec : NameSpec} {repair : NameRepair} {ins : List (Option Name × NVal)}
    {names : Option (List Name)} {ptype : NVal} (hp : IsPtype ptype)
    (hi : CIns ins (if ptype.isDf then none else names) ptype)
    {blocks : List (Nat × Option (List Name))} (hb : List.Forall₂ (CBlock spec) ins blocks) (hsh : ShortNames blocks)
    (ht : sizeOf' blocks ≤ 2147483647) :
    Ret (vecCNames h (ins.map (fun p => p.2)) names ptype spec repair) (Combined spec repair ins (keptOf ins) ptype) := by
  have hsum := cblocks_size hb
  have hall : ins.take ins.length = ins := List.take_of_length_le (Nat.le_refl _)
  obtain ⟨y, hy1, hy2⟩ := nvalInit_ok h hp.isTab (n := ((ins.map (fun p => p.2)).map NVal.size).sum) (by omega)
  unfold vecCNames
  refine Ret.bind_eq (inputSizes_ok _) ?_
  dsimp only
  refine Ret.bind_eq hy1 ?_
  refine Ret.bind (Ret.forN (fun i s => CInv (!spec.isZap) ((ins.map (fun p => p.2)).map NVal.size).sum ptype
    (keptOf (ins.take i)) (blocks.take i) s) ?_ ?_) ?_
  · rw [List.take_zero, List.take_zero]
    exact ⟨rfl, CBody.start hp hy2, NamesPart.zero _ (Or.inl ⟨rfl, rfl⟩)⟩
  · intro i s hil hs
    exact cLoop_step hi (k := ins.length) (by rw [hall]; exact hb) (by omega) (by simpa using hil) (Nat.le_refl _) hs
  · intro s hs
    rw [List.length_map, hall, List.take_of_length_le (by rw [← forall₂_length hb])] at hs
    exact cFinish_ok h hs hsum (by omega) hb hsh

theorem vecCNames_bad (h : Name → BitVec 32) {spec : NameSpec} {repair : NameRepair} {ins pre post : List (Option Name × NVal)}
    {q : Option Name × NVal} {names : Option (List Name)} {ptype : NVal} (hp : IsPtype ptype)
    (hi : CIns ins (if ptype.isDf then none else names) ptype) (hq : ins = pre ++ q :: post)
    {blocks : List (Nat × Option (List Name))} (hb : List.Forall₂ (CBlock spec) pre blocks)
    (ht : ((ins.map (fun p => p.2)).map NVal.size).sum ≤ 2147483647) {n : Nat} (hr : rowsOf q.2 = some n)
    (hu : Unmerged spec n q.1 (namesOf q.2)) :
    vecCNames h (ins.map (fun p => p.2)) names ptype spec repair = .error .abort := by
  have htake : ins.take pre.length = pre := by rw [hq]; simp
  have hget : ins[pre.length]? = some q := by rw [hq]; simp
  have hpl : pre.length < ins.length := by rw [hq]; simp
  obtain ⟨y, hy1, hy2⟩ := nvalInit_ok h hp.isTab (n := ((ins.map (fun p => p.2)).map NVal.size).sum) ht
  unfold vecCNames
  refine bind_eq_of (inputSizes_ok _) ?_
  dsimp only
  refine bind_eq_of hy1 ?_
  have hbs : sizeOf' blocks ≤ ((ins.map (fun p => p.2)).map NVal.size).sum := by
    rw [cblocks_size hb, hq]
    simp
  have := forN_err (n := (ins.map (fun p : Option Name × NVal => p.2)).length) (k := pre.length) (e := .abort) (s := (⟨y, none, 0⟩ : CState))
    (f := cTurn spec (ins.map (fun p : Option Name × NVal => p.2)) ((ins.map (fun p : Option Name × NVal => p.2)).map (fun x : NVal => some x.size))
      ((ins.map (fun p : Option Name × NVal => p.2)).map NVal.size).sum (if ptype.isDf then none else names))
    (fun i s => CInv (!spec.isZap) ((ins.map (fun p : Option Name × NVal => p.2)).map NVal.size).sum ptype
      (keptOf (ins.take i)) (blocks.take i) s) (by simpa using hpl)
    (by
      rw [List.take_zero, List.take_zero]
      exact ⟨rfl, CBody.start hp hy2, NamesPart.zero _ (Or.inl ⟨rfl, rfl⟩)⟩)
    (fun i s hil hs => cLoop_step hi (k := pre.length) (by rw [htake]; exact hb) hbs hil (by omega) hs)
    (fun s hs => cTurn_bad (by rw [List.getElem?_map, hget]; rfl) (hi.outer _ _ hget) hr hu)
  rw [this]; rfl

end Vctrs
