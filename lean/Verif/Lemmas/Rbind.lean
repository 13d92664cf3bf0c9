import Verif.Lemmas.Stack

/-!
# Lemmas about vec_rbind()
-/

namespace Vctrs

open Spec

/-! ## Name specifications -/

theorem isEmptyNames_ok (inner : Option (List Name)) :
    Ret (isEmptyNames inner) (fun b => b = true ↔ NoInner inner) := by
  cases inner with
  | none => exact Ret.ok (by simp [NoInner])
  | some l =>
    rw [isEmptyNames]
    refine Ret.forBrk (fun i b => b = true ∧ ∀ n ∈ l.take i, NoName n) _ (by simp) ?_ ?_
    · rintro i b hi ⟨rfl, hb⟩
      have hm := List.getElem?_eq_getElem hi
      refine Ret.bind_eq (rd_of_getElem? hm) (Ret.ok ?_)
      by_cases hc : l[i] ≠ none ∧ l[i] ≠ some []
      · rw [if_pos hc]
        refine ⟨nofun, fun hn => ?_⟩
        rcases hn l rfl _ (List.getElem_mem hi) with h | h
        · exact absurd h hc.1
        · exact absurd h hc.2
      · rw [if_neg hc]
        refine ⟨rfl, ?_⟩
        intro n hn
        rw [take_succ_of hm] at hn
        rcases List.mem_append.1 hn with hn | hn
        · exact hb n hn
        · simp at hn; subst hn
          by_cases h1 : l[i] = none
          · exact Or.inl h1
          · exact Or.inr (by by_contra h2; exact hc ⟨h1, h2⟩)
    · rintro b ⟨rfl, hb⟩
      rw [List.take_of_length_le (Nat.le_refl _)] at hb
      exact ⟨fun _ m hm n hn => by cases hm; exact hb n hn, fun _ => rfl⟩

theorem isZap_iff {spec : NameSpec} : spec.isZap = true ↔ spec = .zap := by
  cases spec <;> simp [NameSpec.isZap]

theorem isZap_false {spec : NameSpec} (h : spec ≠ .zap) : spec.isZap = false := by
  cases spec <;> simp_all [NameSpec.isZap]

theorem recycleSpec_ok {n : Nat} {r out : Option (List Name)} (h : Fitted n r out) :
    recycleSpec r n = .ok (innerAsIs out) := by
  rcases h with ⟨rfl, rfl⟩ | ⟨l, l', rfl, rfl, ⟨h1, rfl⟩ | ⟨a, rfl, h1, rfl⟩⟩
  · rfl
  · simp only [recycleSpec, vecCheckRecycle]
    rw [if_pos (by omega)]; rfl
  · simp only [recycleSpec, vecCheckRecycle]
    rw [if_neg (by simp; omega), if_pos (by rfl), compactRep, if_neg (by omega), ok_bind]
    obtain ⟨out, h2, h3⟩ := sliceBase_located (na := (none : Name)) (blank := fun v => v = none) rfl
      (x := [a]) (s := .rep 1 n) (locs := List.replicate n (some 0)) ⟨by omega, Or.inr ⟨by omega, by simp⟩⟩
      (by have := pointsAt_rep 1 n; rwa [if_neg (by decide)] at this)
    rw [h2, ok_bind]
    have : out = List.replicate n a := by
      obtain ⟨g1, _, g2⟩ := h3
      rw [List.length_replicate] at g1
      refine List.ext_getElem? (fun k => ?_)
      by_cases hk : k < n
      · obtain ⟨v, g3, g4⟩ := g2 k 0 (by rw [List.getElem?_replicate, if_pos hk])
        rw [g3, List.getElem?_replicate, if_pos hk]
        simpa using g4.symm
      · rw [List.getElem?_eq_none (by omega), List.getElem?_replicate, if_neg hk]
    rw [this]; rfl

/-- What the merge of names gives in the model. -/
def MergeAs (n : Nat) (outer : Option Name) (inner out : Option (List Name)) (r : SpecNames) : Prop :=
  r = innerAsIs out ∨
  (r = .chrsEmpty ∧ (∃ o, outer = some o ∧ NoName o) ∧ inner = none ∧ out = some (List.replicate n (some [])))

theorem applyNameSpec_noName {spec : NameSpec} (hz : spec ≠ .zap) {o : Name} (ho : NoName o)
    (inner : Option (List Name)) (n : Nat) :
    applyNameSpec spec (some o) inner n = .ok (if inner = none then .chrsEmpty else innerAsIs inner) := by
  unfold applyNameSpec
  rw [isZap_false hz, if_neg (by simp)]
  rcases ho with rfl | rfl <;> rfl

theorem applyNameSpec_named {spec : NameSpec} (hz : spec ≠ .zap) {o : List Char} (ho : o ≠ [])
    (inner : Option (List Name)) (n : Nat) :
    applyNameSpec spec (some (some o)) inner n = mergeNames spec o inner n := by
  unfold applyNameSpec
  rw [isZap_false hz, if_neg (by simp)]
  cases o with
  | nil => exact absurd rfl ho
  | cons => rfl

theorem mergeNames_noInner {spec : NameSpec} {o : List Char} {inner : Option (List Name)} {n : Nat}
    (hi : NoInner inner) : mergeNames spec o inner n =
      (if n = 0 then .ok (.chr []) else if n = 1 then .ok (.chr [some o]) else callSpec spec o (.iota n) n) := by
  obtain ⟨b, h1, h2⟩ := isEmptyNames_ok inner
  have : b = true := h2.2 hi
  subst this
  unfold mergeNames
  rw [h1, ok_bind, if_pos rfl]

theorem mergeNames_inner {spec : NameSpec} {o : List Char} {l : List Name} {n : Nat}
    (hi : ¬ NoInner (some l)) : mergeNames spec o (some l) n = callSpec spec o (.names l) n := by
  obtain ⟨b, h1, h2⟩ := isEmptyNames_ok (some l)
  have : b = false := by
    cases b with
    | false => rfl
    | true => exact absurd (h2.1 rfl) hi
  subst this
  rw [mergeNames, h1, ok_bind, if_neg (by simp)]

theorem applyNameSpec_ok {spec : NameSpec} {n : Nat} {outer : Option Name} {inner out : Option (List Name)}
    (h : Merged spec n outer inner out) :
    Ret (applyNameSpec spec outer inner n) (MergeAs n outer inner out) := by
  cases h with
  | zap hz =>
    subst hz
    exact Ret.of_eq (a := .null) rfl (Or.inl rfl)
  | unnamed hz =>
    unfold applyNameSpec
    rw [isZap_false hz, if_neg (by simp)]
    exact Ret.ok (Or.inl rfl)
  | inner hz ho => exact Ret.of_eq (applyNameSpec_noName hz ho _ n) (Or.inl rfl)
  | blank hz ho => exact Ret.of_eq (applyNameSpec_noName hz ho _ n) (Or.inr ⟨rfl, ⟨_, rfl, ho⟩, rfl, rfl⟩)
  | zero hz ho hi hn =>
    rw [applyNameSpec_named hz ho, mergeNames_noInner hi, if_pos hn]
    exact Ret.ok (Or.inl rfl)
  | one hz ho hi hn =>
    rw [applyNameSpec_named hz ho, mergeNames_noInner hi, if_neg (by omega), if_pos hn]
    exact Ret.ok (Or.inl rfl)
  | index hz ho hi hn hf hr =>
    subst hz
    rw [applyNameSpec_named (fun h => by cases h) ho, mergeNames_noInner hi, if_neg (by omega), if_neg (by omega), callSpec]
    exact Ret.bind_eq hf (Ret.of_eq (recycleSpec_ok hr) (Or.inl rfl))
  | both hz ho hi hf hr =>
    subst hz
    rw [applyNameSpec_named (fun h => by cases h) ho, mergeNames_inner hi, callSpec]
    exact Ret.bind_eq hf (Ret.of_eq (recycleSpec_ok hr) (Or.inl rfl))

theorem applyNameSpec_bad {spec : NameSpec} {n : Nat} {outer : Option Name} {inner : Option (List Name)}
    (h : Unmerged spec n outer inner) : applyNameSpec spec outer inner n = .error .abort := by
  obtain ⟨rfl, o, ho, rfl, h2⟩ := h
  rw [applyNameSpec_named (fun h => by cases h) ho]
  by_cases hi : NoInner inner
  · have : 2 ≤ n := h2.resolve_right (fun h => h hi)
    rw [mergeNames_noInner hi, if_neg (by omega), if_neg (by omega)]; rfl
  · cases inner with
    | none => exact absurd (fun l hl => nomatch hl) hi
    | some l => rw [mergeNames_inner hi]; rfl

theorem Spec.Fitted.length {n : Nat} {r : Option (List Name)} {l : List Name} (h : Fitted n r (some l)) :
    l.length = n := by
  rcases h with ⟨_, h⟩ | ⟨a, b, _, h1, ⟨h2, h3⟩ | ⟨c, _, _, h3⟩⟩
  · cases h
  · cases h1; rw [h3]; exact h2
  · cases h1; rw [h3]; simp

theorem Spec.Merged.zapped {n : Nat} {outer : Option Name} {inner out : Option (List Name)}
    (h : Merged .zap n outer inner out) : out = none := by
  cases h with
  | zap => rfl
  | unnamed h => exact absurd rfl h
  | inner h => exact absurd rfl h
  | blank h => exact absurd rfl h
  | zero h => exact absurd rfl h
  | one h => exact absurd rfl h
  | index h => cases h
  | both h => cases h

theorem Spec.Merged.length {spec : NameSpec} {n : Nat} {outer : Option Name} {inner : Option (List Name)} {l : List Name}
    (h : Merged spec n outer inner (some l)) (hi : ∀ m, inner = some m → m.length = n) : l.length = n := by
  generalize he : some l = out at h
  cases h with
  | zap => cases he
  | unnamed => exact hi l he.symm
  | inner => cases he; exact hi l rfl
  | blank => cases he; simp
  | zero _ _ _ hn => cases he; simp [hn]
  | one _ _ _ hn => cases he; simp [hn]
  | index _ _ _ _ _ hr => subst he; exact hr.length
  | both _ _ _ _ hr => subst he; exact hr.length

/-! ## Inputs -/

/-- The inputs that have rows. -/
def keptOf {α : Type} (ins : List (α × NVal)) : List (α × NVal) := ins.filter (fun p => p.2.size ≠ 0)

theorem hasRows_iff {x : NVal} : HasRows x ↔ x.size ≠ 0 := by
  cases x <;> simp [HasRows, rowsOf, NVal.size]

theorem Spec.KeptRows.eq {α : Type} {ins kept : List (α × NVal)} (h : KeptRows ins kept) : kept = keptOf ins := by
  induction h with
  | nil => rfl
  | keep hr _ ih =>
    rw [keptOf, List.filter_cons_of_pos (by simpa using hasRows_iff.1 hr), ih]; rfl
  | drop hr _ ih =>
    rw [keptOf, List.filter_cons_of_neg (by simpa using fun h => hr (hasRows_iff.2 h)), ih]; rfl

theorem keptRows_keptOf {α : Type} (ins : List (α × NVal)) : KeptRows ins (keptOf ins) := by
  induction ins with
  | nil => exact .nil
  | cons p ins ih =>
    rcases p with ⟨a, x⟩
    by_cases h : x.size ≠ 0
    · rw [keptOf, List.filter_cons_of_pos (by simpa using h)]
      exact .keep (hasRows_iff.2 h) ih
    · rw [keptOf, List.filter_cons_of_neg (by simpa using h)]
      exact .drop (fun hr => h (hasRows_iff.1 hr)) ih

theorem keptOf_map {α β : Type} (f : α → β) (ins : List (α × NVal)) :
    keptOf (ins.map (fun p => (f p.1, p.2))) = (keptOf ins).map (fun p => (f p.1, p.2)) := by
  simp only [keptOf, List.filter_map]; rfl

theorem inputSizes_ok (xs : List NVal) :
    inputSizes xs = .ok (xs.map (fun x => some x.size), (xs.map NVal.size).sum) := by
  obtain ⟨s, h1, h2⟩ := Ret.forN (n := xs.length) (s := (alloc Nat xs.length, 0))
    (f := fun i (s : List (Option Nat) × Nat) => do
      let x ← rd xs i
      let ns ← wr s.1 i (some x.size)
      .ok (ns, s.2 + x.size))
    (fun i s => s = ((xs.take i).map (fun x => some x.size) ++ List.replicate (xs.length - i) none,
      ((xs.take i).map NVal.size).sum)) (by simp [alloc]) (by
      rintro i s hi rfl
      have hm := List.getElem?_eq_getElem hi
      refine Ret.bind_eq (rd_of_getElem? hm) ?_
      dsimp only
      refine Ret.bind_eq (a := (xs.take (i + 1)).map (fun x => some x.size) ++ List.replicate (xs.length - (i + 1)) none) ?_
        (Ret.ok ?_)
      · rw [wr_ok (by simp; omega)]
        congr 1
        have hl : ((xs.take i).map (fun x => some x.size)).length = i := by simp; omega
        rw [List.set_append_right _ _ (by omega), hl, Nat.sub_self, take_succ_of hm,
          show xs.length - i = (xs.length - (i + 1)) + 1 by omega, List.replicate_succ, List.set_cons_zero]
        simp only [List.map_append, List.map_cons, List.map_nil, List.append_assoc, List.cons_append, List.nil_append]
      · rw [take_succ_of hm, List.map_append (f := NVal.size), List.sum_append]; rfl)
  rw [inputSizes, h1, h2]
  simp

/-! ## The loop -/

/-- Columns after some data frames have been put in place. -/
def PlacedCols (keep : Bool) (tot off : Nat) (pcols xs cols : List NVal) : Prop :=
  cols.length = pcols.length ∧ ∃ colsOf : Nat → List NVal,
    (∀ c, c < pcols.length → List.Forall₂ (ColumnOf c) xs (colsOf c)) ∧
    ∀ (c : Nat) (p y : NVal), pcols[c]? = some p → cols[c]? = some y → Placed keep tot off p (colsOf c) y

theorem PlacedCols.step {keep : Bool} {tot off k m : Nat} {pcols xs cols : List NVal} {cn : List Name}
    (h : PlacedCols keep tot off pcols xs cols) {x : NVal} (hx : HasType k (.df m cn pcols none) x) (hk : off + k ≤ tot) :
    ∃ vcols, x.columns = .ok vcols ∧ Ret (dfAssignCols keep (.seq off k 1) cols vcols)
      (PlacedCols keep tot (off + k) pcols (xs ++ [x])) := by
  obtain ⟨hl, colsOf, hc, hp⟩ := h
  cases hx with
  | @df _ _ _ vcols vrn h1 h2 h3 =>
    refine ⟨vcols, rfl, ?_⟩
    rw [dfAssignCols, if_neg (by omega)]
    refine (nvalAssignCols_ok keep (.seq off k 1) cols vcols (by omega)
      (fun c y => ∀ p v, pcols[c]? = some p → vcols[c]? = some v →
        Placed keep tot (off + k) p (colsOf c ++ [v]) y) ?_).mono ?_
    · intro c y v hy hv
      have hcl := (List.getElem?_eq_some_iff.1 hy).1
      have hpc := List.getElem?_eq_getElem (l := pcols) (i := c) (by omega)
      refine ((hp c _ y hpc hy).step (h2 c _ v hpc hv) hk).mono ?_
      intro z hz p' v' hp' hv'
      rw [hpc] at hp'; cases hp'
      rw [hv] at hv'; cases hv'
      exact hz
    · rintro cols' ⟨g1, g2⟩
      refine ⟨by omega, fun c => colsOf c ++ (vcols[c]?).toList, ?_, ?_⟩
      · intro c hcl
        have hv := List.getElem?_eq_getElem (l := vcols) (i := c) (by omega)
        dsimp only
        rw [hv]
        exact forall₂_snoc (hc c hcl) ⟨_, _, _, _, rfl, hv⟩
      · intro c p y hpc hy
        have hcl := (List.getElem?_eq_some_iff.1 hpc).1
        have hv := List.getElem?_eq_getElem (l := vcols) (i := c) (by omega)
        have := g2 c y hy p _ hpc hv
        dsimp only
        rw [hv]
        exact this

theorem PlacedCols.finish (h : Name → BitVec 32) {keep : Bool} {tot : Nat} {pcols xs cols : List NVal}
    (hp : PlacedCols keep tot tot pcols xs cols) (hn : tot ≤ 2147483647) :
    Ret (nvalRestoreCols h cols) (StackedCols keep pcols xs) := by
  obtain ⟨hl, colsOf, hc, hp⟩ := hp
  refine (nvalRestoreCols_ok h cols (fun c y => ∀ p, pcols[c]? = some p → Stacked keep p (colsOf c) y) ?_).mono ?_
  · intro c y hy
    have hcl := (List.getElem?_eq_some_iff.1 hy).1
    have hpc := List.getElem?_eq_getElem (l := pcols) (i := c) (by omega)
    refine ((hp c _ y hpc hy).finish h rfl hn).mono ?_
    intro z hz p hp
    rw [hpc] at hp; cases hp
    exact hz
  · rintro cols' ⟨g1, g2⟩
    refine ⟨by omega, ?_⟩
    intro c p y hpc hy
    exact ⟨colsOf c, hc c (List.getElem?_eq_some_iff.1 hpc).1, g2 c y hy p hpc⟩

/-- A value with the label of its input. -/
abbrev Labelled (α : Type) := (Option Name × Option α) × NVal

/-- The labels of a part of the `names_to` column. -/
def labels {α : Type} (kept : List (Labelled α)) : List (Option α) :=
  kept.flatMap (fun p => List.replicate p.2.size p.1.2)

/-- The state of the loop after the inputs `kept`. -/
structure RInv {α : Type} (keep : Bool) (tot : Nat) (pcols : List NVal) (hasIndex : Bool) (kept : List (Labelled α))
    (blocks : List (Nat × Option (List Name))) (s : RbindState α) : Prop where
  counter : s.counter = sizeOf' blocks
  cols : PlacedCols keep tot (sizeOf' blocks) pcols (kept.map (fun p => p.2)) s.cols
  names : NamesPart tot none blocks s.rowNames
  index : hasIndex = true → s.namesTo = labels kept ++ List.replicate (tot - sizeOf' blocks) none
  size : (labels kept).length = sizeOf' blocks

theorem rbindNames_ok {spec : NameSpec} {tot : Nat} {blocks : List (Nat × Option (List Name))}
    {cur : Option (List Name)} (h : NamesPart tot none blocks cur) {k : Nat} (hk : sizeOf' blocks + k ≤ tot)
    {outer : Option Name} {inner out : Option (List Name)} (hm : Merged spec k outer inner out)
    (hi : ∀ m, inner = some m → m.length = k) (hb : ¬ BlankNames spec k outer inner) (hz : spec ≠ .zap)
    {r : SpecNames} (hr : MergeAs k outer inner out r) :
    Ret (rbindNames cur tot (.seq (sizeOf' blocks) k 1) r) (NamesPart tot none (blocks ++ [(k, out)])) := by
  rcases hr with rfl | ⟨rfl, ho, rfl, rfl⟩
  · cases out with
    | none => exact Ret.ok (h.skip hk)
    | some l =>
      refine Ret.bind (h.put hk (hm.length hi)) ?_
      intro r hr
      exact Ret.ok hr
  · have hk1 : k = 1 := by
      by_contra hne
      exact hb ⟨hz, ho, rfl, hne⟩
    subst hk1
    refine Ret.bind (h.put hk (l := [some []]) rfl) ?_
    intro r hr
    exact Ret.ok hr

theorem vecFill_ok {α : Type} {A : List (Option α)} {src : List α} {i n : Nat} {v : α} (hv : src[i]? = some v)
    {R : List (Option α)} (hn : n ≤ R.length) :
    vecFill (A ++ R) A.length src i n = .ok (A ++ List.replicate n (some v) ++ R.drop n) := by
  obtain ⟨s, h1, h2⟩ := Ret.forN (n := n) (s := A ++ R)
    (f := fun k dest => do
      let v ← rd src i
      wr dest (A.length + k) (some v))
    (fun k s => s = A ++ List.replicate k (some v) ++ R.drop k) (by simp) (by
      rintro k s hk rfl
      refine Ret.bind_eq (rd_of_getElem? hv) (Ret.of_eq (wr_ok (by simp; omega)) ?_)
      have hl : (A ++ List.replicate k (some v)).length = A.length + k := by simp
      rw [List.set_append_right _ _ (by omega), hl, Nat.sub_self, List.drop_eq_getElem_cons (by omega), List.set_cons_zero,
        List.replicate_succ']
      simp only [List.append_assoc, List.cons_append, List.nil_append])
  rw [vecFill, h1, h2]

theorem Spec.HasType.size {k : Nat} {p x : NVal} (h : HasType k p x) : x.size = k := by
  cases h with
  | vec h1 _ => exact h1
  | df => rfl

theorem Spec.HasType.names {k : Nat} {p x : NVal} (h : HasType k p x) : ∀ l, x.vnames = some l → l.length = k := by
  cases h with
  | vec _ h1 => exact h1
  | df _ _ h1 => exact fun l hl => (h1 l hl).1

theorem vnames_namesOf (x : NVal) : x.vnames = namesOf x := by cases x <;> rfl

/-- The inputs of a turn. -/
structure TurnAt {α : Type} (xs : List NVal) (names : Option (List Name)) (index : Option (List α)) (i : Nat)
    (l : Option Name × Option α) (x : NVal) : Prop where
  x : xs[i]? = some x
  outer : outerOf names i = .ok l.1
  index : ∀ ix, index = some ix → ∃ v, l.2 = some v ∧ ix[i]? = some v

theorem compactSeq_ok (a k : Nat) : compactSeq a k true = .ok (.seq a k 1) := by
  rw [compactSeq, if_neg (by omega), if_neg (by omega)]; rfl

theorem rbindTurn_ok {α : Type} {spec : NameSpec} {xs : List NVal} {tot m : Nat} {names : Option (List Name)}
    {index : Option (List α)} {pcols : List NVal} {cn : List Name} {kept : List (Labelled α)}
    {blocks : List (Nat × Option (List Name))} {s : RbindState α} {i k : Nat} {l : Option Name × Option α} {x : NVal}
    (hs : RInv (!spec.isZap) tot pcols index.isSome kept blocks s) (ht : TurnAt xs names index i l x)
    (hx : HasType k (.df m cn pcols none) x) (hk : k ≠ 0) (hle : sizeOf' blocks + k ≤ tot)
    {out : Option (List Name)} (hm : Merged spec k l.1 (namesOf x) out) (hb : ¬ BlankNames spec k l.1 (namesOf x)) :
    Ret (rbindTurn spec xs (xs.map (fun x => some x.size)) tot names index i s)
      (RInv (!spec.isZap) tot pcols index.isSome (kept ++ [(l, x)]) (blocks ++ [(k, out)])) := by
  have hsz := hx.size
  rw [rbindTurn]
  refine Ret.bind_eq (rdU_ok (a := k) (by rw [List.getElem?_map, ht.x]; simp [hsz])) ?_
  rw [if_neg hk]
  refine Ret.bind_eq (rd_of_getElem? ht.x) (Ret.bind_eq (compactSeq_ok _ _) ?_)
  rw [hs.counter]
  obtain ⟨vcols, hv1, hv2⟩ := hs.cols.step hx hle
  refine Ret.bind_eq hv1 (Ret.bind hv2 ?_)
  intro cols hcols
  have hnames : Ret (if !spec.isZap then do
        let outer ← outerOf names i
        let nms ← applyNameSpec spec outer x.vnames k
        rbindNames s.rowNames tot (.seq (sizeOf' blocks) k 1) nms
      else .ok s.rowNames : C (Option (List Name))) (NamesPart tot none (blocks ++ [(k, out)])) := by
    by_cases hz : spec = .zap
    · rw [isZap_iff.2 hz, if_neg (by simp)]
      subst hz
      have := hm.zapped
      subst this
      exact Ret.ok (hs.names.skip hle)
    · rw [isZap_false hz, if_pos (by simp)]
      refine Ret.bind_eq ht.outer ?_
      rw [vnames_namesOf]
      refine Ret.bind (applyNameSpec_ok hm) ?_
      intro r hr
      exact rbindNames_ok hs.names hle hm (by rw [← vnames_namesOf]; exact hx.names) hb hz hr
  refine Ret.bind hnames ?_
  intro rn hrn
  have hlab : labels (kept ++ [(l, x)]) = labels kept ++ List.replicate k l.2 := by
    simp [labels, hsz]
  have hfill : Ret (rbindFill index s.namesTo (sizeOf' blocks) i k) (fun b => index.isSome = true →
      b = labels (kept ++ [(l, x)]) ++ List.replicate (tot - (sizeOf' blocks + k)) none) := by
    cases index with
    | none => exact Ret.ok nofun
    | some ix =>
      obtain ⟨v, hv, hvi⟩ := ht.index ix rfl
      rw [rbindFill, hs.index rfl]
      have e := vecFill_ok (A := labels kept) hvi (R := List.replicate (tot - sizeOf' blocks) none) (n := k)
        (by simp; omega)
      rw [hs.size] at e
      refine Ret.of_eq e (fun _ => ?_)
      rw [hlab, hv]
      simp [Nat.sub_sub]
  refine Ret.bind hfill ?_
  intro nt hnt
  refine Ret.ok ⟨?_, ?_, hrn, ?_, ?_⟩
  · dsimp only; rw [sizeOf'_snoc]
  · dsimp only; rw [sizeOf'_snoc]; simpa using hcols
  · dsimp only; rw [sizeOf'_snoc]; exact hnt
  · rw [hlab, sizeOf'_snoc]; simp [hs.size]

theorem rbindTurn_skip {α : Type} {spec : NameSpec} {xs : List NVal} {tot : Nat} {names : Option (List Name)}
    {index : Option (List α)} {s : RbindState α} {i : Nat} {x : NVal} (hx : xs[i]? = some x) (h0 : x.size = 0) :
    rbindTurn spec xs (xs.map (fun x => some x.size)) tot names index i s = .ok s := by
  rw [rbindTurn, rdU_ok (a := 0) (by rw [List.getElem?_map, hx]; simp [h0]), ok_bind, if_pos rfl]

/-- A turn that fails. -/
theorem rbindTurn_bad {α : Type} {spec : NameSpec} {xs : List NVal} {tot m : Nat} {names : Option (List Name)}
    {index : Option (List α)} {pcols : List NVal} {cn : List Name} {kept : List (Labelled α)}
    {blocks : List (Nat × Option (List Name))} {s : RbindState α} {i k : Nat} {l : Option Name × Option α} {x : NVal}
    (hs : RInv (!spec.isZap) tot pcols index.isSome kept blocks s) (ht : TurnAt xs names index i l x)
    (hx : HasType k (.df m cn pcols none) x) (hk : k ≠ 0) (hle : sizeOf' blocks + k ≤ tot) {e : Err}
    (hbad : (e = .abort ∧ Unmerged spec k l.1 (namesOf x)) ∨ (e = .internal ∧ BlankNames spec k l.1 (namesOf x))) :
    rbindTurn spec xs (xs.map (fun x => some x.size)) tot names index i s = .error e := by
  have hsz := hx.size
  rw [rbindTurn]
  refine bind_eq_of (rdU_ok (a := k) (by rw [List.getElem?_map, ht.x]; simp [hsz])) ?_
  rw [if_neg hk]
  refine bind_eq_of (rd_of_getElem? ht.x) (bind_eq_of (compactSeq_ok _ _) ?_)
  rw [hs.counter]
  obtain ⟨vcols, hv1, cols, hv2, _⟩ := hs.cols.step hx hle
  refine bind_eq_of hv1 (bind_eq_of hv2 ?_)
  have hz : spec ≠ .zap := by
    rcases hbad with ⟨_, h, _⟩ | ⟨_, h, _⟩
    · rw [h]; nofun
    · exact h
  rw [isZap_false hz, if_pos (by simp), ht.outer, ok_bind, vnames_namesOf]
  rcases hbad with ⟨rfl, h⟩ | ⟨rfl, _, ⟨o, ho, hno⟩, hin, hk1⟩
  · rw [applyNameSpec_bad h]; rfl
  · rw [ho, hin, applyNameSpec_noName hz hno, if_pos rfl, ok_bind, rbindNames]
    simp only [assignBase, assignCompact]
    rw [if_pos (by simp; omega)]; rfl

end Vctrs
