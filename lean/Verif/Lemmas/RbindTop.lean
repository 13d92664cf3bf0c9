import Verif.Lemmas.Rbind

/-!
# The loop of vec_rbind() and its result
-/

namespace Vctrs

open Spec

/-- The number of rows and the names of a labelled input. -/
def LBlock {α : Type} (spec : NameSpec) (p : Labelled α) (b : Nat × Option (List Name)) : Prop :=
  rowsOf p.2 = some b.1 ∧ Merged spec b.1 p.1.1 (namesOf p.2) b.2

/-- The inputs. -/
abbrev valsOf {α : Type} (ins : List (Labelled α)) : List NVal := ins.map (fun p => p.2)

/-- The number of rows of all inputs. -/
abbrev totOf {α : Type} (ins : List (Labelled α)) : Nat := ((valsOf ins).map NVal.size).sum

/-- The code handles the names of the input. -/
def NotBlank {α : Type} (spec : NameSpec) (p : Labelled α) : Prop :=
  ∀ n, rowsOf p.2 = some n → ¬ BlankNames spec n p.1.1 (namesOf p.2)

theorem forall₂_get {α β : Type} {R : α → β → Prop} {l : List α} {m : List β} (h : List.Forall₂ R l m) :
    ∀ {i : Nat} {a : α}, l[i]? = some a → ∃ b, m[i]? = some b ∧ R a b := by
  induction h with
  | nil => intro i a h; simp at h
  | cons hr _ ih =>
    intro i a h
    cases i with
    | zero => simp at h; subst h; exact ⟨_, rfl, hr⟩
    | succ i => exact ih (by simpa using h)

theorem forall₂_length {α β : Type} {R : α → β → Prop} {l : List α} {m : List β} (h : List.Forall₂ R l m) :
    l.length = m.length := by
  induction h with
  | nil => rfl
  | cons _ _ ih => simp [ih]

theorem keptOf_append {α : Type} (a b : List (α × NVal)) : keptOf (a ++ b) = keptOf a ++ keptOf b := by
  simp [keptOf]

theorem labels_length {α : Type} (ins : List (Labelled α)) :
    (labels (keptOf ins)).length = totOf ins := by
  induction ins with
  | nil => rfl
  | cons p ins ih =>
    rw [show p :: ins = [p] ++ ins from rfl, keptOf_append]
    simp only [labels] at ih
    by_cases h : p.2.size = 0
    · simp [labels, keptOf, h] at ih ⊢
      rw [ih]
      simp [totOf, h]
    · simp [labels, keptOf, h] at ih ⊢
      rw [ih]
      simp [totOf]

theorem rowsOf_size {x : NVal} {n : Nat} (h : rowsOf x = some n) : x.size = n := by
  cases x <;> simp_all [rowsOf, NVal.size]

/-- What is known of the inputs. -/
structure RbindIns {α : Type} (ins : List (Labelled α)) (names : Option (List Name)) (index : Option (List α))
    (cn : List Name) (pcols : List NVal) : Prop where
  turn : ∀ (i : Nat) p, ins[i]? = some p → TurnAt (valsOf ins) names index i p.1 p.2
  typed : ∀ p ∈ ins, p.2 = .null ∨ ∃ k, HasType k (.df 0 cn pcols none) p.2

theorem sum_step {α : Type} {ins : List (Labelled α)} {i : Nat} {p : Labelled α} (h : ins[i]? = some p) :
    totOf (ins.take i) + p.2.size ≤ totOf ins := by
  have e : totOf (ins.take (i + 1)) = totOf (ins.take i) + p.2.size := by
    rw [take_succ_of h]; simp only [totOf, valsOf, List.map_append, List.sum_append]; rfl
  rw [← e]
  conv_rhs => rw [← List.take_append_drop (i + 1) ins]
  simp only [totOf, valsOf, List.map_append, List.sum_append]; omega

/-- A step of the loop. -/
theorem rbindLoop_step {α : Type} {spec : NameSpec} {ins : List (Labelled α)} {names : Option (List Name)}
    {index : Option (List α)} {cn : List Name} {pcols : List NVal} (hi : RbindIns ins names index cn pcols)
    {k : Nat} {blocks : List (Nat × Option (List Name))} (hb : List.Forall₂ (LBlock spec) (keptOf (ins.take k)) blocks)
    (hn : ∀ p ∈ keptOf (ins.take k), NotBlank spec p) {i : Nat} (hik : i < k) (hk : k ≤ ins.length) {s : RbindState α}
    (hs : RInv (!spec.isZap) (totOf ins) pcols index.isSome (keptOf (ins.take i))
      (blocks.take (keptOf (ins.take i)).length) s) :
    Ret (rbindTurn spec (valsOf ins) ((valsOf ins).map (fun x : NVal => some x.size))
        (totOf ins) names index i s)
      (RInv (!spec.isZap) (totOf ins) pcols index.isSome (keptOf (ins.take (i + 1)))
        (blocks.take (keptOf (ins.take (i + 1))).length)) := by
  have hil : i < ins.length := by omega
  have hp := List.getElem?_eq_getElem hil
  have htk := take_succ_of hp
  have ht := hi.turn i _ hp
  by_cases h0 : ins[i].2.size = 0
  · refine Ret.of_eq (rbindTurn_skip ht.x h0) ?_
    have : keptOf (ins.take (i + 1)) = keptOf (ins.take i) := by
      rw [htk, keptOf_append]; simp [keptOf, h0]
    rw [this]; exact hs
  · have hkeep : keptOf (ins.take (i + 1)) = keptOf (ins.take i) ++ [ins[i]] := by
      rw [htk, keptOf_append]; simp [keptOf, h0]
    have hall : keptOf (ins.take k) = keptOf (ins.take i) ++ ins[i] :: keptOf ((ins.take k).drop (i + 1)) := by
      have : ins.take k = ins.take (i + 1) ++ (ins.take k).drop (i + 1) := by
        conv_lhs => rw [← List.take_append_drop (i + 1) (ins.take k)]
        rw [List.take_take, Nat.min_eq_left (by omega)]
      have e : keptOf (ins.take k) = keptOf (ins.take (i + 1)) ++ keptOf ((ins.take k).drop (i + 1)) := by
        rw [← keptOf_append, ← this]
      rw [e, hkeep, List.append_assoc]; rfl
    have hget : (keptOf (ins.take k))[(keptOf (ins.take i)).length]? = some ins[i] := by
      rw [hall, List.getElem?_append_right (Nat.le_refl _)]; simp
    obtain ⟨b, hb1, hb2, hb3⟩ := forall₂_get hb hget
    have hbt := take_succ_of hb1
    have hmem : ins[i] ∈ keptOf (ins.take k) := List.mem_of_getElem? hget
    have hnull : ins[i].2 ≠ .null := by intro h; rw [h] at h0; exact h0 rfl
    obtain ⟨m, hm⟩ := (hi.typed _ (List.getElem_mem hil)).resolve_left hnull
    have hmb : m = b.1 := by rw [← hm.size, rowsOf_size hb2]
    subst hmb
    have hle : sizeOf' (blocks.take (keptOf (ins.take i)).length) + b.1 ≤ totOf ins := by
      rw [← hs.size, labels_length, ← hm.size]
      exact sum_step hp
    have key := rbindTurn_ok hs ht hm (by rw [← hm.size]; exact h0) hle hb3 (hn _ hmem _ hb2)
    rw [hkeep]
    rw [List.length_append, List.length_singleton, hbt]
    exact key

theorem rinv_start {α : Type} {keep : Bool} {tot : Nat} {pcols cols : List NVal} {hasIndex : Bool}
    (hl : cols.length = pcols.length) (hp : ∀ p ∈ pcols, IsPtype p)
    (hc : ∀ (c : Nat) (x y : NVal), pcols[c]? = some x → cols[c]? = some y → SlicedAs (List.replicate tot none) x y)
    {blocks : List (Nat × Option (List Name))} {buf : List (Option α)}
    (hb : hasIndex = true → buf = alloc α tot) (ins : List (Labelled α)) :
    RInv keep tot pcols hasIndex (keptOf (ins.take 0)) (blocks.take (keptOf (ins.take 0)).length)
      ⟨cols, none, buf, 0⟩ := by
  have e1 : keptOf (ins.take 0) = [] := rfl
  rw [e1, List.length_nil, List.take_zero]
  refine ⟨rfl, ⟨hl, fun _ => [], fun c _ => .nil, ?_⟩, NamesPart.zero tot (Or.inl ⟨rfl, rfl⟩), ?_, rfl⟩
  · intro c p y h1 h2
    exact Placed.start (hp p (List.mem_of_getElem? h1)) (hc c p y h1 h2)
  · intro h
    rw [hb h]
    simp [labels, sizeOf', alloc]

theorem rbindFinish_none (h : Name → BitVec 32) {spec : NameSpec} {ty : VTy} {tot : Nat} {pcols : List NVal}
    {hasIndex : Bool} {kept : List (Labelled ty.El)} {blocks : List (Nat × Option (List Name))} {s : RbindState ty.El}
    (hs : RInv (!spec.isZap) tot pcols hasIndex kept blocks s) (ht : sizeOf' blocks = tot) (hn : tot ≤ 2147483647)
    (hsh : ShortNames blocks) :
    ∃ cols rn, nvalRestoreCols h s.cols = .ok cols ∧
      restoreRownames h (if s.rowNames = none then none else s.rowNames) = .ok rn ∧
      StackedCols (!spec.isZap) pcols (kept.map (fun p => p.2)) cols ∧ StackedNames none blocks s.rowNames ∧
      RowRepair s.rowNames rn := by
  have h1 := hs.cols
  rw [ht] at h1
  obtain ⟨cols, g1, g2⟩ := h1.finish h hn
  obtain ⟨rn, g3, g4⟩ := restoreRownames_ok h (a := s.rowNames) (fun l hl => by
    have := hs.names.fits hsh l hl
    exact ⟨by omega, this.2⟩)
  refine ⟨cols, rn, g1, ?_, g2, hs.names.done ht, g4⟩
  have : (if s.rowNames = none then none else s.rowNames) = s.rowNames := by
    split
    · rename_i h; exact h.symm
    · rfl
  rw [this]; exact g3

theorem keep_iff {spec : NameSpec} : (!spec.isZap) = true ↔ spec ≠ .zap := by
  cases spec <;> simp [NameSpec.isZap]

/-- The parts of the loop. -/
theorem rbindLoop_ok (h : Name → BitVec 32) {ty : VTy} {spec : NameSpec} {ins : List (Labelled ty.El)} {names : Option (List Name)}
    {index : Option (List ty.El)} {cn : List Name} {pcols : List NVal} (hp : IsPtype (.df 0 cn pcols none))
    (hi : RbindIns ins names index cn pcols)
    {blocks : List (Nat × Option (List Name))} (hb : List.Forall₂ (LBlock spec) (keptOf ins) blocks)
    (hn : ∀ p ∈ keptOf ins, NotBlank spec p) (hsh : ShortNames blocks) (ht : sizeOf' blocks ≤ 2147483647)
    (namesTo : Option Nat) :
    ∃ (s : RbindState ty.El) (cols : List NVal) (rn : Option (List Name)), rbindWith h ty spec (valsOf ins) names (.df 0 cn pcols none) index namesTo =
        (do
          let cols ← rbindPoke ty namesTo s.namesTo cols
          .ok (.df (sizeOf' blocks) cn cols rn)) ∧
      (index.isSome = true → s.namesTo = labels (keptOf ins)) ∧
      RowBound spec cn pcols ((keptOf ins).map (fun p => (p.1.1, p.2))) (sizeOf' blocks) cols rn := by
  have hall : ins.take ins.length = ins := List.take_of_length_le (Nat.le_refl _)
  have hsum : sizeOf' blocks = totOf ins := by
    rw [← labels_length]
    clear hn hsh ht hi
    generalize keptOf ins = kept at hb ⊢
    induction hb with
    | nil => rfl
    | @cons p b ps bs hpb _ ih =>
      simp only [sizeOf', labels, List.map_cons, List.sum_cons, List.flatMap_cons, List.length_append,
        List.length_replicate] at ih ⊢
      rw [ih, rowsOf_size hpb.1]
  obtain ⟨y, hy1, hy2⟩ := nvalInit_ok h hp.isTab (n := totOf ins) (by omega)
  cases hy2 with
  | @df n cn cols cols' rn rn' g1 g2 g3 =>
    rcases g3 with ⟨_, hr⟩ | ⟨a, _, _, _, ha, _⟩
    swap
    · cases ha
    subst hr
    have hpc : ∀ p ∈ pcols, IsPtype p := by cases hp; assumption
    obtain ⟨s, hs1, hs2⟩ := Ret.forN (n := (valsOf ins).length)
      (s := (⟨cols', none, if index.isNone then [] else alloc ty.El (totOf ins), 0⟩ : RbindState ty.El))
      (f := rbindTurn spec (valsOf ins) ((valsOf ins).map (fun x : NVal => some x.size))
        (totOf ins) names index)
      (fun i s => RInv (!spec.isZap) (totOf ins) pcols index.isSome (keptOf (ins.take i))
        (blocks.take (keptOf (ins.take i)).length) s)
      (rinv_start g1 hpc g2 (by cases index <;> simp) ins)
      (fun i s hil hs => rbindLoop_step hi (k := ins.length) (by rw [hall]; exact hb) (by rw [hall]; exact hn)
        (by simpa using hil) (Nat.le_refl _) hs)
    rw [List.length_map, hall, List.take_of_length_le (by rw [← forall₂_length hb])] at hs2
    obtain ⟨colsF, rnF, f1, f2, f3, f4, f5⟩ := rbindFinish_none h hs2 hsum (by omega) hsh
    refine ⟨s, colsF, rnF, ?_, ?_, ?_⟩
    · unfold rbindWith
      rw [inputSizes_ok, ok_bind]
      dsimp only
      rw [hy1, ok_bind]
      dsimp only
      rw [hs1, ok_bind]
      unfold rbindFinish
      rw [f1, ok_bind, f2, ok_bind]
      simp only [List.length_replicate, hsum]
    · intro hix
      have := hs2.index hix
      rw [this, ← hsum, Nat.sub_self]; simp
    · refine ⟨!spec.isZap, blocks, s.rowNames, keep_iff, ?_, ?_, rfl, f4, f5⟩
      · rw [List.map_map]; exact f3
      · clear hs2 hs1 f1 f2 f3 f4 f5 hn hsum ht hsh hi
        generalize keptOf ins = kept at hb
        induction hb with
        | nil => exact .nil
        | cons hpb _ ih => exact .cons hpb ih

/-- A failing input. -/
theorem rbindLoop_bad (h : Name → BitVec 32) {ty : VTy} {spec : NameSpec} {ins : List (Labelled ty.El)} {names : Option (List Name)}
    {index : Option (List ty.El)} {cn : List Name} {pcols : List NVal} (hp : IsPtype (.df 0 cn pcols none))
    (hi : RbindIns ins names index cn pcols)
    {pre post : List (Labelled ty.El)} {q : Labelled ty.El} (hq : ins = pre ++ q :: post)
    {blocks : List (Nat × Option (List Name))} (hb : List.Forall₂ (LBlock spec) (keptOf pre) blocks)
    (hn : ∀ p ∈ keptOf pre, NotBlank spec p) (ht : totOf ins ≤ 2147483647)
    {m : Nat} (hm : rowsOf q.2 = some m) (hm0 : m ≠ 0) {e : Err}
    (hbad : (e = .abort ∧ Unmerged spec m q.1.1 (namesOf q.2)) ∨ (e = .internal ∧ BlankNames spec m q.1.1 (namesOf q.2)))
    (namesTo : Option Nat) :
    rbindWith h ty spec (valsOf ins) names (.df 0 cn pcols none) index namesTo = .error e := by
  obtain ⟨y, hy1, hy2⟩ := nvalInit_ok h hp.isTab (n := totOf ins) ht
  have htake : ins.take pre.length = pre := by rw [hq]; simp
  have hget : ins[pre.length]? = some q := by rw [hq]; simp
  have hpl : pre.length < ins.length := by rw [hq]; simp
  cases hy2 with
  | @df n cn cols cols' rn rn' g1 g2 g3 =>
    have hpc : ∀ p ∈ pcols, IsPtype p := by cases hp; assumption
    unfold rbindWith
    rw [inputSizes_ok, ok_bind]
    dsimp only
    rw [hy1, ok_bind]
    dsimp only
    have := forN_err (n := (valsOf ins).length) (k := pre.length) (e := e)
      (s := (⟨cols', none, if index.isNone then [] else alloc ty.El (totOf ins), 0⟩ : RbindState ty.El))
      (f := rbindTurn spec (valsOf ins) ((valsOf ins).map (fun x : NVal => some x.size))
        (totOf ins) names index)
      (fun i s => RInv (!spec.isZap) (totOf ins) pcols index.isSome (keptOf (ins.take i))
        (blocks.take (keptOf (ins.take i)).length) s) (by simpa using hpl)
      (rinv_start g1 hpc g2 (by cases index <;> simp) ins)
      (fun i s hil hs => rbindLoop_step hi (k := pre.length) (by rw [htake]; exact hb) (by rw [htake]; exact hn)
        hil (by omega) hs)
      (fun s hs => by
        obtain ⟨k, hk⟩ := (hi.typed q (List.mem_of_getElem? hget)).resolve_left (by intro h; rw [h] at hm; cases hm)
        have hkm : k = m := by rw [← hk.size, rowsOf_size hm]
        subst hkm
        refine rbindTurn_bad hs (hi.turn _ _ hget) hk hm0 ?_ hbad
        rw [← hs.size, labels_length, ← hk.size]
        exact sum_step hget)
    rw [this]; rfl

end Vctrs
