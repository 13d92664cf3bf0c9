import Verif.Model.Counters
import Verif.Props.C76

/-! # C77: which arguments an error of a reduction names -/

namespace Vctrs

variable {α β : Type}

namespace Spec

/-- Where an input comes from: the names of its own list and its position there, its position among
all inputs, the number of its box and the number of boxes finished before it. -/
structure Label where
  names : Option (List Name)
  pos : Nat
  flat : Nat
  box : Option Nat
  boxes : Nat

/-- The inputs inside of box number `b`. -/
def labelBox (names : Option (List Name)) (b : Nat) : Nat → Nat → List β → List (Label × β)
  | _, _, [] => []
  | k, f, x :: xs => (⟨names, k, f, some b, b⟩, x) :: labelBox names b (k + 1) (f + 1) xs

/-- All inputs in order; `k`, `f` and `b` count elements of the outer list, inputs and boxes. -/
def labelAll (names : Option (List Name)) : Nat → Nat → Nat → List (RInput β) → List (Label × β)
  | _, _, _, [] => []
  | k, f, b, .one x :: rest => (⟨names, k, f, none, b⟩, x) :: labelAll names (k + 1) (f + 1) b rest
  | k, f, b, .box ns xs :: rest =>
    labelBox ns b 0 f xs ++ labelAll names (k + 1) (f + xs.length) (b + 1) rest

/-- A fold: a value and the input it comes from (`none` for the initial one), or the two inputs that
cannot be reduced. -/
inductive FoldOutcome (α : Type) where
  | done (from_ : Option Label) (v : α)
  | failed (curr : Option Label) (next : Label)

/-- The left fold over all inputs. -/
def foldInputs (impl : α → β → Step α) : Option Label → α → List (Label × β) → FoldOutcome α
  | c, v, [] => .done c v
  | c, v, (l, x) :: rest =>
    match impl v x with
    | .keep w => foldInputs impl c w rest
    | .shift w => foldInputs impl (some l) w rest
    | .fail => .failed c l

/-- The tag of an input: by its name in its own list or its position among all inputs. -/
def rightTag (parents : List ArgNode) (l : Label) : List ArgNode := .counter l.names l.flat l.pos :: parents

/-- The tag of a result: that of the input it comes from, or the initial one. -/
def rightCurr (ext parents : List ArgNode) : Option Label → List ArgNode
  | none => ext
  | some l => rightTag parents l

/-- The tag found for the next input: finished boxes are counted in its position. -/
def foundNext (parents : List ArgNode) (l : Label) : List ArgNode :=
  .counter l.names (l.flat + l.boxes) l.pos :: parents

/-- The number of boxes begun when `l` is reduced. -/
def Label.begun (l : Label) : Nat :=
  match l.box with
  | none => l.boxes
  | some b => b + 1

/-- The counters of the box of `l` may be freed when `now` is reduced: two boxes were begun since. -/
def Stale (l now : Label) : Prop := ∃ b, l.box = some b ∧ b + 2 < now.begun

/-- The tag found for the result so far when `now` is reduced: always with the first name. -/
inductive FoundCurr (ext parents : List ArgNode) (now : Label) : Option Label → C (List ArgNode) → Prop
  | init : FoundCurr ext parents now none (.ok ext)
  | live {l : Label} : ¬ Stale l now →
      FoundCurr ext parents now (some l) (.ok (.counter l.names (l.flat + l.boxes) 0 :: parents))
  | stale {l : Label} : Stale l now → FoundCurr ext parents now (some l) (.error .ub)

/-- What the reduction gives for the outcome of the fold. -/
inductive ReduceFound (ext parents : List ArgNode) : FoldOutcome α → Red α → Prop
  | done {c : Option Label} {v : α} : ReduceFound ext parents (.done c v) (.done v)
  | failed {c : Option Label} {l : Label} {t : C (List ArgNode)} : FoundCurr ext parents l c t →
      ReduceFound ext parents (.failed c l) (.err t (.ok (foundNext parents l)))

end Spec

open Spec

theorem foldInputs_append (impl : α → β → Step α) : ∀ (as bs : List (Label × β)) (c : Option Label) (v : α),
    (∃ c' v', foldInputs impl c v as = .done c' v' ∧
      foldInputs impl c v (as ++ bs) = foldInputs impl c' v' bs) ∨
    ∃ c' l, foldInputs impl c v as = .failed c' l ∧ foldInputs impl c v (as ++ bs) = .failed c' l := by
  intro as
  induction as with
  | nil => intro bs c v; exact .inl ⟨c, v, rfl, rfl⟩
  | cons a as ih =>
    intro bs c v
    obtain ⟨l, x⟩ := a
    simp only [List.cons_append, foldInputs]
    cases impl v x with
    | keep w => exact ih bs c w
    | shift w => exact ih bs (some l) w
    | fail => exact .inr ⟨c, l, rfl, rfl⟩

/-- The pointers inside of counters, in one of the two states. -/
def PtrsOk (c : Counters) : Prop :=
  (c.currCounter = .curr ∧ c.nextCounter = .next ∧ c.currData = ⟨.curr, .curr⟩ ∧ c.nextData = ⟨.next, .next⟩) ∨
  (c.currCounter = .next ∧ c.nextCounter = .curr ∧ c.currData = ⟨.next, .next⟩ ∧ c.nextData = ⟨.curr, .curr⟩)

theorem PtrsOk.curr {c : Counters} (h : PtrsOk c) : c.dataOf .curr = ⟨.curr, .curr⟩ := by
  rcases h with ⟨h1, h2, h3, h4⟩ | ⟨h1, h2, h3, h4⟩ <;> simp [Counters.dataOf, *]

theorem PtrsOk.next {c : Counters} (h : PtrsOk c) : c.dataOf .next = ⟨.next, .next⟩ := by
  rcases h with ⟨h1, h2, h3, h4⟩ | ⟨h1, h2, h3, h4⟩ <;> simp [Counters.dataOf, *]

/-- The position of the counters of a label. -/
def Spec.Label.id (l : Label) : Nat :=
  match l.box with
  | none => 0
  | some b => b + 1

/-- The handle for the result so far. -/
def handleOf : Option Label → Handle
  | none => .ext
  | some l => .counter l.id .curr

/-- The counters `id` count for the input `k` of the list with `names`. -/
structure Active (a : Counters) (id k g : Nat) (names : Option (List Name)) (c : Option Label) : Prop where
  ptrs : PtrsOk a
  names : a.names = names
  next : a.next = g
  namesNext : a.namesNext = k
  namesCurr : a.namesCurr = 0
  nextArg : a.nextArg = .counter id .next
  currArg : a.currArg = handleOf c

/-- The outer counters protect the last two of `e` boxes. -/
structure Boxes (m : Counters) (e : Nat) : Prop where
  next : m.nextBox = if e = 0 then none else some e
  prev : m.prevBox = if e ≤ 1 then none else some (e - 1)

/-- The invariant of the reduction. -/
structure CountInv (h : CHeap) (id k g e : Nat) (names : Option (List Name)) (c : Option Label) : Prop where
  len : h.length = e + 1
  which : id = 0 ∨ id = e
  main : ∃ m, h[0]? = some m ∧ Boxes m e
  act : ∃ a, h[id]? = some a ∧ Active a id k g names c
  tag : ∀ l, c = some l → ∃ a, h[l.id]? = some a ∧ PtrsOk a ∧ a.names = l.names ∧
    a.curr = l.flat + l.boxes ∧ a.namesCurr = 0

theorem getCounters_live {h : CHeap} {e id : Nat} {m a : Counters} (hm : h[0]? = some m) (hb : Boxes m e)
    (ha : h[id]? = some a) (hi : id = 0 ∨ (id ≤ e ∧ e ≤ id + 1)) : getCounters h id = .ok a := by
  unfold getCounters
  rw [rd_of_getElem? hm, ok_bind]
  by_cases h0 : id = 0
  · subst h0
    rw [hm] at ha
    cases ha
    rw [if_pos rfl]
  · rw [if_neg h0]
    have hi := hi.resolve_left h0
    rw [if_pos, rd_of_getElem? ha]
    rw [hb.next, hb.prev]
    by_cases he : id = e
    · left; rw [if_neg (by omega), he]
    · right; rw [if_neg (by omega)]
      congr 1; omega

theorem getCounters_stale {h : CHeap} {e id : Nat} {m : Counters} (hm : h[0]? = some m) (hb : Boxes m e)
    (h0 : id ≠ 0) (hi : id + 1 < e) : getCounters h id = .error .ub := by
  unfold getCounters
  rw [rd_of_getElem? hm, ok_bind, if_neg h0, if_neg]
  rw [hb.next, hb.prev, if_neg (by omega), if_neg (by omega)]
  simp only [Option.some.injEq]
  omega

theorem CountInv.get {h : CHeap} {id k g e : Nat} {names : Option (List Name)} {c : Option Label}
    (hi : CountInv h id k g e names c) : ∃ a, h[id]? = some a ∧ Active a id k g names c ∧
      getCounters h id = .ok a := by
  obtain ⟨m, hm, hb⟩ := hi.main
  obtain ⟨a, ha, hA⟩ := hi.act
  exact ⟨a, ha, hA, getCounters_live hm hb ha (by have := hi.which; omega)⟩

theorem countersInc_ok {h : CHeap} {id k g e : Nat} {names : Option (List Name)} {c : Option Label}
    (hi : CountInv h id k g e names c) : Ret (countersInc h id) (fun h' =>
      CountInv h' id (k + 1) (g + 1) e names c ∧ (id ≠ 0 → h'[0]? = h[0]?)) := by
  obtain ⟨a, ha, hA, hg⟩ := hi.get
  have hl := (List.getElem?_eq_some_iff.1 ha).1
  unfold countersInc
  refine Ret.bind_eq hg (Ret.of_eq (wr_ok hl) ⟨⟨by simpa using hi.len, hi.which, ?_, ?_, ?_⟩, ?_⟩)
  · obtain ⟨m, hm, hb⟩ := hi.main
    by_cases h0 : id = 0
    · subst h0
      rw [hm] at ha
      cases ha
      exact ⟨_, List.getElem?_set_self hl, ⟨hb.next, hb.prev⟩⟩
    · exact ⟨m, by rw [List.getElem?_set_ne h0]; exact hm, hb⟩
  · exact ⟨_, List.getElem?_set_self hl, ⟨hA.ptrs, hA.names, by simp [hA.next], by simp [hA.namesNext],
      hA.namesCurr, hA.nextArg, hA.currArg⟩⟩
  · intro l hc
    obtain ⟨b, h1, h2, h3, h4, h5⟩ := hi.tag l hc
    by_cases he : id = l.id
    · rw [← he] at h1 ⊢
      rw [ha] at h1
      cases h1
      exact ⟨_, List.getElem?_set_self hl, h2, h3, h4, h5⟩
    · exact ⟨b, by rw [List.getElem?_set_ne he]; exact h1, h2, h3, h4, h5⟩
  · intro h0
    rw [List.getElem?_set_ne h0]

theorem countersShift_ok {h : CHeap} {id k g e : Nat} {names : Option (List Name)} {c : Option Label}
    (hi : CountInv h id k g e names c) {l : Label} (hid : l.id = id) (hn : l.names = names)
    (hg' : l.flat + l.boxes = g) : Ret (countersShift h id) (fun h' =>
      CountInv h' id k g e names (some l) ∧ (id ≠ 0 → h'[0]? = h[0]?)) := by
  obtain ⟨a, ha, hA, hg⟩ := hi.get
  have hl := (List.getElem?_eq_some_iff.1 ha).1
  have hp : ∀ {a' : Counters}, a'.currCounter = a.nextCounter → a'.nextCounter = a.currCounter →
      a'.currData = ⟨a.nextData.i, a.nextData.namesI⟩ → a'.nextData = ⟨a.currData.i, a.currData.namesI⟩ →
      PtrsOk a' := by
    intro a' e1 e2 e3 e4
    unfold PtrsOk
    rw [e1, e2, e3, e4]
    rcases hA.ptrs with ⟨h1, h2, h3, h4⟩ | ⟨h1, h2, h3, h4⟩
    · right; simp [*]
    · left; simp [*]
  unfold countersShift
  refine Ret.bind_eq hg (Ret.of_eq (wr_ok hl) ⟨⟨by simpa using hi.len, hi.which, ?_, ?_, ?_⟩, ?_⟩)
  · obtain ⟨m, hm, hb⟩ := hi.main
    by_cases h0 : id = 0
    · subst h0
      rw [hm] at ha
      cases ha
      exact ⟨_, List.getElem?_set_self hl, ⟨hb.next, hb.prev⟩⟩
    · exact ⟨m, by rw [List.getElem?_set_ne h0]; exact hm, hb⟩
  · exact ⟨_, List.getElem?_set_self hl, ⟨hp rfl rfl rfl rfl, hA.names, hA.next, hA.namesNext,
      hA.namesCurr, rfl, by simp [handleOf, hid]⟩⟩
  · intro l' hc
    cases hc
    rw [hid]
    exact ⟨_, List.getElem?_set_self hl, hp rfl rfl rfl rfl, hA.names.trans hn.symm,
      hA.next.trans hg'.symm, hA.namesCurr⟩
  · intro h0
    rw [List.getElem?_set_ne h0]

theorem callImpl_ok (impl : α → β → Step α) (ext parents : List ArgNode) {h : CHeap} {id k e : Nat}
    {names : Option (List Name)} {c : Option Label} {l : Label}
    (hi : CountInv h id k (l.flat + l.boxes) e names c)
    (hid : l.id = id) (hn : l.names = names) (hk : l.pos = k) (he : l.begun = e) (v : α) (x : β) :
    Ret (callImpl impl ext parents h id v x) (fun r =>
      (∀ w c', (impl v x = .keep w ∧ c' = c ∨ impl v x = .shift w ∧ c' = some l) →
        r.1 = .done w ∧ CountInv r.2 id k (l.flat + l.boxes) e names c' ∧ (id ≠ 0 → r.2[0]? = h[0]?)) ∧
      (impl v x = .fail → ∃ t, r.1 = .err t (.ok (foundNext parents l)) ∧ FoundCurr ext parents l c t)) := by
  obtain ⟨a, ha, hA, hg⟩ := hi.get
  unfold callImpl
  refine Ret.bind_eq hg ?_
  cases him : impl v x with
  | keep w =>
    refine Ret.ok ⟨?_, by simp⟩
    rintro w' c' (⟨h1, rfl⟩ | ⟨h1, _⟩)
    · cases h1
      exact ⟨rfl, hi, fun _ => rfl⟩
    · cases h1
  | shift w =>
    refine Ret.bind (countersShift_ok hi hid hn rfl) fun h' ⟨h1, h2⟩ => Ret.ok ⟨?_, by simp⟩
    rintro w' c' (⟨h3, _⟩ | ⟨h3, rfl⟩)
    · cases h3
    · cases h3
      exact ⟨rfl, h1, h2⟩
  | fail =>
    refine Ret.ok ⟨by simp, fun _ => ?_⟩
    have hnext : handleTag ext parents h a.nextArg = .ok (foundNext parents l) := by
      rw [hA.nextArg]
      simp only [handleTag]
      rw [hg, ok_bind, hA.ptrs.next]
      simp only [Counters.index, Counters.namesIndex, hA.next, hA.namesNext, hA.names]
      rw [foundNext, hn, hk]
    refine ⟨_, by rw [hnext], ?_⟩
    rw [hA.currArg]
    cases c with
    | none => exact .init
    | some l' =>
      obtain ⟨m, hm, hb⟩ := hi.main
      obtain ⟨b, h1, h2, h3, h4, h5⟩ := hi.tag l' rfl
      have hlt := (List.getElem?_eq_some_iff.1 h1).1
      rw [hi.len] at hlt
      simp only [handleOf, handleTag]
      by_cases hs : Stale l' l
      · obtain ⟨bx, hbx, hlt'⟩ := hs
        have hid' : l'.id = bx + 1 := by simp [Spec.Label.id, hbx]
        rw [getCounters_stale hm hb (by omega) (by omega)]
        exact .stale ⟨bx, hbx, hlt'⟩
      · have : l'.id = 0 ∨ (l'.id ≤ e ∧ e ≤ l'.id + 1) := by
          cases hbx : l'.box with
          | none => left; simp [Spec.Label.id, hbx]
          | some bx =>
            have hid' : l'.id = bx + 1 := by simp [Spec.Label.id, hbx]
            have : ¬ (bx + 2 < l.begun) := fun hc => hs ⟨bx, hbx, hc⟩
            omega
        rw [getCounters_live hm hb h1 this, ok_bind, h2.curr]
        simp only [Counters.index, Counters.namesIndex, h3, h4, h5]
        exact .live hs

theorem reduceBox_ok (impl : α → β → Step α) (ext parents : List ArgNode) (b : Nat)
    (names : Option (List Name)) : ∀ (xs : List β) (k f : Nat) (c : Option Label) (v : α) (h : CHeap),
      CountInv h (b + 1) k (f + b) (b + 1) names c →
      Ret (reduceBox impl ext parents (b + 1) xs v h) (fun r =>
        ReduceFound ext parents (foldInputs impl c v (labelBox names b k f xs)) r.1 ∧
        ∀ c' v', foldInputs impl c v (labelBox names b k f xs) = .done c' v' →
          CountInv r.2 (b + 1) (k + xs.length) (f + xs.length + b) (b + 1) names c' ∧ r.2[0]? = h[0]?) := by
  intro xs
  induction xs with
  | nil =>
    intro k f c v h hi
    refine Ret.ok ⟨.done, ?_⟩
    intro c' v' he
    cases he
    exact ⟨hi, rfl⟩
  | cons x xs ih =>
    intro k f c v h hi
    unfold reduceBox
    refine Ret.bind (callImpl_ok impl ext parents (l := ⟨names, k, f, some b, b⟩) hi rfl rfl rfl rfl v x)
      fun r ⟨h1, h2⟩ => ?_
    have go : ∀ w c', r.1 = .done w ∧ CountInv r.2 (b + 1) k (f + b) (b + 1) names c' ∧
        (b + 1 ≠ 0 → r.2[0]? = h[0]?) →
        foldInputs impl c v (labelBox names b k f (x :: xs)) =
          foldInputs impl c' w (labelBox names b (k + 1) (f + 1) xs) →
        Ret (match r.1 with
          | .err a b => .ok (.err a b, r.2)
          | .done v => do
            let h ← countersInc r.2 (b + 1)
            reduceBox impl ext parents (b + 1) xs v h) (fun r =>
        ReduceFound ext parents (foldInputs impl c v (labelBox names b k f (x :: xs))) r.1 ∧
        ∀ c' v', foldInputs impl c v (labelBox names b k f (x :: xs)) = .done c' v' →
          CountInv r.2 (b + 1) (k + (x :: xs).length) (f + (x :: xs).length + b) (b + 1) names c' ∧
          r.2[0]? = h[0]?) := by
      rintro w c' ⟨g1, g2, g3⟩ g4
      rw [g1, g4]
      refine Ret.bind (countersInc_ok g2) fun h' ⟨i1, i2⟩ => ?_
      refine (ih (k + 1) (f + 1) c' w h' (by
        rw [show f + 1 + b = f + b + 1 by omega]; exact i1)).mono ?_
      rintro q ⟨q1, q2⟩
      refine ⟨q1, fun c'' v'' he => ?_⟩
      obtain ⟨j1, j2⟩ := q2 c'' v'' he
      refine ⟨?_, j2.trans ((i2 (by omega)).trans (g3 (by omega)))⟩
      rw [List.length_cons, show k + (xs.length + 1) = k + 1 + xs.length by omega,
        show f + (xs.length + 1) + b = f + 1 + xs.length + b by omega]
      exact j1
    cases him : impl v x with
    | keep w => exact go w c (h1 w c (.inl ⟨him, rfl⟩)) (by simp only [labelBox, foldInputs, him])
    | shift w => exact go w _ (h1 w _ (.inr ⟨him, rfl⟩)) (by simp only [labelBox, foldInputs, him])
    | fail =>
      obtain ⟨t, g1, g2⟩ := h2 him
      rw [g1]
      have : foldInputs impl c v (labelBox names b k f (x :: xs)) = .failed c ⟨names, k, f, some b, b⟩ := by
        simp only [labelBox, foldInputs, him]
      rw [this]
      exact Ret.ok ⟨.failed g2, fun c' v' he => by cases he⟩

theorem initNextBox_ok {h : CHeap} {k g e : Nat} {names : Option (List Name)} {c : Option Label}
    (hi : CountInv h 0 k g e names c) (ns : Option (List Name)) :
    Ret (initNextBoxCounters h 0 ns) (fun h' => CountInv h' (e + 1) 0 g (e + 1) ns c ∧
      ∃ m, h'[0]? = some m ∧ Active m 0 k g names c ∧ Boxes m (e + 1)) := by
  obtain ⟨a, ha, hA, hg⟩ := hi.get
  have hl := (List.getElem?_eq_some_iff.1 ha).1
  obtain ⟨m, hm, hb⟩ := hi.main
  obtain rfl : a = m := by rw [hm] at ha; exact (Option.some.inj ha).symm
  unfold initNextBoxCounters
  refine Ret.bind_eq hg (Ret.bind_eq (wr_ok hl) (Ret.ok ?_))
  have h0 : ∀ (y : Counters), ((h.set 0 { a with prevBox := a.nextBox, nextBox := some h.length }) ++ [y])[0]? =
      some { a with prevBox := a.nextBox, nextBox := some h.length } := by
    intro y
    rw [List.getElem?_append_left (by simpa using hl), List.getElem?_set_self hl]
  have hbox : Boxes { a with prevBox := a.nextBox, nextBox := some h.length } (e + 1) := by
    refine ⟨by simp [hi.len], ?_⟩
    show a.nextBox = _
    rw [hb.next]
    by_cases he : e = 0
    · simp [he]
    · rw [if_neg he, if_neg (by omega)]
      rfl
  refine ⟨⟨by simp [hi.len], .inr rfl, ⟨_, h0 _, hbox⟩, ?_, ?_⟩, ⟨_, h0 _, ⟨hA.ptrs, hA.names, hA.next,
    hA.namesNext, hA.namesCurr, hA.nextArg, hA.currArg⟩, hbox⟩⟩
  · refine ⟨{ newCounters ns a.currArg h.length with next := a.next }, ?_, ?_⟩
    · rw [List.getElem?_append_right (by simp [hi.len])]
      simp [hi.len]
    · exact ⟨.inl ⟨rfl, rfl, rfl, rfl⟩, rfl, hA.next, rfl, rfl, by simp [newCounters, hi.len], hA.currArg⟩
  · intro l hc
    obtain ⟨b, h1, h2, h3, h4, h5⟩ := hi.tag l hc
    have hlt := (List.getElem?_eq_some_iff.1 h1).1
    by_cases he : l.id = 0
    · rw [he] at h1 ⊢
      rw [hm] at h1
      cases h1
      exact ⟨_, h0 _, h2, h3, h4, h5⟩
    · refine ⟨b, ?_, h2, h3, h4, h5⟩
      rw [List.getElem?_append_left (by simpa using hlt), List.getElem?_set_ne (Ne.symm he)]
      exact h1

theorem reduceSpliceBox_ok (impl : α → β → Step α) (ext parents : List ArgNode) {h : CHeap} {k f b : Nat}
    {names : Option (List Name)} {c : Option Label} (hi : CountInv h 0 k (f + b) b names c)
    (ns : Option (List Name)) (xs : List β) (v : α) :
    Ret (reduceSpliceBox impl ext parents ns xs v h) (fun r =>
      ReduceFound ext parents (foldInputs impl c v (labelBox ns b 0 f xs)) r.1 ∧
        ∀ c' v', foldInputs impl c v (labelBox ns b 0 f xs) = .done c' v' →
          r.1 = .done v' ∧ CountInv r.2 0 k (f + xs.length + b) (b + 1) names c') := by
  unfold reduceSpliceBox
  refine Ret.bind (initNextBox_ok hi ns) fun h' ⟨h1, m, hm, hA, hB⟩ => ?_
  refine Ret.bind_eq (getCounters_live hm hB hm (.inl rfl)) ?_
  have hnb : m.nextBox = some (b + 1) := by rw [hB.next, if_neg (by omega)]
  rw [hnb]
  refine Ret.bind (reduceBox_ok impl ext parents b ns xs 0 f c v h' h1) fun r ⟨r1, r2⟩ => ?_
  cases hf : foldInputs impl c v (labelBox ns b 0 f xs) with
  | failed c' l =>
    rw [hf] at r1
    generalize hr : r.1 = q at r1
    cases r1 with
    | failed hc =>
      exact Ret.ok ⟨.failed hc, fun c'' v'' he => by cases he⟩
  | done c' v' =>
    rw [hf] at r1
    generalize hr : r.1 = q at r1
    cases r1
    obtain ⟨j1, j2⟩ := r2 c' v' hf
    obtain ⟨a, ha, hA', hg⟩ := j1.get
    rw [hm] at j2
    have hl := (List.getElem?_eq_some_iff.1 j2).1
    refine Ret.bind_eq hg (Ret.bind_eq (getCounters_live j2 hB j2 (.inl rfl))
      (Ret.bind_eq (wr_ok hl) (Ret.ok ⟨.done, fun c'' v'' he => ?_⟩)))
    cases he
    refine ⟨rfl, ⟨by simpa using j1.len, .inl rfl, ⟨_, List.getElem?_set_self hl, ⟨hB.next, hB.prev⟩⟩,
      ⟨_, List.getElem?_set_self hl, ⟨hA.ptrs, hA.names, hA'.next, hA.namesNext, hA.namesCurr, hA.nextArg,
        hA'.currArg⟩⟩, ?_⟩⟩
    intro l hc
    obtain ⟨b', g1, g2, g3, g4, g5⟩ := j1.tag l hc
    by_cases he : l.id = 0
    · rw [he] at g1 ⊢
      rw [j2] at g1
      cases g1
      exact ⟨_, List.getElem?_set_self hl, g2, g3, g4, g5⟩
    · exact ⟨b', by rw [List.getElem?_set_ne (Ne.symm he)]; exact g1, g2, g3, g4, g5⟩

theorem reduceMain_ok (impl : α → β → Step α) (ext parents : List ArgNode)
    (names : Option (List Name)) : ∀ (xs : List (RInput β)) (k f b : Nat) (c : Option Label) (v : α) (h : CHeap),
      CountInv h 0 k (f + b) b names c →
      Ret (reduceMain impl ext parents xs v h) (fun r =>
        ReduceFound ext parents (foldInputs impl c v (labelAll names k f b xs)) r.1) := by
  intro xs
  induction xs with
  | nil =>
    intro k f b c v h hi
    exact Ret.ok .done
  | cons x xs ih =>
    intro k f b c v h hi
    unfold reduceMain
    cases x with
    | one x =>
      refine Ret.bind (callImpl_ok impl ext parents (l := ⟨names, k, f, none, b⟩) hi rfl rfl rfl rfl v x)
        fun r ⟨h1, h2⟩ => ?_
      have go : ∀ w c', r.1 = .done w ∧ CountInv r.2 0 k (f + b) b names c' ∧ (0 ≠ 0 → r.2[0]? = h[0]?) →
          foldInputs impl c v (labelAll names k f b (.one x :: xs)) =
            foldInputs impl c' w (labelAll names (k + 1) (f + 1) b xs) →
          Ret (match r.1 with
            | .err a b => .ok (.err a b, r.2)
            | .done v => do
              let h ← countersInc r.2 0
              reduceMain impl ext parents xs v h) (fun r =>
          ReduceFound ext parents (foldInputs impl c v (labelAll names k f b (.one x :: xs))) r.1) := by
        rintro w c' ⟨g1, g2, _⟩ g4
        rw [g1, g4]
        refine Ret.bind (countersInc_ok g2) fun h' ⟨i1, _⟩ => ?_
        exact ih (k + 1) (f + 1) b c' w h' (by rw [show f + 1 + b = f + b + 1 by omega]; exact i1)
      cases him : impl v x with
      | keep w => exact go w c (h1 w c (.inl ⟨him, rfl⟩)) (by simp only [labelAll, foldInputs, him])
      | shift w => exact go w _ (h1 w _ (.inr ⟨him, rfl⟩)) (by simp only [labelAll, foldInputs, him])
      | fail =>
        obtain ⟨t, g1, g2⟩ := h2 him
        rw [g1]
        have : foldInputs impl c v (labelAll names k f b (.one x :: xs)) =
            .failed c ⟨names, k, f, none, b⟩ := by
          simp only [labelAll, foldInputs, him]
        rw [this]
        exact Ret.ok (.failed g2)
    | box ns ys =>
      refine Ret.bind (reduceSpliceBox_ok impl ext parents hi ns ys v) fun r ⟨r1, r2⟩ => ?_
      show Ret _ (fun (r' : Red α × CHeap) => ReduceFound ext parents (foldInputs impl c v (labelBox ns b 0 f ys ++
        labelAll names (k + 1) (f + ys.length) (b + 1) xs)) r'.1)
      rcases foldInputs_append impl (labelBox ns b 0 f ys)
        (labelAll names (k + 1) (f + ys.length) (b + 1) xs) c v with ⟨c', v', a1, a2⟩ | ⟨c', l, a1, a2⟩
      · rw [a2]
        obtain ⟨g1, g2⟩ := r2 c' v' a1
        rw [g1]
        refine Ret.bind (countersInc_ok g2) fun h' ⟨i1, _⟩ => ?_
        exact ih (k + 1) (f + ys.length) (b + 1) c' v' h' i1
      · rw [a2]
        rw [a1] at r1
        generalize hr : r.1 = q at r1
        cases r1 with
        | failed hc =>
          exact Ret.ok (.failed hc)

/-- The reduction is the left fold over all inputs in order, those of boxes in place of the box; if
it fails, at the first pair which cannot be reduced, the tags found are `foundNext` and those of
`FoundCurr`. -/
theorem C77_fold (impl : α → β → Step α) (ext parents : List ArgNode) (names : Option (List Name))
    (xs : List (RInput β)) (v : α) : Ret (reduceArgs impl ext parents names xs v)
      (ReduceFound ext parents (foldInputs impl none v (labelAll names 0 0 0 xs))) := by
  unfold reduceArgs
  refine Ret.bind (reduceMain_ok impl ext parents names xs 0 0 0 none v [newCounters names .ext 0] ?_)
    fun r hr => Ret.ok hr
  refine ⟨rfl, .inl rfl, ⟨_, rfl, ⟨rfl, rfl⟩⟩, ⟨_, rfl, ⟨.inl ⟨rfl, rfl, rfl, rfl⟩, rfl, rfl, rfl, rfl, rfl,
    rfl⟩⟩, fun l hc => by cases hc⟩

/-- Two chains have the same text. -/
def SameText (a b : List ArgNode) : Prop := ∀ t whole, TagOf a t whole ↔ TagOf b t whole

theorem sameText_of {n m : ArgNode} {parents : List ArgNode}
    (h : ∀ child t, NodeText child n t ↔ NodeText child m t) : SameText (n :: parents) (m :: parents) := by
  intro t whole
  constructor
  · intro ht
    cases ht with
    | root h1 => exact .root ((h _ _).1 h1)
    | child h1 h2 => exact .child h1 ((h _ _).1 h2)
  · intro ht
    cases ht with
    | root h1 => exact .root ((h _ _).2 h1)
    | child h1 h2 => exact .child h1 ((h _ _).2 h2)

theorem hasName_not {names : Option (List Name)} {k : Nat} {s : List Char} (h : HasNameAt names k s) :
    ¬ NoNameAt names k := by
  obtain ⟨l, rfl, h1, h2⟩ := h
  rintro (h | ⟨l', h, h' | h'⟩)
  · cases h
  · cases h; rw [h1] at h'; cases h'
  · cases h; rw [h1] at h'; cases h'; exact h2 rfl

theorem position_named {names : Option (List Name)} {i j k : Nat} {s : List Char} (h : HasNameAt names k s)
    {child : Bool} {t : String} (ht : PositionText child names i k t) : PositionText child names j k t := by
  cases ht with
  | childName h => exact .childName h
  | childPos h' => exact absurd h' (hasName_not h)
  | dotsName h => exact .dotsName h
  | dotsPos h' => exact absurd h' (hasName_not h)

theorem node_named {names : Option (List Name)} {i j k : Nat} {s : List Char} (h : HasNameAt names k s)
    (child : Bool) (t : List Char) :
    NodeText child (.counter names i k) t ↔ NodeText child (.counter names j k) t := by
  constructor <;> intro ht <;> cases ht with
  | counter hp => exact .counter (position_named h hp)

theorem position_unnamed {i j k : Nat} {child : Bool} {t : String}
    (ht : PositionText child none i j t) : PositionText child none i k t := by
  cases ht with
  | childName h => obtain ⟨l, h, _⟩ := h; cases h
  | childPos h' => exact .childPos (.inl rfl)
  | dotsName h => obtain ⟨l, h, _⟩ := h; cases h
  | dotsPos h' => exact .dotsPos (.inl rfl)

theorem node_unnamed {i j k : Nat} (child : Bool) (t : List Char) :
    NodeText child (.counter none i j) t ↔ NodeText child (.counter none i k) t := by
  constructor <;> intro ht <;> cases ht with
  | counter hp => exact .counter (position_unnamed hp)

/-- The next input is named rightly if it has a name or no box came before it.  Missing for the full
property (`SameText (foundNext parents l) (rightTag parents l)`): inputs without names after boxes. -/
theorem C77_next_partial (parents : List ArgNode) (l : Label)
    (h : l.boxes = 0 ∨ ∃ s, HasNameAt l.names l.pos s) : SameText (foundNext parents l) (rightTag parents l) := by
  rcases h with h | ⟨s, h⟩
  · unfold foundNext rightTag
    rw [h]
    exact fun _ _ => Iff.rfl
  · exact sameText_of (node_named h)

/-- The result so far is named rightly if it is the initial one, or comes from the first input of its
list or from a list without names, if its box is still there, and if no box came before it or it has
a name.  Missing for the full property (`∃ tag, t = .ok tag ∧ SameText tag (rightCurr ext parents c)`):
results from later inputs of a list with names, after boxes or from older boxes. -/
theorem C77_curr_partial (ext parents : List ArgNode) (now : Label) (c : Option Label)
    (t : C (List ArgNode)) (ht : FoundCurr ext parents now c t)
    (h : ∀ l, c = some l → ¬ Stale l now ∧ (l.pos = 0 ∨ l.names = none) ∧
      (l.boxes = 0 ∨ ∃ s, HasNameAt l.names l.pos s)) :
    ∃ tag, t = .ok tag ∧ SameText tag (rightCurr ext parents c) := by
  cases ht with
  | init => exact ⟨_, rfl, fun _ _ => Iff.rfl⟩
  | stale hs => exact absurd hs (h _ rfl).1
  | @live l hs =>
    refine ⟨_, rfl, ?_⟩
    obtain ⟨_, h1, h2⟩ := h l rfl
    show SameText _ (.counter l.names l.flat l.pos :: parents)
    rcases h1 with h1 | h1
    · rw [h1] at h2 ⊢
      rcases h2 with h2 | ⟨s, h2⟩
      · rw [h2]; exact fun _ _ => Iff.rfl
      · exact sameText_of (node_named h2)
    · rw [h1] at h2 ⊢
      rcases h2 with h2 | ⟨s, l', h2, _⟩
      · rw [h2]; exact sameText_of node_unnamed
      · cases h2

theorem labelAll_plain (names : Option (List Name)) : ∀ (xs : List β) (k f : Nat),
    ∀ p ∈ labelAll names k f 0 (xs.map RInput.one), p.1.box = none ∧ p.1.boxes = 0 ∧ p.1.names = names := by
  intro xs
  induction xs with
  | nil => intro k f p hp; simp [labelAll] at hp
  | cons x xs ih =>
    intro k f p hp
    simp only [List.map_cons, labelAll, List.mem_cons] at hp
    rcases hp with rfl | hp
    · exact ⟨rfl, rfl, rfl⟩
    · exact ih _ _ p hp

theorem foldInputs_mem (impl : α → β → Step α) : ∀ (ls : List (Label × β)) (c c' : Option Label) (v : α)
    (n : Label), foldInputs impl c v ls = .failed c' n →
      (∃ x, (n, x) ∈ ls) ∧ ∀ l, c' = some l → c = some l ∨ ∃ x, (l, x) ∈ ls := by
  intro ls
  induction ls with
  | nil => intro c c' v n h; cases h
  | cons p ls ih =>
    obtain ⟨l, x⟩ := p
    intro c c' v n h
    simp only [foldInputs] at h
    cases him : impl v x with
    | keep w =>
      rw [him] at h
      obtain ⟨⟨y, h1⟩, h2⟩ := ih c c' w n h
      refine ⟨⟨y, List.mem_cons_of_mem _ h1⟩, fun q hq => (h2 q hq).imp_right ?_⟩
      rintro ⟨z, hz⟩; exact ⟨z, List.mem_cons_of_mem _ hz⟩
    | shift w =>
      rw [him] at h
      obtain ⟨⟨y, h1⟩, h2⟩ := ih (some l) c' w n h
      refine ⟨⟨y, List.mem_cons_of_mem _ h1⟩, fun q hq => .inr ?_⟩
      rcases h2 q hq with h3 | ⟨z, hz⟩
      · cases h3; exact ⟨x, by simp⟩
      · exact ⟨z, List.mem_cons_of_mem _ hz⟩
    | fail =>
      rw [him] at h
      cases h
      exact ⟨⟨x, by simp⟩, fun q hq => .inl hq⟩

/-- Without boxes and without names both tags of an error are right: the positions of the input from
which the result so far comes, and of the input which cannot be reduced with it. -/
theorem C77_positions_partial (impl : α → β → Step α) (ext parents : List ArgNode) (xs : List β) (v : α)
    {c : Option Label} {l : Label}
    (h : foldInputs impl none v (labelAll none 0 0 0 (xs.map RInput.one)) = .failed c l) :
    ∃ tc tn, reduceArgs impl ext parents none (xs.map RInput.one) v = .ok (.err (.ok tc) (.ok tn)) ∧
      SameText tc (rightCurr ext parents c) ∧ SameText tn (rightTag parents l) := by
  obtain ⟨r, h1, h2⟩ := C77_fold impl ext parents none (xs.map RInput.one) v
  rw [h] at h2
  obtain ⟨⟨x, hx⟩, hm⟩ := foldInputs_mem impl _ _ _ _ _ h
  obtain ⟨hl1, hl2, hl3⟩ := labelAll_plain none xs 0 0 _ hx
  cases h2 with
  | failed ht =>
    obtain ⟨tag, rfl, hs⟩ := C77_curr_partial ext parents l c _ ht (by
      intro q hq
      rcases hm q hq with h3 | ⟨z, hz⟩
      · cases h3
      · obtain ⟨h4, h5, h6⟩ := labelAll_plain none xs 0 0 _ hz
        refine ⟨?_, .inr h6, .inl h5⟩
        rintro ⟨b, hb, _⟩
        rw [h4] at hb
        cases hb)
    exact ⟨tag, _, h1, hs, C77_next_partial parents l (.inl hl2)⟩

/-- With names, without boxes, the next input is always named rightly. -/
theorem C77_next_plain (impl : α → β → Step α) (ext parents : List ArgNode) (names : Option (List Name))
    (xs : List β) (v : α) {c : Option Label} {l : Label}
    (h : foldInputs impl none v (labelAll names 0 0 0 (xs.map RInput.one)) = .failed c l) :
    ∃ tc, reduceArgs impl ext parents names (xs.map RInput.one) v =
      .ok (.err tc (.ok (rightTag parents l))) := by
  obtain ⟨r, h1, h2⟩ := C77_fold impl ext parents names (xs.map RInput.one) v
  rw [h] at h2
  obtain ⟨⟨x, hx⟩, hm⟩ := foldInputs_mem impl _ _ _ _ _ h
  obtain ⟨hl1, hl2, hl3⟩ := labelAll_plain names xs 0 0 _ hx
  cases h2 with
  | @failed _ _ t ht =>
    refine ⟨t, ?_⟩
    have : l.boxes = 0 := hl2
    rw [h1, foundNext, this]
    rfl

/-- Names `a`, `b`, `c`. -/
def exNames77 : Option (List Name) := some [some ['a'], some ['b'], some ['c']]

/-- `vec_size_common(a = 1, b = 1:2, c = 1:3)`: the size 2 comes from `b`, but the error says that
`a` has size 2. -/
theorem C77_wrong_name :
    (∃ c l, foldInputs size2Step none none (labelAll exNames77 0 0 0 ([some 1, some 2, some 3].map RInput.one)) =
        .failed (some c) l ∧ TagOf (rightTag [.wrapper []] c) ['b'] ['b']) ∧
    reduceArgs size2Step [.wrapper []] [.wrapper []] exNames77 ([some 1, some 2, some 3].map RInput.one) none =
      .ok (.err (.ok [.counter exNames77 1 0, .wrapper []]) (.ok [.counter exNames77 2 2, .wrapper []])) ∧
    TagOf [.counter exNames77 1 0, .wrapper []] ['a'] ['a'] := by
  refine ⟨⟨⟨exNames77, 1, 1, none, 0⟩, ⟨exNames77, 2, 2, none, 0⟩, rfl, ?_⟩, rfl, ?_⟩
  · have h : PositionText false exNames77 1 1 (String.ofList ['b']) := .dotsName ⟨_, rfl, rfl, by decide⟩
    exact TagOf.child (t := []) (whole := []) (.root .wrapper) (.counter h)
  · have h : PositionText false exNames77 1 0 (String.ofList ['a']) := .dotsName ⟨_, rfl, rfl, by decide⟩
    exact TagOf.child (t := []) (whole := []) (.root .wrapper) (.counter h)

/-- An input after a box of one input: the second one is found at position 3. -/
theorem C77_wrong_position :
    reduceArgs size2Step [.wrapper []] [.wrapper []] none [.box none [some 2], .one (some 3)] none =
      .ok (.err (.ok [.counter none 0 0, .wrapper []]) (.ok [.counter none 2 1, .wrapper []])) ∧
    TagOf [.counter none 2 1, .wrapper []] "..3".toList "..3".toList := by
  refine ⟨rfl, ?_⟩
  have h : PositionText false none 2 1 "..3" := .dotsPos (.inl rfl)
  exact TagOf.child (t := []) (whole := []) (.root .wrapper) (.counter h)

/-- The result so far comes from the first box, the third one fails: the counters of the first box
are used after they were released. -/
theorem C77_stale :
    ∃ tn, reduceArgs size2Step [.wrapper []] [.wrapper []] none
      [.box none [some 2], .box none [some 1], .box none [some 3]] none = .ok (.err (.error .ub) (.ok tn)) :=
  ⟨_, rfl⟩

example : reduceArgs size2Step [.wrapper []] [.wrapper []] none ([some 1, some 2, some 3].map RInput.one) none =
    .ok (.err (.ok [.counter none 1 0, .wrapper []]) (.ok [.counter none 2 2, .wrapper []])) := rfl
example : ∃ c l, foldInputs size2Step none none (labelAll none 0 0 0 ([some 1, some 2, some 3].map RInput.one)) =
    .failed c l := ⟨_, _, rfl⟩
example : reduceArgs size2Step [] [] none [.one none, .box none [some 1, some 4], .one (some 1)] none =
    .ok (.done (some 4)) := rfl

end Vctrs
