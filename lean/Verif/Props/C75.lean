import Verif.Model.LazyChr
import Verif.Lemmas.Base

/-! # C75: lazy character vectors

A lazy vector behaves as the vector returned by the first call of its function that succeeds, and
the function is not called again. -/

namespace Vctrs

namespace Spec

/-- What a method returns on an ordinary character vector; setting an element also replaces it. -/
inductive Plain : List Name → LazyOp → C LazyOut → List Name → Prop
  | dataptr {l : List Name} : Plain l .dataptr (.ok (.vec l)) l
  | dataptrOrNull {l : List Name} : Plain l .dataptrOrNull (.ok (.vec l)) l
  | length {l : List Name} : Plain l .length (.ok (.int l.length)) l
  | isMaterialized {l : List Name} : Plain l .isMaterialized (.ok (.flag true)) l
  | elt {l : List Name} {i : Nat} {s : Name} : l[i]? = some s → Plain l (.elt i) (.ok (.str s)) l
  | eltOut {l : List Name} {i : Nat} : l.length ≤ i → Plain l (.elt i) (.error .ub) l
  | setElt {l : List Name} {i : Nat} {v : Name} : i < l.length →
      Plain l (.setElt i v) (.ok .done) (l.set i v)
  | setEltOut {l : List Name} {i : Nat} {v : Name} : l.length ≤ i →
      Plain l (.setElt i v) (.error .ub) l

/-- The methods which look at the content of the vector. -/
def Needs : LazyOp → Bool
  | .dataptrOrNull => false
  | .isMaterialized => false
  | _ => true

/-- The error of a call of the function: its own one, or that of a result which is not a character
vector. -/
inductive Fails : C NamesObj → Err → Prop
  | err {e : Err} : Fails (.error e) e
  | null : Fails (.ok .null) .internal
  | other : Fails (.ok .other) .internal

/-- Methods called one after the other on an ordinary vector. -/
inductive PlainRun : List Name → List LazyOp → List (C LazyOut) → Prop
  | nil {l : List Name} : PlainRun l [] []
  | cons {l l' : List Name} {op : LazyOp} {ops : List LazyOp} {r : C LazyOut}
      {rs : List (C LazyOut)} : Plain l op r l' → PlainRun l' ops rs → PlainRun l (op :: ops) (r :: rs)

/-- Methods called one after the other on a lazy vector whose function was called `k` times without
success; `k'` is the number of calls in the end. -/
inductive LazyTrace (fn : Nat → C NamesObj) : Nat → List LazyOp → List (C LazyOut) → Nat → Prop
  | nil {k : Nat} : LazyTrace fn k [] [] k
  | null {k k' : Nat} {ops : List LazyOp} {rs : List (C LazyOut)} : LazyTrace fn k ops rs k' →
      LazyTrace fn k (.dataptrOrNull :: ops) (.ok .null :: rs) k'
  | no {k k' : Nat} {ops : List LazyOp} {rs : List (C LazyOut)} : LazyTrace fn k ops rs k' →
      LazyTrace fn k (.isMaterialized :: ops) (.ok (.flag false) :: rs) k'
  | fail {k k' : Nat} {op : LazyOp} {ops : List LazyOp} {rs : List (C LazyOut)} {e : Err} :
      Needs op = true → Fails (fn k) e → LazyTrace fn (k + 1) ops rs k' →
      LazyTrace fn k (op :: ops) (.error e :: rs) k'
  | success {k : Nat} {op : LazyOp} {ops : List LazyOp} {rs : List (C LazyOut)} {v : List Name} :
      Needs op = true → fn k = .ok (.chr v) → PlainRun v (op :: ops) rs →
      LazyTrace fn k (op :: ops) rs (k + 1)

end Spec

open Spec

theorem wr_bad {β : Type} {l : List β} {i : Nat} (v : β) (h : l.length ≤ i) : wr l i v = .error .ub := by
  unfold wr
  rw [if_neg (by omega)]

theorem rd_bad {β : Type} {l : List β} {i : Nat} (h : l.length ≤ i) : rd l i = .error .ub := by
  unfold rd
  rw [List.getElem?_eq_none h]

/-- A step on a vector with data. -/
theorem lazyStep_some (fn : Nat → C NamesObj) (l : List Name) (k : Nat) (op : LazyOp) :
    ∃ r l', lazyStep fn ⟨some l, k⟩ op = (r, ⟨some l', k⟩) ∧ Plain l op r l' := by
  cases op with
  | dataptr => exact ⟨_, _, rfl, .dataptr⟩
  | dataptrOrNull => exact ⟨_, _, rfl, .dataptrOrNull⟩
  | length => exact ⟨_, _, rfl, .length⟩
  | isMaterialized => exact ⟨_, _, rfl, .isMaterialized⟩
  | elt i =>
    by_cases h : i < l.length
    · refine ⟨_, _, ?_, .elt (List.getElem?_eq_getElem h)⟩
      simp only [lazyStep, lazyElt]
      rw [rd_of_getElem? (List.getElem?_eq_getElem h)]
      rfl
    · refine ⟨_, _, ?_, .eltOut (by omega)⟩
      simp only [lazyStep, lazyElt]
      rw [rd_bad (by omega)]
      rfl
  | setElt i v =>
    by_cases h : i < l.length
    · refine ⟨_, _, ?_, .setElt h⟩
      simp only [lazyStep, lazySetElt]
      rw [wr_ok h]
      rfl
    · refine ⟨_, _, ?_, .setEltOut (by omega)⟩
      simp only [lazyStep, lazySetElt]
      rw [wr_bad _ (by omega)]
      rfl

theorem lazyRun_some (fn : Nat → C NamesObj) (k : Nat) : ∀ (ops : List LazyOp) (l : List Name),
    ∃ rs l', lazyRun fn ⟨some l, k⟩ ops = (rs, ⟨some l', k⟩) ∧ PlainRun l ops rs := by
  intro ops
  induction ops with
  | nil => exact fun l => ⟨_, _, rfl, .nil⟩
  | cons op ops ih =>
    intro l
    obtain ⟨r, l', h1, h2⟩ := lazyStep_some fn l k op
    obtain ⟨rs, l'', h3, h4⟩ := ih l'
    refine ⟨r :: rs, l'', ?_, .cons h2 h4⟩
    simp only [lazyRun]
    rw [h1]
    dsimp only
    rw [h3]

/-- A step which needs the data of a vector without them. -/
theorem lazyStep_fail (fn : Nat → C NamesObj) (k : Nat) (op : LazyOp) (hn : Needs op = true) {e : Err}
    (hf : Fails (fn k) e) : lazyStep fn ⟨none, k⟩ op = (.error e, ⟨none, k + 1⟩) := by
  have hm : lazyMaterialize fn ⟨none, k⟩ = (.error e, ⟨none, k + 1⟩) := by
    simp only [lazyMaterialize, Nat.add_sub_cancel]
    generalize fn k = c at hf
    cases hf <;> rfl
  cases op <;> first
    | (simp [Needs] at hn; done)
    | (simp only [lazyStep, lazyDataptr, lazyLength, lazyElt, lazySetElt]; rw [hm]; first | done | rfl)

theorem lazyStep_success (fn : Nat → C NamesObj) (k : Nat) (op : LazyOp) (hn : Needs op = true)
    {v : List Name} (hf : fn k = .ok (.chr v)) :
    lazyStep fn ⟨none, k⟩ op = lazyStep fn ⟨some v, k + 1⟩ op := by
  have hm : lazyMaterialize fn ⟨none, k⟩ = (.ok v, ⟨some v, k + 1⟩) := by
    simp only [lazyMaterialize, Nat.add_sub_cancel]
    rw [hf]
  cases op <;> first
    | (simp [Needs] at hn; done)
    | (simp only [lazyStep, lazyDataptr, lazyLength, lazyElt, lazySetElt]; rw [hm]; first | done | rfl)

theorem fails_or (c : C NamesObj) : (∃ e, Fails c e) ∨ ∃ v, c = .ok (.chr v) := by
  rcases c with e | (_ | v | _)
  · exact .inl ⟨_, .err⟩
  · exact .inl ⟨_, .null⟩
  · exact .inr ⟨_, rfl⟩
  · exact .inl ⟨_, .other⟩

theorem lazyRun_trace (fn : Nat → C NamesObj) : ∀ (ops : List LazyOp) (k : Nat),
    ∃ rs d k', lazyRun fn ⟨none, k⟩ ops = (rs, ⟨d, k'⟩) ∧ LazyTrace fn k ops rs k' := by
  intro ops
  induction ops with
  | nil => exact fun k => ⟨_, _, _, rfl, .nil⟩
  | cons op ops ih =>
    intro k
    by_cases hn : Needs op = true
    · rcases fails_or (fn k) with ⟨e, he⟩ | ⟨v, hv⟩
      · obtain ⟨rs, d, k', h1, h2⟩ := ih (k + 1)
        refine ⟨.error e :: rs, d, k', ?_, .fail hn he h2⟩
        simp only [lazyRun]
        rw [lazyStep_fail fn k op hn he]
        dsimp only
        rw [h1]
      · obtain ⟨rs, l', h1, h2⟩ := lazyRun_some fn (k + 1) (op :: ops) v
        refine ⟨rs, some l', k + 1, ?_, .success hn hv h2⟩
        rw [← h1]
        simp only [lazyRun]
        rw [lazyStep_success fn k op hn hv]
    · obtain ⟨rs, d, k', h1, h2⟩ := ih k
      cases op <;> first | (simp [Needs] at hn; done) | skip
      · refine ⟨.ok .null :: rs, d, k', ?_, .null h2⟩
        simp only [lazyRun, lazyStep, lazyDataptrOrNull]
        rw [h1]
      · refine ⟨.ok (.flag false) :: rs, d, k', ?_, .no h2⟩
        simp only [lazyRun, lazyStep, lazyIsMaterialized, Option.isSome_none]
        rw [h1]

/-- Whatever methods are called and whatever the function does: methods which need the content fail
with the error of the call of the function until one succeeds; from then on all methods are those
of an ordinary vector. -/
theorem C75_trace (fn : Nat → C NamesObj) (ops : List LazyOp) :
    ∃ rs d k, lazyRun fn lazyNew ops = (rs, ⟨d, k⟩) ∧ LazyTrace fn 0 ops rs k :=
  lazyRun_trace fn ops 0

theorem lazyTrace_calls {fn : Nat → C NamesObj} {k k' : Nat} {ops : List LazyOp}
    {rs : List (C LazyOut)} (h : LazyTrace fn k ops rs k') : k ≤ k' ∧ (∀ j, k ≤ j → j + 1 < k' → ∃ e, Fails (fn j) e) := by
  induction h with
  | nil => exact ⟨Nat.le_refl _, fun j h1 h2 => by omega⟩
  | null _ ih => exact ih
  | no _ ih => exact ih
  | @fail k k' op ops rs e hn hf ht ih =>
    refine ⟨by omega, fun j h1 h2 => ?_⟩
    rcases Nat.eq_or_lt_of_le h1 with rfl | h1
    · exact ⟨e, hf⟩
    · exact ih.2 j h1 h2
  | success => exact ⟨by omega, fun j h1 h2 => by omega⟩

/-- The function is called at most once with success: all its calls but the last one failed. -/
theorem C75_once (fn : Nat → C NamesObj) (ops : List LazyOp) :
    ∃ rs d k, lazyRun fn lazyNew ops = (rs, ⟨d, k⟩) ∧ ∀ j, j + 1 < k → ∃ e, Fails (fn j) e := by
  obtain ⟨rs, d, k, h1, h2⟩ := C75_trace fn ops
  exact ⟨rs, d, k, h1, fun j hj => (lazyTrace_calls h2).2 j (Nat.zero_le _) hj⟩

/-- Making a lazy vector, asking whether it is materialised, and asking for a pointer if there is
one never calls the function. -/
theorem C75_lazy (fn : Nat → C NamesObj) (ops : List LazyOp) (h : ∀ op ∈ ops, Needs op = false) :
    ∃ rs, lazyRun fn lazyNew ops = (rs, lazyNew) := by
  induction ops with
  | nil => exact ⟨_, rfl⟩
  | cons op ops ih =>
    obtain ⟨rs, h1⟩ := ih (fun o ho => h o (List.mem_cons_of_mem _ ho))
    have hn := h op List.mem_cons_self
    cases op <;> first | (simp [Needs] at hn; done) | skip
    · refine ⟨.ok .null :: rs, ?_⟩
      simp only [lazyRun, lazyStep, lazyDataptrOrNull, lazyNew] at h1 ⊢
      rw [h1]
    · refine ⟨.ok (.flag false) :: rs, ?_⟩
      simp only [lazyRun, lazyStep, lazyIsMaterialized, lazyNew, Option.isSome_none] at h1 ⊢
      rw [h1]

/-- Data for the examples: a function which fails, then returns `NULL`, then a vector. -/
def exLazy : Nat → C NamesObj
  | 0 => .error .abort
  | 1 => .ok .null
  | 2 => .ok (.chr [some ['a'], none])
  | _ => .ok (.chr [])

example : lazyRun exLazy lazyNew
    [.isMaterialized, .length, .dataptrOrNull, .elt 0, .elt 1, .isMaterialized, .setElt 1 (some ['b']),
      .dataptr, .dataptrOrNull, .length]
    = ([.ok (.flag false), .error .abort, .ok .null, .error .internal, .ok (.str none), .ok (.flag true),
        .ok .done, .ok (.vec [some ['a'], some ['b']]), .ok (.vec [some ['a'], some ['b']]), .ok (.int 2)],
       ⟨some [some ['a'], some ['b']], 3⟩) := by decide +kernel
example : ∀ op ∈ [LazyOp.isMaterialized, .dataptrOrNull], Needs op = false := by
  intro op ho
  simp only [List.mem_cons, List.not_mem_nil, or_false] at ho
  rcases ho with rfl | rfl <;> rfl

end Vctrs
