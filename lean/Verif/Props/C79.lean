import Verif.Model.Kinds
import Verif.Lemmas.Base

/-! # C79: kinds of objects and sizes -/

namespace Vctrs

namespace Spec

/-- Class attributes recognised as a whole. -/
def bareClasses : List (List String × VClass) :=
  [(["data.frame"], .bareDataFrame), (["tbl_df", "tbl", "data.frame"], .bareTibble),
   (["factor"], .bareFactor), (["ordered", "factor"], .bareOrdered), (["Date"], .bareDate),
   (["POSIXct", "POSIXt"], .barePosixct), (["POSIXlt", "POSIXt"], .barePosixlt), (["AsIs"], .bareAsis)]

/-- The kind of a class attribute: one of those above, or decided by the last class. -/
inductive ClassIs : List (Option String) → VClass → Prop
  | bare {s : List String} {t : VClass} : (s, t) ∈ bareClasses → ClassIs (s.map some) t
  | df {pre : List (Option String)} :
      (∀ p ∈ bareClasses, pre ++ [some "data.frame"] ≠ p.1.map some) →
      ClassIs (pre ++ [some "data.frame"]) .dataFrame
  | list {pre : List (Option String)} : ClassIs (pre ++ [some "list"]) .list
  | unknown {pre : List (Option String)} {last : Option String} :
      (∀ p ∈ bareClasses, pre ++ [last] ≠ p.1.map some) → last ≠ some "data.frame" → last ≠ some "list" →
      ClassIs (pre ++ [last]) .unknown

/-- The object has the class attribute `cls`. -/
def HasClass (x : KObj) (cls : List (Option String)) : Prop :=
  x.obj = true ∧ x.attrs.lookup .class_ = some (.chr cls)

/-- Class attributes are character vectors that are not empty: R removes empty ones. -/
def ClassOk (x : KObj) : Prop :=
  ∀ v, x.attrs.lookup .class_ = some v → ∃ cls, v = .chr cls ∧ cls ≠ []

/-- A data frame. -/
def IsDf (x : KObj) : Prop := x.ty = .list ∧ ∃ pre, HasClass x (pre ++ [some "data.frame"])

/-- A list. -/
def IsList (x : KObj) : Prop :=
  x.ty = .list ∧ (x.obj = false ∨ (∃ pre, HasClass x (pre ++ [some "list"])) ∨ HasClass x [some "AsIs"])

/-- Atomic vectors, bare lists, data frames and explicit lists are vectors; a proxy may have any
class. -/
def IsVec (proxied : Bool) (x : KObj) : Prop :=
  x.ty ≠ .other ∧ (x.ty = .list → x.obj = false ∨ IsDf x ∨ proxied = true ∨
    ∃ cls, HasClass x cls ∧ some "list" ∈ cls)

/-- The number of rows described by row names. -/
inductive Rows : KVal → Int → Prop
  | chr {l : List (Option String)} : Rows (.chr l) l.length
  | pos {n : Nat} : Rows (.int [naInt, n]) n
  | neg {n : Nat} : n ≤ 2147483647 → Rows (.int [naInt, -(n : Int)]) n
  | int {l : List Int} : (∀ n, l ≠ [naInt, n]) → Rows (.int l) l.length

/-- The size of a vector that is its own proxy. -/
inductive SizedObj (proxied : Bool) (x : KObj) : Int → Prop
  | null : x.ty = .null → SizedObj proxied x 0
  | df {rn : KVal} {n : Int} : IsDf x → x.attrs.lookup .rowNames = some rn → Rows rn n → SizedObj proxied x n
  | vec : x.ty ≠ .null → IsVec proxied x → ¬ IsDf x →
      (x.attrs.lookup .dim = none ∨ x.attrs.lookup .dim = some (.int [])) → SizedObj proxied x x.length
  | array {d : Int} {ds : List Int} : x.ty ≠ .null → IsVec proxied x → ¬ IsDf x →
      x.attrs.lookup .dim = some (.int (d :: ds)) → SizedObj proxied x d

/-- The size of a vector with or without a method for `vec_proxy()`. -/
def SizeOf (proxy : KObj → Option (C KObj)) (x : KObj) (n : Int) : Prop :=
  ((x.obj = false ∨ proxy x = none) ∧ ClassOk x ∧ SizedObj false x n) ∨
  (x.obj = true ∧ ∃ p, proxy x = some (.ok p) ∧ ClassOk p ∧ SizedObj true p n)

/-- A scalar, with or without a method. -/
def ScalarOf (proxy : KObj → Option (C KObj)) (x : KObj) : Prop :=
  ((x.obj = false ∨ proxy x = none) ∧ ClassOk x ∧ ¬ IsVec false x) ∨
  (x.obj = true ∧ ∃ p, proxy x = some (.ok p) ∧ ClassOk p ∧ ¬ IsVec true p)

/-- The sizes of a list, or an error at its first scalar. -/
inductive SizesOf (proxy : KObj → Option (C KObj)) : List KObj → C (List Int) → Prop
  | nil : SizesOf proxy [] (.ok [])
  | cons {x : KObj} {l : List KObj} {n : Int} {ns : List Int} : SizeOf proxy x n → SizesOf proxy l (.ok ns) →
      SizesOf proxy (x :: l) (.ok (n :: ns))
  | late {x : KObj} {l : List KObj} {n : Int} : SizeOf proxy x n → SizesOf proxy l (.error .abort) →
      SizesOf proxy (x :: l) (.error .abort)
  | scalar {x : KObj} {l : List KObj} : ScalarOf proxy x → SizesOf proxy (x :: l) (.error .abort)

/-- Whether all elements have a size, decided by the first other element. -/
inductive AllSized (proxy : KObj → Option (C KObj)) (size : Int) : List KObj → C Bool → Prop
  | nil : AllSized proxy size [] (.ok true)
  | same {x : KObj} {l : List KObj} {r : C Bool} : SizeOf proxy x size → AllSized proxy size l r →
      AllSized proxy size (x :: l) r
  | other {x : KObj} {l : List KObj} {n : Int} : SizeOf proxy x n → n ≠ size →
      AllSized proxy size (x :: l) (.ok false)
  | scalar {x : KObj} {l : List KObj} : ScalarOf proxy x → AllSized proxy size (x :: l) (.error .abort)

/-- Unspecified vectors: those of the class, and bare logical vectors of missing values only. -/
def IsUnspecified (x : KObj) : Prop :=
  x.ty = .logical ∧ ((∃ cls, HasClass x cls ∧ some "vctrs_unspecified" ∈ cls) ∨
    (x.obj = false ∧ x.attrs.lookup .dim = none ∧ x.nas ≠ [] ∧ ∀ b ∈ x.nas, b = true))

end Spec

open Spec

theorem kindGet_eq (l : List (KTag × KVal)) (t : KTag) : kindGet l t = l.lookup t := by
  induction l with
  | nil => rfl
  | cons e l ih =>
    obtain ⟨u, v⟩ := e
    rw [kindGet, List.lookup_cons]
    by_cases h : u = t
    · subst h; simp
    · have : (t == u) = false := by simpa using fun h' => h h'.symm
      rw [if_neg h, this, ih]

theorem list_snoc {α : Type} : ∀ {l : List α}, l ≠ [] → ∃ pre last, l = pre ++ [last] := by
  intro l h
  exact ⟨l.dropLast, l.getLast h, (List.dropLast_concat_getLast h).symm⟩

theorem classTypeImpl_ok (cls : List (Option String)) (h : cls ≠ []) :
    ∃ t, classTypeImpl cls = .ok t ∧ ClassIs cls t := by
  obtain ⟨pre, last, hl⟩ := list_snoc h
  have hlast : rdI cls ((cls.length : Int) - 1) = .ok last := by
    have hp : (cls.length : Int) - 1 = (pre.length : Nat) := by subst hl; simp
    unfold rdI
    rw [hp, if_neg (by omega)]
    have : ((pre.length : Nat) : Int).toNat = pre.length := by omega
    rw [this]
    exact rd_of_getElem? (by subst hl; simp)
  -- after the bare classes
  have fin : bareClass cls = .ok none → (∀ p ∈ bareClasses, pre ++ [last] ≠ p.1.map some) → ∃ t,
      classTypeImpl cls = .ok t ∧ ClassIs cls t := by
    intro hb0 hb
    unfold classTypeImpl
    rw [hb0, ok_bind]
    show ∃ t, inheritedClass cls = .ok t ∧ _
    unfold inheritedClass
    rw [hlast, ok_bind]
    by_cases h1 : last = some "data.frame"
    · rw [if_pos h1]
      subst h1
      exact ⟨_, rfl, hl ▸ .df hb⟩
    · rw [if_neg h1]
      by_cases h2 : last = some "list"
      · rw [if_pos h2]
        subst h2
        exact ⟨_, rfl, hl ▸ .list⟩
      · rw [if_neg h2]
        exact ⟨_, rfl, hl ▸ .unknown hb h1 h2⟩
  have bare : ∀ (s : List String) (t : VClass), cls = s.map some → (s, t) ∈ bareClasses → bareClass cls = .ok (some t) →
      ∃ t, classTypeImpl cls = .ok t ∧ ClassIs cls t := by
    intro s t hs ht hb
    unfold classTypeImpl
    rw [hb, ok_bind]
    exact ⟨t, rfl, hs ▸ .bare ht⟩
  match cls, hl, fin, bare with
  | [a], hl, fin, bare =>
    have e : bareClass [a] = (if a = some "data.frame" then .ok (some .bareDataFrame)
        else if a = some "factor" then .ok (some .bareFactor)
        else if a = some "Date" then .ok (some .bareDate)
        else if a = some "AsIs" then .ok (some .bareAsis)
        else .ok none) := rfl
    by_cases h1 : a = some "data.frame"
    · subst h1; exact bare ["data.frame"] .bareDataFrame rfl (by simp [bareClasses]) rfl
    by_cases h2 : a = some "factor"
    · subst h2; exact bare ["factor"] .bareFactor rfl (by simp [bareClasses]) rfl
    by_cases h3 : a = some "Date"
    · subst h3; exact bare ["Date"] .bareDate rfl (by simp [bareClasses]) rfl
    by_cases h4 : a = some "AsIs"
    · subst h4; exact bare ["AsIs"] .bareAsis rfl (by simp [bareClasses]) rfl
    rw [if_neg h1, if_neg h2, if_neg h3, if_neg h4] at e
    refine fin e ?_
    rw [← hl]
    simp [bareClasses, h1, h2, h3, h4]
  | [a, b], hl, fin, bare =>
    have e : bareClass [a, b] = (if a = some "ordered" ∧ b = some "factor" then .ok (some .bareOrdered)
        else if b = some "POSIXt" then
          if a = some "POSIXct" then .ok (some .barePosixct)
          else if a = some "POSIXlt" then .ok (some .barePosixlt)
          else .ok none
        else .ok none) := rfl
    by_cases h1 : a = some "ordered" ∧ b = some "factor"
    · obtain ⟨rfl, rfl⟩ := h1
      exact bare ["ordered", "factor"] .bareOrdered rfl (by simp [bareClasses]) rfl
    rw [if_neg h1] at e
    by_cases h2 : b = some "POSIXt"
    · rw [if_pos h2] at e
      subst h2
      by_cases h3 : a = some "POSIXct"
      · subst h3; exact bare ["POSIXct", "POSIXt"] .barePosixct rfl (by simp [bareClasses]) rfl
      by_cases h4 : a = some "POSIXlt"
      · subst h4; exact bare ["POSIXlt", "POSIXt"] .barePosixlt rfl (by simp [bareClasses]) rfl
      rw [if_neg h3, if_neg h4] at e
      refine fin e ?_
      rw [← hl]
      simp [bareClasses, h3, h4]
    · rw [if_neg h2] at e
      refine fin e ?_
      rw [← hl]
      simp [bareClasses, h2]
      exact fun ha hb => h1 ⟨ha, hb⟩
  | [a, b, c], hl, fin, bare =>
    have e : bareClass [a, b, c] = (if a = some "tbl_df" ∧ b = some "tbl" ∧ c = some "data.frame" then
        .ok (some .bareTibble) else .ok none) := rfl
    by_cases h1 : a = some "tbl_df" ∧ b = some "tbl" ∧ c = some "data.frame"
    · obtain ⟨rfl, rfl, rfl⟩ := h1
      exact bare ["tbl_df", "tbl", "data.frame"] .bareTibble rfl (by simp [bareClasses]) rfl
    rw [if_neg h1] at e
    refine fin e ?_
    rw [← hl]
    simp [bareClasses]
    exact fun ha hb hc => h1 ⟨ha, hb, hc⟩
  | a :: b :: c :: d :: l, hl, fin, _ =>
    refine fin rfl ?_
    rw [← hl]
    simp [bareClasses]

theorem classIs_det {cls : List (Option String)} {t u : VClass} (h : ClassIs cls t) (h' : ClassIs cls u) :
    t = u := by
  have last_ne : ∀ p ∈ bareClasses, ∀ pre : List (Option String), pre ++ [some "list"] ≠ p.1.map some := by
    intro p hp pre hc
    have := congrArg List.getLast? hc
    simp only [bareClasses, List.mem_cons, List.not_mem_nil, or_false] at hp
    rcases hp with rfl | rfl | rfl | rfl | rfl | rfl | rfl | rfl <;> simp at this
  have inj : ∀ {a b : List String}, a.map some = b.map some → a = b := fun h =>
    (List.map_inj_right (fun _ _ => Option.some.inj)).1 h
  have table : ∀ p ∈ bareClasses, ∀ q ∈ bareClasses, p.1 = q.1 → p.2 = q.2 := by decide
  generalize hc : cls = cls' at h'
  cases h with
  | @bare s t hb =>
    cases h' with
    | @bare s' u hb' => exact table _ hb _ hb' (inj hc)
    | df hn => exact absurd hc.symm (hn _ hb)
    | list => exact absurd hc.symm (last_ne _ hb _)
    | unknown hn => exact absurd hc.symm (hn _ hb)
  | df hn =>
    cases h' with
    | bare hb => exact absurd hc (hn _ hb)
    | df => rfl
    | list => have := (List.append_inj' hc rfl).2; simp at this
    | unknown _ h1 => have := (List.append_inj' hc rfl).2; simp at this; exact absurd this.symm h1
  | list =>
    cases h' with
    | bare hb => exact absurd hc (last_ne _ hb _)
    | df => have := (List.append_inj' hc rfl).2; simp at this
    | list => rfl
    | unknown _ _ h1 => have := (List.append_inj' hc rfl).2; simp at this; exact absurd this.symm h1
  | unknown hn h1 h2 =>
    cases h' with
    | bare hb => exact absurd hc (hn _ hb)
    | df => have := (List.append_inj' hc rfl).2; simp at this; exact absurd this h1
    | list => have := (List.append_inj' hc rfl).2; simp at this; exact absurd this h2
    | unknown => rfl

/-- The kind of every class attribute. -/
theorem C79_class {cls : List (Option String)} (h : cls ≠ []) (t : VClass) :
    classTypeImpl cls = .ok t ↔ ClassIs cls t := by
  obtain ⟨u, h1, h2⟩ := classTypeImpl_ok cls h
  constructor
  · intro h'
    rw [h1] at h'
    cases h'
    exact h2
  · intro h'
    rw [classIs_det h' h2]
    exact h1

theorem classTypeOf_ok {x : KObj} (hok : ClassOk x) : ∃ t, classTypeOf x = .ok t ∧
    ((t = .noClass ∧ ∀ cls, ¬ HasClass x cls) ∨ ∃ cls, HasClass x cls ∧ ClassIs cls t) := by
  unfold classTypeOf
  cases ho : x.obj with
  | false => exact ⟨_, rfl, .inl ⟨rfl, fun cls h => by rw [h.1] at ho; cases ho⟩⟩
  | true =>
    rw [Bool.not_true, if_neg Bool.false_ne_true]
    unfold kindClass
    rw [kindGet_eq]
    cases hl : x.attrs.lookup .class_ with
    | none => exact ⟨_, rfl, .inl ⟨rfl, fun cls h => by rw [h.2] at hl; cases hl⟩⟩
    | some v =>
      obtain ⟨cls, rfl, hne⟩ := hok v hl
      obtain ⟨t, h1, h2⟩ := classTypeImpl_ok cls hne
      exact ⟨t, h1, .inr ⟨cls, ⟨ho, hl⟩, h2⟩⟩

theorem hasClass_det {x : KObj} {a b : List (Option String)} (ha : HasClass x a) (hb : HasClass x b) : a = b := by
  have := ha.2.symm.trans hb.2
  cases this
  rfl

theorem classIs_df {cls : List (Option String)} {t : VClass} (h : ClassIs cls t) :
    t.isDf = true ↔ ∃ pre, cls = pre ++ [some "data.frame"] := by
  cases h with
  | @bare s t hb =>
    simp only [bareClasses, List.mem_cons, List.not_mem_nil, or_false, Prod.mk.injEq] at hb
    have no : ∀ l : List (Option String), l.getLast? ≠ some (some "data.frame") →
        ¬ ∃ pre, l = pre ++ [some "data.frame"] := by
      rintro l hl ⟨pre, rfl⟩
      exact hl (by simp)
    rcases hb with ⟨rfl, rfl⟩ | ⟨rfl, rfl⟩ | ⟨rfl, rfl⟩ | ⟨rfl, rfl⟩ | ⟨rfl, rfl⟩ | ⟨rfl, rfl⟩ | ⟨rfl, rfl⟩ | ⟨rfl, rfl⟩
    · exact ⟨fun _ => ⟨[], rfl⟩, fun _ => rfl⟩
    · exact ⟨fun _ => ⟨[some "tbl_df", some "tbl"], rfl⟩, fun _ => rfl⟩
    all_goals
      constructor
      · intro h; cases h
      · intro h; exact absurd h (no _ (by simp))
  | df hn => exact ⟨fun _ => ⟨_, rfl⟩, fun _ => rfl⟩
  | list =>
    constructor
    · intro h; cases h
    · rintro ⟨pre, h⟩
      have := (List.append_inj' h rfl).2
      simp at this
  | unknown hn h1 h2 =>
    constructor
    · intro h; cases h
    · rintro ⟨pre, h⟩
      have := (List.append_inj' h rfl).2
      simp at this
      exact absurd this h1

theorem classIs_list {cls : List (Option String)} {t : VClass} (h : ClassIs cls t) :
    (t = .list ∨ t = .bareAsis) ↔ (∃ pre, cls = pre ++ [some "list"]) ∨ cls = [some "AsIs"] := by
  constructor
  · rintro (rfl | rfl)
    · left
      generalize ht : VClass.list = t at h
      cases h with
      | @bare s t hb =>
        simp only [bareClasses, List.mem_cons, List.not_mem_nil, or_false, Prod.mk.injEq] at hb
        subst ht
        simp at hb
      | list => exact ⟨_, rfl⟩
      | df => cases ht
      | unknown => cases ht
    · right
      generalize ht : VClass.bareAsis = t at h
      cases h with
      | @bare s t hb =>
        simp only [bareClasses, List.mem_cons, List.not_mem_nil, or_false, Prod.mk.injEq] at hb
        subst ht
        simp at hb
        rw [hb]; rfl
      | list => cases ht
      | df => cases ht
      | unknown => cases ht
  · rintro (⟨pre, rfl⟩ | rfl)
    · exact .inl (classIs_det h .list)
    · exact .inr (classIs_det h (.bare (s := ["AsIs"]) (by simp [bareClasses])))

theorem isDfObj_ok {x : KObj} (hok : ClassOk x) : ∃ b, isDfObj x = .ok b ∧ (b = true ↔ IsDf x) := by
  unfold isDfObj
  by_cases ht : x.ty = .list
  · rw [if_pos ht]
    obtain ⟨t, h1, h2⟩ := classTypeOf_ok hok
    rw [h1, ok_bind]
    refine ⟨_, rfl, ?_⟩
    rcases h2 with ⟨rfl, hn⟩ | ⟨cls, hc, hi⟩
    · constructor
      · intro h; cases h
      · rintro ⟨_, pre, h⟩; exact absurd h (hn _)
    · rw [classIs_df hi]
      constructor
      · rintro ⟨pre, rfl⟩; exact ⟨ht, pre, hc⟩
      · rintro ⟨_, pre, h⟩; exact ⟨pre, hasClass_det hc h⟩
  · rw [if_neg ht]
    exact ⟨_, rfl, by simp [IsDf, ht]⟩

/-- Data frames are the lists whose last class is `data.frame`. -/
theorem C79_df {x : KObj} (hok : ClassOk x) : isDfObj x = .ok true ↔ IsDf x := by
  obtain ⟨b, h1, h2⟩ := isDfObj_ok hok
  rw [h1, ← h2]
  simp

/-- `obj_is_list()`. -/
theorem C79_list {x : KObj} (hok : ClassOk x) :
    ∃ b, objIsList x = .ok b ∧ (b = true ↔ IsList x) := by
  unfold objIsList
  by_cases ht : x.ty = .list
  · rw [if_neg (by simp [ht])]
    cases ho : x.obj with
    | false => exact ⟨_, rfl, by simp [IsList, ht, ho]⟩
    | true =>
      rw [Bool.not_true, if_neg Bool.false_ne_true]
      obtain ⟨t, h1, h2⟩ := classTypeOf_ok hok
      rw [h1, ok_bind]
      refine ⟨_, rfl, ?_⟩
      rcases h2 with ⟨rfl, hn⟩ | ⟨cls, hc, hi⟩
      · simp [IsList, ho, hn]
      · simp only [Bool.or_eq_true, beq_iff_eq, classIs_list hi, IsList, ht, ho, true_and, Bool.true_eq_false,
          false_or]
        constructor
        · rintro (⟨pre, rfl⟩ | rfl)
          · exact .inl ⟨pre, hc⟩
          · exact .inr hc
        · rintro (⟨pre, h⟩ | h)
          · exact .inl ⟨pre, hasClass_det hc h⟩
          · exact .inr (hasClass_det hc h)
  · rw [if_pos ht]
    exact ⟨_, rfl, by simp [IsList, ht]⟩

/-- No data frame is a list. -/
theorem C79_disjoint {x : KObj} (hok : ClassOk x) (h : isDfObj x = .ok true) : objIsList x = .ok false := by
  obtain ⟨b, h1, h2⟩ := C79_list hok
  rw [h1]
  cases b with
  | false => rfl
  | true =>
    exfalso
    obtain ⟨_, pre, hp⟩ := (C79_df hok).1 h
    rcases (h2.1 rfl).2 with h3 | ⟨q, h3⟩ | h3
    · rw [hp.1] at h3; cases h3
    · have := (List.append_inj' (hasClass_det hp h3) rfl).2
      simp at this
    · have := congrArg List.getLast? (hasClass_det hp h3)
      simp at this

theorem kindInherits_ok {x : KObj} (hok : ClassOk x) (s : String) :
    ∃ b, kindInherits x s = .ok b ∧ (b = true ↔ ∃ cls, HasClass x cls ∧ some s ∈ cls) := by
  unfold kindInherits
  cases ho : x.obj with
  | false => exact ⟨_, rfl, by simp [HasClass, ho]⟩
  | true =>
    rw [Bool.not_true, if_neg Bool.false_ne_true]
    unfold kindClass
    rw [kindGet_eq]
    cases hl : x.attrs.lookup .class_ with
    | none => exact ⟨_, rfl, by simp [HasClass, hl]⟩
    | some v =>
      obtain ⟨cls, rfl, hne⟩ := hok v hl
      exact ⟨_, rfl, by simp [HasClass, hl, ho]⟩

theorem baseTypeof_ok {x : KObj} (hok : ClassOk x) (proxied : Bool) : ∃ t, baseTypeof x proxied = .ok t ∧
    (t = .scalar ↔ ¬ IsVec proxied x) ∧ (t = .null ↔ x.ty = .null) ∧ (t = .dataframe ↔ IsDf x) ∧
    t ≠ .s3 ∧ t ≠ .unspecified := by
  unfold baseTypeof
  cases ht : x.ty
  case list =>
    dsimp only
    cases ho : x.obj with
    | false =>
      exact ⟨_, rfl, by simp [IsVec, ht, ho], by simp, by simp [IsDf, HasClass, ho], by simp, by simp⟩
    | true =>
      rw [Bool.not_true, if_neg Bool.false_ne_true]
      obtain ⟨b, h1, h2⟩ := isDfObj_ok hok
      rw [h1, ok_bind]
      cases b with
      | true =>
        have h2 := h2.1 rfl
        exact ⟨_, rfl, by simp [IsVec, ht, h2], by simp, by simp [h2], by simp, by simp⟩
      | false =>
        have h2 : ¬ IsDf x := fun h => by cases h2.2 h
        rw [if_neg Bool.false_ne_true]
        cases proxied with
        | true => exact ⟨_, rfl, by simp [IsVec, ht], by simp, by simp [h2], by simp, by simp⟩
        | false =>
          rw [if_neg Bool.false_ne_true]
          obtain ⟨c, h3, h4⟩ := kindInherits_ok hok "list"
          rw [h3, ok_bind]
          cases c with
          | true =>
            exact ⟨_, rfl, by simp [IsVec, ht, h4.1 rfl], by simp, by simp [h2], by simp, by simp⟩
          | false =>
            have h4 : ¬ ∃ cls, HasClass x cls ∧ some "list" ∈ cls := fun h => by cases h4.2 h
            exact ⟨_, rfl, by simpa [IsVec, ht, ho, h2] using h4, by simp, by simp [h2], by simp, by simp⟩
  all_goals exact ⟨_, rfl, by simp [IsVec, ht], by simp, by simp [IsDf, ht], by simp, by simp⟩

/-- `obj_is_vector()` without and with a method for `vec_proxy()`. -/
theorem C79_vector (proxy : KObj → Option (C KObj)) {x : KObj} (h : x.obj = false ∨ proxy x = none)
    (hok : ClassOk x) :
    ∃ b, objIsVector proxy x = .ok b ∧ (b = true ↔ x.ty ≠ .null ∧ IsVec false x) := by
  unfold objIsVector
  by_cases hn : x.ty = .null
  · rw [if_pos hn]; exact ⟨_, rfl, by simp [hn]⟩
  rw [if_neg hn]
  obtain ⟨t, h1, h2, _⟩ := baseTypeof_ok hok false
  have hp : (if x.obj then proxy x else none) = none := by rcases h with h | h <;> simp [h]
  unfold proxyInfo
  rw [hp]
  simp only [h1, ok_bind]
  refine ⟨_, rfl, ?_⟩
  simp only [bne_iff_ne, ne_eq, h2, hn, not_false_eq_true, true_and, Classical.not_not]

theorem C79_vector_proxy (proxy : KObj → Option (C KObj)) {x p : KObj} (ho : x.obj = true)
    (hp : proxy x = some (.ok p)) (hok : ClassOk p) :
    ∃ b, objIsVector proxy x = .ok b ∧ (b = true ↔ x.ty ≠ .null ∧ p.ty ≠ .other) := by
  unfold objIsVector
  by_cases hn : x.ty = .null
  · rw [if_pos hn]; exact ⟨_, rfl, by simp [hn]⟩
  rw [if_neg hn]
  obtain ⟨t, h1, h2, _⟩ := baseTypeof_ok hok true
  unfold proxyInfo
  rw [ho, if_pos rfl, hp]
  simp only [h1, ok_bind]
  refine ⟨_, rfl, ?_⟩
  simp only [bne_iff_ne, ne_eq, h2, hn, not_false_eq_true, true_and, Classical.not_not]
  simp [IsVec]

/-- Lists other than those of `I()` are vectors, whatever the methods, as long as proxies are. -/
theorem C79_lists_are_vectors (proxy : KObj → Option (C KObj)) {x : KObj} (hok : ClassOk x)
    (hp : ∀ p, proxy x = some p → ∃ q, p = .ok q ∧ ClassOk q ∧ q.ty ≠ .other)
    (hasis : HasClass x [some "AsIs"] → proxy x ≠ none) (h : objIsList x = .ok true) :
    objIsVector proxy x = .ok true := by
  obtain ⟨b, h1, h2⟩ := C79_list hok
  rw [h1] at h
  cases h
  have hl := h2.1 rfl
  have hn : x.ty ≠ .null := by simp [hl.1]
  by_cases hx : x.obj = false ∨ proxy x = none
  · obtain ⟨c, h3, h4⟩ := C79_vector proxy hx hok
    rw [h3, h4.2 ⟨hn, by simp [hl.1], fun _ => ?_⟩]
    rcases hl.2 with ho | ⟨pre, hc⟩ | hc
    · exact .inl ho
    · exact .inr (.inr (.inr ⟨_, hc, by simp⟩))
    · rcases hx with hx | hx
      · exact .inl hx
      · exact absurd hx (hasis hc)
  · have ho : x.obj = true := by
      cases ho : x.obj with
      | true => rfl
      | false => exact absurd (.inl ho) hx
    cases hq : proxy x with
    | none => exact absurd (.inr hq) hx
    | some p =>
      obtain ⟨q, rfl, hqo, hqt⟩ := hp p hq
      obtain ⟨c, h3, h4⟩ := C79_vector_proxy proxy ho hq hqo
      rw [h3, h4.2 ⟨hn, hqt⟩]

theorem rownamesSize_ok {rn : KVal} {n : Int} (h : Rows rn n) : rownamesSize rn = .ok n := by
  cases h with
  | chr => rfl
  | @pos n =>
    simp only [rownamesSize, rd, List.length_cons, List.length_nil, List.getElem?_cons_zero,
      List.getElem?_cons_succ, ok_bind, beq_self_eq_true, if_true]
    rw [if_neg (by omega)]
  | @neg n hn =>
    simp only [rownamesSize, rd, List.length_cons, List.length_nil, List.getElem?_cons_zero,
      List.getElem?_cons_succ, ok_bind, beq_self_eq_true, if_true]
    by_cases h0 : n = 0
    · subst h0; rfl
    · rw [if_pos (by omega), Int.neg_neg]
      unfold chkInt naInt intMax
      rw [if_neg (by omega), if_neg (by omega)]
  | @int l hl =>
    unfold rownamesSize
    dsimp only
    by_cases h2 : l.length = 2
    · rw [if_pos h2]
      match l, h2, hl with
      | [a, b], _, hl =>
        have : a ≠ naInt := fun h => hl b (by rw [h])
        simp [rd, this]
    · rw [if_neg h2]
      rfl

theorem dfRownamesSize_ok (l : List (KTag × KVal)) : dfRownamesSize l =
    match l.lookup .rowNames with
    | none => .ok (-1)
    | some rn => rownamesSize rn := by
  induction l with
  | nil => rfl
  | cons e l ih =>
    obtain ⟨t, v⟩ := e
    rw [dfRownamesSize, List.lookup_cons]
    by_cases h : t = .rowNames
    · subst h; simp
    · have : (KTag.rowNames == t) = false := by simpa using fun h' => h h'.symm
      rw [if_pos h, this, ih]

theorem rows_nonneg {rn : KVal} {n : Int} (h : Rows rn n) : 0 ≤ n := by
  cases h <;> omega

theorem sized_ok {x : KObj} {proxied : Bool} {n : Int} (hok : ClassOk x) (h : SizedObj proxied x n) :
    ∃ t, baseTypeof x proxied = .ok t ∧ sizeSwitch t x = .ok n := by
  obtain ⟨t, h1, h2, h3, h4, h5, h6⟩ := baseTypeof_ok hok proxied
  refine ⟨t, h1, ?_⟩
  have raw : x.ty ≠ .null → IsVec proxied x → ¬ IsDf x → objRawSize x = .ok n → sizeSwitch t x = .ok n := by
    intro g1 g2 g3 g4
    have g5 : t ≠ .scalar := fun h => (h2.1 h) g2
    have g6 : t ≠ .null := fun h => g1 (h3.1 h)
    have g7 : t ≠ .dataframe := fun h => g3 (h4.1 h)
    cases t <;> first | exact g4 | contradiction
  cases h with
  | null h => rw [h3.2 h]; rfl
  | df hd hr hrow =>
    rw [h4.2 hd]
    show dfObjSize x = _
    unfold dfObjSize
    rw [dfRownamesSize_ok, hr]
    dsimp only
    rw [rownamesSize_ok hrow, ok_bind, if_neg (by have := rows_nonneg hrow; omega)]
  | vec g1 g2 g3 g4 =>
    refine raw g1 g2 g3 ?_
    unfold objRawSize
    rw [kindGet_eq]
    rcases g4 with g4 | g4 <;> rw [g4]
  | array g1 g2 g3 g4 =>
    refine raw g1 g2 g3 ?_
    unfold objRawSize
    rw [kindGet_eq, g4]

/-- `vec_size()`: the number of rows by row names, the first dimension, or the length. -/
theorem C79_size (proxy : KObj → Option (C KObj)) {x : KObj} {n : Int} (h : SizeOf proxy x n) :
    objSize proxy x = .ok n := by
  unfold objSize proxyInfo
  rcases h with ⟨hp, hok, hs⟩ | ⟨ho, p, hp, hok, hs⟩
  · have hp : (if x.obj then proxy x else none) = none := by rcases hp with h | h <;> simp [h]
    obtain ⟨t, h1, h2⟩ := sized_ok hok hs
    rw [hp]
    simp only [h1, ok_bind]
    exact h2
  · obtain ⟨t, h1, h2⟩ := sized_ok hok hs
    rw [ho, if_pos rfl, hp]
    simp only [h1, ok_bind]
    exact h2

/-- Scalars have no size. -/
theorem C79_scalar (proxy : KObj → Option (C KObj)) {x : KObj} (h : ScalarOf proxy x) :
    objSize proxy x = .error .abort := by
  unfold objSize proxyInfo
  rcases h with ⟨hp, hok, hs⟩ | ⟨ho, p, hp, hok, hs⟩
  · have hp : (if x.obj then proxy x else none) = none := by rcases hp with h | h <;> simp [h]
    obtain ⟨t, h1, h2, _⟩ := baseTypeof_ok hok false
    rw [hp]
    simp only [h1, ok_bind, h2.2 hs]
    rfl
  · obtain ⟨t, h1, h2, _⟩ := baseTypeof_ok hok true
    rw [ho, if_pos rfl, hp]
    simp only [h1, ok_bind, h2.2 hs]
    rfl

theorem list_length {x : KObj} (h : x.ty = .list) : x.length = x.cols.length := by
  cases x with
  | mk t n nas c a o => cases h; rfl

theorem toInt32_id {n : Int} (h1 : -2147483648 ≤ n) (h2 : n ≤ 2147483647) : toInt32 n = n := by
  unfold toInt32
  rw [Int.bmod_eq_of_le] <;> omega

theorem sizes_loop (proxy : KObj → Option (C KObj)) {x : KObj} {l : List KObj} {r : C (List Int)}
    (h : SizesOf proxy l r) (hfit : ∀ ns, r = .ok ns → ∀ n ∈ ns, -2147483648 ≤ n ∧ n ≤ 2147483647)
    (pre : List KObj) (acc : List Int) (hx : x.cols = pre ++ l) (ha : acc.length = pre.length) :
    forFrom (fun i out => do
      let e ← rd x.cols i
      let s ← objSize proxy e
      wr out i (some (toInt32 s))) pre.length l.length (acc.map some ++ List.replicate l.length none) =
    (match r with
    | .ok ns => .ok ((acc ++ ns).map some)
    | .error e => .error e : C (List (Option Int))) := by
  induction h generalizing pre acc with
  | nil => simp [forFrom]
  | @cons y l n ns hs _ ih =>
    rw [List.length_cons, forFrom, rd_of_getElem? (a := y) (by rw [hx]; simp), ok_bind, C79_size proxy hs, ok_bind]
    have hn := hfit _ rfl n (by simp)
    rw [toInt32_id hn.1 hn.2, wr_ok (by simp; omega), ok_bind]
    have e : (List.map some acc ++ List.replicate (l.length + 1) none).set pre.length (some n) =
        (acc ++ [n]).map some ++ List.replicate l.length none := by
      rw [List.set_append_right _ _ (by simp; omega), ← ha]
      simp [List.replicate_succ]
    have := ih (fun ns' h' n' hn' => by cases h'; exact hfit _ rfl n' (by simp [hn'])) (pre ++ [y]) (acc ++ [n])
      (by rw [hx]; simp) (by simp [ha])
    rw [e]
    simpa using this
  | @late y l n hs _ ih =>
    rw [List.length_cons, forFrom, rd_of_getElem? (a := y) (by rw [hx]; simp), ok_bind, C79_size proxy hs, ok_bind,
      wr_ok (by simp; omega), ok_bind]
    have e : (List.map some acc ++ List.replicate (l.length + 1) none).set pre.length (some (toInt32 n)) =
        (acc ++ [toInt32 n]).map some ++ List.replicate l.length none := by
      rw [List.set_append_right _ _ (by simp; omega), ← ha]
      simp [List.replicate_succ]
    have := ih (fun ns' h' => by cases h') (pre ++ [y]) (acc ++ [toInt32 n])
      (by rw [hx]; simp) (by simp [ha])
    rw [e]
    simpa using this
  | @scalar y l hs =>
    rw [List.length_cons, forFrom, rd_of_getElem? (a := y) (by rw [hx]; simp), ok_bind, C79_scalar proxy hs]
    rfl

/-- `list_sizes()`: the sizes and names of the elements, as long as they fit, or an error at a scalar. -/
theorem C79_list_sizes (proxy : KObj → Option (C KObj)) {x : KObj} {r : C (List Int)} (hok : ClassOk x)
    (hl : IsList x) (hself : SizeOf proxy x x.cols.length) (h : SizesOf proxy x.cols r)
    (hfit : ∀ ns, r = .ok ns → ∀ n ∈ ns, -2147483648 ≤ n ∧ n ≤ 2147483647) :
    listSizes proxy x = (do
      let ns ← r
      .ok (x.attrs.lookup .names, ns) : C (Option KVal × List Int)) := by
  unfold listSizes
  obtain ⟨b, h1, h2⟩ := C79_list hok
  rw [h1, ok_bind, h2.2 hl, Bool.not_true, if_neg Bool.false_ne_true, C79_size proxy hself, ok_bind]
  have := sizes_loop proxy h hfit [] [] rfl rfl
  simp only [Int.toNat_natCast, forN, alloc]
  simp only [List.length_nil, List.map_nil, List.nil_append] at this
  rw [this, kindGet_eq]
  cases r with
  | error e => rfl
  | ok ns =>
    dsimp only
    rw [ok_bind, initd_map_some]

/-- `list_sizes()` of anything but a list. -/
theorem C79_list_sizes_other (proxy : KObj → Option (C KObj)) {x : KObj} (hok : ClassOk x) (hl : ¬ IsList x) :
    listSizes proxy x = .error .abort := by
  unfold listSizes
  obtain ⟨b, h1, h2⟩ := C79_list hok
  rw [h1, ok_bind]
  cases b with
  | true => exact absurd (h2.1 rfl) hl
  | false => rfl

theorem all_size_loop (proxy : KObj → Option (C KObj)) {x : KObj} {size : Int} {l : List KObj} {r : C Bool}
    (h : AllSized proxy size l r) (pre : List KObj) (hx : x.cols = pre ++ l) :
    forBrkFrom (fun i out => do
      let e ← rd x.cols i
      let s ← objSize proxy e
      if s ≠ size then .ok (.brk false) else .ok (.next out)) pre.length l.length true = r := by
  induction h generalizing pre with
  | nil => rfl
  | @same y l r hs _ ih =>
    rw [List.length_cons, forBrkFrom, rd_of_getElem? (a := y) (by rw [hx]; simp), ok_bind, C79_size proxy hs, ok_bind,
      if_neg (by simp)]
    have := ih (pre ++ [y]) (by rw [hx]; simp)
    rw [List.length_append] at this
    exact this
  | @other y l n hs hn =>
    rw [List.length_cons, forBrkFrom, rd_of_getElem? (a := y) (by rw [hx]; simp), ok_bind, C79_size proxy hs, ok_bind,
      if_pos hn]
    rfl
  | @scalar y l hs =>
    rw [List.length_cons, forBrkFrom, rd_of_getElem? (a := y) (by rw [hx]; simp), ok_bind, C79_scalar proxy hs]
    rfl

/-- `list_all_size()` is decided by the first element that has not the size. -/
theorem C79_all_size (proxy : KObj → Option (C KObj)) {x : KObj} {size : Int} {r : C Bool} (ht : x.ty = .list)
    (h : AllSized proxy size x.cols r) : listAllSize proxy x size = r := by
  unfold listAllSize
  rw [if_neg (by simp [ht]), list_length ht]
  exact all_size_loop proxy h [] rfl

/-- `list_all_vectors()`: whether all elements are vectors, with or without methods for `vec_proxy()`.  A list is no
vector if it has a class without methods, and `NULL` is none. -/
theorem C79_all_vectors (proxy : KObj → Option (C KObj)) {x : KObj} (ht : x.ty = .list)
    (hok : ∀ y ∈ x.cols, ((y.obj = false ∨ proxy y = none) ∧ ClassOk y) ∨
      (y.obj = true ∧ ∃ p, proxy y = some (.ok p) ∧ ClassOk p)) :
    ∃ b, listAllVectors proxy x = .ok b ∧ (b = true ↔ ∀ y ∈ x.cols, y.ty ≠ .null ∧
      (((y.obj = false ∨ proxy y = none) ∧ IsVec false y) ∨
        (y.obj = true ∧ ∃ p, proxy y = some (.ok p) ∧ p.ty ≠ .other))) := by
  have elt : ∀ y ∈ x.cols, ∃ b, objIsVector proxy y = .ok b ∧ (b = true ↔ y.ty ≠ .null ∧
      (((y.obj = false ∨ proxy y = none) ∧ IsVec false y) ∨
        (y.obj = true ∧ ∃ p, proxy y = some (.ok p) ∧ p.ty ≠ .other))) := by
    intro y hy
    rcases hok y hy with ⟨h1, h2⟩ | ⟨h1, p, h2, h3⟩
    · obtain ⟨b, k1, k2⟩ := C79_vector proxy h1 h2
      refine ⟨b, k1, k2.trans ?_⟩
      constructor
      · exact fun h => ⟨h.1, .inl ⟨h1, h.2⟩⟩
      · rintro ⟨h, ⟨_, h'⟩ | ⟨h', p, h'', _⟩⟩
        · exact ⟨h, h'⟩
        · rcases h1 with h1 | h1
          · rw [h1] at h'; cases h'
          · rw [h1] at h''; cases h''
    · obtain ⟨b, k1, k2⟩ := C79_vector_proxy proxy h1 h2 h3
      refine ⟨b, k1, k2.trans ?_⟩
      constructor
      · exact fun h => ⟨h.1, .inr ⟨h1, p, h2, h.2⟩⟩
      · rintro ⟨h, ⟨h' | h', _⟩ | ⟨_, q, h'', h'⟩⟩
        · rw [h1] at h'; cases h'
        · rw [h2] at h'; cases h'
        · rw [h2] at h''
          cases h''
          exact ⟨h, h'⟩
  unfold listAllVectors
  rw [if_neg (by simp [ht]), list_length ht]
  refine Ret.forBrk (fun i b => b = true ∧ ∀ j (h : j < x.cols.length), j < i → (x.cols[j].ty ≠ .null ∧
      (((x.cols[j].obj = false ∨ proxy x.cols[j] = none) ∧ IsVec false x.cols[j]) ∨
        (x.cols[j].obj = true ∧ ∃ p, proxy x.cols[j] = some (.ok p) ∧ p.ty ≠ .other)))) _
    ⟨rfl, fun j _ hj => by omega⟩ ?_ ?_
  · rintro i b hi ⟨rfl, hI⟩
    obtain ⟨c, k1, k2⟩ := elt x.cols[i] (List.getElem_mem hi)
    rw [rd_of_getElem? (List.getElem?_eq_getElem hi), ok_bind, k1, ok_bind]
    cases c with
    | false =>
      refine ⟨.brk false, rfl, ?_⟩
      exact ⟨nofun, fun h => k2.2 (h _ (List.getElem_mem hi))⟩
    | true =>
      refine ⟨.next true, rfl, rfl, fun j hj hji => ?_⟩
      rcases Nat.lt_or_ge j i with h | h
      · exact hI j hj h
      · have : j = i := by omega
        subst this
        exact k2.1 rfl
  · rintro b ⟨rfl, hI⟩
    refine ⟨fun _ y hy => ?_, fun _ => rfl⟩
    obtain ⟨j, hj, rfl⟩ := List.getElem_of_mem hy
    exact hI j hj hj

/-- What is not a list is an internal error, even if it is empty. -/
theorem C79_all_vectors_not_list (proxy : KObj → Option (C KObj)) {x : KObj} (ht : x.ty ≠ .list) :
    listAllVectors proxy x = .error .internal := by
  unfold listAllVectors
  rw [if_pos ht]

example : listAllVectors (fun _ => none) (.mk .double 0 [] [] [] false) = .error .internal := rfl

/-- A number and `NULL`. -/
example : listAllVectors (fun _ => none) (.mk .list 2 [] [.mk .double 1 [] [] [] false, .mk .null 0 [] [] [] false] [] false)
    = .ok false := rfl

/-- Unspecified vectors. -/
theorem C79_unspecified {x : KObj} (hok : ClassOk x) (hobj : x.obj = true → x.attrs ≠ []) :
    ∃ b, isUnspecified x = .ok b ∧ (b = true ↔ IsUnspecified x) := by
  unfold isUnspecified
  by_cases ht : x.ty ≠ .logical
  · rw [if_pos ht]; exact ⟨_, rfl, by simp [IsUnspecified, ht]⟩
  have ht : x.ty = .logical := Classical.not_not.1 ht
  rw [if_neg (by simp [ht])]
  have hlen : x.length = x.nas.length := by
    cases x with
    | mk t n nas c a o => cases ht; rfl
  have scan : x.obj = false → x.attrs.lookup .dim = none → ∃ b, (if x.length = 0 then .ok false
      else forBrk x.length (fun i out => do
        let na ← rd x.nas i
        if !na then .ok (.brk false) else .ok (.next out)) true : C Bool) = .ok b ∧ (b = true ↔ IsUnspecified x) := by
    intro ho hd
    by_cases h0 : x.length = 0
    · rw [if_pos h0]
      rw [hlen] at h0
      exact ⟨_, rfl, by simp [IsUnspecified, HasClass, ho, List.eq_nil_of_length_eq_zero h0]⟩
    · rw [if_neg h0]
      have hne : x.nas ≠ [] := fun h => h0 (by rw [hlen, h]; rfl)
      have : Ret (forBrk x.length (fun i out => do
          let na ← rd x.nas i
          if !na then .ok (.brk false) else .ok (.next out)) true : C Bool) (fun b => b = true ↔ IsUnspecified x) := by
        refine Ret.forBrk (fun i b => b = true ∧ ∀ j : Nat, j < i → x.nas[j]? = some true) _ ⟨rfl, fun j hj => by omega⟩
          ?_ ?_
        · rintro i b hi ⟨rfl, hI⟩
          rw [hlen] at hi
          refine Ret.bind_eq (rd_of_getElem? (List.getElem?_eq_getElem hi)) ?_
          cases hb : x.nas[i] with
          | true =>
            refine Ret.ok ⟨rfl, fun j hj => ?_⟩
            rcases Nat.lt_succ_iff_lt_or_eq.1 hj with hj | rfl
            · exact hI j hj
            · rw [List.getElem?_eq_getElem hi, hb]
          | false =>
            refine Ret.ok ?_
            constructor
            · intro h; cases h
            · rintro ⟨_, ⟨cls, hc, _⟩ | ⟨_, _, _, hall⟩⟩
              · rw [hc.1] at ho; cases ho
              · have := hall _ (List.getElem_mem hi)
                rw [hb] at this
                exact this
        · rintro b ⟨rfl, hI⟩
          refine ⟨fun _ => ⟨ht, .inr ⟨ho, hd, hne, fun b hb => ?_⟩⟩, fun _ => rfl⟩
          obtain ⟨j, hj, rfl⟩ := List.mem_iff_getElem.1 hb
          have := hI j (by rw [hlen]; exact hj)
          rw [List.getElem?_eq_getElem hj] at this
          exact Option.some.inj this
      obtain ⟨b, h1, h2⟩ := this
      exact ⟨b, h1, h2⟩
  cases he : x.attrs with
  | nil =>
    have ho : x.obj = false := by
      cases ho : x.obj with
      | false => rfl
      | true => exact absurd he (hobj ho)
    simp only [List.isEmpty_nil, if_true, ok_bind]
    exact scan ho (by rw [he]; rfl)
  | cons e l =>
    rw [← he]
    obtain ⟨b, h1, h2⟩ := kindInherits_ok hok "vctrs_unspecified"
    have hemp : x.attrs.isEmpty = false := by rw [he]; rfl
    rw [hemp, if_neg Bool.false_ne_true, h1, ok_bind]
    cases b with
    | true => exact ⟨_, rfl, by simp [IsUnspecified, ht, h2.1 rfl]⟩
    | false =>
      have h2 : ¬ ∃ cls, HasClass x cls ∧ some "vctrs_unspecified" ∈ cls := fun h => by cases h2.2 h
      rw [if_neg Bool.false_ne_true, kindGet_eq]
      cases ho : x.obj with
      | true =>
        refine ⟨_, rfl, ?_⟩
        simp only [Bool.false_eq_true, false_iff]
        rintro ⟨_, h | h⟩
        · exact h2 h
        · rw [ho] at h; cases h.1
      | false =>
        rw [if_neg Bool.false_ne_true]
        cases hd : x.attrs.lookup .dim with
        | some d =>
          refine ⟨_, rfl, ?_⟩
          simp only [Bool.false_eq_true, false_iff]
          rintro ⟨_, h | h⟩
          · exact h2 h
          · rw [hd] at h; cases h.2.1
        | none => exact scan ho hd

/-- `vec_typeof()`. -/
theorem C79_typeof {x : KObj} (hok : ClassOk x) (hobj : x.obj = true → ∃ cls, HasClass x cls) :
    ∃ t, typeofObj x = .ok t ∧ (t = .unspecified ↔ IsUnspecified x) ∧
      (t = .s3 ↔ ¬ IsUnspecified x ∧ x.obj = true ∧ ¬ HasClass x [some "data.frame"]) ∧
      (t = .scalar ↔ x.obj = false ∧ ¬ IsVec false x) ∧
      (x.obj = true → ¬ IsUnspecified x → HasClass x [some "data.frame"] → t = .dataframe) := by
  unfold typeofObj
  have hne : x.obj = true → x.attrs ≠ [] := by
    intro ho hc
    obtain ⟨cls, _, h⟩ := hobj ho
    rw [hc] at h
    cases h
  obtain ⟨b, h1, h2⟩ := C79_unspecified hok hne
  rw [h1, ok_bind]
  cases b with
  | true =>
    have h2 := h2.1 rfl
    refine ⟨_, rfl, by simp [h2], by simp [h2], ?_, fun _ h => absurd h2 h⟩
    simp [IsVec, h2.1]
  | false =>
    have h2 : ¬ IsUnspecified x := fun h => by cases h2.2 h
    rw [if_neg Bool.false_ne_true, kindGet_eq]
    cases ho : x.obj with
    | false =>
      obtain ⟨t, g1, g2, g3, g4, g5, g6⟩ := baseTypeof_ok hok false
      exact ⟨t, by simpa using g1, by simp [h2, g6], by simp [g5], by simp [g2], fun h => by cases h⟩
    | true =>
      obtain ⟨cls, hc⟩ := hobj ho
      obtain ⟨t, g1, g2⟩ := classTypeOf_ok hok
      rw [hc.2]
      simp only [Bool.not_true, Option.isNone_some, Bool.or_self, Bool.false_eq_true, if_false, g1, ok_bind]
      rcases g2 with ⟨_, hn⟩ | ⟨cls', hc', hi⟩
      · exact absurd hc (hn _)
      have hbare : t = .bareDataFrame ↔ HasClass x [some "data.frame"] := by
        constructor
        · rintro rfl
          generalize ht : VClass.bareDataFrame = u at hi
          cases hi with
          | @bare s u hb =>
            simp only [bareClasses, List.mem_cons, List.not_mem_nil, or_false, Prod.mk.injEq] at hb
            subst ht
            simp at hb
            rw [hb] at hc'
            exact hc'
          | df => cases ht
          | list => cases ht
          | unknown => cases ht
        · intro h
          cases hasClass_det hc' h
          exact classIs_det hi (.bare (s := ["data.frame"]) (by simp [bareClasses]))
      by_cases ht : t = .bareDataFrame
      · rw [if_pos ht]
        exact ⟨_, rfl, by simp [h2], by simp [hbare.1 ht], by simp, fun _ _ _ => rfl⟩
      · rw [if_neg ht]
        have : ¬ HasClass x [some "data.frame"] := fun h => ht (hbare.2 h)
        exact ⟨_, rfl, by simp [h2], by simp [h2, this], by simp, fun _ _ h => absurd h this⟩

/-- Compact row names of a missing number of rows: `abs()` is undefined. -/
theorem C79_missing_rows : rownamesSize (.int [naInt, naInt]) = .error .ub := rfl

/-- A vector of 2^31 elements: its size is right, its size within a list is not. -/
theorem C79_long : ∃ x : KObj, objSize (fun _ => none) x = .ok 2147483648 ∧
    listSizes (fun _ => none) (.mk .list 0 [] [x] [] false) = .ok (none, [-2147483648]) :=
  ⟨.mk .raw 2147483648 [] [] [] false, by decide +kernel, by decide +kernel⟩

/-- A tibble with two columns and three rows. -/
def exTibble79 : KObj := .mk .list 0 [] [.mk .integer 3 [] [] [] false, .mk .double 3 [] [] [] false]
  [(.names, .chr [some "a", some "b"]), (.class_, .chr [some "tbl_df", some "tbl", some "data.frame"]),
   (.rowNames, .int [naInt, -3])] true

/-- A matrix of five rows. -/
def exMatrix79 : KObj := .mk .double 10 [] [] [(.dim, .int [5, 2])] false

/-- An S3 scalar. -/
def exScalar79 : KObj := .mk .list 0 [] [] [(.class_, .chr [some "lm"])] true

theorem exTibble79_ok : ClassOk exTibble79 := by
  intro v hv
  cases hv
  exact ⟨_, rfl, by simp⟩

example : IsDf exTibble79 := ⟨rfl, [some "tbl_df", some "tbl"], rfl, rfl⟩
example : SizeOf (fun _ => none) exTibble79 3 :=
  .inl ⟨.inr rfl, exTibble79_ok, .df ⟨rfl, [some "tbl_df", some "tbl"], rfl, rfl⟩ rfl (.neg (n := 3) (by omega))⟩
theorem exMatrix79_size : SizeOf (fun _ => none) exMatrix79 5 :=
  .inl ⟨.inl rfl, (fun v (hv : none = some v) => nomatch hv), .array (by decide) ⟨by decide, fun h => nomatch h⟩
    (by rintro ⟨h, _⟩; cases h) rfl⟩
theorem exScalar79_scalar : ScalarOf (fun _ => none) exScalar79 := by
  refine .inl ⟨.inr rfl, fun v hv => by cases hv; exact ⟨_, rfl, by simp⟩, fun h => ?_⟩
  rcases h.2 rfl with h | ⟨_, pre, h⟩ | h | ⟨cls, h, hc⟩
  · cases h
  · have : [some "lm"] = pre ++ [some "data.frame"] := hasClass_det ⟨rfl, rfl⟩ h
    have := congrArg List.getLast? this
    simp at this
  · cases h
  · have : [some "lm"] = cls := hasClass_det ⟨rfl, rfl⟩ h
    subst this
    simp at hc
example : SizesOf (fun _ => none) [exMatrix79, exScalar79] (.error .abort) :=
  .late exMatrix79_size (.scalar exScalar79_scalar)
example : AllSized (fun _ => none) 4 [exMatrix79, exScalar79] (.ok false) := .other exMatrix79_size (by decide)
example : IsList (.mk .list 0 [] [exMatrix79] [(.class_, .chr [some "foo", some "list"])] true) :=
  ⟨rfl, .inr (.inl ⟨[some "foo"], rfl, rfl⟩)⟩
example : ClassIs [some "foo", some "data.frame"] .dataFrame := .df (pre := [some "foo"]) (by simp [bareClasses])

end Vctrs
