import Verif.Props.C79

/-! # C80: `new_data_frame()` -/

namespace Vctrs

namespace Spec

/-- The number of rows without row names: `n` if given, otherwise that of `x`. -/
inductive NewRows (proxy : KObj → Option (C KObj)) (x : KObj) : Option (Option (List Int)) → Int → Prop
  | given {n : Nat} : n ≤ 2147483647 → NewRows proxy x (some (some [(n : Int)])) n
  | rows {rn : KVal} {n : Int} : x.attrs.lookup .rowNames = some rn → Rows rn n → NewRows proxy x none n
  | column {c : KObj} {cols : List KObj} {n : Int} : x.attrs.lookup .rowNames = none → x.cols = c :: cols →
      SizeOf proxy c n → NewRows proxy x none n
  | empty : x.attrs.lookup .rowNames = none → x.cols = [] → NewRows proxy x none 0

/-- Invalid `n`: not a single integer, missing or negative. -/
def BadN (n : Option (List Int)) : Prop := ∀ k : Nat, k ≤ 2147483647 → n ≠ some [(k : Int)]

/-- The names: those given, those of the list, or none for no columns. -/
def newNames (x : KObj) (dots : List (KTag × KVal)) : Option KVal :=
  match dots.lookup .names with
  | some v => some v
  | none => if x.cols = [] then some (.chr []) else x.attrs.lookup .names

/-- The data frame `y` made of the columns of `x`, up to row names. -/
structure NewFrame (x : KObj) (cls : List (Option String)) (dots : List (KTag × KVal)) (y : KObj) : Prop where
  list : y.ty = .list
  obj : y.obj = true
  cols : y.cols = x.cols
  cls : y.attrs.lookup .class_ = some (.chr (cls ++ [some "data.frame"]))
  names : y.attrs.lookup .names = newNames x dots
  dim : y.attrs.lookup .dim = dots.lookup .dim
  other : ∀ n, y.attrs.lookup (.other n) = dots.lookup (.other n)

end Spec

open Spec

theorem lookup_cons_ne {t u : KTag} {v : KVal} {l : List (KTag × KVal)} (h : t ≠ u) :
    List.lookup t ((u, v) :: l) = l.lookup t := by
  have : (t == u) = false := by simpa using h
  rw [List.lookup_cons, this]

theorem scanDots_ok (l : List (KTag × KVal)) (s : Bool × Bool) (h : l.lookup .class_ = none) :
    scanDots l s = .ok (s.1 || (l.lookup .names).isSome, s.2 || (l.lookup .rowNames).isSome) := by
  induction l generalizing s with
  | nil => simp [scanDots]
  | cons e l ih =>
    obtain ⟨t, v⟩ := e
    rw [scanDots]
    by_cases h1 : t = .class_
    · subst h1; simp at h
    rw [lookup_cons_ne (Ne.symm h1)] at h
    rw [if_neg h1]
    by_cases h2 : t = .names
    · subst h2
      rw [if_pos rfl, ih _ h, lookup_cons_ne (t := .rowNames) (by simp)]
      simp
    rw [if_neg h2, lookup_cons_ne (t := .names) (Ne.symm h2)]
    by_cases h3 : t = .rowNames
    · subst h3
      rw [if_pos rfl, ih _ h]
      simp
    rw [if_neg h3, lookup_cons_ne (t := .rowNames) (Ne.symm h3), ih _ h]

theorem scanDots_class (l : List (KTag × KVal)) (s : Bool × Bool) {v : KVal} (h : l.lookup .class_ = some v) :
    scanDots l s = .error .internal := by
  induction l generalizing s with
  | nil => cases h
  | cons e l ih =>
    obtain ⟨t, v⟩ := e
    rw [scanDots]
    by_cases h1 : t = .class_
    · rw [if_pos h1]
    rw [lookup_cons_ne (Ne.symm h1)] at h
    rw [if_neg h1]
    by_cases h2 : t = .names
    · rw [if_pos h2, ih _ h]
    rw [if_neg h2]
    by_cases h3 : t = .rowNames
    · rw [if_pos h3, ih _ h]
    rw [if_neg h3, ih _ h]

theorem newRows_ok {proxy : KObj → Option (C KObj)} {x : KObj} {n : Option (Option (List Int))} {k : Int}
    (ht : x.ty = .list) (h : NewRows proxy x n k) : newDfSize proxy x n = .ok k := by
  cases h with
  | @given n hn =>
    dsimp only [newDfSize, dfSizeFromN]
    rw [if_neg (by unfold naInt; omega), if_neg (by omega)]
  | @rows rn n hr h =>
    dsimp only [newDfSize, dfObjRawSize]
    rw [dfRownamesSize_ok, hr]
    dsimp only
    rw [rownamesSize_ok h, ok_bind, if_pos (by have := rows_nonneg h; omega)]
  | @column c cols n hr hc h =>
    dsimp only [newDfSize, dfObjRawSize]
    rw [dfRownamesSize_ok, hr]
    dsimp only
    rw [ok_bind, if_neg (by omega), list_length ht, hc, if_pos (by simp), rd_of_getElem? (a := c) (by simp), ok_bind,
      C79_size proxy h]
  | empty hr hc =>
    dsimp only [newDfSize, dfObjRawSize]
    rw [dfRownamesSize_ok, hr]
    dsimp only
    rw [ok_bind, if_neg (by omega), list_length ht, hc, if_neg (by simp)]

theorem newCompact_rows {n : Int} (h0 : 0 ≤ n) (h : n ≤ 2147483647) : Rows (newCompactRownames n) n := by
  unfold newCompactRownames
  by_cases h1 : n ≤ 0
  · rw [if_pos h1]
    have : n = 0 := by omega
    subst this
    exact .int (by simp)
  · rw [if_neg h1, toInt32_id (by omega) (by omega)]
    obtain ⟨k, rfl⟩ := Int.eq_ofNat_of_zero_le h0
    exact .neg (by omega)

/-- The attributes before class and row names. -/
theorem new_names {x : KObj} {dots : List (KTag × KVal)} (ht : x.ty = .list) (b : Bool)
    (hb : b = (dots.lookup .names).isSome) :
    ∃ l : List (KTag × KVal), dotsNames b x dots = l ∧ l.lookup .names = newNames x dots ∧ ∀ t, t ≠ .names → l.lookup t = dots.lookup t := by
  refine ⟨_, rfl, ?_⟩
  unfold newNames dotsNames
  cases hd : dots.lookup .names with
  | some v =>
    rw [hd] at hb
    subst hb
    exact ⟨hd, fun _ _ => rfl⟩
  | none =>
    rw [hd] at hb
    subst hb
    rw [list_length ht, kindGet_eq]
    simp only [Option.isSome_none, Bool.not_false, if_true, List.length_eq_zero_iff]
    by_cases hc : x.cols = []
    · rw [if_pos hc]
      exact ⟨by simp, fun t h => lookup_cons_ne h⟩
    · rw [if_neg hc]
      cases hn : x.attrs.lookup .names with
      | none => exact ⟨hd, fun _ _ => rfl⟩
      | some v => exact ⟨by simp, fun t h => lookup_cons_ne h⟩

/-- The class as given. -/
def newClass : Option (Option (List (Option String))) → Option (List (Option String))
  | none => some []
  | some none => none
  | some (some l) => some l

theorem newClass_ok {cls : Option (Option (List (Option String)))} {l : List (Option String)} (h : newClass cls = some l) :
    newDfClass cls = .ok (l ++ [some "data.frame"]) := by
  match cls, h with
  | none, h => cases h; rfl
  | some (some k), h => cases h; rfl

theorem newFrame_ok {x : KObj} {cls : List (Option String)} {dots l l' : List (KTag × KVal)}
    (h1 : l.lookup .names = newNames x dots) (h2 : ∀ t, t ≠ .names → l.lookup t = dots.lookup t)
    (h3 : ∀ t, t ≠ .rowNames → l'.lookup t = l.lookup t) :
    NewFrame x cls dots (.mk .list 0 [] x.cols ((.class_, .chr (cls ++ [some "data.frame"])) :: l') true) := by
  refine ⟨rfl, rfl, rfl, rfl, ?_, ?_, fun n => ?_⟩
  · show List.lookup _ ((KTag.class_, _) :: l') = _
    rw [lookup_cons_ne (by simp), h3 _ (by simp), h1]
  · show List.lookup _ ((KTag.class_, _) :: l') = _
    rw [lookup_cons_ne (by simp), h3 _ (by simp), h2 _ (by simp)]
  · show List.lookup _ ((KTag.class_, _) :: l') = _
    rw [lookup_cons_ne (by simp), h3 _ (by simp), h2 _ (by simp)]

/-- Without row names in `...`: the columns of `x`, the class and the attributes given, and as many
rows as `n` or `x` have. -/
theorem C80_new (proxy : KObj → Option (C KObj)) {x : KObj} {n : Option (Option (List Int))} {k : Int}
    {cls : Option (Option (List (Option String)))} {l : List (Option String)} {dots : List (KTag × KVal)}
    (ht : x.ty = .list) (hn : NewRows proxy x n k) (hk0 : 0 ≤ k) (hk : k ≤ 2147483647) (hc : newClass cls = some l)
    (hd : dots.lookup .class_ = none) (hr : dots.lookup .rowNames = none) :
    Ret (newDataFrameObj proxy x n cls dots) (fun y => NewFrame x l dots y ∧
      ∃ rn, y.attrs.lookup .rowNames = some rn ∧ Rows rn k) := by
  unfold newDataFrameObj
  rw [if_neg (by simp [ht])]
  refine Ret.bind_eq (scanDots_ok dots _ hd) ?_
  dsimp only
  rw [hr]
  obtain ⟨a, ha, h1, h2⟩ := new_names (dots := dots) ht (false || (dots.lookup .names).isSome) (by simp)
  rw [ha]
  simp only [Option.isSome_none, Bool.or_self, Bool.not_false, if_true]
  refine Ret.bind_eq (a := (.rowNames, newCompactRownames k) :: a) ?_ ?_
  · rw [newRows_ok ht hn, ok_bind]
  refine Ret.bind_eq (newClass_ok hc) (Ret.ok ⟨newFrame_ok h1 h2 fun t h => lookup_cons_ne h, ?_⟩)
  exact ⟨newCompactRownames k, rfl, newCompact_rows hk0 hk⟩

/-- Row names in `...` are taken as they are; `n` is ignored. -/
theorem C80_rownames (proxy : KObj → Option (C KObj)) {x : KObj} (n : Option (Option (List Int))) {rn : KVal}
    {cls : Option (Option (List (Option String)))} {l : List (Option String)} {dots : List (KTag × KVal)}
    (ht : x.ty = .list) (hc : newClass cls = some l)
    (hd : dots.lookup .class_ = none) (hr : dots.lookup .rowNames = some rn) :
    Ret (newDataFrameObj proxy x n cls dots) (fun y => NewFrame x l dots y ∧
      y.attrs.lookup .rowNames = some rn) := by
  unfold newDataFrameObj
  rw [if_neg (by simp [ht])]
  refine Ret.bind_eq (scanDots_ok dots _ hd) ?_
  dsimp only
  rw [hr]
  obtain ⟨a, ha, h1, h2⟩ := new_names (dots := dots) ht (false || (dots.lookup .names).isSome) (by simp)
  rw [ha]
  simp only [Option.isSome_some, Bool.or_true, Bool.not_true, Bool.false_eq_true, if_false]
  refine Ret.bind_eq rfl ?_
  refine Ret.bind_eq (newClass_ok hc) (Ret.ok ⟨newFrame_ok h1 h2 fun t h => rfl, ?_⟩)
  show List.lookup _ ((KTag.class_, _) :: a) = _
  rw [lookup_cons_ne (by simp), h2 _ (by simp), hr]

/-- The result is a data frame, but not a list, whatever the class; its size is that of its row names. -/
theorem C80_is_df (proxy : KObj → Option (C KObj)) {x y : KObj} {l : List (Option String)}
    {dots : List (KTag × KVal)} {rn : KVal} {k : Int} (h : NewFrame x l dots y)
    (hr : y.attrs.lookup .rowNames = some rn) (hk : Rows rn k) (hp : proxy y = none) :
    isDfObj y = .ok true ∧ objIsList y = .ok false ∧ objSize proxy y = .ok k := by
  have hok : ClassOk y := by
    intro v hv
    rw [h.cls] at hv
    cases hv
    exact ⟨_, rfl, by simp⟩
  have hdf : IsDf y := ⟨h.list, l, h.obj, h.cls⟩
  have := (C79_df hok).2 hdf
  exact ⟨this, C79_disjoint hok this, C79_size proxy (.inl ⟨.inr hp, hok, .df hdf hr hk⟩)⟩

/-- Errors: not a list, a class in `...`, an invalid `n`, an invalid class. -/
theorem C80_errors (proxy : KObj → Option (C KObj)) (x : KObj) (n : Option (Option (List Int)))
    (cls : Option (Option (List (Option String)))) (dots : List (KTag × KVal)) :
    (x.ty ≠ .list → newDataFrameObj proxy x n cls dots = .error .abort) ∧
    (∀ v, x.ty = .list → dots.lookup .class_ = some v →
      newDataFrameObj proxy x n cls dots = .error .internal) ∧
    (∀ m, x.ty = .list → dots.lookup .class_ = none → dots.lookup .rowNames = none → n = some m → BadN m →
      (∀ k ∈ m, ∀ i ∈ k, i ≤ 2147483647) → newDataFrameObj proxy x n cls dots = .error .abort) ∧
    (∀ k, x.ty = .list → dots.lookup .class_ = none → NewRows proxy x n k ∨ (dots.lookup .rowNames).isSome = true →
      cls = some none → newDataFrameObj proxy x n cls dots = .error .abort) := by
  unfold newDataFrameObj
  refine ⟨fun h => if_pos h, fun v ht hv => ?_, fun m ht hd hr hn hbad hint => ?_, fun k ht hd hk hc => ?_⟩
  · rw [if_neg (by simp [ht]), scanDots_class dots _ hv]; rfl
  · rw [if_neg (by simp [ht]), scanDots_ok dots _ hd, ok_bind, hr, hn]
    have : dfSizeFromN m = .error .abort := by
      match m, hbad, hint with
      | none, _, _ => rfl
      | some [], _, _ => rfl
      | some (a :: b :: l), _, _ => rfl
      | some [a], hbad, hint =>
        dsimp only [dfSizeFromN]
        by_cases h1 : a = naInt
        · rw [if_pos h1]
        · rw [if_neg h1]
          by_cases h2 : a < 0
          · rw [if_pos h2]
          · exfalso
            have := hint [a] rfl a (by simp)
            exact hbad a.toNat (by omega) (by
              have : ((a.toNat : Nat) : Int) = a := Int.toNat_of_nonneg (by omega)
              rw [this])
    simp only [Option.isSome_none, Bool.or_self, Bool.not_false, if_true, newDfSize, this, error_bind]
  · rw [if_neg (by simp [ht]), scanDots_ok dots _ hd, ok_bind, hc]
    dsimp only [newDfClass]
    cases hr : dots.lookup .rowNames with
    | some v => simp only [Option.isSome_some, Bool.or_true, Bool.not_true, Bool.false_eq_true, if_false, ok_bind,
        error_bind]
    | none =>
      rcases hk with hk | hk
      · simp only [Option.isSome_none, Bool.or_self, Bool.not_false, if_true]
        rw [newRows_ok ht hk]
        simp only [ok_bind, error_bind]
      · rw [hr] at hk; cases hk

/-- Counterexample without the bound: the rows of a column of 2^31 elements. -/
theorem C80_long : ∃ (x y : KObj), newDataFrameObj (fun _ => none) x none none [] = .ok y ∧
    objSize (fun _ => none) y = .error .ub ∧ x.ty = .list ∧ NewRows (fun _ => none) x none 2147483648 :=
  ⟨.mk .list 0 [] [.mk .raw 2147483648 [] [] [] false] [] false, _, rfl, rfl, rfl,
    .column rfl rfl (.inl ⟨.inl rfl, (fun v (hv : none = some v) => nomatch hv),
      .vec (by decide) ⟨by decide, fun h => nomatch h⟩ (by rintro ⟨h, _⟩; cases h) (.inl rfl)⟩)⟩

example : NewRows (fun _ => none) exTibble79 none 3 := .rows rfl (.neg (n := 3) (by omega))
example : NewRows (fun _ => none) (.mk .list 0 [] [exMatrix79] [(.names, .chr [some "m"])] false) none 5 :=
  .column rfl rfl exMatrix79_size
example : BadN (some [-1]) := by
  intro k hk h
  cases h
example : ∃ y, newDataFrameObj (fun _ => none) exTibble79 (some (some [7])) (some (some [some "foo"]))
    [(.other 1, .int [1])] = .ok y ∧ y.attrs.lookup .rowNames = some (.int [naInt, -7]) := ⟨_, rfl, rfl⟩

end Vctrs
