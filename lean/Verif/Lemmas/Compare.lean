import Verif.Lemmas.Equal
import Verif.Model.Compare
import Verif.Lemmas.Hash

/-! # `vec_compare()`: elements, loops and rows -/

namespace Vctrs

open Spec

/-! ## Strings -/

theorem strcmp_spec : (s t : List Char) →
    (strcmp s t < 0 ↔ BytesLt s t) ∧ (0 < strcmp s t ↔ BytesLt t s) ∧ (strcmp s t = 0 ↔ s = t)
  | [], [] => by simp [strcmp, BytesLt]
  | [], d :: t => by simp [strcmp, BytesLt]
  | c :: s, [] => by simp [strcmp, BytesLt]
  | c :: s, d :: t => by
      obtain ⟨h1, h2, h3⟩ := strcmp_spec s t
      simp only [strcmp, BytesLt]
      by_cases hcd : c = d
      · subst hcd
        rw [if_pos rfl]
        refine ⟨?_, ?_, ?_⟩
        · rw [h1]; simp
        · rw [h2]; simp
        · rw [h3]; simp
      · rw [if_neg hcd]
        have hne : c.toNat ≠ d.toNat := fun h => hcd (Char.toNat_inj.1 h)
        have hdc : ¬ d = c := fun h => hcd h.symm
        refine ⟨?_, ?_, ?_⟩
        · simp only [hcd, false_and, or_false]; omega
        · simp only [hdc, false_and, or_false]; omega
        · constructor
          · intro h; omega
          · intro h; injection h with h; exact absurd h hcd

theorem chrCompareScalar_spec {s t : List Char} (h : s ≠ t) :
    ∃ r : Int, chrCompareScalar s t = .ok r ∧ ((r = -1 ∧ BytesLt s t ∧ ¬ BytesLt t s) ∨
      (r = 1 ∧ BytesLt t s ∧ ¬ BytesLt s t)) := by
  obtain ⟨h1, h2, h3⟩ := strcmp_spec s t
  have hne : strcmp s t ≠ 0 := fun e => h (h3.1 e)
  unfold chrCompareScalar
  simp only
  rw [if_neg hne]
  rcases lt_or_gt_of_ne hne with hl | hl
  · refine ⟨_, rfl, .inl ⟨?_, h1.1 hl, fun hb => by have := h2.2 hb; omega⟩⟩
    have : ((strcmp s t).natAbs : Int) = -(strcmp s t) := by omega
    rw [this, Int.ediv_neg, Int.ediv_self hne]
  · refine ⟨_, rfl, .inr ⟨?_, h2.1 hl, fun hb => by have := h1.2 hb; omega⟩⟩
    have : ((strcmp s t).natAbs : Int) = strcmp s t := by omega
    rw [this, Int.ediv_self hne]

theorem Spec.BytesLt.trans : {s t u : List Char} → BytesLt s t → BytesLt t u → BytesLt s u
  | [], [], _, h, _ => absurd rfl h
  | [], _ :: _, [], _, h => by cases h
  | [], _ :: _, _ :: _, _, _ => by simp [BytesLt]
  | _ :: _, [], _, h, _ => by cases h
  | _ :: _, _ :: _, [], _, h => by cases h
  | c :: s, d :: t, e :: u, h, h' => by
      simp only [BytesLt] at h h' ⊢
      rcases h with h | ⟨rfl, h⟩ <;> rcases h' with h' | ⟨rfl, h'⟩
      · exact .inl (by omega)
      · exact .inl h
      · exact .inl h'
      · exact .inr ⟨rfl, h.trans h'⟩

/-! ## Elements -/

/-- What is shown about a comparison `r` of `a` and `b`. -/
structure CmpRes (t : ATy) (a b : t.El) (r : Int) : Prop where
  range : r = -1 ∨ r = 0 ∨ r = 1
  lt : r = -1 ↔ AtomLt t a b
  gt : r = 1 ↔ AtomLt t b a
  eq : r = 0 ↔ SameAtom t a b

/-- The element fits its C type. -/
def EltFits : (t : ATy) → t.El → Prop
  | .lgl, (x : Int) => IsInt x
  | .int, (x : Int) => IsInt x
  | _, _ => True

theorem intCompareScalar_spec {x y : Int} (hx : IsInt x) (hy : IsInt y) :
    ((intCompareScalar x y = -1 ∨ intCompareScalar x y = 0 ∨ intCompareScalar x y = 1)) ∧
    (intCompareScalar x y = -1 ↔ (x ≠ y ∧ (x = naInt ∨ (y ≠ naInt ∧ x < y)))) ∧
    (intCompareScalar x y = 1 ↔ (y ≠ x ∧ (y = naInt ∨ (x ≠ naInt ∧ y < x)))) ∧
    (intCompareScalar x y = 0 ↔ x = y) := by
  unfold IsInt at hx hy
  unfold intCompareScalar
  simp only [naInt] at *
  by_cases h1 : y < x
  · by_cases h2 : x < y
    · omega
    · rw [if_pos h1, if_neg h2]; omega
  · by_cases h2 : x < y
    · rw [if_neg h1, if_pos h2]; omega
    · rw [if_neg h1, if_neg h2]; omega

theorem dblLtOp_iff {x y : Dbl} (hx : ¬ IsNaN x) (hy : ¬ IsNaN y) :
    dblLtOp x y = true ↔ dblVal x < dblVal y := by
  have h1 : isNan x = false := by simpa using fun e => hx ((isNan_iff x).1 e)
  have h2 : isNan y = false := by simpa using fun e => hy ((isNan_iff y).1 e)
  simp [dblLtOp, h1, h2]

theorem dblCompareNaEqual_spec (x y : Dbl) : CmpRes .dbl x y (dblCompareNaEqual x y) := by
  show CmpRes .dbl x y _
  have hl : ∀ a b : Dbl, AtomLt .dbl a b ↔ DblLt a b := fun _ _ => Iff.rfl
  have hs : ∀ a b : Dbl, SameAtom .dbl a b ↔ SameDbl a b := fun _ _ => Iff.rfl
  unfold dblCompareNaEqual
  rcases dblClassify_spec x with ⟨hx, hx1, hx2⟩ | ⟨hx, hx1, hx2⟩ | ⟨hx, hx1, hx2⟩ <;>
  rcases dblClassify_spec y with ⟨hy, hy1, hy2⟩ | ⟨hy, hy1, hy2⟩ | ⟨hy, hy1, hy2⟩ <;>
  rw [hx, hy] <;> simp only
  · unfold dblCompareScalar
    have e1 := dblLtOp_iff hx1 hy1
    have e2 := dblLtOp_iff hy1 hx1
    rcases lt_trichotomy (dblVal x) (dblVal y) with h | h | h
    · rw [if_pos (e1.2 h), if_neg (fun e => by have := e2.1 e; omega)]
      constructor
      · simp
      · rw [hl]; simp [DblLt, hx1, hy1, h]
      · rw [hl]; simp [DblLt, dblRank, hx1, hx2, hy1, hy2]; omega
      · rw [hs]; simp [SameDbl, hx1, hx2, hy1, hy2]; omega
    · rw [if_neg (fun e => by have := e2.1 e; omega), if_neg (fun e => by have := e1.1 e; omega)]
      constructor
      · simp
      · rw [hl]; simp [DblLt, dblRank, hx1, hx2, hy1, hy2]; omega
      · rw [hl]; simp [DblLt, dblRank, hx1, hx2, hy1, hy2]; omega
      · rw [hs]; simp [SameDbl, hx1, hx2, hy1, hy2, h]
    · rw [if_pos (e2.2 h), if_neg (fun e => by have := e1.1 e; omega)]
      constructor
      · simp
      · rw [hl]; simp [DblLt, dblRank, hx1, hx2, hy1, hy2]; omega
      · rw [hl]; simp [DblLt, hx1, hy1, h]
      · rw [hs]; simp [SameDbl, hx1, hx2, hy1, hy2]; omega
  all_goals
    constructor
    · simp
    · rw [hl]; simp [DblLt, dblRank, hx1, hx2, hy1, hy2]
    · rw [hl]; simp [DblLt, dblRank, hx1, hx2, hy1, hy2]
    · rw [hs]; simp [SameDbl, hx1, hx2, hy1, hy2]

theorem bytesLt_irrefl (s : List Char) : ¬ BytesLt s s := by
  obtain ⟨h1, -, h3⟩ := strcmp_spec s s
  intro h
  have := h1.2 h
  rw [h3.2 rfl] at this
  omega

theorem chrCompareNaEqual_spec (x y : Name) :
    ∃ r, chrCompareNaEqual x y = .ok r ∧ CmpRes .chr x y r := by
  have hs : ∀ a b : Name, SameAtom .chr a b ↔ a = b := fun _ _ => Iff.rfl
  unfold chrCompareNaEqual
  by_cases he : x = y
  · subst he
    rw [if_pos rfl]
    refine ⟨0, rfl, ⟨by simp, ?_, ?_, by rw [hs]; simp⟩⟩
    · cases x with
      | none => show (0 : Int) = -1 ↔ False; simp
      | some s => show (0 : Int) = -1 ↔ BytesLt s s; simp [bytesLt_irrefl]
    · cases x with
      | none => show (0 : Int) = 1 ↔ False; simp
      | some s => show (0 : Int) = 1 ↔ BytesLt s s; simp [bytesLt_irrefl]
  · rw [if_neg he]
    cases x with
    | none =>
      cases y with
      | none => exact absurd rfl he
      | some t =>
        refine ⟨-1, rfl, ⟨by simp, ?_, ?_, by rw [hs]; simp⟩⟩
        · show (-1 : Int) = -1 ↔ True; simp
        · show (-1 : Int) = 1 ↔ False; simp
    | some s =>
      cases y with
      | none =>
        refine ⟨1, rfl, ⟨by simp, ?_, ?_, by rw [hs]; simp⟩⟩
        · show (1 : Int) = -1 ↔ False; simp
        · show (1 : Int) = 1 ↔ True; simp
      | some t =>
        obtain ⟨r, hr, hr'⟩ := chrCompareScalar_spec (s := s) (t := t) (fun h => he (by rw [h]))
        refine ⟨r, hr, ⟨?_, ?_, ?_, ?_⟩⟩
        · rcases hr' with ⟨h, -⟩ | ⟨h, -⟩ <;> simp [h]
        · show r = -1 ↔ BytesLt s t
          rcases hr' with ⟨h, h1, h2⟩ | ⟨h, h1, h2⟩ <;> simp [h, h1, h2]
        · show r = 1 ↔ BytesLt t s
          rcases hr' with ⟨h, h1, h2⟩ | ⟨h, h1, h2⟩ <;> simp [h, h1, h2]
        · rw [hs]
          rcases hr' with ⟨h, -⟩ | ⟨h, -⟩ <;> simp [h] <;> exact fun e => he (by rw [e])

theorem compareNaEqual_spec : (t : ATy) → Ordered t → (a b : t.El) → EltFits t a → EltFits t b →
    ∃ r, compareNaEqual t a b = .ok r ∧ CmpRes t a b r
  | .lgl, _, (a : Int), (b : Int), ha, hb => by
      obtain ⟨h1, h2, h3, h4⟩ := intCompareScalar_spec (x := a) (y := b) ha hb
      exact ⟨intCompareScalar a b, rfl, ⟨h1, h2, h3, h4⟩⟩
  | .int, _, (a : Int), (b : Int), ha, hb => by
      obtain ⟨h1, h2, h3, h4⟩ := intCompareScalar_spec (x := a) (y := b) ha hb
      exact ⟨intCompareScalar a b, rfl, ⟨h1, h2, h3, h4⟩⟩
  | .dbl, _, (a : Dbl), (b : Dbl), _, _ => ⟨_, rfl, dblCompareNaEqual_spec a b⟩
  | .chr, _, (a : Name), (b : Name), _, _ => chrCompareNaEqual_spec a b
  | .cpl, h, _, _, _, _ => by cases h
  | .raw, h, _, _, _, _ => by cases h

theorem compareNaPropagate_spec : (t : ATy) → Ordered t → (a b : t.El) →
    compareNaPropagate t a b = if isMissing t a || isMissing t b then .ok none
      else (do .ok (some (← compareNaEqual t a b)))
  | .lgl, _, (a : Int), (b : Int) => by
      show (.ok (if isMissing .lgl a || isMissing .lgl b then none
        else some (intCompareScalar a b)) : C (Option Int)) = if isMissing .lgl a || isMissing .lgl b
          then .ok none else .ok (some (intCompareScalar a b))
      split <;> rfl
  | .int, _, (a : Int), (b : Int) => by
      show (.ok (if isMissing .int a || isMissing .int b then none
        else some (intCompareScalar a b)) : C (Option Int)) = if isMissing .int a || isMissing .int b
          then .ok none else .ok (some (intCompareScalar a b))
      split <;> rfl
  | .dbl, _, (a : Dbl), (b : Dbl) => by
      show (.ok (if isNan a || isNan b then none
        else some (dblCompareScalar a b)) : C (Option Int)) = if isNan a || isNan b
          then .ok none else .ok (some (dblCompareNaEqual a b))
      cases ha : isNan a
      · cases hb : isNan b
        · have h1 := dblClassify_number.2 ha
          have h2 := dblClassify_number.2 hb
          simp [dblCompareNaEqual, h1, h2]
        · rfl
      · rfl
  | .chr, _, (a : Name), (b : Name) => by
      show chrCompareNaPropagate a b = if a.isNone || b.isNone
          then .ok none else (do .ok (some (← chrCompareNaEqual a b)))
      cases a with
      | none => rfl
      | some s =>
        cases b with
        | none => rfl
        | some t =>
          simp only [chrCompareNaPropagate, chrCompareNaEqual, Option.some.injEq]
          by_cases h : s = t
          · rw [if_pos h, if_pos h]; rfl
          · rw [if_neg h, if_neg h]; rfl
  | .cpl, h, _, _ => by cases h
  | .raw, h, _, _ => by cases h

/-! ## Transitivity -/

theorem dblLt_trans {x y z : Dbl} (h : DblLt x y) (h' : DblLt y z) : DblLt x z := by
  have hr : ∀ w, (IsNaN w ↔ dblRank w < 2) := by
    intro w
    unfold dblRank
    by_cases h1 : IsNA w
    · simp [h1, h1.1]
    · by_cases h2 : IsNaN w <;> simp [h1, h2]
  unfold DblLt at *
  rw [hr x, hr y] at h
  rw [hr y, hr z] at h'
  rw [hr x, hr z]
  have h3 : ∀ w, dblRank w ≤ 2 := by
    intro w; unfold dblRank; split
    · omega
    · split <;> omega
  have := h3 x; have := h3 y; have := h3 z
  omega

theorem dblLt_same_left {x y z : Dbl} (h : SameDbl x y) (h' : DblLt y z) : DblLt x z := by
  obtain ⟨h1, h2, h3⟩ := h
  unfold DblLt dblRank at *
  simp only [h1, h2]
  rcases h' with h' | ⟨ha, hb, hc⟩
  · exact .inl h'
  · exact .inr ⟨ha, hb, by rw [h3 (fun e => ha (h2.1 e))]; exact hc⟩

theorem dblLt_same_right {x y z : Dbl} (h : DblLt x y) (h' : SameDbl y z) : DblLt x z := by
  obtain ⟨h1, h2, h3⟩ := h'
  unfold DblLt dblRank at *
  simp only [← h1, ← h2]
  rcases h with h | ⟨ha, hb, hc⟩
  · exact .inl h
  · exact .inr ⟨ha, hb, by rw [← h3 hb]; exact hc⟩

theorem atomLt_trans : (t : ATy) → (a b c : t.El) → AtomLt t a b → AtomLt t b c → AtomLt t a c
  | .lgl, (a : Int), (b : Int), (c : Int), h, h' => by
      have h1 : a ≠ b ∧ (a = naInt ∨ (b ≠ naInt ∧ a < b)) := h
      have h2 : b ≠ c ∧ (b = naInt ∨ (c ≠ naInt ∧ b < c)) := h'
      show a ≠ c ∧ (a = naInt ∨ (c ≠ naInt ∧ a < c))
      omega
  | .int, (a : Int), (b : Int), (c : Int), h, h' => by
      have h1 : a ≠ b ∧ (a = naInt ∨ (b ≠ naInt ∧ a < b)) := h
      have h2 : b ≠ c ∧ (b = naInt ∨ (c ≠ naInt ∧ b < c)) := h'
      show a ≠ c ∧ (a = naInt ∨ (c ≠ naInt ∧ a < c))
      omega
  | .dbl, _, _, _, h, h' => dblLt_trans h h'
  | .chr, (a : Name), (b : Name), (c : Name), h, h' => by
      match a, b, c, h, h' with
      | none, none, _, h, _ => exact absurd h (fun h => h)
      | none, some _, none, _, h => exact absurd h (fun h => h)
      | none, some _, some _, _, _ => trivial
      | some _, none, _, h, _ => exact absurd h (fun h => h)
      | some _, some _, none, _, h => exact absurd h (fun h => h)
      | some s, some t, some u, h, h' =>
        exact Spec.BytesLt.trans (s := s) (t := t) (u := u) h h'
  | .cpl, _, _, _, h, _ => absurd h (fun h => h)
  | .raw, _, _, _, h, _ => absurd h (fun h => h)

theorem atomLt_same_left : (t : ATy) → (a b c : t.El) → SameAtom t a b → AtomLt t b c → AtomLt t a c
  | .lgl, (a : Int), (b : Int), _, (h : a = b), h' => by subst h; exact h'
  | .int, (a : Int), (b : Int), _, (h : a = b), h' => by subst h; exact h'
  | .dbl, _, _, _, h, h' => dblLt_same_left h h'
  | .chr, (a : Name), (b : Name), _, (h : a = b), h' => by subst h; exact h'
  | .cpl, _, _, _, _, h => h
  | .raw, _, _, _, _, h => h

theorem atomLt_same_right : (t : ATy) → (a b c : t.El) → AtomLt t a b → SameAtom t b c → AtomLt t a c
  | .lgl, _, (b : Int), (c : Int), h', (h : b = c) => by subst h; exact h'
  | .int, _, (b : Int), (c : Int), h', (h : b = c) => by subst h; exact h'
  | .dbl, _, _, _, h, h' => dblLt_same_right h h'
  | .chr, _, (b : Name), (c : Name), h', (h : b = c) => by subst h; exact h'
  | .cpl, _, _, _, h, _ => h
  | .raw, _, _, _, h, _ => h

theorem sameAtom_trans (t : ATy) (a b c : t.El) (h : SameAtom t a b) (h' : SameAtom t b c) :
    SameAtom t a c := by
  rw [← equalNaEqual_same] at *
  exact equalNaEqual_trans t h h'

/-! ## Loops -/

/-- Result of comparing row `i` of two vectors. -/
def cmpAt (naEqual : Bool) (t : ATy) (xs ys : List t.El) (i : Nat) : Option Int :=
  match xs[i]?, ys[i]? with
  | some a, some b =>
    match compareScalar naEqual (.atom t) a b with
    | .ok r => r
    | .error _ => none
  | _, _ => none

/-- Result of comparing row `i` of two leaves. -/
def cellCmp (naEqual : Bool) (x y : Val) (i : Nat) : Option Int :=
  match x, y with
  | .vec (.atom t) xs, .vec (.atom u) ys => if h : t = u then cmpAt naEqual u (h ▸ xs) ys i else none
  | _, _ => none

theorem cellCmp_atom (naEqual : Bool) (t : ATy) (xs ys : List t.El) (i : Nat) :
    cellCmp naEqual (.vec (.atom t) xs) (.vec (.atom t) ys) i = cmpAt naEqual t xs ys i := by
  simp only [cellCmp, dite_true]

theorem intsFit_mem : (t : ATy) → (xs : List t.El) → IntsFit t xs → ∀ a ∈ xs, EltFits t a
  | .lgl, _, h, a, ha => h a ha
  | .int, _, h, a, ha => h a ha
  | .dbl, _, _, _, _ => trivial
  | .cpl, _, _, _, _ => trivial
  | .chr, _, _, _, _ => trivial
  | .raw, _, _, _, _ => trivial

theorem cellCmp_vec {naEqual : Bool} {t : ATy} {xs ys : List t.El} {i : Nat} {a b : t.El}
    (ho : Ordered t) (ha : xs[i]? = some a) (hb : ys[i]? = some b) (fa : EltFits t a)
    (fb : EltFits t b) :
    compareScalar naEqual (.atom t) a b = .ok (cellCmp naEqual (.vec (.atom t) xs) (.vec (.atom t) ys) i) := by
  have h1 : cellCmp naEqual (.vec (.atom t) xs) (.vec (.atom t) ys) i =
      (match compareScalar naEqual (.atom t) a b with
        | .ok r => r
        | .error _ => none) := by
    rw [cellCmp_atom]
    unfold cmpAt
    rw [ha, hb]
  rw [h1]
  obtain ⟨r, hr, -⟩ := compareNaEqual_spec t ho a b fa fb
  have h2 : ∃ q, compareScalar naEqual (.atom t) a b = .ok q := by
    cases naEqual
    · show ∃ q, compareNaPropagate t a b = .ok q
      rw [compareNaPropagate_spec t ho, hr]
      split <;> exact ⟨_, rfl⟩
    · show ∃ q, (do .ok (some (← compareNaEqual t a b)) : C (Option Int)) = .ok q
      rw [hr]; exact ⟨_, rfl⟩
  obtain ⟨q, hq⟩ := h2
  rw [hq]

/-- The first deciding result. -/
def firstDecides (rs : List (Option Int)) : Option (Option Int) := rs.find? compareDecides

/-- Results of all leaves at row `i`. -/
def leafCmps (naEqual : Bool) (lx ly : List Val) (i : Nat) : List (Option Int) :=
  List.zipWith (fun p q => cellCmp naEqual p q i) lx ly

theorem comparable_of_ordered : (t : ATy) → Ordered t → comparable (.atom t) = true
  | .lgl, _ => rfl
  | .int, _ => rfl
  | .dbl, _ => rfl
  | .chr, _ => rfl
  | .cpl, h => by cases h
  | .raw, h => by cases h

theorem compareCol_vec {naEqual : Bool} {n : Nat} {t : ATy} {xs ys : List t.El} (ho : Ordered t)
    (hx : xs.length = n) (hy : ys.length = n) (ix : IntsFit t xs) (iy : IntsFit t ys)
    {s : Sc (Option Int)} {F : Nat → Option (Option Int)} (hs : ScInv n (some 0) F s) :
    Ret (compareCol naEqual (.vec (.atom t) xs) (.vec (.atom t) ys) s)
      (ScInv n (some 0) (fun i => (F i).or (firstDecides
        (leafCmps naEqual [.vec (.atom t) xs] [.vec (.atom t) ys] i)))) := by
  simp only [compareCol, comparable_of_ordered t ho, dite_true]
  rw [if_neg (by simp)]
  refine Ret.mono (decideCol_ret
    (fun i => cellCmp naEqual (.vec (.atom t) xs) (.vec (.atom t) ys) i) hs hx hy ?_) ?_
  · intro i a b ha hb
    exact cellCmp_vec ho ha hb (intsFit_mem t xs ix a (List.mem_of_getElem? ha))
      (intsFit_mem t ys iy b (List.mem_of_getElem? hb))
  · intro s' hs'
    refine hs'.congr (fun i _ => ?_)
    simp only [firstDecides, leafCmps, List.zipWith_cons_cons, List.zipWith_nil_right,
      List.find?_cons, List.find?_nil]
    cases compareDecides (cellCmp naEqual (.vec (.atom t) xs) (.vec (.atom t) ys) i) <;> rfl

mutual

theorem comparable_leaves {n : Nat} : {x y : Val} → Comparable n x y →
    (leaves x).length = (leaves y).length
  | _, _, .vec _ _ _ _ _ _ _ _ => by simp [leaves]
  | _, _, .df _ _ h => by
      simp only [leaves]
      exact comparableAll_leaves h

theorem comparableAll_leaves {n : Nat} : {xs ys : List Val} → ComparableAll n xs ys →
    (leavesAll xs).length = (leavesAll ys).length
  | _, _, .nil => rfl
  | _, _, .cons _ _ _ _ h hs => by
      simp only [leavesAll, List.length_append]
      rw [comparable_leaves h, comparableAll_leaves hs]

end

theorem leafCmps_append {naEqual : Bool} {a b c d : List Val} (h : a.length = b.length) (i : Nat) :
    leafCmps naEqual (a ++ c) (b ++ d) i = leafCmps naEqual a b i ++ leafCmps naEqual c d i :=
  List.zipWith_append h

theorem ComparableAll.length {n : Nat} {xs ys : List Val} : ComparableAll n xs ys →
    xs.length = ys.length
  | .nil => rfl
  | .cons _ _ _ _ _ hs => by simp [ComparableAll.length hs]

mutual

theorem compareCol_ret {naEqual : Bool} {n : Nat} : {x y : Val} → Comparable n x y →
    {s : Sc (Option Int)} → {F : Nat → Option (Option Int)} → ScInv n (some 0) F s →
    Ret (compareCol naEqual x y s) (ScInv n (some 0) (fun i => (F i).or (firstDecides
      (leafCmps naEqual (leaves x) (leaves y) i))))
  | _, _, .vec t xs ys ho hx hy ix iy, s, F, hs => by
      simp only [leaves]
      exact compareCol_vec ho hx hy ix iy hs
  | _, _, .df xs ys h, s, F, hs => by
      simp only [leaves, compareCol]
      rw [if_neg (by simpa using ComparableAll.length h)]
      exact compareCols_ret h hs

theorem compareCols_ret {naEqual : Bool} {n : Nat} : {xs ys : List Val} → ComparableAll n xs ys →
    {s : Sc (Option Int)} → {F : Nat → Option (Option Int)} → ScInv n (some 0) F s →
    Ret (compareCols naEqual xs ys s) (ScInv n (some 0) (fun i => (F i).or (firstDecides
      (leafCmps naEqual (leavesAll xs) (leavesAll ys) i))))
  | _, _, .nil, s, F, hs => by
      simp only [compareCols]
      refine Ret.ok (hs.congr (fun i _ => ?_))
      simp [firstDecides, leafCmps, leavesAll]
  | _, _, .cons x y xs ys h hs', s, F, hs => by
      simp only [compareCols]
      refine Ret.bind (compareCol_ret h hs) ?_
      intro s' hs1
      have hsplit : ∀ i, firstDecides (leafCmps naEqual (leavesAll (x :: xs)) (leavesAll (y :: ys)) i) =
          (firstDecides (leafCmps naEqual (leaves x) (leaves y) i)).or
            (firstDecides (leafCmps naEqual (leavesAll xs) (leavesAll ys) i)) := by
        intro i
        simp only [leavesAll]
        rw [leafCmps_append (comparable_leaves h)]
        simp [firstDecides, List.find?_append]
      by_cases hr : s'.remaining = 0
      · rw [if_pos hr]
        refine Ret.ok (hs1.congr (fun i hi => ?_))
        have := hs1.all hr i hi
        rw [hsplit i, ← Option.or_assoc]
        obtain ⟨v, hv⟩ := Option.isSome_iff_exists.1 this
        rw [hv]
        rfl
      · rw [if_neg hr]
        refine (compareCols_ret hs' hs1).mono (fun s2 hs2 => hs2.congr (fun i _ => ?_))
        rw [hsplit i, ← Option.or_assoc]

end

/-- Result of a row. -/
def rowCmp (naEqual : Bool) (x y : Val) (i : Nat) : Option Int :=
  (firstDecides (leafCmps naEqual (leaves x) (leaves y) i)).getD (some 0)

theorem compareLoop_ok {α : Type} {cmp : α → α → C (Option Int)} {x y : List α} (g : Nat → Option Int)
    (hl : x.length = y.length)
    (hg : ∀ i a b, x[i]? = some a → y[i]? = some b → cmp a b = .ok (g i)) :
    compareLoop cmp x.length x y = .ok ((List.range x.length).map g) := by
  suffices h : Ret (compareLoop cmp x.length x y) (fun r => r = (List.range x.length).map g) by
    obtain ⟨r, hr, rfl⟩ := h; exact hr
  unfold compareLoop
  refine Ret.bind (Ret.forN (fun i (out : List (Option (Option Int))) =>
    Filled (fun j v => v = g j) x.length i out) (Filled.start _ _) ?_) ?_
  · intro i out hi hf
    refine Ret.bind_eq (rd_ok hi) ?_
    refine Ret.bind_eq (rd_ok (by omega)) ?_
    refine Ret.bind_eq (hg i _ _ (List.getElem?_eq_getElem hi)
      (List.getElem?_eq_getElem (by omega))) ?_
    obtain ⟨h1, h2⟩ := hf.step hi rfl
    exact Ret.of_eq h1 h2
  · intro out hf
    refine hf.done_of.mono ?_
    rintro r ⟨hlen, hr⟩
    apply List.ext_getElem?
    intro i
    by_cases hi : i < x.length
    · obtain ⟨v, hv, rfl⟩ := hr i hi
      rw [hv]; simp [hi]
    · rw [List.getElem?_eq_none (by omega), List.getElem?_eq_none (by simp; omega)]

theorem vecCompare_ok (naEqual : Bool) {x y : Val} (h : Comparable x.size x y) :
    vecCompare naEqual x y = .ok ((List.range x.size).map (rowCmp naEqual x y)) := by
  generalize hn : x.size = n at h
  cases h with
  | vec t xs ys ho hx hy ix iy =>
    have hl : xs.length = ys.length := by omega
    simp only [vecCompare, dite_true]
    rw [if_neg (fun h => h hl), if_neg (by simp [comparable_of_ordered t ho])]
    have := compareLoop_ok (cmp := compareScalar naEqual (.atom t)) (x := xs) (y := ys)
      (rowCmp naEqual (.vec (.atom t) xs) (.vec (.atom t) ys)) hl (by
        intro i a b ha hb
        rw [cellCmp_vec ho ha hb (intsFit_mem t xs ix a (List.mem_of_getElem? ha))
          (intsFit_mem t ys iy b (List.mem_of_getElem? hb))]
        congr 1
        simp only [rowCmp, firstDecides, leafCmps, leaves, List.zipWith_cons_cons,
          List.zipWith_nil_right, List.find?_cons, List.find?_nil]
        cases hd : compareDecides (cellCmp naEqual (.vec (.atom t) xs) (.vec (.atom t) ys) i)
        · simp only [compareDecides, decide_eq_false_iff_not, not_not] at hd
          rw [hd]; rfl
        · rfl)
    subst hx
    exact this
  | df xs ys h =>
    suffices h : Ret (vecCompare naEqual (.df n xs) (.df n ys)) (fun r =>
        r = (List.range n).map (rowCmp naEqual (.df n xs) (.df n ys))) by
      obtain ⟨r, hr, rfl⟩ := h; exact hr
    simp only [vecCompare]
    rw [if_neg (by simp), if_neg (by simpa using ComparableAll.length h)]
    refine Ret.bind (compareCols_ret h (ScInv.new (some 0) n)) ?_
    intro s hs
    refine Ret.ok ?_
    apply List.ext_getElem?
    intro i
    by_cases hi : i < n
    · rw [hs.out i hi]
      simp [hi, rowCmp, leaves]
    · rw [List.getElem?_eq_none (by rw [hs.olen]; omega), List.getElem?_eq_none (by simp; omega)]

/-! ## Rows -/

mutual

theorem comparable_leaf {n : Nat} : {x y : Val} → Comparable n x y → ∀ (k : Nat) (p q : Val),
    (leaves x)[k]? = some p → (leaves y)[k]? = some q →
    ∃ (t : ATy) (xs ys : List t.El), p = .vec (.atom t) xs ∧ q = .vec (.atom t) ys ∧ Ordered t ∧
      xs.length = n ∧ ys.length = n ∧ IntsFit t xs ∧ IntsFit t ys
  | _, _, .vec t xs ys ho hx hy ix iy, k, p, q, hp, hq => by
      simp only [leaves] at hp hq
      match k, hp, hq with
      | 0, hp, hq => cases hp; cases hq; exact ⟨t, xs, ys, rfl, rfl, ho, hx, hy, ix, iy⟩
      | k + 1, hp, _ => simp at hp
  | _, _, .df _ _ h, k, p, q, hp, hq => by
      simp only [leaves] at hp hq
      exact comparableAll_leaf h k p q hp hq

theorem comparableAll_leaf {n : Nat} : {xs ys : List Val} → ComparableAll n xs ys →
    ∀ (k : Nat) (p q : Val), (leavesAll xs)[k]? = some p → (leavesAll ys)[k]? = some q →
    ∃ (t : ATy) (xs ys : List t.El), p = .vec (.atom t) xs ∧ q = .vec (.atom t) ys ∧ Ordered t ∧
      xs.length = n ∧ ys.length = n ∧ IntsFit t xs ∧ IntsFit t ys
  | _, _, .nil, k, p, q, hp, _ => by simp [leavesAll] at hp
  | _, _, .cons x y xs ys h hs, k, p, q, hp, hq => by
      simp only [leavesAll] at hp hq
      have hl := comparable_leaves h
      by_cases hk : k < (leaves x).length
      · rw [List.getElem?_append_left hk] at hp
        rw [List.getElem?_append_left (by omega)] at hq
        exact comparable_leaf h k p q hp hq
      · rw [List.getElem?_append_right (by omega)] at hp
        rw [List.getElem?_append_right (by omega), ← hl] at hq
        exact comparableAll_leaf hs _ p q hp hq

end

/-- What is known about one pair of leaves at row `i`. -/
structure LeafRes (p q : Val) (i : Nat) (r : Int) : Prop where
  val : cellCmp true p q i = some r
  range : r = -1 ∨ r = 0 ∨ r = 1
  lt : r = -1 ↔ AtLeaf AtomLt p q i
  gt : r = 1 ↔ AtLeaf AtomLt q p i
  eq : r = 0 ↔ AtLeaf SameAtom p q i

theorem atLeaf_vec {R : (t : ATy) → t.El → t.El → Prop} {t : ATy} {xs ys : List t.El} {i : Nat}
    {a b : t.El} (ha : xs[i]? = some a) (hb : ys[i]? = some b) :
    AtLeaf R (.vec (.atom t) xs) (.vec (.atom t) ys) i ↔ R t a b := by
  constructor
  · rintro ⟨t', xs', ys', a', b', h1, h2, h3, h4, h5⟩
    cases h1
    cases h2
    rw [ha] at h3
    rw [hb] at h4
    cases h3
    cases h4
    exact h5
  · intro h
    exact ⟨t, xs, ys, a, b, rfl, rfl, ha, hb, h⟩

theorem leafRes {n i : Nat} (hi : i < n) {x y : Val} (h : Comparable n x y) {k : Nat} {p q : Val}
    (hp : (leaves x)[k]? = some p) (hq : (leaves y)[k]? = some q) :
    ∃ r, LeafRes p q i r ∧ cellCmp false p q i =
      (open Classical in if AtLeaf (fun t a b => MissingAtom t a ∨ MissingAtom t b) p q i then none
        else some r) := by
  classical
  obtain ⟨t, xs, ys, rfl, rfl, ho, hx, hy, ix, iy⟩ := comparable_leaf h k p q hp hq
  have ha := List.getElem?_eq_getElem (l := xs) (i := i) (by omega)
  have hb := List.getElem?_eq_getElem (l := ys) (i := i) (by omega)
  have fa := intsFit_mem t xs ix _ (List.mem_of_getElem? ha)
  have fb := intsFit_mem t ys iy _ (List.mem_of_getElem? hb)
  obtain ⟨r, hr, hres⟩ := compareNaEqual_spec t ho _ _ fa fb
  have ht := cellCmp_vec (naEqual := true) ho ha hb fa fb
  have hf := cellCmp_vec (naEqual := false) ho ha hb fa fb
  refine ⟨r, ⟨?_, hres.range, ?_, ?_, ?_⟩, ?_⟩
  · have : (do .ok (some (← compareNaEqual t xs[i] ys[i])) : C (Option Int)) =
        .ok (cellCmp true (.vec (.atom t) xs) (.vec (.atom t) ys) i) := ht
    rw [hr, ok_bind] at this
    injection this with this
    exact this.symm
  · rw [atLeaf_vec ha hb]; exact hres.lt
  · rw [atLeaf_vec hb ha]; exact hres.gt
  · rw [atLeaf_vec ha hb]; exact hres.eq
  · have h0 : compareNaPropagate t xs[i] ys[i] =
        .ok (cellCmp false (.vec (.atom t) xs) (.vec (.atom t) ys) i) := hf
    rw [compareNaPropagate_spec t ho, hr, ok_bind] at h0
    have m1 : isMissing t xs[i] = true ↔ MissingAtom t xs[i] := missingScalar_iff (.atom t) _
    have m2 : isMissing t ys[i] = true ↔ MissingAtom t ys[i] := missingScalar_iff (.atom t) _
    have m3 : (isMissing t xs[i] || isMissing t ys[i]) = true ↔
        AtLeaf (fun t a b => MissingAtom t a ∨ MissingAtom t b) (.vec (.atom t) xs)
          (.vec (.atom t) ys) i := by
      rw [atLeaf_vec ha hb, Bool.or_eq_true, m1, m2]
    by_cases hm : (isMissing t xs[i] || isMissing t ys[i]) = true
    · rw [if_pos hm] at h0
      rw [if_pos (m3.1 hm)]
      injection h0 with h0
      exact h0.symm
    · rw [if_neg hm] at h0
      rw [if_neg (fun e => hm (m3.2 e))]
      injection h0 with h0
      exact h0.symm

theorem leafCmps_get {naEqual : Bool} {lx ly : List Val} {i k : Nat} {v : Option Int} :
    (leafCmps naEqual lx ly i)[k]? = some v ↔
      ∃ p q, lx[k]? = some p ∧ ly[k]? = some q ∧ cellCmp naEqual p q i = v := by
  simp only [leafCmps, List.getElem?_zipWith]
  cases lx[k]? <;> cases ly[k]? <;> simp

theorem first_ne {l : List (Option Int)} {v : Option Int} (hv : v ≠ some 0) :
    (firstDecides l).getD (some 0) = v ↔
      ∃ k : Nat, l[k]? = some v ∧ ∀ j : Nat, j < k → l[j]? = some (some 0) := by
  unfold firstDecides
  constructor
  · intro h
    cases hf : l.find? compareDecides with
    | none => rw [hf] at h; exact absurd h.symm hv
    | some w =>
      rw [hf] at h
      cases (show w = v from h)
      rw [List.find?_eq_some_iff_getElem] at hf
      obtain ⟨-, k, hk, he, hj⟩ := hf
      refine ⟨k, by rw [List.getElem?_eq_getElem hk, he], fun j hj' => ?_⟩
      have := hj j hj'
      rw [List.getElem?_eq_getElem (by omega)]
      simpa [compareDecides] using this
  · rintro ⟨k, hk, hj⟩
    have : l.find? compareDecides = some v := by
      rw [List.find?_eq_some_iff_getElem]
      obtain ⟨hk', he⟩ := List.getElem?_eq_some_iff.1 hk
      refine ⟨by simp [compareDecides, hv], k, hk', he, fun j hj' => ?_⟩
      have := (List.getElem?_eq_some_iff.1 (hj j hj')).2
      simp [compareDecides, this]
    rw [this]
    rfl

theorem first_eq {l : List (Option Int)} :
    (firstDecides l).getD (some 0) = some 0 ↔
      ∀ (j : Nat) (v : Option Int), l[j]? = some v → v = some 0 := by
  unfold firstDecides
  constructor
  · intro h
    cases hf : l.find? compareDecides with
    | none =>
      intro j v hv
      have := List.find?_eq_none.1 hf v (List.mem_of_getElem? hv)
      simpa [compareDecides] using this
    | some w =>
      rw [hf] at h
      cases (show w = some 0 from h)
      have := List.find?_some hf
      simp [compareDecides] at this
  · intro h
    have : l.find? compareDecides = none := by
      rw [List.find?_eq_none]
      intro v hv
      obtain ⟨j, hj⟩ := List.mem_iff_getElem?.1 hv
      simp [compareDecides, h j v hj]
    rw [this]
    rfl

theorem atLeaf_symm {p q : Val} {i : Nat} (h : AtLeaf SameAtom p q i) : AtLeaf SameAtom q p i := by
  obtain ⟨t, xs, ys, a, b, h1, h2, h3, h4, h5⟩ := h
  exact ⟨t, ys, xs, b, a, h2, h1, h4, h3, sameAtom_symm t a b h5⟩

theorem rowCmp_spec {n i : Nat} (hi : i < n) {x y : Val} (h : Comparable n x y) :
    ∃ r : Int, rowCmp true x y i = some r ∧ (r = -1 ∨ r = 0 ∨ r = 1) ∧ (r = -1 ↔ RowLt x y i) ∧
      (r = 1 ↔ RowLt y x i) ∧ (r = 0 ↔ RowSame x y i) := by
  have hl := comparable_leaves h
  have hex : ∀ j : Nat, j < (leaves x).length → ∃ p q, (leaves x)[j]? = some p ∧
      (leaves y)[j]? = some q := fun j hj =>
    ⟨_, _, List.getElem?_eq_getElem hj, List.getElem?_eq_getElem (by omega)⟩
  have hzero : ∀ k : Nat, k < (leaves x).length → ((∀ j : Nat, j < k →
      (leafCmps true (leaves x) (leaves y) i)[j]? = some (some 0)) ↔
      ∀ (j : Nat) (p q : Val), j < k → (leaves x)[j]? = some p → (leaves y)[j]? = some q →
        AtLeaf SameAtom p q i) := by
    intro k hk
    constructor
    · intro hz j p q hj hp hq
      obtain ⟨p', q', hp', hq', hv⟩ := leafCmps_get.1 (hz j hj)
      rw [hp] at hp'; rw [hq] at hq'; cases hp'; cases hq'
      obtain ⟨r, hr, -⟩ := leafRes hi h hp hq
      rw [hr.val] at hv
      injection hv with hv
      exact hr.eq.1 hv
    · intro hz j hj
      obtain ⟨p, q, hp, hq⟩ := hex j (by omega)
      obtain ⟨r, hr, -⟩ := leafRes hi h hp hq
      refine leafCmps_get.2 ⟨p, q, hp, hq, ?_⟩
      rw [hr.val, hr.eq.2 (hz j p q hj hp hq)]
  have hlt : rowCmp true x y i = some (-1) ↔ RowLt x y i := by
    unfold rowCmp
    rw [first_ne (by decide)]
    constructor
    · rintro ⟨k, hk, hj⟩
      obtain ⟨p, q, hp, hq, hv⟩ := leafCmps_get.1 hk
      obtain ⟨r, hr, -⟩ := leafRes hi h hp hq
      rw [hr.val] at hv
      injection hv with hv
      exact ⟨k, p, q, hp, hq, hr.lt.1 hv,
        (hzero k (List.getElem?_eq_some_iff.1 hp).1).1 hj⟩
    · rintro ⟨k, p, q, hp, hq, hv, hj⟩
      obtain ⟨r, hr, -⟩ := leafRes hi h hp hq
      exact ⟨k, leafCmps_get.2 ⟨p, q, hp, hq, by rw [hr.val, hr.lt.2 hv]⟩,
        (hzero k (List.getElem?_eq_some_iff.1 hp).1).2 hj⟩
  have hgt : rowCmp true x y i = some 1 ↔ RowLt y x i := by
    unfold rowCmp
    rw [first_ne (by decide)]
    constructor
    · rintro ⟨k, hk, hj⟩
      obtain ⟨p, q, hp, hq, hv⟩ := leafCmps_get.1 hk
      obtain ⟨r, hr, -⟩ := leafRes hi h hp hq
      rw [hr.val] at hv
      injection hv with hv
      refine ⟨k, q, p, hq, hp, hr.gt.1 hv, fun j q' p' hj' hq' hp' => ?_⟩
      exact atLeaf_symm ((hzero k (List.getElem?_eq_some_iff.1 hp).1).1 hj j p' q' hj' hp' hq')
    · rintro ⟨k, q, p, hq, hp, hv, hj⟩
      obtain ⟨r, hr, -⟩ := leafRes hi h hp hq
      exact ⟨k, leafCmps_get.2 ⟨p, q, hp, hq, by rw [hr.val, hr.gt.2 hv]⟩,
        (hzero k (List.getElem?_eq_some_iff.1 hp).1).2
          (fun j p' q' hj' hp' hq' => atLeaf_symm (hj j q' p' hj' hq' hp'))⟩
  have heq : rowCmp true x y i = some 0 ↔ RowSame x y i := by
    unfold rowCmp
    rw [first_eq]
    constructor
    · intro hz j p q hp hq
      obtain ⟨r, hr, -⟩ := leafRes hi h hp hq
      have := hz j _ (leafCmps_get.2 ⟨p, q, hp, hq, rfl⟩)
      rw [hr.val] at this
      injection this with this
      exact hr.eq.1 this
    · intro hz j v hv
      obtain ⟨p, q, hp, hq, rfl⟩ := leafCmps_get.1 hv
      obtain ⟨r, hr, -⟩ := leafRes hi h hp hq
      rw [hr.val, hr.eq.2 (hz j p q hp hq)]
  have hrange : rowCmp true x y i = some (-1) ∨ rowCmp true x y i = some 0 ∨
      rowCmp true x y i = some 1 := by
    by_cases h0 : rowCmp true x y i = some 0
    · exact .inr (.inl h0)
    · obtain ⟨k, hk, -⟩ := (first_ne h0).1 rfl
      obtain ⟨p, q, hp, hq, hv⟩ := leafCmps_get.1 hk
      obtain ⟨r, hr, -⟩ := leafRes hi h hp hq
      rw [hr.val] at hv
      rcases hr.range with e | e | e <;> rw [e] at hv
      · exact .inl hv.symm
      · exact .inr (.inl hv.symm)
      · exact .inr (.inr hv.symm)
  rw [← hlt, ← hgt, ← heq]
  rcases hrange with e | e | e <;> rw [e]
  · exact ⟨-1, rfl, by simp, by simp, by simp, by simp⟩
  · exact ⟨0, rfl, by simp, by simp, by simp, by simp⟩
  · exact ⟨1, rfl, by simp, by simp, by simp, by simp⟩

/-- With `na_equal = FALSE`: NA if undecided, otherwise as with `na_equal = TRUE`. -/
theorem rowCmp_propagate {n i : Nat} (hi : i < n) {x y : Val} (h : Comparable n x y) :
    (RowUndecided x y i → rowCmp false x y i = none) ∧
      (¬ RowUndecided x y i → rowCmp false x y i = rowCmp true x y i) := by
  classical
  have hl := comparable_leaves h
  have hex : ∀ j : Nat, j < (leaves x).length → ∃ p q, (leaves x)[j]? = some p ∧
      (leaves y)[j]? = some q := fun j hj =>
    ⟨_, _, List.getElem?_eq_getElem hj, List.getElem?_eq_getElem (by omega)⟩
  have hcomp : ∀ (j : Nat) (p q : Val), (leaves x)[j]? = some p → (leaves y)[j]? = some q →
      (cellCmp false p q i = some 0 ↔
        AtLeaf (fun t a b => SameAtom t a b ∧ ¬ MissingAtom t a ∧ ¬ MissingAtom t b) p q i) := by
    intro j p q hp hq
    obtain ⟨r, hr, hf⟩ := leafRes hi h hp hq
    rw [hf]
    constructor
    · intro he
      by_cases hm : AtLeaf (fun t a b => MissingAtom t a ∨ MissingAtom t b) p q i
      · rw [if_pos hm] at he; cases he
      · rw [if_neg hm] at he
        injection he with he
        obtain ⟨t, xs, ys, a, b, h1, h2, h3, h4, h5⟩ := hr.eq.1 he
        exact ⟨t, xs, ys, a, b, h1, h2, h3, h4, h5,
          fun e => hm ⟨t, xs, ys, a, b, h1, h2, h3, h4, .inl e⟩,
          fun e => hm ⟨t, xs, ys, a, b, h1, h2, h3, h4, .inr e⟩⟩
    · rintro ⟨t, xs, ys, a, b, rfl, rfl, h3, h4, h5, h6, h7⟩
      rw [atLeaf_vec h3 h4, if_neg (by simp [h6, h7]), hr.eq.2 ((atLeaf_vec h3 h4).2 h5)]
  have hund : rowCmp false x y i = none ↔ RowUndecided x y i := by
    unfold rowCmp
    rw [first_ne (by simp)]
    constructor
    · rintro ⟨k, hk, hj⟩
      obtain ⟨p, q, hp, hq, hv⟩ := leafCmps_get.1 hk
      obtain ⟨r, hr, hf⟩ := leafRes hi h hp hq
      refine ⟨k, p, q, hp, hq, ?_, fun j p' q' hj' hp' hq' => ?_⟩
      · by_contra hm
        rw [hf, if_neg hm] at hv
        cases hv
      · obtain ⟨p2, q2, hp2, hq2, hv2⟩ := leafCmps_get.1 (hj j hj')
        rw [hp'] at hp2; rw [hq'] at hq2; cases hp2; cases hq2
        exact (hcomp j p' q' hp' hq').1 hv2
    · rintro ⟨k, p, q, hp, hq, hm, hj⟩
      obtain ⟨r, hr, hf⟩ := leafRes hi h hp hq
      refine ⟨k, leafCmps_get.2 ⟨p, q, hp, hq, by rw [hf, if_pos hm]⟩, fun j hj' => ?_⟩
      obtain ⟨p', q', hp', hq'⟩ := hex j (by have := (List.getElem?_eq_some_iff.1 hp).1; omega)
      exact leafCmps_get.2 ⟨p', q', hp', hq', (hcomp j p' q' hp' hq').2 (hj j p' q' hj' hp' hq')⟩
  refine ⟨hund.2, fun hn => ?_⟩
  rw [← hund] at hn
  have same : ∀ (j : Nat) (v : Option Int), (leafCmps false (leaves x) (leaves y) i)[j]? = some v →
      v ≠ none → (leafCmps true (leaves x) (leaves y) i)[j]? = some v := by
    intro j v hv hvn
    obtain ⟨p, q, hp, hq, hv⟩ := leafCmps_get.1 hv
    obtain ⟨r, hr, hf⟩ := leafRes hi h hp hq
    refine leafCmps_get.2 ⟨p, q, hp, hq, ?_⟩
    rw [hf] at hv
    by_cases hm : AtLeaf (fun t a b => MissingAtom t a ∨ MissingAtom t b) p q i
    · rw [if_pos hm] at hv; exact absurd hv.symm hvn
    · rw [if_neg hm] at hv
      rw [hr.val, hv]
  by_cases h0 : rowCmp false x y i = some 0
  · rw [h0]
    symm
    unfold rowCmp at h0 ⊢
    rw [first_eq] at h0 ⊢
    intro j v hv
    obtain ⟨p, q, hp, hq, hv'⟩ := leafCmps_get.1 hv
    have h1 := leafCmps_get.2 ⟨p, q, hp, hq, (rfl : cellCmp false p q i = _)⟩
    have h2 := h0 j _ h1
    rw [h2] at h1
    have h3 := same j _ h1 (by simp)
    rw [hv] at h3
    injection h3
  · obtain ⟨k, hk, hj⟩ := (first_ne h0).1 rfl
    symm
    exact (first_ne h0).2 ⟨k, same k _ hk hn, fun j hj' => same j _ (hj j hj') (by simp)⟩

theorem atLeaf_lt_trans {p q r : Val} {i : Nat} (h : AtLeaf AtomLt p q i) (h' : AtLeaf AtomLt q r i) :
    AtLeaf AtomLt p r i := by
  obtain ⟨t, xs, ys, a, b, h1, rfl, h3, h4, h5⟩ := h
  obtain ⟨u, ys', zs, b', c, e1, e2, e3, e4, e5⟩ := h'
  cases e1
  rw [h4] at e3
  cases e3
  exact ⟨_, xs, zs, a, c, h1, e2, h3, e4, atomLt_trans _ a b c h5 e5⟩

theorem atLeaf_lt_same {p q r : Val} {i : Nat} (h : AtLeaf AtomLt p q i)
    (h' : AtLeaf SameAtom q r i) : AtLeaf AtomLt p r i := by
  obtain ⟨t, xs, ys, a, b, h1, rfl, h3, h4, h5⟩ := h
  obtain ⟨u, ys', zs, b', c, e1, e2, e3, e4, e5⟩ := h'
  cases e1
  rw [h4] at e3
  cases e3
  exact ⟨_, xs, zs, a, c, h1, e2, h3, e4, atomLt_same_right _ a b c h5 e5⟩

theorem atLeaf_same_lt {p q r : Val} {i : Nat} (h : AtLeaf SameAtom p q i)
    (h' : AtLeaf AtomLt q r i) : AtLeaf AtomLt p r i := by
  obtain ⟨t, xs, ys, a, b, h1, rfl, h3, h4, h5⟩ := h
  obtain ⟨u, ys', zs, b', c, e1, e2, e3, e4, e5⟩ := h'
  cases e1
  rw [h4] at e3
  cases e3
  exact ⟨_, xs, zs, a, c, h1, e2, h3, e4, atomLt_same_left _ a b c h5 e5⟩

theorem atLeaf_same_trans {p q r : Val} {i : Nat} (h : AtLeaf SameAtom p q i)
    (h' : AtLeaf SameAtom q r i) : AtLeaf SameAtom p r i := by
  obtain ⟨t, xs, ys, a, b, h1, rfl, h3, h4, h5⟩ := h
  obtain ⟨u, ys', zs, b', c, e1, e2, e3, e4, e5⟩ := h'
  cases e1
  rw [h4] at e3
  cases e3
  exact ⟨_, xs, zs, a, c, h1, e2, h3, e4, sameAtom_trans _ a b c h5 e5⟩

theorem rowSame_trans {x y z : Val} {i : Nat} (hl : (leaves x).length = (leaves y).length)
    (h : RowSame x y i) (h' : RowSame y z i) : RowSame x z i := by
  intro j p q hp hq
  have hj := (List.getElem?_eq_some_iff.1 hp).1
  have hy := List.getElem?_eq_getElem (l := leaves y) (i := j) (by omega)
  exact atLeaf_same_trans (h j p _ hp hy) (h' j _ q hy hq)

theorem rowLt_trans {x y z : Val} {i : Nat} (hxy : (leaves x).length = (leaves y).length)
    (hyz : (leaves y).length = (leaves z).length) (h : RowLt x y i) (h' : RowLt y z i) :
    RowLt x z i := by
  obtain ⟨k, p, q, hp, hq, hlt, hj⟩ := h
  obtain ⟨m, q', r, hq', hr, hlt', hj'⟩ := h'
  have lk := (List.getElem?_eq_some_iff.1 hp).1
  have lm := (List.getElem?_eq_some_iff.1 hq').1
  have before : ∀ (j : Nat) (p' r' : Val), j < k → j < m → (leaves x)[j]? = some p' →
      (leaves z)[j]? = some r' → AtLeaf SameAtom p' r' i := by
    intro j p' r' h1 h2 hp' hr'
    have hy := List.getElem?_eq_getElem (l := leaves y) (i := j) (by omega)
    exact atLeaf_same_trans (hj j p' _ h1 hp' hy) (hj' j _ r' h2 hy hr')
  rcases Nat.lt_trichotomy k m with hkm | hkm | hkm
  · have hz := List.getElem?_eq_getElem (l := leaves z) (i := k) (by omega)
    exact ⟨k, p, _, hp, hz, atLeaf_lt_same hlt (hj' k q _ hkm hq hz),
      fun j p' r' h1 => before j p' r' h1 (by omega)⟩
  · subst hkm
    rw [hq] at hq'
    cases hq'
    exact ⟨k, p, r, hp, hr, atLeaf_lt_trans hlt hlt', fun j p' r' h1 => before j p' r' h1 h1⟩
  · have hx := List.getElem?_eq_getElem (l := leaves x) (i := m) (by omega)
    exact ⟨m, _, r, hx, hr, atLeaf_same_lt (hj m _ q' hkm hx hq') hlt',
      fun j p' r' h1 => before j p' r' (by omega) h1⟩

theorem rowLt_same {x y z : Val} {i : Nat} (hyz : (leaves y).length = (leaves z).length)
    (hxy : (leaves x).length = (leaves y).length) (h : RowLt x y i) (h' : RowSame y z i) :
    RowLt x z i := by
  obtain ⟨k, p, q, hp, hq, hlt, hj⟩ := h
  have lk := (List.getElem?_eq_some_iff.1 hp).1
  have hz := List.getElem?_eq_getElem (l := leaves z) (i := k) (by omega)
  refine ⟨k, p, _, hp, hz, atLeaf_lt_same hlt (h' k q _ hq hz), fun j p' r' h1 hp' hr' => ?_⟩
  have hy := List.getElem?_eq_getElem (l := leaves y) (i := j) (by omega)
  exact atLeaf_same_trans (hj j p' _ h1 hp' hy) (h' j _ r' hy hr')

theorem rowSame_lt {x y z : Val} {i : Nat} (hxy : (leaves x).length = (leaves y).length)
    (h : RowSame x y i) (h' : RowLt y z i) : RowLt x z i := by
  obtain ⟨k, q, r, hq, hr, hlt, hj⟩ := h'
  have lk := (List.getElem?_eq_some_iff.1 hq).1
  have hx := List.getElem?_eq_getElem (l := leaves x) (i := k) (by omega)
  refine ⟨k, _, r, hx, hr, atLeaf_same_lt (h k _ q hx hq) hlt, fun j p' r' h1 hp' hr' => ?_⟩
  have hy := List.getElem?_eq_getElem (l := leaves y) (i := j) (by omega)
  exact atLeaf_same_trans (h j p' _ hp' hy) (hj j _ r' h1 hy hr')

mutual

theorem Spec.Comparable.symm {n : Nat} : {x y : Val} → Comparable n x y → Comparable n y x
  | _, _, .vec t xs ys ho hx hy ix iy => .vec t ys xs ho hy hx iy ix
  | _, _, .df xs ys h => .df ys xs (Spec.ComparableAll.symm h)

theorem Spec.ComparableAll.symm {n : Nat} : {xs ys : List Val} → ComparableAll n xs ys →
    ComparableAll n ys xs
  | _, _, .nil => .nil
  | _, _, .cons x y xs ys h hs => .cons y x ys xs (Spec.Comparable.symm h) (Spec.ComparableAll.symm hs)

end

mutual

theorem Spec.Comparable.trans {n : Nat} : {x y z : Val} → Comparable n x y → Comparable n y z →
    Comparable n x z
  | _, _, _, .vec t xs ys ho hx hy ix iy, h => by
      cases h with
      | vec _ _ zs _ _ hz _ iz => exact .vec t xs zs ho hx hz ix iz
  | _, _, _, .df xs ys h, h' => by
      cases h' with
      | df _ zs h' => exact .df xs zs (Spec.ComparableAll.trans h h')

theorem Spec.ComparableAll.trans {n : Nat} : {xs ys zs : List Val} → ComparableAll n xs ys →
    ComparableAll n ys zs → ComparableAll n xs zs
  | _, _, _, .nil, h => h
  | _, _, _, .cons x y xs ys h hs, h' => by
      cases h' with
      | cons _ z _ zs h2 hs2 =>
        exact .cons x z xs zs (Spec.Comparable.trans h h2) (Spec.ComparableAll.trans hs hs2)

end

theorem Spec.Comparable.size {n : Nat} {x y : Val} (h : Comparable n x y) : x.size = n ∧ y.size = n := by
  cases h with
  | vec t xs ys ho hx hy _ _ => exact ⟨hx, hy⟩
  | df xs ys h => exact ⟨rfl, rfl⟩

end Vctrs
