import Verif.Model.FallbackChoice
import Verif.Props.C79

/-!
# C91: `c()` is used exactly for classes without methods of vctrs, whatever the order of the inputs
-/

namespace Vctrs

namespace Spec

/-- The objects have the same class attribute, or both none. -/
def SameClass (x y : KObj) : Prop := x.attrs.lookup .class_ = y.attrs.lookup .class_

/-- A vector other than `NULL`, by itself or by its proxy. -/
def VectorOf (proxy : KObj → Option (C KObj)) (x : KObj) : Prop :=
  x.ty ≠ .null ∧ (((x.obj = false ∨ proxy x = none) ∧ IsVec false x) ∨
    (x.obj = true ∧ ∃ p, proxy x = some (.ok p) ∧ p.ty ≠ .other))

/-- Objects as R makes them: exactly the objects have a class attribute, it is a character vector that
is not empty, and methods for `vec_proxy()` return objects. -/
structure ObjOk (proxy : KObj → Option (C KObj)) (x : KObj) : Prop where
  cls : ClassOk x
  obj : x.obj = true ↔ (x.attrs.lookup .class_).isSome
  proxied : ∀ p, proxy x = some p → ∃ q, p = .ok q ∧ ClassOk q

/-- A class for which only base R has methods: no method of `vec_ptype2()` and one of `c()`; classes of
vctrs and those treated natively are excluded. -/
def ForeignClass (m : CMethods) (x : KObj) : Prop :=
  ∃ cls, HasClass x cls ∧ some "vctrs_vctr" ∉ cls ∧ cls ≠ [some "data.frame"] ∧ ¬ IsUnspecified x ∧
    (∀ c, cls.head? = some c → m.ptype2Self c = false ∧ m.ptype2 c = false) ∧
    ∃ c ∈ cls, (if m.s4 x then m.s4C c else m.s3C c) = true

/-- The inputs are combined with `c()`: the first that is not `NULL` is a vector of a foreign class,
and this is the class of all others and of the type that was asked for. -/
def UsesBaseC (m : CMethods) (xs : List KObj) (ptype : KObj) : Prop :=
  ∃ x, (xs.filter fun y => decide (y.ty ≠ .null)).head? = some x ∧ VectorOf m.proxy x ∧ ForeignClass m x ∧
    (ptype.ty ≠ .null → SameClass x ptype) ∧ ∀ y ∈ xs, y.ty ≠ .null → SameClass x y

end Spec

open Spec

theorem kindClass_ok {x : KObj} (h : ClassOk x) : ∃ o, kindClass x = .ok o ∧
    x.attrs.lookup .class_ = o.map KVal.chr ∧ (∀ l, o = some l → l ≠ []) := by
  unfold kindClass
  rw [kindGet_eq]
  cases hl : x.attrs.lookup .class_ with
  | none => exact ⟨none, rfl, rfl, by simp⟩
  | some v =>
    obtain ⟨cls, rfl, hn⟩ := h v hl
    exact ⟨some cls, rfl, rfl, by rintro l h; cases h; exact hn⟩

theorem sameClass_iff {x y : KObj} {a b : Option (List (Option String))}
    (ha : x.attrs.lookup .class_ = a.map KVal.chr) (hb : y.attrs.lookup .class_ = b.map KVal.chr) :
    SameClass x y ↔ a = b := by
  unfold SameClass
  rw [ha, hb]
  cases a <;> cases b <;> simp

theorem firstNonNull_ok {null : KObj} (hnull : null.ty = .null) (xs : List KObj) :
    Ret (listFirstNonNull null xs) fun r =>
      (∃ pre post, xs = pre ++ r.1 :: post ∧ (∀ y ∈ pre, y.ty = .null) ∧ r.1.ty ≠ .null ∧ r.2 = pre.length) ∨
      ((∀ y ∈ xs, y.ty = .null) ∧ r.1.ty = .null ∧ r.2 = xs.length) := by
  unfold listFirstNonNull
  refine Ret.forBrk (fun i st => (∀ y ∈ xs.take i, y.ty = .null) ∧ st.1.ty = .null ∧ st.2 = i) _
    ⟨by simp, hnull, rfl⟩ ?_ ?_
  · rintro i ⟨a, b⟩ hi ⟨h1, h2, h3⟩
    dsimp only at h3
    subst h3
    refine Ret.bind_eq (rd_ok hi) ?_
    by_cases hx : xs[b].ty = .null
    · rw [if_neg (by simp [hx])]
      refine Ret.ok ⟨?_, hx, rfl⟩
      rw [List.take_succ_eq_append_getElem hi]
      intro y hy
      rcases List.mem_append.1 hy with hy | hy
      · exact h1 y hy
      · rw [List.mem_singleton.1 hy]; exact hx
    · rw [if_pos hx]
      refine Ret.ok (Or.inl ⟨xs.take b, xs.drop (b + 1), ?_, h1, hx, by simp; omega⟩)
      rw [← List.drop_eq_getElem_cons hi, List.take_append_drop]
  · rintro ⟨a, b⟩ ⟨h1, h2, h3⟩
    exact Or.inr ⟨by simpa using h1, h2, h3⟩

theorem filter_head {pre post : List KObj} {x : KObj} (h : ∀ y ∈ pre, y.ty = .null) (hx : x.ty ≠ .null) :
    ((pre ++ x :: post).filter fun y => decide (y.ty ≠ .null)).head? = some x := by
  rw [List.filter_append, List.filter_eq_nil_iff.2 (by simpa using h), List.nil_append,
    List.filter_cons_of_pos (by simpa using hx)]
  rfl

theorem homogeneous_ok {proxy : KObj → Option (C KObj)} {null : KObj} (hnull : null.ty = .null) {xs : List KObj}
    (hok : ∀ y ∈ xs, ObjOk proxy y) {pre post : List KObj} {x : KObj} (e : xs = pre ++ x :: post)
    (hp : ∀ y ∈ pre, y.ty = .null) (hx : x.ty ≠ .null) :
    Ret (homogeneouslyClassed null xs) fun b => b = true ↔ ∀ y ∈ xs, y.ty ≠ .null → SameClass x y := by
  unfold homogeneouslyClassed
  dsimp only
  by_cases hn : xs.length = 0 ∨ xs.length = 1
  · rw [if_pos hn]
    refine Ret.ok ?_
    have hl : xs.length = pre.length + (post.length + 1) := by rw [e]; simp
    have h1 : pre = [] := List.length_eq_zero_iff.1 (by omega)
    have h2 : post = [] := List.length_eq_zero_iff.1 (by omega)
    subst h1; subst h2
    simp [e, SameClass]
  rw [if_neg hn]
  refine Ret.bind (firstNonNull_ok hnull xs) ?_
  rintro ⟨f, i⟩ h
  obtain ⟨rfl, rfl⟩ : f = x ∧ i = pre.length := by
    rcases h with ⟨pre', post', h1, h2, h3, h4⟩ | ⟨h1, _⟩
    · dsimp only at h1 h3 h4
      have e' : pre ++ x :: post = pre' ++ f :: post' := by rw [← e, ← h1]
      have hlen : pre.length = pre'.length := by
        rcases Nat.lt_trichotomy pre.length pre'.length with hl | hl | hl
        · have := congrArg (fun l => l[pre.length]?) e'
          rw [List.getElem?_append_right (Nat.le_refl _), Nat.sub_self, List.getElem?_append_left hl] at this
          have hm := List.mem_of_getElem? this.symm
          exact absurd (h2 _ hm) hx
        · exact hl
        · have := congrArg (fun l => l[pre'.length]?) e'
          rw [List.getElem?_append_left hl, List.getElem?_append_right (Nat.le_refl _), Nat.sub_self] at this
          exact absurd (hp _ (List.mem_of_getElem? this)) h3
      obtain ⟨e1, e2⟩ := List.append_inj e' hlen
      cases e2
      exact ⟨rfl, by rw [h4, hlen]⟩
    · exact absurd (h1 x (by simp [e])) hx
  dsimp only
  obtain ⟨o, ho, hc, _⟩ := kindClass_ok (hok f (by simp [e])).cls
  refine Ret.bind_eq ho ?_
  have hdone : ∀ k, k = xs.length → (∀ y ∈ xs.take k, y.ty ≠ .null → SameClass f y) →
      (true = true ↔ ∀ y ∈ xs, y.ty ≠ .null → SameClass f y) := by
    rintro k rfl h
    simpa using h
  refine forBrkFrom_inv (fun k b => b = true ∧ ∀ y ∈ xs.take k, y.ty ≠ .null → SameClass f y) _ _ _ _
    ⟨rfl, ?_⟩ ?_ ?_
  · intro y hy hy'
    have : xs.take pre.length = pre := by rw [e]; simp
    rw [this] at hy
    exact absurd (hp y hy) hy'
  · rintro k b hk1 hk2 ⟨rfl, h2⟩
    have hl : xs.length = pre.length + (post.length + 1) := by rw [e]; simp
    have hk : k < xs.length := by omega
    have hm : xs[k] ∈ xs := List.getElem_mem hk
    unfold homogeneousStep
    rw [rd_ok hk, ok_bind]
    by_cases hn : xs[k].ty = .null
    · rw [if_pos hn]
      refine Or.inl ⟨true, rfl, rfl, ?_⟩
      rw [List.take_succ_eq_append_getElem hk]
      intro y hy hy'
      rcases List.mem_append.1 hy with hy | hy
      · exact h2 y hy hy'
      · rw [List.mem_singleton.1 hy] at hy'; exact absurd hn hy'
    · rw [if_neg hn]
      obtain ⟨o', ho', hc', _⟩ := kindClass_ok (hok _ hm).cls
      rw [ho', ok_bind]
      by_cases he : o = o'
      · rw [if_neg (by simpa using he)]
        refine Or.inl ⟨true, rfl, rfl, ?_⟩
        rw [List.take_succ_eq_append_getElem hk]
        intro y hy hy'
        rcases List.mem_append.1 hy with hy | hy
        · exact h2 y hy hy'
        · rw [List.mem_singleton.1 hy]; exact (sameClass_iff hc hc').2 he
      · rw [if_pos he]
        refine Or.inr ⟨false, rfl, ?_⟩
        simp only [Bool.false_eq_true, false_iff]
        intro h
        exact he ((sameClass_iff hc hc').1 (h _ hm hn))
  · rintro b ⟨rfl, h⟩
    have hl : xs.length = pre.length + (post.length + 1) := by rw [e]; simp
    exact hdone _ (by omega) h

theorem classHasMethod_ok (has : Option String → Bool) (o : Option (List (Option String))) :
    Ret (classHasMethod has o) fun b => b = true ↔ ∃ l, o = some l ∧ ∃ c ∈ l, has c = true := by
  cases o with
  | none => exact Ret.ok (by simp)
  | some cls =>
    unfold classHasMethod
    refine Ret.forBrk (fun i b => b = false ∧ ∀ c ∈ cls.take i, has c = false) _ ⟨rfl, by simp⟩ ?_ ?_
    · rintro i b hi ⟨rfl, h⟩
      refine Ret.bind_eq (rd_ok hi) ?_
      cases hh : has cls[i] with
      | true =>
        rw [if_pos rfl]
        exact Ret.ok (by simpa using ⟨cls[i], List.getElem_mem hi, hh⟩)
      | false =>
        rw [if_neg Bool.false_ne_true]
        refine Ret.ok ⟨rfl, ?_⟩
        rw [List.take_succ_eq_append_getElem hi]
        intro c hc
        rcases List.mem_append.1 hc with hc | hc
        · exact h c hc
        · rw [List.mem_singleton.1 hc]; exact hh
    · rintro b ⟨rfl, h⟩
      rw [List.take_length] at h
      simpa using h

theorem objIsVector_ok {proxy : KObj → Option (C KObj)} {x : KObj} (h : ObjOk proxy x) :
    Ret (objIsVector proxy x) fun b => b = true ↔ VectorOf proxy x := by
  by_cases hp : x.obj = false ∨ proxy x = none
  · obtain ⟨b, h1, h2⟩ := C79_vector proxy hp h.cls
    refine ⟨b, h1, h2.trans ?_⟩
    unfold VectorOf
    constructor
    · rintro ⟨a, b⟩; exact ⟨a, Or.inl ⟨hp, b⟩⟩
    · rintro ⟨a, ⟨_, b⟩ | ⟨b, p, c, _⟩⟩
      · exact ⟨a, b⟩
      · rcases hp with hp | hp
        · rw [b] at hp; cases hp
        · rw [c] at hp; cases hp
  · have ho : x.obj = true := by
      cases hx : x.obj with
      | true => rfl
      | false => exact absurd (Or.inl hx) hp
    cases hq : proxy x with
    | none => exact absurd (Or.inr hq) hp
    | some p =>
      obtain ⟨q, rfl, hq'⟩ := h.proxied p hq
      obtain ⟨b, h1, h2⟩ := C79_vector_proxy proxy ho hq hq'
      refine ⟨b, h1, h2.trans ?_⟩
      unfold VectorOf
      constructor
      · rintro ⟨a, b⟩; exact ⟨a, Or.inr ⟨ho, q, hq, b⟩⟩
      · rintro ⟨a, ⟨b, _⟩ | ⟨_, p, c, d⟩⟩
        · rw [hq, ho] at b; simp at b
        · rw [hq] at c; cases c; exact ⟨a, d⟩
theorem implementsPtype2_ok (m : CMethods) {x : KObj} {cls : List (Option String)} (h : ClassOk x)
    (hc : HasClass x cls) :
    Ret (implementsPtype2 m x) fun b => b = false ↔ (cls ≠ [some "data.frame"] ∧ ¬ IsUnspecified x ∧
      ∀ c, cls.head? = some c → m.ptype2Self c = false ∧ m.ptype2 c = false) := by
  obtain ⟨t, h1, h2, h3, h4, h5⟩ := C79_typeof h (fun _ => ⟨cls, hc⟩)
  unfold implementsPtype2
  refine Ret.bind_eq h1 ?_
  by_cases ht : t = .s3
  · subst ht
    obtain ⟨hu, _, hd⟩ := h3.1 rfl
    have hd' : cls ≠ [some "data.frame"] := by rintro rfl; exact hd hc
    dsimp only
    have hk : kindClass x = .ok (some cls) := by
      unfold kindClass
      rw [kindGet_eq, hc.2]
    refine Ret.bind_eq hk ?_
    dsimp only
    have hne : cls ≠ [] := by
      obtain ⟨l, e, hl⟩ := h _ hc.2
      cases e; exact hl
    obtain ⟨c, rest, rfl⟩ := List.exists_cons_of_ne_nil hne
    rw [if_neg (by simp)]
    refine Ret.bind_eq (a := c) rfl ?_
    cases hs : m.ptype2Self c with
    | true =>
      rw [if_pos rfl]
      exact Ret.ok (by simp [hs])
    | false =>
      rw [if_neg Bool.false_ne_true]
      refine Ret.ok ?_
      simp only [List.head?_cons, Option.some.injEq, forall_eq', hs, true_and]
      exact ⟨fun h => ⟨hd', hu, h⟩, fun h => h.2.2⟩
  · have hns : ¬ (¬ IsUnspecified x ∧ x.obj = true ∧ ¬ HasClass x [some "data.frame"]) := fun h => ht (h3.2 h)
    have hnsc : t ≠ .scalar := by
      intro hs
      have := (h4.1 hs).1
      rw [hc.1] at this
      cases this
    refine Ret.mono (P := fun b => b = true) ?_ ?_
    · cases t
      case s3 => exact absurd rfl ht
      case scalar => exact absurd rfl hnsc
      all_goals exact Ret.ok rfl
    · rintro b rfl
      simp only [Bool.true_eq_false, false_iff]
      rintro ⟨hd, hu, _⟩
      refine hns ⟨hu, hc.1, fun h' => hd (hasClass_det hc h')⟩

/-- The decision of `vec_c()` and `list_unchop()` to combine inputs of one class with `c()`. -/
theorem C91_homogeneous (m : CMethods) {null : KObj} (hnull : null.ty = .null) {xs : List KObj} {ptype : KObj}
    (hok : ∀ y ∈ xs, ObjOk m.proxy y) (hpt : ClassOk ptype) :
    Ret (needsHomogeneousFallback m null xs ptype) fun b => b = true ↔ UsesBaseC m xs ptype := by
  unfold needsHomogeneousFallback
  by_cases hl : xs.length = 0
  · rw [if_pos hl]
    refine Ret.ok ?_
    cases List.length_eq_zero_iff.1 hl
    simp [UsesBaseC]
  rw [if_neg hl]
  refine Ret.bind (firstNonNull_ok hnull xs) ?_
  rintro ⟨x, i⟩ h
  dsimp only at h ⊢
  rcases h with ⟨pre, post, e, hpre, hx, _⟩ | ⟨hall, hx, _⟩
  · have hxm : x ∈ xs := by simp [e]
    have hxo := hok x hxm
    have huse : UsesBaseC m xs ptype ↔ VectorOf m.proxy x ∧ ForeignClass m x ∧
        (ptype.ty ≠ .null → SameClass x ptype) ∧ ∀ y ∈ xs, y.ty ≠ .null → SameClass x y := by
      unfold UsesBaseC
      rw [e, filter_head hpre hx]
      simp only [Option.some.injEq]
      constructor
      · rintro ⟨_, rfl, h⟩; exact h
      · intro h; exact ⟨x, rfl, h⟩
    refine Ret.bind (objIsVector_ok hxo) ?_
    intro v hv
    cases v with
    | false =>
      refine Ret.ok ?_
      simp only [Bool.false_eq_true, false_iff] at hv ⊢
      exact fun h => hv (huse.1 h).1
    | true =>
      have hv := hv.1 rfl
      simp only [Bool.not_true, Bool.false_eq_true, if_false]
      obtain ⟨inh, hi, hi'⟩ := kindInherits_ok hxo.cls "vctrs_vctr"
      refine Ret.bind_eq hi ?_
      cases inh with
      | true =>
        refine Ret.ok ?_
        simp only [Bool.false_eq_true, false_iff]
        intro h
        obtain ⟨_, ⟨cls, hc, hn, _⟩, _⟩ := huse.1 h
        obtain ⟨cls', hc', hm⟩ := hi'.1 rfl
        cases hasClass_det hc hc'
        exact hn hm
      | false =>
        have hi' : ¬ ∃ cls, HasClass x cls ∧ some "vctrs_vctr" ∈ cls := fun h => by cases hi'.2 h
        rw [if_neg Bool.false_ne_true]
        obtain ⟨o, ho, hc, hne⟩ := kindClass_ok hxo.cls
        have heq : Ret (ptypeClassEqual x ptype) fun b => b = true ↔ (ptype.ty ≠ .null → SameClass x ptype) := by
          unfold ptypeClassEqual
          by_cases hn : ptype.ty ≠ .null
          · rw [if_pos hn]
            obtain ⟨o', ho', hc', _⟩ := kindClass_ok hpt
            refine Ret.bind_eq ho (Ret.bind_eq ho' (Ret.ok ?_))
            rw [sameClass_iff hc hc']
            simp [hn]
          · rw [if_neg hn]
            exact Ret.ok (by simp [hn])
        refine Ret.bind heq ?_
        intro q hq
        cases q with
        | false =>
          refine Ret.ok ?_
          simp only [Bool.false_eq_true, false_iff] at hq ⊢
          exact fun h => hq (huse.1 h).2.2.1
        | true =>
          have hq := hq.1 rfl
          simp only [Bool.not_true, Bool.false_eq_true, if_false]
          cases o with
          | none =>
            -- not an object: there is no method of `c()` to find
            have hobj : x.obj = false := by
              cases hh : x.obj with
              | false => rfl
              | true =>
                have := hxo.obj.1 hh
                rw [hc] at this
                cases this
            have hno : ¬ UsesBaseC m xs ptype := by
              intro h
              obtain ⟨_, ⟨cls, hc', _⟩, _⟩ := huse.1 h
              rw [hc'.1] at hobj
              cases hobj
            have hp2 : Ret (implementsPtype2 m x) fun _ => True := by
              obtain ⟨t, h1, h2, h3, h4, h5⟩ := C79_typeof hxo.cls (fun hh => by rw [hobj] at hh; cases hh)
              unfold implementsPtype2
              refine Ret.bind_eq h1 ?_
              cases t
              case s3 => have := (h3.1 rfl).2.1; rw [hobj] at this; cases this
              all_goals exact Ret.ok trivial
            refine Ret.bind hp2 ?_
            intro p _
            cases p with
            | true => exact Ret.ok (by simp [hno])
            | false =>
              rw [if_neg Bool.false_ne_true]
              refine Ret.bind (homogeneous_ok hnull hok e hpre hx) ?_
              intro b _
              cases b with
              | false => exact Ret.ok (by simp [hno])
              | true =>
                simp only [Bool.not_true, Bool.false_eq_true, if_false]
                unfold implementsBaseC
                rw [hobj]
                exact Ret.ok (by simp [hno])
          | some cls =>
            have hcls : HasClass x cls := ⟨hxo.obj.2 (by rw [hc]; rfl), hc⟩
            have hvv : some "vctrs_vctr" ∉ cls := fun h => hi' ⟨cls, hcls, h⟩
            refine Ret.bind (implementsPtype2_ok m hxo.cls hcls) ?_
            intro p hp
            cases p with
            | true =>
              refine Ret.ok ?_
              simp only [Bool.true_eq_false, false_iff] at hp
              simp only [Bool.false_eq_true, false_iff]
              intro h
              obtain ⟨_, ⟨cls', hc', _, h1, h2, h3, _⟩, _⟩ := huse.1 h
              cases hasClass_det hcls hc'
              exact hp ⟨h1, h2, h3⟩
            | false =>
              obtain ⟨h1, h2, h3⟩ := hp.1 rfl
              rw [if_neg Bool.false_ne_true]
              refine Ret.bind (homogeneous_ok hnull hok e hpre hx) ?_
              intro b hb
              cases b with
              | false =>
                refine Ret.ok ?_
                simp only [Bool.false_eq_true, false_iff] at hb ⊢
                exact fun h => hb (huse.1 h).2.2.2
              | true =>
                have hb := hb.1 rfl
                simp only [Bool.not_true, Bool.false_eq_true, if_false]
                unfold implementsBaseC
                rw [hcls.1]
                simp only [Bool.not_true, Bool.false_eq_true, if_false]
                refine Ret.bind_eq ho ?_
                have hfin : UsesBaseC m xs ptype ↔ ∃ c ∈ cls, (if m.s4 x then m.s4C c else m.s3C c) = true := by
                  rw [huse]
                  constructor
                  · rintro ⟨_, ⟨cls', hc', _, _, _, _, h⟩, _⟩
                    cases hasClass_det hcls hc'
                    exact h
                  · intro h
                    exact ⟨hv, ⟨cls, hcls, hvv, h1, h2, h3, h⟩, hq, hb⟩
                cases h4 : m.s4 x with
                | true =>
                  rw [if_pos rfl]
                  refine (classHasMethod_ok m.s4C (some cls)).mono ?_
                  intro b hb'
                  rw [hb', hfin]
                  simp [h4]
                | false =>
                  rw [if_neg Bool.false_ne_true]
                  refine (classHasMethod_ok m.s3C (some cls)).mono ?_
                  intro b hb'
                  rw [hb', hfin]
                  simp [h4]
  · have hno : ¬ UsesBaseC m xs ptype := by
      rintro ⟨y, hy, _⟩
      have hm := List.mem_of_mem_head? hy
      simp only [List.mem_filter, decide_eq_true_eq] at hm
      exact hm.2 (hall y hm.1)
    have : objIsVector m.proxy x = .ok false := by
      unfold objIsVector
      rw [if_pos hx]
    refine Ret.bind_eq this ?_
    exact Ret.ok (by simp [hno])

/-- The `NULL`s among the inputs do not matter. -/
theorem C91_nulls (m : CMethods) {null : KObj} (hnull : null.ty = .null) {xs : List KObj} {ptype : KObj}
    (hok : ∀ y ∈ xs, ObjOk m.proxy y) (hpt : ClassOk ptype) :
    needsHomogeneousFallback m null (xs.filter fun y => decide (y.ty ≠ .null)) ptype =
      needsHomogeneousFallback m null xs ptype := by
  obtain ⟨a, h1, h2⟩ := C91_homogeneous m hnull hok hpt
  obtain ⟨b, h3, h4⟩ := C91_homogeneous m hnull (xs := xs.filter fun y => decide (y.ty ≠ .null)) (ptype := ptype)
    (fun y hy => hok y (List.mem_filter.1 hy).1) hpt
  rw [h1, h3]
  have : UsesBaseC m (xs.filter fun y => decide (y.ty ≠ .null)) ptype ↔ UsesBaseC m xs ptype := by
    unfold UsesBaseC
    rw [List.filter_filter]
    simp only [Bool.and_self, List.mem_filter, decide_eq_true_eq]
    constructor
    · rintro ⟨x, a, b, c, d, e⟩; exact ⟨x, a, b, c, d, fun y hy hn => e y ⟨hy, hn⟩ hn⟩
    · rintro ⟨x, a, b, c, d, e⟩; exact ⟨x, a, b, c, d, fun y hy hn => e y hy.1 hn⟩
  exact congrArg Except.ok (Bool.eq_iff_iff.2 (h4.trans (this.trans h2.symm)))

/-- The order of the inputs does not matter if inputs of one class have one type, so that they are all
vectors or all scalars.  In full, the order of inputs would not matter at all; `C91_order_wrong` shows
that it does. -/
theorem C91_order_partial (m : CMethods) {null : KObj} (hnull : null.ty = .null) {xs ys : List KObj}
    {ptype : KObj} (hok : ∀ y ∈ xs, ObjOk m.proxy y) (hpt : ClassOk ptype) (hperm : xs.Perm ys)
    (hsame : ∀ x ∈ xs, ∀ y ∈ xs, SameClass x y →
      x.ty = y.ty ∧ m.s4 x = m.s4 y ∧ (VectorOf m.proxy x ↔ VectorOf m.proxy y)) :
    needsHomogeneousFallback m null xs ptype = needsHomogeneousFallback m null ys ptype := by
  have key : ∀ {xs ys : List KObj}, (∀ y ∈ xs, ObjOk m.proxy y) → xs.Perm ys →
      (∀ x ∈ xs, ∀ y ∈ xs, SameClass x y →
        x.ty = y.ty ∧ m.s4 x = m.s4 y ∧ (VectorOf m.proxy x ↔ VectorOf m.proxy y)) →
      UsesBaseC m xs ptype → UsesBaseC m ys ptype := by
    rintro xs ys hok hperm hsame ⟨x, hx, hv, ⟨cls, hc, h1, h2, h3, h4, h5⟩, hp, hall⟩
    have hxm := List.mem_filter.1 (List.mem_of_mem_head? hx)
    have hxn : x.ty ≠ .null := by simpa using hxm.2
    have hpf := hperm.filter fun y => decide (y.ty ≠ .null)
    cases hy : (ys.filter fun y => decide (y.ty ≠ .null)).head? with
    | none =>
      rw [List.head?_eq_none_iff] at hy
      rw [hy] at hpf
      rw [List.perm_nil.1 hpf] at hx
      cases hx
    | some y =>
      have hym := List.mem_filter.1 (List.mem_of_mem_head? hy)
      have hyx := hperm.mem_iff.2 hym.1
      have hsc := hall y hyx (by simpa using hym.2)
      obtain ⟨ht, hs, hvv⟩ := hsame x hxm.1 y hyx hsc
      have hcy : HasClass y cls := by
        have : y.attrs.lookup .class_ = some (.chr cls) := by rw [← hsc, hc.2]
        exact ⟨(hok y hyx).obj.2 (by rw [this]; rfl), this⟩
      refine ⟨y, hy, hvv.1 hv, ⟨cls, hcy, h1, h2, ?_, h4, ?_⟩, fun hn => ?_, fun z hz hzn => ?_⟩
      · rintro ⟨a, ⟨c', hc', hm⟩ | ⟨hb, _⟩⟩
        · exact h3 ⟨ht.trans a, Or.inl ⟨cls, hc, by cases hasClass_det hcy hc'; exact hm⟩⟩
        · rw [hcy.1] at hb; cases hb
      · rw [← hs]; exact h5
      · exact hsc.symm.trans (hp hn)
      · exact hsc.symm.trans (hall z (hperm.mem_iff.2 hz) hzn)
  obtain ⟨a, h1, h2⟩ := C91_homogeneous m hnull hok hpt
  obtain ⟨b, h3, h4⟩ := C91_homogeneous m hnull (xs := ys) (ptype := ptype)
    (fun y hy => hok y (hperm.mem_iff.2 hy)) hpt
  rw [h1, h3]
  refine congrArg Except.ok (Bool.eq_iff_iff.2 (h2.trans (Iff.trans ⟨key hok hperm hsame, ?_⟩ h4.symm)))
  exact key (fun y hy => hok y (hperm.mem_iff.2 hy)) hperm.symm
    (fun x hx y hy => hsame x (hperm.mem_iff.2 hx) y (hperm.mem_iff.2 hy))

/-- Methods of `c()` for the class `foo` only. -/
def exMethods91 : CMethods :=
  { proxy := fun _ => none, ptype2Self := fun _ => false, ptype2 := fun c => c == some "bar"
    s3C := fun c => c == some "foo", s4C := fun _ => false, s4 := fun _ => false }

/-- `NULL`. -/
def exNull91 : KObj := .mk .null 0 [] [] [] false

/-- An integer vector of class `foo`. -/
def exInt91 : KObj := .mk .integer 2 [] [] [(.class_, .chr [some "foo"])] true

/-- A list of class `foo`: not a vector. -/
def exList91 : KObj := .mk .list 0 [] [exNull91] [(.class_, .chr [some "foo"])] true

theorem exInt91_ok : ObjOk exMethods91.proxy exInt91 :=
  ⟨by intro v h; cases h; exact ⟨_, rfl, by simp⟩, by decide, by intro p h; cases h⟩

theorem exList91_ok : ObjOk exMethods91.proxy exList91 :=
  ⟨by intro v h; cases h; exact ⟨_, rfl, by simp⟩, by decide, by intro p h; cases h⟩

theorem exNull91_ok : ObjOk exMethods91.proxy exNull91 :=
  ⟨(by intro v h; cases h), by decide, by intro p h; cases h⟩

/-- Two inputs that R can make, for which the order decides whether `c()` is used. -/
theorem C91_order_wrong : ∃ (m : CMethods) (null : KObj) (x y : KObj), null.ty = .null ∧
    ObjOk m.proxy x ∧ ObjOk m.proxy y ∧ needsHomogeneousFallback m null [x, y] x = .ok true ∧
    needsHomogeneousFallback m null [y, x] x = .ok false :=
  ⟨exMethods91, exNull91, exInt91, exList91, rfl, exInt91_ok, exList91_ok, by decide +kernel,
    by decide +kernel⟩

/-- Example for `C91_homogeneous` and `C91_nulls`: `NULL`, then two integer vectors of class `foo`. -/
example : (∀ y ∈ [exNull91, exInt91, exNull91, exInt91], ObjOk exMethods91.proxy y) ∧
    ClassOk exInt91 ∧ UsesBaseC exMethods91 [exNull91, exInt91, exNull91, exInt91] exInt91 ∧
    needsHomogeneousFallback exMethods91 exNull91 [exNull91, exInt91, exNull91, exInt91] exInt91 = .ok true := by
  have hall : ∀ y ∈ [exNull91, exInt91, exNull91, exInt91], ObjOk exMethods91.proxy y := by
    intro y hy
    simp only [List.mem_cons, List.not_mem_nil, or_false] at hy
    rcases hy with rfl | rfl | rfl | rfl
    · exact exNull91_ok
    · exact exInt91_ok
    · exact exNull91_ok
    · exact exInt91_ok
  have hr : needsHomogeneousFallback exMethods91 exNull91 [exNull91, exInt91, exNull91, exInt91] exInt91 =
      .ok true := by decide +kernel
  obtain ⟨b, h1, h2⟩ := C91_homogeneous exMethods91 (null := exNull91) rfl hall exInt91_ok.cls
  rw [hr] at h1
  cases h1
  exact ⟨hall, exInt91_ok.cls, h2.1 rfl, hr⟩

/-- Example for `C91_order_partial`: a vector of class `foo` and a bare vector in two orders. -/
example : (∀ x ∈ [exInt91, .mk .double 1 [] [] [] false], ∀ y ∈ [exInt91, .mk .double 1 [] [] [] false],
    SameClass x y → x.ty = y.ty ∧ exMethods91.s4 x = exMethods91.s4 y ∧
      (VectorOf exMethods91.proxy x ↔ VectorOf exMethods91.proxy y)) := by
  intro x hx y hy h
  simp only [List.mem_cons, List.not_mem_nil, or_false] at hx hy
  rcases hx with rfl | rfl <;> rcases hy with rfl | rfl
  · exact ⟨rfl, rfl, Iff.rfl⟩
  · cases h
  · cases h
  · exact ⟨rfl, rfl, Iff.rfl⟩

/-- `vec_c_fallback()` calls `c()` exactly if some class of the common class has an S3 or S4 method. -/
theorem C91_class (m : CMethods) (cls : List (Option String)) :
    Ret (classImplementsBaseC m (some cls)) fun b =>
      b = true ↔ ∃ c ∈ cls, m.s3C c = true ∨ m.s4C c = true := by
  unfold classImplementsBaseC
  refine Ret.bind (classHasMethod_ok m.s3C (some cls)) ?_
  intro a ha
  cases a with
  | true =>
    rw [if_pos rfl]
    obtain ⟨l, e, c, hc, h⟩ := ha.1 rfl
    cases e
    exact Ret.ok (by simpa using ⟨c, hc, Or.inl h⟩)
  | false =>
    rw [if_neg Bool.false_ne_true]
    have ha : ¬ ∃ c ∈ cls, m.s3C c = true := fun h => by simpa using ha.2 ⟨cls, rfl, h⟩
    refine Ret.bind (classHasMethod_ok m.s4C (some cls)) ?_
    intro b hb
    have hb' : b = true ↔ ∃ c ∈ cls, m.s3C c = true ∨ m.s4C c = true := by
      rw [hb]
      constructor
      · rintro ⟨l, e, c, hc, h⟩; cases e; exact ⟨c, hc, Or.inr h⟩
      · rintro ⟨c, hc, h | h⟩
        · exact absurd ⟨c, hc, h⟩ ha
        · exact ⟨cls, rfl, c, hc, h⟩
    cases b with
    | true => exact Ret.ok hb'
    | false => exact Ret.ok hb'

example : classImplementsBaseC exMethods91 (some [some "bar", some "foo"]) = .ok true ∧
    classImplementsBaseC exMethods91 (some [some "bar"]) = .ok false := by decide +kernel

/-- `list_unchop()` with indices: a sentinel of the fallback is heeded unless its last class is that of
vctrs itself; no other type is. -/
theorem C91_sentinel (fallback : Option (List (Option String))) (h : ∀ l, fallback = some l → l ≠ []) :
    Ret (needsFallback fallback) fun b =>
      b = true ↔ ∃ pre c, fallback = some (pre ++ [c]) ∧ c ≠ some "vctrs_vctr" := by
  cases fallback with
  | none => exact Ret.ok (by simp)
  | some cls =>
    obtain ⟨pre, last, rfl⟩ := list_snoc (h cls rfl)
    have hr : rdI (pre ++ [last]) (((pre ++ [last]).length : Int) - 1) = .ok last := by
      have hp : (((pre ++ [last]).length : Int)) - 1 = (pre.length : Nat) := by simp
      unfold rdI
      rw [hp, if_neg (by omega)]
      exact rd_of_getElem? (by simp)
    unfold needsFallback
    refine Ret.bind_eq hr (Ret.ok ?_)
    simp only [bne_iff_ne, ne_eq, Option.some.injEq]
    constructor
    · intro hh; exact ⟨pre, last, rfl, hh⟩
    · rintro ⟨p, c, e, hc⟩
      have := (List.append_inj' e rfl).2
      cases this
      exact hc

example : needsFallback (some [some "foo", some "vctrs_vctr"]) = .ok false ∧
    needsFallback (some [some "vctrs_vctr", some "foo"]) = .ok true := by decide +kernel

/-- A sentinel with an empty class would be read before its start. -/
theorem C91_sentinel_empty : needsFallback (some []) = .error .ub := rfl

end Vctrs
