import Verif.Props.C92

/-!
# Prototypes of data frames of other classes

Data frames of a class without methods of vctrs are passed to `vec_restore()`, with their prototype as a data
frame and themselves.
-/

namespace Vctrs
open Spec

namespace Spec

/-- What `vec_restore()` is called with: the columns `ps`, and attributes and class of `x`, without rows. -/
structure DfProxy (x : KObj) (cls : List (Option String)) (nms : KVal) (ps : List KObj) (y : KObj) : Prop where
  ty : y.ty = .list
  cols : y.cols = ps
  class_ : HasClass y cls
  attrs : plainAttrs y = plainAttrs x
  names : y.attrs.lookup .names = some nms
  rowNames : y.attrs.lookup .rowNames = some (.int [])

end Spec

theorem restoreBareDf_ok (m : PtypeMethods) {x : KObj} {cls : List (Option String)} {nms : KVal} {ps : List KObj}
    (hc : HasClass x cls) (hn : x.attrs.lookup .names = some nms)
    (h : ∀ p, ps.head? = some p → SizeOf m.proxy p 0) :
    restoreBareDf m (mapObj x ps) x = .ok (.mk .list ps.length [] ps (dfProtoAttrs x nms cls (.int [])) true) := by
  have := dfMapObj_ok m hc hn h
  unfold dfMapObj at this
  cases hr : restoreBareDf m (mapObj x ps) x with
  | error e => rw [hr] at this; cases this
  | ok v => rw [hr, ok_bind, if_pos rfl] at this; exact this

theorem dfProxy_ok {x : KObj} {cls : List (Option String)} {nms : KVal} {ps : List KObj} :
    DfProxy x cls nms ps (.mk .list ps.length [] ps (dfProtoAttrs x nms cls (.int [])) true) := by
  obtain ⟨l1, l2, l3, _, l5⟩ := lookup_df x nms cls (.int [])
  exact ⟨rfl, rfl, ⟨rfl, l2⟩, l5, l1, l3⟩

theorem classIs_ne_nil {cls : List (Option String)} (h : ClassIs cls .dataFrame) : cls ≠ [] := by
  generalize hk : VClass.dataFrame = k at h
  cases h with
  | bare hb =>
    subst hk
    exact absurd hb (by simp [bareClasses])
  | df _ => simp
  | list => cases hk
  | unknown _ _ _ => cases hk

theorem ptypeStep_class (m : PtypeMethods) {x : KObj} {cls : List (Option String)} (ht : x.ty = .list)
    (hc : HasClass x cls) (hd : ClassIs cls .dataFrame) : ptypeStep m x = .ok (.cols false) := by
  have hok := classOk_df hc (classIs_ne_nil hd)
  obtain ⟨t, h1, h2, h3, h4, h5⟩ := C79_typeof hok (fun _ => ⟨cls, hc⟩)
  have hun : ¬ IsUnspecified x := by rintro ⟨h, _⟩; rw [ht] at h; cases h
  have hb : ClassIs [some "data.frame"] .bareDataFrame := .bare (s := ["data.frame"]) (by simp [bareClasses])
  unfold ptypeStep
  rw [h1, ok_bind]
  rw [h3.2 ⟨hun, hc.1, fun h => by cases hasClass_det hc h; cases classIs_det hd hb⟩]
  dsimp only
  obtain ⟨c, g1, g2⟩ := classTypeOf_ok hok
  rcases g2 with ⟨_, g2⟩ | ⟨cls', hc', hi'⟩
  · exact absurd hc (g2 cls)
  · cases hasClass_det hc hc'
    cases classIs_det hd hi'
    rw [g1, ok_bind]
    rfl

theorem finaliseStep_class (m : PtypeMethods) {x : KObj} {cls : List (Option String)} (ht : x.ty = .list)
    (hc : HasClass x cls) (hd : ClassIs cls .dataFrame) (hpart : some "vctrs_partial" ∉ cls)
    (hpx : m.proxy x = none) : finaliseStep m x = .ok (.cols false) := by
  have hok := classOk_df hc (classIs_ne_nil hd)
  have hpre : ∃ pre, cls = pre ++ [some "data.frame"] := by
    generalize hk : VClass.dataFrame = k at hd
    cases hd with
    | bare hb => subst hk; exact absurd hb (by simp [bareClasses])
    | df _ => exact ⟨_, rfl⟩
    | list => cases hk
    | unknown _ _ _ => cases hk
  obtain ⟨pre, hpre⟩ := hpre
  have hdf : IsDf x := ⟨ht, pre, hpre ▸ hc⟩
  obtain ⟨b, h1, h2⟩ := C79_vector m.proxy (Or.inr hpx) hok
  have hb : b = true := h2.2 ⟨by simp [ht], by simp [ht], fun _ => Or.inr (Or.inl hdf)⟩
  subst hb
  obtain ⟨c, h3, h4⟩ := kindInherits_ok hok "vctrs_partial"
  have hcf : c = false := by
    cases c with
    | false => rfl
    | true =>
      obtain ⟨cls', hc', hm⟩ := h4.1 rfl
      cases hasClass_det hc hc'
      exact absurd hm hpart
  subst hcf
  have hu : isUnspecified x = .ok false := by unfold isUnspecified; rw [if_pos (by simp [ht])]
  have hpa : isPartialObj x = .ok false := by
    unfold isPartialObj
    rw [if_neg (by simp [ht]), if_pos ht, h3]
  obtain ⟨k, g1, g2⟩ := classTypeOf_ok hok
  unfold finaliseStep
  rw [if_neg (by simp [ht]), hc.1]
  simp only [Bool.not_true, Bool.false_eq_true, if_false, hu, ok_bind, hpa, h1, g1]
  rcases g2 with ⟨_, g2⟩ | ⟨cls', hc', hi'⟩
  · exact absurd hc (g2 cls)
  · cases hasClass_det hc hc'
    cases classIs_det hd hi'
    rfl

/-- The prototype of a data frame of another class is what its method for `vec_restore()` makes of the data
frame of the prototypes of the columns and of `x`, whether a value or an error; names of rows remain strings. -/
theorem C92_class (m : PtypeMethods) (hp : NoProxies m.proxy) {x : KObj} {cls : List (Option String)} {nms : KVal}
    (ht : x.ty = .list) (hc : HasClass x cls) (hd : ClassIs cls .dataFrame)
    (hn : x.attrs.lookup .names = some nms)
    (hcols : ColsLike (fun x y => Uns x ∧ Uns y) (fun x y => StringRows x ↔ StringRows y) x.cols x.cols) :
    ∃ ps y, DfProxy x cls nms ps y ∧ ZeroCols ps ∧
      ColsLike (fun x y => Uns x ∧ Uns y) (fun x y => StringRows x ↔ StringRows y) x.cols ps ∧
      (¬ StringRows x → ptypeObj m x = m.restore y x) ∧
      (StringRows x → (∀ e, m.restore y x = .error e → ptypeObj m x = .error e) ∧
        ∀ r, m.restore y x = .ok r → Ret (ptypeObj m x) fun p =>
          p.ty = r.ty ∧ p.cols = r.cols ∧ p.attrs.lookup .rowNames = some (.chr []) ∧
          ∀ t, t ≠ .rowNames → p.attrs.lookup t = r.attrs.lookup t) := by
  obtain ⟨ps, h1, _, h3, h4⟩ := ptype_cols_main m hp hcols
  refine ⟨ps, _, dfProxy_ok (x := x) (cls := cls) (nms := nms), h4, h3, ?_⟩
  have hb := restoreBareDf_ok m hc hn (zeroCols_head hp h4)
  have e : ptypeObj m x = dfPtypeObj m false x ps := ptypeObj_cols (ptypeStep_class m ht hc hd) ht h1
  unfold dfPtypeObj dfMapObj at e
  rw [hb, ok_bind, if_neg Bool.false_ne_true] at e
  constructor
  · intro hs
    have : chrRowNames x = false := by
      rw [← Bool.not_eq_true, chrRowNames_iff]; exact hs
    rw [e, this]
    cases m.restore (.mk .list ps.length [] ps (dfProtoAttrs x nms cls (.int [])) true) x <;> rfl
  · intro hs
    rw [(chrRowNames_iff x).2 hs] at e
    constructor
    · intro er he
      rw [e, he]; rfl
    · intro r hr
      rw [hr, ok_bind, if_pos rfl] at e
      refine ⟨_, e, rfl, ?_, ?_⟩
      · cases r; rfl
      · have key : ∀ (l : List (KTag × KVal)) (v : KVal), (kindPoke l .rowNames v).lookup .rowNames = some v ∧
            ∀ t, t ≠ .rowNames → (kindPoke l .rowNames v).lookup t = l.lookup t := by
          intro l v
          induction l with
          | nil =>
            refine ⟨by simp [kindPoke], fun t h => ?_⟩
            have h' : (t == KTag.rowNames) = false := by simpa using h
            simp [kindPoke, List.lookup_cons, h']
          | cons a l ih =>
            obtain ⟨u, w⟩ := a
            unfold kindPoke
            by_cases hu : u = .rowNames
            · subst hu
              rw [if_pos rfl]
              refine ⟨by simp [List.lookup_cons], fun t h => ?_⟩
              have h' : (t == KTag.rowNames) = false := by simpa using h
              simp [List.lookup_cons, h']
            · rw [if_neg hu]
              have h' : (KTag.rowNames == u) = false := by simpa using fun h => hu h.symm
              refine ⟨by rw [List.lookup_cons, h']; exact ih.1, fun t h => ?_⟩
              rw [List.lookup_cons, List.lookup_cons, ih.2 t h]
        exact key r.attrs (.chr [])

/-- And so is what `vec_ptype_finalise()` makes of its prototype. -/
theorem C92_class_final (m : PtypeMethods) (hp : NoProxies m.proxy) {x : KObj} {cls : List (Option String)}
    {nms : KVal} (ht : x.ty = .list) (hc : HasClass x cls) (hd : ClassIs cls .dataFrame)
    (hpart : some "vctrs_partial" ∉ cls) (hpx : m.proxy x = none)
    (hn : x.attrs.lookup .names = some nms) (hcols : ZeroCols x.cols) :
    ∃ qs y, DfProxy x cls nms qs y ∧ ZeroCols qs ∧ ColsLike UnsFinal (fun _ _ => True) x.cols qs ∧
      finaliseObj m x = m.restore y x := by
  obtain ⟨qs, h1, _, h3, h4⟩ := finalise_cols_main m hp hcols
  refine ⟨qs, _, dfProxy_ok (x := x) (cls := cls) (nms := nms), h4, h3, ?_⟩
  rw [finaliseObj_cols (finaliseStep_class m ht hc hd hpart hpx) ht h1]
  unfold dfMapObj
  rw [restoreBareDf_ok m hc hn (zeroCols_head hp h4), ok_bind, if_neg Bool.false_ne_true]

/-! ## Examples -/

/-- A data frame of class `foo`, with names of rows. -/
def exFoo92 : KObj :=
  .mk .list 1 [] [.mk .double 2 [] [] [] false]
    [(.names, .chr [some "z"]), (.class_, .chr [some "foo", some "data.frame"]),
      (.rowNames, .chr [some "r", some "s"]), (.other 3, .other 4)] true

/-- A method that removes all attributes. -/
def exFooMethods : PtypeMethods :=
  { exPtypeMethods with restore := fun x _ => .ok (.mk x.ty x.length [] x.cols [] false) }

/-- The hypotheses hold, and the method decides. -/
theorem exFoo92_ok : HasClass exFoo92 [some "foo", some "data.frame"] ∧
    ClassIs [some "foo", some "data.frame"] .dataFrame ∧
    ColsLike (fun x y => Uns x ∧ Uns y) (fun x y => StringRows x ↔ StringRows y) exFoo92.cols exFoo92.cols ∧
    StringRows exFoo92 ∧ some "vctrs_partial" ∉ [some "foo", some "data.frame"] ∧
    ptypeObj exFooMethods exFoo92 =
      .ok (.mk .list 1 [] [.mk .double 0 [] [] [] false] [(.rowNames, .chr [])] false) := by
  refine ⟨⟨rfl, rfl⟩, .df (pre := [some "foo"]) (by decide), .cons ?_ .nil, ⟨_, rfl⟩, by decide, rfl⟩
  exact .vec (plain_of rfl rfl (by decide) (by decide)) (plain_of rfl rfl (by decide) (by decide)) rfl rfl
    (Or.inl ⟨rfl, rfl, Iff.rfl⟩)

/-- Columns without rows for the second theorem. -/
example : ZeroCols [.mk .double 0 [] [] [] false] :=
  .cons (.vec (plain_of rfl rfl (by decide) (by decide)) rfl rfl) .nil

end Vctrs
