import Verif.Model.PtypeObj
import Verif.Props.C79

/-!
# C92: prototypes have size zero, keep the type and are their own prototypes
-/

namespace Vctrs

namespace Spec

/-- Tags other than those of names, dimensions, class and row names. -/
def otherTag : KTag → Bool
  | .other _ => true
  | _ => false

/-- Attributes other than names, dimensions, class and row names. -/
def plainAttrs (x : KObj) : List (KTag × KVal) := x.attrs.filter fun a => otherTag a.1

/-- A vector of a base type without class, that is not all missing. -/
structure PlainVec (x : KObj) : Prop where
  obj : x.obj = false
  cls : x.attrs.lookup .class_ = none
  ty : x.ty ≠ .null ∧ x.ty ≠ .other
  spec : ¬ IsUnspecified x

/-- Both have names or neither, or they are arrays that differ only in the first dimension. -/
def ShapeLike (x y : KObj) : Prop :=
  (x.attrs.lookup .dim = none ∧ y.attrs.lookup .dim = none ∧
    ((x.attrs.lookup .names).isSome ↔ (y.attrs.lookup .names).isSome)) ∨
  ∃ d e ds, x.attrs.lookup .dim = some (.int (d :: ds)) ∧ y.attrs.lookup .dim = some (.int (e :: ds))

/-- Unspecified vectors as R makes them. -/
structure Uns (x : KObj) : Prop where
  spec : IsUnspecified x
  cls : ClassOk x
  obj : x.obj = true → ∃ cls, HasClass x cls

/-- The classes of data frames and tibbles. -/
def dfClasses : List (List (Option String)) :=
  [[some "data.frame"], [some "tbl_df", some "tbl", some "data.frame"]]

/-- Row names are strings. -/
def StringRows (x : KObj) : Prop := ∃ l, x.attrs.lookup .rowNames = some (.chr l)

mutual
/-- Both objects have the same type: vectors of the same base type, shape and other attributes, or data
frames with columns of the same types, names, class and other attributes.  `U` relates unspecified
vectors, `R` row names. -/
inductive TypeLike (U R : KObj → KObj → Prop) : KObj → KObj → Prop
  | null {x : KObj} : x.ty = .null → x.obj = false → x.attrs.lookup .class_ = none → TypeLike U R x x
  | uns {x y : KObj} : U x y → TypeLike U R x y
  | vec {x y : KObj} : PlainVec x → PlainVec y → x.ty = y.ty → plainAttrs x = plainAttrs y → ShapeLike x y →
      TypeLike U R x y
  | df {x y : KObj} {cls : List (Option String)} {nms : KVal} : x.ty = .list → y.ty = .list →
      cls ∈ dfClasses → HasClass x cls → HasClass y cls → plainAttrs x = plainAttrs y →
      x.attrs.lookup .names = some nms → y.attrs.lookup .names = some nms →
      R x y → ColsLike U R x.cols y.cols → TypeLike U R x y

/-- Column by column. -/
inductive ColsLike (U R : KObj → KObj → Prop) : List KObj → List KObj → Prop
  | nil : ColsLike U R [] []
  | cons {x y : KObj} {xs ys : List KObj} : TypeLike U R x y → ColsLike U R xs ys →
      ColsLike U R (x :: xs) (y :: ys)
end

/-- The same type, where unspecified vectors are a type and string row names another than others. -/
abbrev SameProto : KObj → KObj → Prop :=
  TypeLike (fun x y => Uns x ∧ Uns y) (fun x y => StringRows x ↔ StringRows y)

mutual
/-- No elements and no rows, at any depth. -/
inductive Zero : KObj → Prop
  | null {x : KObj} : x.ty = .null → x.obj = false → x.attrs.lookup .class_ = none → Zero x
  | uns {x : KObj} {cls : List (Option String)} : x.ty = .logical → HasClass x cls →
      some "vctrs_unspecified" ∈ cls → x.attrs.lookup .dim = none → x.length = 0 → Zero x
  | vec {x : KObj} : PlainVec x → x.attrs.lookup .dim = none → x.length = 0 → Zero x
  | array {x : KObj} {ds : List Int} : PlainVec x → x.attrs.lookup .dim = some (.int (0 :: ds)) →
      x.length = 0 → Zero x
  | df {x : KObj} {cls : List (Option String)} {rn nms : KVal} : x.ty = .list → cls ∈ dfClasses →
      HasClass x cls → x.attrs.lookup .names = some nms → x.attrs.lookup .rowNames = some rn → Rows rn 0 →
      ZeroCols x.cols → Zero x

/-- Column by column. -/
inductive ZeroCols : List KObj → Prop
  | nil : ZeroCols []
  | cons {x : KObj} {xs : List KObj} : Zero x → ZeroCols xs → ZeroCols (x :: xs)
end

/-- The classes treated natively have no method for `vec_proxy()`. -/
def NoProxies (proxy : KObj → Option (C KObj)) : Prop :=
  ∀ x cls, HasClass x cls → cls ∈ dfClasses ∨ some "vctrs_unspecified" ∈ cls → proxy x = none

end Spec

open Spec

theorem filter_special (l : List (KTag × KVal)) : (l.filter fun a => !specialTag a.1) =
    l.filter fun a => otherTag a.1 := by
  congr 1
  funext a
  obtain ⟨t, v⟩ := a
  cases t <;> rfl

theorem lookup_plain (x : KObj) {t : KTag} (h : specialTag t = true) : (plainAttrs x).lookup t = none := by
  unfold plainAttrs
  induction x.attrs with
  | nil => rfl
  | cons e l ih =>
    obtain ⟨u, v⟩ := e
    cases u
    case other n =>
      rw [List.filter_cons_of_pos (by rfl), List.lookup_cons]
      have : (t == KTag.other n) = false := by
        cases t <;> first | rfl | cases h
      rw [this]
      exact ih
    all_goals rw [List.filter_cons_of_neg (by simp [otherTag])]; exact ih

theorem plain_idem {l : List (KTag × KVal)} (x : KObj) (h : l.filter (fun a => otherTag a.1) = []) :
    (plainAttrs x ++ l).filter (fun a => otherTag a.1) = plainAttrs x := by
  rw [List.filter_append, h, List.append_nil]
  unfold plainAttrs
  rw [List.filter_filter]
  simp

theorem lookup_append_none {l l' : List (KTag × KVal)} {t : KTag} (h : l.lookup t = none) :
    (l ++ l').lookup t = l'.lookup t := by
  rw [List.lookup_append, h]
  rfl

theorem kindPoke_new {l : List (KTag × KVal)} {t : KTag} {v : KVal} (h : l.lookup t = none) :
    kindPoke l t v = l ++ [(t, v)] := by
  induction l with
  | nil => rfl
  | cons e l ih =>
    obtain ⟨u, w⟩ := e
    rw [List.lookup_cons] at h
    by_cases hu : t = u
    · subst hu; simp at h
    · have : (t == u) = false := by simpa using hu
      rw [this] at h
      rw [kindPoke, if_neg (fun h => hu h.symm), ih h]
      rfl

theorem kindPoke_last {l : List (KTag × KVal)} {t : KTag} {v w : KVal} (h : l.lookup t = none) :
    kindPoke (l ++ [(t, w)]) t v = l ++ [(t, v)] := by
  induction l with
  | nil => simp [kindPoke]
  | cons e l ih =>
    obtain ⟨u, z⟩ := e
    rw [List.lookup_cons] at h
    by_cases hu : t = u
    · subst hu; simp at h
    · have : (t == u) = false := by simpa using hu
      rw [this] at h
      rw [List.cons_append, kindPoke, if_neg (fun h => hu h.symm), ih h]
      rfl

theorem mk_length_zero (ty : RType) (a : List (KTag × KVal)) (o : Bool) : (KObj.mk ty 0 [] [] a o).length = 0 := by
  cases ty <;> rfl

/-- The prototype of a bare vector. -/
def vecProto (x : KObj) : KObj :=
  .mk x.ty 0 [] [] (plainAttrs x ++ attrNode .names ((x.attrs.lookup .names).map fun _ => KVal.chr [])) false

/-- The prototype of an array. -/
def arrayProto (x : KObj) (ds : List Int) : KObj :=
  .mk x.ty 0 [] [] (plainAttrs x ++ [(.dim, .int (0 :: ds))]) false

theorem ptypeSlice_vec (m : PtypeMethods) {x : KObj} (h : PlainVec x) (hd : x.attrs.lookup .dim = none) :
    ptypeSlice m x = .ok (vecProto x) := by
  unfold ptypeSlice vecProto
  by_cases ha : x.attrs = []
  · rw [if_pos ha]
    simp [plainAttrs, ha, attrNode]
  · rw [if_neg ha, h.obj, if_neg Bool.false_ne_true]
    unfold sliceEmptyBase
    rw [kindGet_eq, hd]
    dsimp only
    unfold restoreKind
    simp only [kindGet_eq]
    cases hx : x.attrs with
    | nil => exact absurd hx ha
    | cons a l =>
      rw [← hx, h.cls, filter_special, mk_length_zero]
      cases hn : x.attrs.lookup .names with
      | none => simp [attrNode, KObj.attrs, KObj.ty, KObj.nas, KObj.cols, plainAttrs]
      | some v => simp [attrNode, KObj.attrs, KObj.ty, KObj.nas, KObj.cols, plainAttrs, List.lookup_cons,
          show (KTag.dim == KTag.names) = false from rfl]

theorem ptypeSlice_array (m : PtypeMethods) {x : KObj} (h : PlainVec x) {d : Int} {ds : List Int}
    (hd : x.attrs.lookup .dim = some (.int (d :: ds))) :
    ptypeSlice m x = .ok (arrayProto x ds) := by
  unfold ptypeSlice arrayProto
  have ha : x.attrs ≠ [] := by intro ha; rw [ha] at hd; cases hd
  rw [if_neg ha, h.obj, if_neg Bool.false_ne_true]
  unfold sliceEmptyBase
  rw [kindGet_eq, hd]
  dsimp only [zeroRows]
  rw [ok_bind]
  unfold restoreKind
  simp only [kindGet_eq]
  cases hx : x.attrs with
  | nil => exact absurd hx ha
  | cons a l =>
    rw [← hx, h.cls, filter_special, mk_length_zero]
    simp [attrNode, KObj.attrs, KObj.ty, KObj.nas, KObj.cols, plainAttrs, List.lookup_cons]

/-- The attributes of the prototype of a data frame. -/
def dfProtoAttrs (x : KObj) (nms : KVal) (cls : List (Option String)) (rn : KVal) : List (KTag × KVal) :=
  plainAttrs x ++ [(.names, nms), (.class_, .chr cls), (.rowNames, rn)]

theorem lookup_df (x : KObj) (nms : KVal) (cls : List (Option String)) (rn : KVal) :
    (dfProtoAttrs x nms cls rn).lookup .names = some nms ∧
    (dfProtoAttrs x nms cls rn).lookup .class_ = some (.chr cls) ∧
    (dfProtoAttrs x nms cls rn).lookup .rowNames = some rn ∧
    (dfProtoAttrs x nms cls rn).lookup .dim = none ∧
    (dfProtoAttrs x nms cls rn).filter (fun a => otherTag a.1) = plainAttrs x := by
  unfold dfProtoAttrs
  refine ⟨?_, ?_, ?_, ?_, plain_idem x rfl⟩
  all_goals rw [lookup_append_none (lookup_plain x rfl)]; rfl

theorem objSize_zero_cols {proxy : KObj → Option (C KObj)} {ps : List KObj} {a : List (KTag × KVal)}
    (ha : a.lookup .rowNames = none) (h : ∀ p, ps.head? = some p → SizeOf proxy p 0) (n : Nat) (o : Bool) :
    dfObjRawSize proxy (.mk .list n [] ps a o) = .ok 0 := by
  unfold dfObjRawSize
  rw [show (KObj.mk .list n [] ps a o).attrs = a from rfl, dfRownamesSize_ok, ha, ok_bind, if_neg (by omega)]
  rw [show (KObj.mk .list n [] ps a o).length = ps.length from rfl,
    show (KObj.mk .list n [] ps a o).cols = ps from rfl]
  cases ps with
  | nil => rfl
  | cons p ps =>
    rw [if_pos (by simp), show rd (p :: ps) 0 = .ok p from rfl, ok_bind]
    exact C79_size proxy (h p rfl)

theorem dfMapObj_ok (m : PtypeMethods) {x : KObj} {cls : List (Option String)} {nms : KVal} {ps : List KObj}
    (hc : HasClass x cls) (hn : x.attrs.lookup .names = some nms)
    (h : ∀ p, ps.head? = some p → SizeOf m.proxy p 0) :
    dfMapObj m true x ps = .ok (.mk .list ps.length [] ps (dfProtoAttrs x nms cls (.int [])) true) := by
  have ha : x.attrs ≠ [] := by intro ha; rw [ha] at hn; cases hn
  have hr : restoreKind (mapObj x ps) x true =
      .mk .list ps.length [] ps (plainAttrs x ++ [(.names, nms), (.class_, .chr cls)]) true := by
    unfold restoreKind mapObj
    simp only [kindGet_eq]
    cases hx : x.attrs with
    | nil => exact absurd hx ha
    | cons a l =>
      rw [← hx, hc.2, hn, filter_special]
      simp [attrNode, KObj.attrs, KObj.ty, KObj.nas, KObj.cols, KObj.length, plainAttrs, List.lookup_cons,
        show (KTag.dim == KTag.names) = false from rfl, show (KTag.rowNames == KTag.names) = false from rfl]
  have hro : (plainAttrs x ++ [(KTag.names, nms), (KTag.class_, KVal.chr cls)]).lookup .rowNames = none := by
    rw [lookup_append_none (lookup_plain x rfl)]; rfl
  have hnm : (plainAttrs x ++ [(KTag.names, nms), (KTag.class_, KVal.chr cls)]).lookup .names = some nms := by
    rw [lookup_append_none (lookup_plain x rfl)]; rfl
  unfold dfMapObj restoreBareDf
  dsimp only
  rw [hr]
  have hk : kindGet (KObj.mk .list ps.length [] ps (plainAttrs x ++ [(KTag.names, nms), (KTag.class_, KVal.chr cls)])
      true).attrs .names = some nms := by rw [kindGet_eq]; exact hnm
  rw [hk]
  dsimp only
  rw [objSize_zero_cols hro h, ok_bind, ok_bind, if_pos rfl]
  unfold KObj.withAttrs dfProtoAttrs
  rw [show (KObj.mk .list ps.length [] ps (plainAttrs x ++ [(KTag.names, nms), (KTag.class_, KVal.chr cls)])
      true).attrs = plainAttrs x ++ [(KTag.names, nms), (KTag.class_, KVal.chr cls)] from rfl, kindPoke_new hro]
  simp [KObj.ty, KObj.nas, KObj.cols, KObj.length, KObj.obj, newCompactRownames]

theorem dfPtypeObj_ok (m : PtypeMethods) {x : KObj} {cls : List (Option String)} {nms : KVal} {ps : List KObj}
    (hc : HasClass x cls) (hn : x.attrs.lookup .names = some nms)
    (h : ∀ p, ps.head? = some p → SizeOf m.proxy p 0) :
    dfPtypeObj m true x ps = .ok (.mk .list ps.length [] ps
      (dfProtoAttrs x nms cls (if chrRowNames x then .chr [] else .int [])) true) := by
  unfold dfPtypeObj
  rw [dfMapObj_ok m hc hn h, ok_bind]
  cases hch : chrRowNames x with
  | false => rfl
  | true =>
    rw [if_pos rfl, if_pos rfl]
    unfold KObj.withAttrs dfProtoAttrs
    have hro : (plainAttrs x ++ [(KTag.names, nms), (KTag.class_, KVal.chr cls)]).lookup .rowNames = none := by
      rw [lookup_append_none (lookup_plain x rfl)]; rfl
    have := kindPoke_last (v := .chr []) (w := .int []) hro
    simp only [List.append_assoc, List.cons_append, List.nil_append] at this
    rw [show (KObj.mk .list ps.length [] ps (plainAttrs x ++ [(KTag.names, nms), (KTag.class_, KVal.chr cls),
      (KTag.rowNames, .int [])]) true).attrs = plainAttrs x ++ [(KTag.names, nms), (KTag.class_, KVal.chr cls),
      (KTag.rowNames, .int [])] from rfl, this]
    rfl

theorem ptypeObj_done {m : PtypeMethods} {x : KObj} {p : C KObj} (h : ptypeStep m x = .ok (.done p)) :
    ptypeObj m x = p := by
  cases x
  rw [ptypeObj, h, ok_bind]

theorem ptypeObj_cols {m : PtypeMethods} {x : KObj} {b : Bool} {ps : List KObj}
    (h : ptypeStep m x = .ok (.cols b)) (ht : x.ty = .list) (hc : ptypeCols m x.cols = .ok ps) :
    ptypeObj m x = dfPtypeObj m b x ps := by
  cases x
  rw [ptypeObj, h, ok_bind]
  dsimp only [KObj.ty, KObj.cols] at ht hc ⊢
  rw [if_neg (by simpa using ht), hc, ok_bind]

theorem finaliseObj_done {m : PtypeMethods} {x : KObj} {p : C KObj} (h : finaliseStep m x = .ok (.done p)) :
    finaliseObj m x = p := by
  cases x
  rw [finaliseObj, h, ok_bind]

theorem finaliseObj_cols {m : PtypeMethods} {x : KObj} {b : Bool} {ps : List KObj}
    (h : finaliseStep m x = .ok (.cols b)) (ht : x.ty = .list) (hc : finaliseCols m x.cols = .ok ps) :
    finaliseObj m x = dfMapObj m b x ps := by
  cases x
  rw [finaliseObj, h, ok_bind]
  dsimp only [KObj.ty, KObj.cols] at ht hc ⊢
  rw [if_neg (by simpa using ht), hc, ok_bind]

theorem classOk_none {x : KObj} (h : x.attrs.lookup .class_ = none) : ClassOk x := by
  intro v hv
  rw [h] at hv
  cases hv

theorem classOk_df {x : KObj} {cls : List (Option String)} (h : HasClass x cls) (hc : cls ≠ []) : ClassOk x := by
  intro v hv
  rw [h.2] at hv
  cases hv
  exact ⟨cls, rfl, hc⟩

theorem dfClasses_cases {cls : List (Option String)} (h : cls ∈ dfClasses) :
    cls ≠ [] ∧ (∃ pre, cls = pre ++ [some "data.frame"]) ∧ some "vctrs_partial" ∉ cls ∧
      (ClassIs cls .bareDataFrame ∧ cls = [some "data.frame"] ∨
        ClassIs cls .bareTibble ∧ cls ≠ [some "data.frame"]) := by
  simp only [dfClasses, List.mem_cons, List.not_mem_nil, or_false] at h
  rcases h with rfl | rfl
  · exact ⟨by simp, ⟨[], rfl⟩, by simp,
      Or.inl ⟨.bare (s := ["data.frame"]) (by simp [bareClasses]), rfl⟩⟩
  · exact ⟨by simp, ⟨[some "tbl_df", some "tbl"], rfl⟩, by simp,
      Or.inr ⟨.bare (s := ["tbl_df", "tbl", "data.frame"]) (by simp [bareClasses]), by simp⟩⟩

theorem ptypeStep_plain (m : PtypeMethods) {x : KObj} (h : PlainVec x) :
    ptypeStep m x = .ok (.done (ptypeSlice m x)) := by
  have hno : x.obj = true → x.attrs ≠ [] := fun ho => by rw [h.obj] at ho; cases ho
  obtain ⟨b, h1, h2⟩ := C79_unspecified (classOk_none h.cls) hno
  have hb : b = false := by
    cases b with
    | false => rfl
    | true => exact absurd (h2.1 rfl) h.spec
  subst hb
  unfold ptypeStep typeofObj
  rw [h1, ok_bind, if_neg Bool.false_ne_true, h.obj]
  simp only [Bool.not_false, Bool.true_or, if_true]
  unfold baseTypeof
  rw [h.obj]
  have := h.ty
  cases ht : x.ty
  case null => exact absurd ht this.1
  case other => exact absurd ht this.2
  all_goals rfl

theorem ptypeStep_uns (m : PtypeMethods) {x : KObj} (h : Uns x) : ptypeStep m x = .ok (.done (.ok emptyUns)) := by
  obtain ⟨t, h1, h2, _⟩ := C79_typeof h.cls h.obj
  unfold ptypeStep
  rw [h1, ok_bind, h2.2 h.spec]

theorem ptypeStep_df (m : PtypeMethods) {x : KObj} {cls : List (Option String)} (ht : x.ty = .list)
    (hc : HasClass x cls) (hd : cls ∈ dfClasses) : ptypeStep m x = .ok (.cols true) := by
  obtain ⟨hne, _, _, hcls⟩ := dfClasses_cases hd
  have hok := classOk_df hc hne
  obtain ⟨t, h1, h2, h3, h4, h5⟩ := C79_typeof hok (fun _ => ⟨cls, hc⟩)
  have hun : ¬ IsUnspecified x := by rintro ⟨h, _⟩; rw [ht] at h; cases h
  unfold ptypeStep
  rw [h1, ok_bind]
  rcases hcls with ⟨_, rfl⟩ | ⟨hi, hn⟩
  · rw [h5 hc.1 hun hc]
  · rw [h3.2 ⟨hun, hc.1, fun h => hn (hasClass_det hc h)⟩]
    dsimp only
    obtain ⟨c, g1, g2⟩ := classTypeOf_ok hok
    rcases g2 with ⟨_, g2⟩ | ⟨cls', hc', hi'⟩
    · exact absurd hc (g2 cls)
    · cases hasClass_det hc hc'
      cases classIs_det hi hi'
      rw [g1, ok_bind]
      rfl

theorem zero_size {proxy : KObj → Option (C KObj)} (hp : NoProxies proxy) {x : KObj} (h : Zero x) :
    SizeOf proxy x 0 := by
  cases h with
  | null ht ho hc => exact Or.inl ⟨Or.inl ho, classOk_none hc, .null ht⟩
  | @uns _ cls ht hc hm hd hl =>
    have hv : SizedObj false x x.length := .vec (by simp [ht]) ⟨by simp [ht], by simp [ht]⟩
      (fun h => by have := h.1; rw [ht] at this; cases this) (Or.inl hd)
    rw [hl] at hv
    exact Or.inl ⟨Or.inr (hp x cls hc (Or.inr hm)), classOk_df hc (List.ne_nil_of_mem hm), hv⟩
  | vec hx hd hl =>
    have hv : SizedObj false x x.length := .vec hx.ty.1 ⟨hx.ty.2, fun _ => Or.inl hx.obj⟩
      (fun h => by obtain ⟨_, _, h, _⟩ := h; rw [hx.obj] at h; cases h) (Or.inl hd)
    rw [hl] at hv
    exact Or.inl ⟨Or.inl hx.obj, classOk_none hx.cls, hv⟩
  | array hx hd hl =>
    exact Or.inl ⟨Or.inl hx.obj, classOk_none hx.cls, .array hx.ty.1 ⟨hx.ty.2, fun _ => Or.inl hx.obj⟩
      (fun h => by obtain ⟨_, _, h, _⟩ := h; rw [hx.obj] at h; cases h) hd⟩
  | @df _ cls rn _ ht hcls hc _ hr hrow _ =>
    obtain ⟨hne, ⟨pre, hpre⟩, _⟩ := dfClasses_cases hcls
    exact Or.inl ⟨Or.inr (hp x cls hc (Or.inl hcls)), classOk_df hc hne, .df ⟨ht, pre, hpre ▸ hc⟩ hr hrow⟩

theorem emptyUns_uns : Uns emptyUns :=
  ⟨⟨rfl, Or.inl ⟨_, ⟨rfl, rfl⟩, by simp⟩⟩, by intro v h; cases h; exact ⟨_, rfl, by simp⟩,
    fun _ => ⟨_, rfl, rfl⟩⟩

theorem emptyUns_zero : Zero emptyUns := .uns (cls := [some "vctrs_unspecified"]) rfl ⟨rfl, rfl⟩ (by simp) rfl rfl

theorem vecProto_plain {x : KObj} (h : PlainVec x) : PlainVec (vecProto x) ∧ plainAttrs (vecProto x) = plainAttrs x ∧
    (vecProto x).attrs.lookup .dim = none ∧
    ((x.attrs.lookup .names).isSome ↔ ((vecProto x).attrs.lookup .names).isSome) := by
  have hl : ∀ t, specialTag t = true → (vecProto x).attrs.lookup t =
      (attrNode .names ((x.attrs.lookup .names).map fun _ => KVal.chr [])).lookup t := by
    intro t ht
    exact lookup_append_none (lookup_plain x ht)
  refine ⟨⟨rfl, ?_, h.ty, ?_⟩, ?_, ?_, ?_⟩
  · rw [hl _ rfl]; cases x.attrs.lookup .names <;> rfl
  · rintro ⟨_, ⟨_, h, _⟩ | ⟨_, _, h, _⟩⟩
    · exact absurd h.1 Bool.false_ne_true
    · exact h rfl
  · exact plain_idem x (by cases x.attrs.lookup .names <;> rfl)
  · rw [hl _ rfl]; cases x.attrs.lookup .names <;> rfl
  · rw [hl _ rfl]; cases x.attrs.lookup .names <;> simp [attrNode, List.lookup_cons]

theorem arrayProto_plain {x : KObj} (h : PlainVec x) (ds : List Int) : PlainVec (arrayProto x ds) ∧
    plainAttrs (arrayProto x ds) = plainAttrs x ∧
    (arrayProto x ds).attrs.lookup .dim = some (.int (0 :: ds)) := by
  have hl : ∀ t, specialTag t = true → (arrayProto x ds).attrs.lookup t =
      [(KTag.dim, KVal.int (0 :: ds))].lookup t := by
    intro t ht
    exact lookup_append_none (lookup_plain x ht)
  refine ⟨⟨rfl, ?_, h.ty, ?_⟩, plain_idem x rfl, ?_⟩
  · rw [hl _ rfl]; rfl
  · rintro ⟨_, ⟨_, h, _⟩ | ⟨_, _, h, _⟩⟩
    · exact absurd h.1 Bool.false_ne_true
    · exact h rfl
  · rw [hl _ rfl]; rfl

theorem chrRowNames_iff (x : KObj) : chrRowNames x = true ↔ StringRows x := by
  unfold chrRowNames StringRows
  rw [kindGet_eq]
  cases h : x.attrs.lookup .rowNames with
  | none => simp
  | some v => cases v <;> simp

theorem zeroCols_head {proxy : KObj → Option (C KObj)} (hp : NoProxies proxy) {ps : List KObj} (h : ZeroCols ps) :
    ∀ p, ps.head? = some p → SizeOf proxy p 0 := by
  intro p hh
  cases h with
  | nil => cases hh
  | cons h _ => cases hh; exact zero_size hp h

mutual
theorem ptype_main (m : PtypeMethods) (hp : NoProxies m.proxy) : ∀ {x y : KObj}, SameProto x y →
    ∃ p, ptypeObj m x = .ok p ∧ ptypeObj m y = .ok p ∧ SameProto x p ∧ Zero p
  | x, _, .null ht ho hc => by
    have hs : ptypeStep m x = .ok (.done (.ok x)) := by
      unfold ptypeStep typeofObj isUnspecified
      rw [if_pos (by simp [ht]), ok_bind, if_neg Bool.false_ne_true, ho]
      simp only [Bool.not_false, Bool.true_or, if_true]
      unfold baseTypeof
      rw [ht]
      rfl
    exact ⟨x, ptypeObj_done hs, ptypeObj_done hs, .null ht ho hc, .null ht ho hc⟩
  | x, y, .uns h => by
    exact ⟨emptyUns, ptypeObj_done (ptypeStep_uns m h.1), ptypeObj_done (ptypeStep_uns m h.2),
      .uns ⟨h.1, emptyUns_uns⟩, emptyUns_zero⟩
  | x, y, .vec hx hy ht ha hs => by
    rcases hs with ⟨h1, h2, h3⟩ | ⟨d, e, ds, h1, h2⟩
    · obtain ⟨g1, g2, g3, g4⟩ := vecProto_plain hx
      have e : vecProto x = vecProto y := by
        unfold vecProto
        rw [ht, ha]
        cases hn : x.attrs.lookup .names <;> cases hn' : y.attrs.lookup .names
        · rfl
        · rw [hn, hn'] at h3; simp at h3
        · rw [hn, hn'] at h3; simp at h3
        · rfl
      refine ⟨vecProto x, ?_, ?_, .vec hx g1 rfl g2.symm (Or.inl ⟨h1, g3, g4⟩), .vec g1 g3 (mk_length_zero _ _ _)⟩
      · rw [ptypeObj_done (ptypeStep_plain m hx), ptypeSlice_vec m hx h1]
      · rw [ptypeObj_done (ptypeStep_plain m hy), ptypeSlice_vec m hy h2, e]
    · obtain ⟨g1, g2, g3⟩ := arrayProto_plain hx ds
      have e : arrayProto x ds = arrayProto y ds := by
        unfold arrayProto
        rw [ht, ha]
      refine ⟨arrayProto x ds, ?_, ?_, .vec hx g1 rfl g2.symm (Or.inr ⟨_, _, _, h1, g3⟩),
        .array g1 g3 (mk_length_zero _ _ _)⟩
      · rw [ptypeObj_done (ptypeStep_plain m hx), ptypeSlice_array m hx h1]
      · rw [ptypeObj_done (ptypeStep_plain m hy), ptypeSlice_array m hy h2, e]
  | x, y, .df (cls := cls) (nms := nms) hx hy hcls hcx hcy ha hnx hny hr hcols => by
    obtain ⟨ps, h1, h2, h3, h4⟩ := ptype_cols_main m hp hcols
    have hhead := zeroCols_head hp h4
    have hch : chrRowNames x = chrRowNames y := by
      rw [Bool.eq_iff_iff, chrRowNames_iff, chrRowNames_iff]; exact hr
    obtain ⟨l1, l2, l3, l4, l5⟩ := lookup_df x nms cls (if chrRowNames x then .chr [] else .int [])
    refine ⟨.mk .list ps.length [] ps (dfProtoAttrs x nms cls (if chrRowNames x then .chr [] else .int [])) true,
      ?_, ?_, ?_, ?_⟩
    · rw [ptypeObj_cols (ptypeStep_df m hx hcx hcls) hx h1, dfPtypeObj_ok m hcx hnx hhead]
    · rw [ptypeObj_cols (ptypeStep_df m hy hcy hcls) hy h2, dfPtypeObj_ok m hcy hny hhead, ← hch]
      unfold dfProtoAttrs
      rw [ha]
    · refine .df hx rfl hcls hcx ⟨rfl, l2⟩ l5.symm hnx l1 ?_ h3
      show StringRows x ↔ ∃ l, (dfProtoAttrs x nms cls _).lookup .rowNames = some (.chr l)
      rw [l3, ← chrRowNames_iff]
      cases chrRowNames x <;> simp
    · refine .df rfl hcls ⟨rfl, l2⟩ l1 l3 ?_ h4
      cases chrRowNames x
      · exact Rows.int (l := []) (by simp)
      · exact Rows.chr (l := [])

theorem ptype_cols_main (m : PtypeMethods) (hp : NoProxies m.proxy) : ∀ {xs ys : List KObj},
    ColsLike (fun x y => Uns x ∧ Uns y) (fun x y => StringRows x ↔ StringRows y) xs ys →
    ∃ ps, ptypeCols m xs = .ok ps ∧ ptypeCols m ys = .ok ps ∧
      ColsLike (fun x y => Uns x ∧ Uns y) (fun x y => StringRows x ↔ StringRows y) xs ps ∧ ZeroCols ps
  | _, _, .nil => ⟨[], by rw [ptypeCols], by rw [ptypeCols], .nil, .nil⟩
  | _, _, .cons h hs => by
    obtain ⟨p, h1, h2, h3, h4⟩ := ptype_main m hp h
    obtain ⟨ps, g1, g2, g3, g4⟩ := ptype_cols_main m hp hs
    refine ⟨p :: ps, ?_, ?_, .cons h3 g3, .cons h4 g4⟩
    · rw [ptypeCols, h1, ok_bind, g1, ok_bind]
    · rw [ptypeCols, h2, ok_bind, g2, ok_bind]
end

/-- The prototype of a vector or data frame, of any depth, has the same type and no rows. -/
theorem C92_ptype (m : PtypeMethods) (hp : NoProxies m.proxy) {x : KObj} (h : SameProto x x) :
    Ret (ptypeObj m x) fun p => SameProto x p ∧ objSize m.proxy p = .ok 0 := by
  obtain ⟨p, h1, _, h2, h3⟩ := ptype_main m hp h
  exact ⟨p, h1, h2, C79_size m.proxy (zero_size hp h3)⟩

/-- It depends on nothing but the type: not on the elements, their number, or the values of names. -/
theorem C92_same (m : PtypeMethods) (hp : NoProxies m.proxy) {x y : KObj} (h : SameProto x y) :
    ptypeObj m x = ptypeObj m y := by
  obtain ⟨p, h1, h2, _⟩ := ptype_main m hp h
  rw [h1, h2]

/-- It is its own prototype. -/
theorem C92_idempotent (m : PtypeMethods) (hp : NoProxies m.proxy) {x : KObj} (h : SameProto x x) :
    Ret (ptypeObj m x) fun p => ptypeObj m p = .ok p := by
  obtain ⟨p, h1, _, h2, _⟩ := ptype_main m hp h
  obtain ⟨q, h3, h4, _⟩ := ptype_main m hp h2
  rw [h1] at h3
  cases h3
  exact ⟨p, h1, h4⟩

/-- Scalars without class have no prototype. -/
theorem C92_scalar (m : PtypeMethods) {x : KObj} (hok : ClassOk x) (ho : x.obj = false) (h : ¬ IsVec false x) :
    ptypeObj m x = .error .abort := by
  obtain ⟨t, h1, _, _, h2, _⟩ := C79_typeof hok (fun hh => by rw [ho] at hh; cases hh)
  refine ptypeObj_done ?_
  unfold ptypeStep
  rw [h1, ok_bind, h2.2 ⟨ho, h⟩]

/-- Nor have scalars of a class without methods: objects that are no vectors, such as lists of an unknown class. -/
theorem C92_scalar_class (m : PtypeMethods) {x : KObj} (hok : ClassOk x) {cls : List (Option String)}
    (hc : HasClass x cls) (hv : ¬ IsVec false x) (hdf : ∀ pre, cls ≠ pre ++ [some "data.frame"])
    (hpart : some "vctrs_partial" ∉ cls) (hm : m.ptype x = none) (hp : m.proxy x = none) :
    ptypeObj m x = .error .abort := by
  have huniq : ∀ {c}, HasClass x c → c = cls := fun h => by
    have := h.2.symm.trans hc.2
    cases this
    rfl
  have hnull : x.ty ≠ .null := by
    intro h
    exact hv ⟨by rw [h]; nofun, fun h' => by rw [h] at h'; cases h'⟩
  have hu : ¬ IsUnspecified x := fun h => hv ⟨by rw [h.1]; nofun, fun h' => by rw [h.1] at h'; cases h'⟩
  obtain ⟨t, h1, _, h2, _⟩ := C79_typeof hok (fun _ => ⟨cls, hc⟩)
  have hs3 : t = .s3 := h2.2 ⟨hu, hc.1, fun h => hdf [] (huniq h).symm⟩
  obtain ⟨c, g1, g2⟩ := classTypeOf_ok hok
  have hother : s3PtypeOther m x = .error .abort := by
    unfold s3PtypeOther
    have hpt : isPartialObj x = .ok false := by
      unfold isPartialObj
      rw [if_neg hnull]
      split
      · obtain ⟨b, k1, k2⟩ := kindInherits_ok hok "vctrs_partial"
        rw [k1]
        cases b with
        | false => rfl
        | true =>
          obtain ⟨c', e1, e2⟩ := k2.1 rfl
          exact absurd (huniq e1 ▸ e2) hpart
      · rfl
    obtain ⟨b, k1, k2⟩ := C79_vector m.proxy (Or.inr hp) hok
    rw [hpt, ok_bind, if_neg Bool.false_ne_true, hm]
    dsimp only
    rw [k1, ok_bind]
    cases b with
    | false => rfl
    | true => exact absurd (k2.1 rfl).2 hv
  refine ptypeObj_done ?_
  unfold ptypeStep
  rw [h1, ok_bind, hs3]
  dsimp only
  rw [g1, ok_bind]
  rcases g2 with ⟨_, g2⟩ | ⟨c', g2, g3⟩
  · exact absurd hc (g2 _)
  · cases huniq g2
    have key : ∀ p ∈ bareClasses, (p.2 = .bareTibble ∨ p.2 = .dataFrame ∨ p.2 = .bareDataFrame ∨ p.2 = .noClass) →
        ∃ pre, p.1.map some = pre ++ [some "data.frame"] := by
      intro p hp h
      refine ⟨(p.1.map some).dropLast, ?_⟩
      revert p
      decide +kernel
    unfold s3PtypeStep
    rw [← hother]
    cases g3 with
    | bare hb =>
      have := key _ hb
      cases c <;> first | rfl | (obtain ⟨pre, e⟩ := this (by simp); exact absurd e (hdf pre))
    | df _ => exact absurd rfl (hdf _)
    | list => rfl
    | unknown _ _ _ => rfl

/-- A fitted model. -/
example : HasClass (.mk .list 0 [] [] [(.class_, .chr [some "lm"])] true) [some "lm"] ∧
    ¬ IsVec false (.mk .list 0 [] [] [(.class_, .chr [some "lm"])] true) := by
  refine ⟨⟨rfl, rfl⟩, fun h => ?_⟩
  rcases h.2 rfl with h | ⟨_, pre, h⟩ | h | ⟨cls, h, hm⟩
  · cases h
  · have e : some (KVal.chr [some "lm"]) = some (.chr (pre ++ [some "data.frame"])) := h.2
    cases pre <;> simp at e
  · cases h
  · have e : some (KVal.chr [some "lm"]) = some (.chr cls) := h.2
    simp only [Option.some.injEq, KVal.chr.injEq] at e
    subst e
    simp at hm

namespace Spec

/-- What becomes of unspecified vectors: a logical vector without attributes. -/
def UnsFinal (x q : KObj) : Prop := Uns x ∧ PlainVec q ∧ q.ty = .logical ∧ q.attrs = []

/-- The same type, with logical instead of unspecified vectors. -/
abbrev FinalType : KObj → KObj → Prop := TypeLike UnsFinal (fun _ _ => True)

end Spec

theorem shapeLike_refl {x : KObj} (h : x.attrs.lookup .dim = none ∨
    ∃ d ds, x.attrs.lookup .dim = some (.int (d :: ds))) : ShapeLike x x := by
  rcases h with h | ⟨d, ds, h⟩
  · exact Or.inl ⟨h, h, Iff.rfl⟩
  · exact Or.inr ⟨d, d, ds, h, h⟩

theorem finaliseStep_plain (m : PtypeMethods) {x : KObj} (h : PlainVec x) :
    finaliseStep m x = .ok (.done (.ok x)) := by
  obtain ⟨b, h1, h2⟩ := C79_vector m.proxy (Or.inl h.obj) (classOk_none h.cls)
  unfold finaliseStep
  rw [if_neg h.ty.1, h.obj, if_pos (by rfl), h1, ok_bind, h2.2 ⟨h.ty.1, h.ty.2, fun _ => Or.inl h.obj⟩]
  rfl

theorem finaliseStep_df (m : PtypeMethods) (hp : NoProxies m.proxy) {x : KObj} {cls : List (Option String)}
    (ht : x.ty = .list) (hc : HasClass x cls) (hd : cls ∈ dfClasses) :
    finaliseStep m x = .ok (.cols true) := by
  obtain ⟨hne, ⟨pre, hpre⟩, hpart, hcls⟩ := dfClasses_cases hd
  have hok := classOk_df hc hne
  have hpx := hp x cls hc (Or.inl hd)
  have hdf : IsDf x := ⟨ht, pre, hpre ▸ hc⟩
  obtain ⟨b, h1, h2⟩ := C79_vector m.proxy (Or.inr hpx) hok
  have hb : b = true := h2.2 ⟨by simp [ht], by simp [ht], fun _ => Or.inr (Or.inl hdf)⟩
  subst hb
  obtain ⟨c, h3, h4⟩ := kindInherits_ok hok "vctrs_partial"
  have hcf : c = false := by
    cases c with
    | false => rfl
    | true =>
      obtain ⟨cls', hc', hm⟩ := h4.1 rfl
      cases hasClass_det hc hc'
      exact absurd hm hpart
  subst hcf
  have hu : isUnspecified x = .ok false := by unfold isUnspecified; rw [if_pos (by simp [ht])]
  have hpa : isPartialObj x = .ok false := by
    unfold isPartialObj
    rw [if_neg (by simp [ht]), if_pos ht, h3]
  obtain ⟨k, g1, g2⟩ := classTypeOf_ok hok
  unfold finaliseStep
  rw [if_neg (by simp [ht]), hc.1]
  simp only [Bool.not_true, Bool.false_eq_true, if_false, hu, ok_bind, hpa, h1, g1]
  rcases g2 with ⟨_, g2⟩ | ⟨cls', hc', hi'⟩
  · exact absurd hc (g2 cls)
  · cases hasClass_det hc hc'
    rcases hcls with ⟨hi, _⟩ | ⟨hi, _⟩
    · cases classIs_det hi hi'; rfl
    · cases classIs_det hi hi'; rfl

theorem finaliseStep_uns (m : PtypeMethods) {x : KObj} {cls : List (Option String)} (ht : x.ty = .logical)
    (hc : HasClass x cls) (hm : some "vctrs_unspecified" ∈ cls) (hl : x.length = 0) :
    finaliseStep m x = .ok (.done (.ok (.mk .logical 0 [] [] [] false))) := by
  obtain ⟨b, h1, h2⟩ := C79_unspecified (x := x) (classOk_df hc (List.ne_nil_of_mem hm)) (by
    intro _ ha
    have := hc.2
    rw [ha] at this
    cases this)
  have hb : b = true := h2.2 ⟨ht, Or.inl ⟨cls, hc, hm⟩⟩
  subst hb
  unfold finaliseStep
  rw [if_neg (by simp [ht]), hc.1]
  simp only [Bool.not_true, Bool.false_eq_true, if_false, h1, ok_bind, if_true]
  unfold finaliseUns
  rw [hl]
  rfl

theorem emptyLgl_plain : PlainVec (.mk .logical 0 [] [] [] false) :=
  ⟨rfl, rfl, ⟨by simp [KObj.ty], by simp [KObj.ty]⟩, by
    rintro ⟨_, ⟨_, h, _⟩ | ⟨_, _, h, _⟩⟩
    · exact absurd h.1 Bool.false_ne_true
    · exact h rfl⟩

mutual
theorem finalise_main (m : PtypeMethods) (hp : NoProxies m.proxy) : ∀ {x : KObj}, Zero x →
    ∃ q, finaliseObj m x = .ok q ∧ finaliseObj m q = .ok q ∧ FinalType x q ∧ Zero q
  | x, .null ht ho hc => by
    have hs : finaliseStep m x = .ok (.done (.ok x)) := by unfold finaliseStep; rw [if_pos ht]
    exact ⟨x, finaliseObj_done hs, finaliseObj_done hs, .null ht ho hc, .null ht ho hc⟩
  | x, .uns ht hc hm hd hl => by
    refine ⟨.mk .logical 0 [] [] [] false, finaliseObj_done (finaliseStep_uns m ht hc hm hl),
      finaliseObj_done (finaliseStep_plain m emptyLgl_plain), .uns ⟨⟨⟨ht, Or.inl ⟨_, hc, hm⟩⟩,
        classOk_df hc (List.ne_nil_of_mem hm), fun _ => ⟨_, hc⟩⟩, emptyLgl_plain, rfl, rfl⟩,
      .vec emptyLgl_plain rfl rfl⟩
  | x, .vec hx hd hl => by
    exact ⟨x, finaliseObj_done (finaliseStep_plain m hx), finaliseObj_done (finaliseStep_plain m hx),
      .vec hx hx rfl rfl (shapeLike_refl (Or.inl hd)), .vec hx hd hl⟩
  | x, .array hx hd hl => by
    exact ⟨x, finaliseObj_done (finaliseStep_plain m hx), finaliseObj_done (finaliseStep_plain m hx),
      .vec hx hx rfl rfl (shapeLike_refl (Or.inr ⟨_, _, hd⟩)), .array hx hd hl⟩
  | x, .df (cls := cls) (nms := nms) ht hcls hc hn hr hrow hcols => by
    obtain ⟨qs, h1, h2, h3, h4⟩ := finalise_cols_main m hp hcols
    have hhead := zeroCols_head hp h4
    obtain ⟨l1, l2, l3, l4, l5⟩ := lookup_df x nms cls (.int [])
    have hq : HasClass (.mk .list qs.length [] qs (dfProtoAttrs x nms cls (.int [])) true) cls := ⟨rfl, l2⟩
    refine ⟨.mk .list qs.length [] qs (dfProtoAttrs x nms cls (.int [])) true, ?_, ?_, ?_, ?_⟩
    · rw [finaliseObj_cols (finaliseStep_df m hp ht hc hcls) ht h1, dfMapObj_ok m hc hn hhead]
    · rw [finaliseObj_cols (finaliseStep_df m hp rfl hq hcls) rfl h2, dfMapObj_ok m hq l1 hhead]
      unfold dfProtoAttrs
      rw [show plainAttrs (KObj.mk .list qs.length [] qs (plainAttrs x ++ [(KTag.names, nms),
        (KTag.class_, KVal.chr cls), (KTag.rowNames, .int [])]) true) = plainAttrs x from l5]
    · exact .df ht rfl hcls hc ⟨rfl, l2⟩ l5.symm hn l1 trivial h3
    · exact .df rfl hcls ⟨rfl, l2⟩ l1 l3 (Rows.int (l := []) (by simp)) h4

theorem finalise_cols_main (m : PtypeMethods) (hp : NoProxies m.proxy) : ∀ {xs : List KObj}, ZeroCols xs →
    ∃ qs, finaliseCols m xs = .ok qs ∧ finaliseCols m qs = .ok qs ∧
      ColsLike UnsFinal (fun _ _ => True) xs qs ∧ ZeroCols qs
  | _, .nil => ⟨[], by rw [finaliseCols], by rw [finaliseCols], .nil, .nil⟩
  | _, .cons h hs => by
    obtain ⟨q, h1, h2, h3, h4⟩ := finalise_main m hp h
    obtain ⟨qs, g1, g2, g3, g4⟩ := finalise_cols_main m hp hs
    refine ⟨q :: qs, ?_, ?_, .cons h3 g3, .cons h4 g4⟩
    · rw [finaliseCols, h1, ok_bind, g1, ok_bind]
    · rw [finaliseCols, h2, ok_bind, g2, ok_bind]
end

/-- `vec_ptype_final()`: finalising the prototype turns unspecified vectors at any depth into logical ones
and changes no other type; it has no rows and is final. -/
theorem C92_final (m : PtypeMethods) (hp : NoProxies m.proxy) {x : KObj} (h : SameProto x x) :
    Ret (ptypeObj m x) fun p => Ret (finaliseObj m p) fun q =>
      FinalType p q ∧ objSize m.proxy q = .ok 0 ∧ finaliseObj m q = .ok q := by
  obtain ⟨p, h1, _, _, h3⟩ := ptype_main m hp h
  obtain ⟨q, g1, g2, g3, g4⟩ := finalise_main m hp h3
  exact ⟨p, h1, q, g1, g3, C79_size m.proxy (zero_size hp g4), g2⟩

/-! ## Examples -/

/-- No methods. -/
def exPtypeMethods : PtypeMethods :=
  { proxy := fun _ => none, ptype := fun _ => none, slice := fun _ => .error .abort
    restore := fun x _ => .ok x, finalise := fun _ => .error .abort }

/-- A tibble of two rows with an integer matrix, a column of missing values and a packed data frame, with
row names and another attribute. -/
def exTibble92 : KObj :=
  .mk .list 3 [] [
    .mk .integer 6 [] [] [(.dim, .int [2, 3])] false,
    .mk .logical 0 [true, true] [] [(.names, .chr [some "a", some "b"])] false,
    .mk .list 1 [] [.mk .double 2 [] [] [(.names, .chr [some "u", some "v"]), (.other 1, .other 9)] false]
      [(.class_, .chr [some "data.frame"]), (.names, .chr [some "z"]), (.rowNames, .int [naInt, -2])] true]
    [(.other 7, .other 8), (.rowNames, .chr [some "r", some "s"]),
     (.class_, .chr [some "tbl_df", some "tbl", some "data.frame"]),
     (.names, .chr [some "m", some "n", some "p"])] true

theorem plain_of {x : KObj} (h1 : x.obj = false) (h2 : x.attrs.lookup .class_ = none)
    (h3 : x.ty ≠ .null ∧ x.ty ≠ .other) (h4 : x.ty ≠ .logical) : PlainVec x :=
  ⟨h1, h2, h3, fun h => h4 h.1⟩

/-- Example for the theorems: the hypotheses hold, and the prototype keeps everything but rows. -/
theorem exTibble92_ok : SameProto exTibble92 exTibble92 ∧ NoProxies exPtypeMethods.proxy := by
  refine ⟨?_, fun _ _ _ _ => rfl⟩
  refine .df (cls := [some "tbl_df", some "tbl", some "data.frame"]) rfl rfl (by simp [dfClasses]) ⟨rfl, rfl⟩
    ⟨rfl, rfl⟩ rfl rfl rfl Iff.rfl (.cons ?_ (.cons ?_ (.cons ?_ .nil)))
  · exact .vec (plain_of rfl rfl (by decide) (by decide)) (plain_of rfl rfl (by decide) (by decide)) rfl rfl
      (Or.inr ⟨2, 2, [3], rfl, rfl⟩)
  · have : Uns (.mk .logical 0 [true, true] [] [(.names, .chr [some "a", some "b"])] false) :=
      ⟨⟨rfl, Or.inr ⟨rfl, rfl, by simp [KObj.nas], by simp [KObj.nas]⟩⟩, classOk_none rfl, by intro h; cases h⟩
    exact .uns ⟨this, this⟩
  · refine .df (cls := [some "data.frame"]) rfl rfl (by simp [dfClasses]) ⟨rfl, rfl⟩ ⟨rfl, rfl⟩ rfl rfl rfl Iff.rfl
      (.cons ?_ .nil)
    exact .vec (plain_of rfl rfl (by decide) (by decide)) (plain_of rfl rfl (by decide) (by decide)) rfl rfl
      (Or.inl ⟨rfl, rfl, Iff.rfl⟩)

/-- A data frame with a column of classes that have methods: `vec_ptype()` of the column decides, even if
what it returns has a size, which the prototype of the data frame then has. -/
theorem C92_method_size : ∃ (m : PtypeMethods) (x : KObj), NoProxies m.proxy ∧
    (∃ p, ptypeObj m x = .ok p ∧ objSize m.proxy p = .ok 3) := by
  refine ⟨{ exPtypeMethods with ptype := fun x => some (.ok x) },
    .mk .list 1 [] [.mk .double 3 [] [] [(.class_, .chr [some "foo"])] true]
      [(.names, .chr [some "z"]), (.class_, .chr [some "data.frame"]), (.rowNames, .int [naInt, -3])] true,
    fun _ _ _ _ => rfl, ?_⟩
  exact ⟨_, rfl, by rfl⟩

example : ¬ IsVec false (.mk .other 1 [] [] [] false) ∧ ClassOk (.mk .other 1 [] [] [] false) :=
  ⟨fun h => h.1 rfl, classOk_none rfl⟩

end Vctrs
