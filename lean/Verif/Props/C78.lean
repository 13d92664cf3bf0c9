import Verif.Lemmas.Restore
import Verif.Lemmas.Table

/-! # C78: restoring attributes -/

namespace Vctrs

namespace Spec

/-- The attributes found at a pointer. -/
inductive HasAttribs (nodes : List PNode) : Option Nat → List (AttrTag × AttrVal) → Prop
  | nil : HasAttribs nodes none []
  | cons {a : Nat} {t : AttrTag} {v : AttrVal} {c : Option Nat} {l : List (AttrTag × AttrVal)} :
      nodes[a]? = some ⟨t, v, c⟩ → HasAttribs nodes c l → HasAttribs nodes (some a) ((t, v) :: l)

/-- The object `x` has the attributes `l`. -/
def AttribsOf (σ : OHeap) (x : Nat) (o : VObj) (l : List (AttrTag × AttrVal)) : Prop :=
  σ.objs[x]? = some o ∧ HasAttribs σ.nodes o.attrib l

/-- The attribute of a restored object: names and dimensions come from `x`, row names too if the
target is a data frame, all others from the target. -/
def restored (lx lt : List (AttrTag × AttrVal)) (df : Bool) : AttrTag → Option AttrVal
  | .other n => lt.lookup (.other n)
  | .class_ => lt.lookup .class_
  | .dim => lx.lookup .dim
  | .names => if lx.lookup .dim = none then lx.lookup .names else none
  | .dimNames => if lx.lookup .dim = none then none else lx.lookup .dimNames
  | .rowNames => if lx.lookup .dim = none ∧ df = true then lx.lookup .rowNames else none

/-- A data frame: a list with such a class. -/
def isDf (dfClass : AttrVal → Bool) (o : VObj) (l : List (AttrTag × AttrVal)) : Bool :=
  o.isList && (match l.lookup .class_ with
    | none => false
    | some c => dfClass c)

/-- Where the result is: in place if allowed, in a new object otherwise. -/
def Place (σ : OHeap) (x y : Nat) (ox : VObj) (owned : Bool) : Prop :=
  (y = x ∧ (owned = true ∨ ox.shared = false)) ∨ (y = σ.objs.length ∧ owned = false ∧ ox.shared = true)

/-- Only the object `y` changes: no node that existed before is written. -/
structure OnlyChanges (σ σ' : OHeap) (y : Nat) : Prop where
  nodes : σ.nodes <+: σ'.nodes
  objs : ∀ z, z ≠ y → z < σ.objs.length → σ'.objs[z]? = σ.objs[z]?

end Spec

open Spec

theorem hasAttribs_iff {nodes : List PNode} {l : List (AttrTag × AttrVal)} {p : Option Nat} :
    HasAttribs nodes p l ↔ ∃ es : List AEnt, PChain nodes p es ∧ es.map (·.2) = l := by
  constructor
  · intro h
    induction h with
    | nil => exact ⟨[], rfl, rfl⟩
    | @cons a t v c l h1 _ ih =>
      obtain ⟨es, h2, h3⟩ := ih
      refine ⟨(a, t, v) :: es, ?_, by rw [List.map_cons, h3]⟩
      rw [PChain]
      exact ⟨rfl, c, h1, h2⟩
  · rintro ⟨es, h, rfl⟩
    induction es generalizing p with
    | nil =>
      have h : p = none := h
      rw [h]
      exact .nil
    | cons e es ih =>
      rw [PChain] at h
      obtain ⟨rfl, c, h2, h3⟩ := h
      exact .cons h2 (ih h3)

theorem prefix_getElem? {α : Type} {l l' : List α} (h : l <+: l') {i : Nat} (hi : i < l.length) :
    l'[i]? = l[i]? := by
  obtain ⟨r, rfl⟩ := h
  rw [List.getElem?_append_left hi]

theorem prefix_of_getElem? {α : Type} {l l' : List α} (hlen : l.length ≤ l'.length)
    (h : ∀ i, i < l.length → l'[i]? = l[i]?) : l <+: l' := by
  refine ⟨l'.drop l.length, ?_⟩
  apply List.ext_getElem?
  intro i
  by_cases hi : i < l.length
  · rw [List.getElem?_append_left hi, h i hi]
  · rw [List.getElem?_append_right (by omega), List.getElem?_drop]
    congr 1; omega

/-- The state while the object `y` gets its new attributes. -/
structure Owns (σ0 σ : OHeap) (y : Nat) (l : List AEnt) (isList : Bool) (sizes : List Nat) (s4 : Bool) : Prop where
  obj : ∃ o, σ.objs[y]? = some o ∧ PChain σ.nodes o.attrib l ∧ o.isList = isList ∧ o.sizes = sizes ∧ o.s4 = s4
  fresh : ∀ e ∈ l, σ0.nodes.length ≤ e.1
  only : OnlyChanges σ0 σ y

theorem attribPoke_ok {σ0 σ : OHeap} {y : Nat} {l : List AEnt} {b : Bool} {ss : List Nat} {s4 : Bool}
    (h : Owns σ0 σ y l b ss s4) (tag : AttrTag) (v : Option AttrVal) :
    Ret (attribPoke σ y tag v) (fun σ' => ∃ l', Owns σ0 σ' y l' b ss s4 ∧
      ∀ t, lk l' t = if t = tag then v else lk l t) := by
  obtain ⟨o, ho, hp, h1, h2, h3⟩ := h.obj
  have hy := (List.getElem?_eq_some_iff.1 ho).1
  have hpre := h.only.nodes
  unfold attribPoke
  refine Ret.bind_eq (rd_of_getElem? ho) ?_
  cases v with
  | none =>
    dsimp only
    refine Ret.bind (attribRemove_ok tag hp (pchain_length hp)) fun r ⟨g1, g2, g3⟩ => ?_
    refine Ret.bind_eq (wr_ok hy) (Ret.ok ⟨dropTag tag l, ⟨⟨_, List.getElem?_set_self hy, g1, h1, h2, h3⟩, ?_, ?_, ?_⟩, ?_⟩)
    · intro e he
      exact h.fresh e (List.mem_filter.1 he).1
    · refine prefix_of_getElem? (by dsimp only; rw [g2]; exact hpre.length_le) fun i hi => ?_
      dsimp only
      rw [g3 i fun e he hc => ?_, prefix_getElem? hpre hi]
      have := h.fresh e he
      omega
    · intro z hz hlt
      dsimp only
      rw [List.getElem?_set_ne (Ne.symm hz)]
      exact h.only.objs z hz hlt
    · exact fun t => dropTag_lk tag t l
  | some v =>
    dsimp only
    cases ha : o.attrib with
    | none =>
      dsimp only
      have hl0 : l = [] := by
        cases l with
        | nil => rfl
        | cons e l => rw [ha] at hp; cases hp.1
      subst hl0
      refine Ret.bind_eq (wr_ok hy) (Ret.ok ⟨[(σ.nodes.length, tag, v)], ⟨⟨_, List.getElem?_set_self hy, ?_, h1, h2, h3⟩, ?_, ?_, ?_⟩, ?_⟩)
      · rw [PChain]
        exact ⟨rfl, none, by simp, rfl⟩
      · intro e he
        simp only [List.mem_singleton] at he
        subst he
        exact hpre.length_le
      · exact hpre.trans (List.prefix_append _ _)
      · intro z hz hlt
        dsimp only
        rw [List.getElem?_set_ne (Ne.symm hz)]
        exact h.only.objs z hz hlt
      · intro t
        rw [lk_cons]
        by_cases ht : t = tag
        · subst ht; simp
        · rw [if_neg ht, if_neg (fun h' => ht h'.symm)]
    | some p =>
      dsimp only
      rw [ha] at hp
      refine Ret.bind (pairlistSet_ok tag v hp (pchain_length hp)) fun nodes' ⟨g1, g2, g3⟩ => ?_
      refine Ret.ok ⟨setEnt σ.nodes.length tag v l, ⟨⟨o, ho, by rw [ha]; exact g1, h1, h2, h3⟩, ?_, ?_, h.only.objs⟩,
        fun t => setEnt_lk _ _ _ _ _⟩
      · intro e he
        rcases setEnt_addr _ _ _ _ e he with he | ⟨e', he', he⟩
        · rw [he]; exact hpre.length_le
        · rw [← he]; exact h.fresh e' he'
      · refine prefix_of_getElem? (by dsimp only; exact Nat.le_trans hpre.length_le g2) fun i hi => ?_
        dsimp only
        have hle := hpre.length_le
        rw [g3 i (by omega) fun e he hc => ?_, prefix_getElem? hpre hi]
        have := h.fresh e he
        omega

theorem cloneObj_ok {σ : OHeap} {x : Nat} {ox : VObj} {lx : List AEnt} (owned : Bool)
    (hx : σ.objs[x]? = some ox) (hc : PChain σ.nodes ox.attrib lx) :
    Ret (cloneObj σ x owned) (fun r => Place σ x r.2 ox owned ∧ σ.nodes <+: r.1.nodes ∧
      σ.objs <+: r.1.objs ∧ ∃ o es, r.1.objs[r.2]? = some o ∧ PChain r.1.nodes o.attrib es ∧
        es.map (·.2) = lx.map (·.2) ∧ o.isList = ox.isList ∧ o.sizes = ox.sizes ∧ o.s4 = ox.s4 ∧
        ∀ e ∈ es, e ∈ lx ∨ σ.nodes.length ≤ e.1) := by
  unfold cloneObj
  refine Ret.bind_eq (rd_of_getElem? hx) ?_
  by_cases h : (owned || !ox.shared) = true
  · rw [if_pos h]
    refine Ret.ok ⟨.inl ⟨rfl, ?_⟩, List.prefix_refl _, List.prefix_refl _, ox, lx, hx, hc, rfl, rfl, rfl, rfl,
      fun e he => .inl he⟩
    simpa using h
  · rw [if_neg h]
    refine Ret.bind (cloneAttribs_ok hc) fun r ⟨h1, es, h2, h3, h4⟩ => Ret.ok ⟨.inr ⟨rfl, ?_⟩, h1,
      List.prefix_append _ _, { ox with attrib := r.2, shared := false }, es, by simp, h2, h3, rfl, rfl, rfl, fun e he => .inr (h4 e he)⟩
    simpa using h

theorem isDataFrameObj_ok (dfClass : AttrVal → Bool) {σ : OHeap} {x : Nat} {o : VObj} {l : List AEnt}
    (hx : σ.objs[x]? = some o) (hc : PChain σ.nodes o.attrib l) :
    isDataFrameObj dfClass σ x = .ok (isDf dfClass o (l.map (·.2))) := by
  unfold isDataFrameObj
  rw [rd_of_getElem? hx, ok_bind, pairlistGet_ok .class_ hc (pchain_length hc), ok_bind]
  unfold isDf
  show _ = Except.ok (o.isList && (match lk l .class_ with | none => false | some c => dfClass c))
  cases lk l .class_ with
  | none => simp
  | some c => rfl

/-- What restoring gives. -/
structure Restored (σ : OHeap) (x : Nat) (owned : Bool) (ox : VObj) (s4 : Bool)
    (want : AttrTag → Option AttrVal) (σ' : OHeap) (y : Nat) : Prop where
  place : Place σ x y ox owned
  only : OnlyChanges σ σ' y
  obj : ∃ o ly, AttribsOf σ' y o ly ∧ (∀ t, ly.lookup t = want t) ∧ o.isList = ox.isList ∧
    o.sizes = ox.sizes ∧ o.s4 = s4

theorem restoreDefault_owns (dfClass : AttrVal → Bool) {σ : OHeap} {x dest : Nat} {ox t : VObj}
    {lx lt : List AEnt} (hx : σ.objs[x]? = some ox) (hcx : PChain σ.nodes ox.attrib lx)
    (ht : σ.objs[dest]? = some t) (hct : PChain σ.nodes t.attrib lt) (hn : (lt.map (·.2.1)).Nodup)
    (hne : t.attrib ≠ none ∨ t.s4 = true) (owned : Bool) :
    Ret (restoreDefault dfClass σ x dest owned) (fun r => Place σ x r.2 ox owned ∧
      ∃ l, Owns σ r.1 r.2 l ox.isList ox.sizes (ox.s4 || t.s4) ∧
      ∀ u, lk l u = restored (lx.map (·.2)) (lt.map (·.2)) (isDf dfClass t (lt.map (·.2))) u) := by
  unfold restoreDefault
  refine Ret.bind_eq (rd_of_getElem? ht) ?_
  rw [if_neg (by rcases hne with h | h <;> simp [h])]
  refine Ret.bind (cloneAttribs_ok hct) fun a ⟨a1, as, a2, a3, a4⟩ => ?_
  have hcx' : PChain a.1 ox.attrib lx := pchain_frame hcx fun e he => prefix_getElem? a1 (pchain_lt hcx e he)
  refine Ret.bind (cloneObj_ok (σ := ⟨a.1, σ.objs⟩) owned hx hcx') fun c ⟨c1, c2, c3, o, es, c4, c5, c6, c7, c8, c9, c10⟩ => ?_
  dsimp only at c1 c2 c3 c10 ⊢
  have hca : PChain c.1.nodes a.2 as := pchain_frame a2 fun e he => prefix_getElem? c2 (pchain_lt a2 e he)
  have hdrop := dropSpecial_ok (rest := as) (kept := []) (cls := none) hca (fuel := c.1.nodes.length)
    (by exact pchain_length hca)
  have hhead : as.head?.map (·.1) = a.2 := by
    cases as with
    | nil => exact hca.symm
    | cons e as => exact hca.1.symm
  rw [hhead] at hdrop
  refine Ret.bind hdrop fun d ⟨d1, d2, d3, d4⟩ => ?_
  rw [List.nil_append] at d1
  have hn' : (as.map (·.2.1)).Nodup := by
    have h : as.map (·.2.1) = lt.map (·.2.1) := by
      have := congrArg (List.map Prod.fst) a3
      simpa [List.map_map, Function.comp_def] using this
    rw [h]; exact hn
  have hlkt : ∀ u, lk as u = lk lt u := fun u => by unfold lk; rw [a3]
  have hlkx : ∀ u, lk es u = lk lx u := fun u => by unfold lk; rw [c6]
  rw [lastClass_eq as none hn', hlkt] at d2
  simp only [Option.or_none] at d2
  -- nodes of before are unchanged
  have hpre : σ.nodes <+: d.1 := by
    refine prefix_of_getElem? (by rw [d3]; exact Nat.le_trans a1.length_le c2.length_le) fun i hi => ?_
    rw [d4 i fun e he hc => ?_, prefix_getElem? (a1.trans c2) hi]
    have := a4 e (by simpa using he)
    omega
  have hes : PChain d.1 o.attrib es := by
    refine pchain_frame c5 fun e he => d4 e.1 fun e' he' hc => ?_
    have h1 := a4 e' (by simpa using he')
    have h2 := pchain_lt a2 e' (by simpa using he')
    rcases c10 e he with h3 | h3
    · have := pchain_lt hcx e h3
      omega
    · omega
  have hlen := pchain_length hes
  have hyl := (List.getElem?_eq_some_iff.1 c4).1
  have hdest : c.1.objs[dest]? = some t := by
    rw [prefix_getElem? c3 (List.getElem?_eq_some_iff.1 ht).1]; exact ht
  have hdt : PChain d.1 t.attrib lt := pchain_frame hct fun e he => prefix_getElem? hpre (pchain_lt hct e he)
  refine Ret.bind_eq (rd_of_getElem? c4) (Ret.bind_eq (pairlistGet_ok .dim hes hlen) ?_)
  -- the object with the kept attributes
  have hown : Ret (pokeAttribs ⟨d.1, c.1.objs⟩ c.2 d.2.1) (fun σ' =>
      Owns σ σ' c.2 (keepOther as) ox.isList ox.sizes ox.s4) := by
    unfold pokeAttribs
    refine Ret.bind_eq (rd_of_getElem? c4) (Ret.bind_eq (wr_ok hyl) (Ret.ok ⟨⟨_, List.getElem?_set_self hyl, d1, c7, c8, c9⟩,
      fun e he => a4 e (List.mem_filter.1 he).1, ⟨hpre, fun z hz hlt => ?_⟩⟩))
    dsimp only
    rw [List.getElem?_set_ne (Ne.symm hz), prefix_getElem? c3 hlt]
  have hkeep : ∀ u, lk (keepOther as) u = if isSpecialTag u then none else lk lt u := fun u => by
    rw [keepOther_lk, hlkt]
  have hmid : Ret (match lk es .dim with
      | none => do
        let nms ← pairlistGet d.1.length d.1 o.attrib .names
        let rownms ← pairlistGet d.1.length d.1 o.attrib .rowNames
        let df ← isDataFrameObj dfClass ⟨d.1, c.1.objs⟩ dest
        let restoreRownms := rownms.isSome && df
        let σ ← pokeAttribs ⟨d.1, c.1.objs⟩ c.2 d.2.1
        let σ ← attribPoke σ c.2 .names nms
        if restoreRownms then attribPoke σ c.2 .rowNames rownms else .ok σ
      | some dim => do
        let dimnames ← pairlistGet d.1.length d.1 o.attrib .dimNames
        let σ ← pokeAttribs ⟨d.1, c.1.objs⟩ c.2 d.2.1
        let σ ← attribPoke σ c.2 .dim (some dim)
        attribPoke σ c.2 .dimNames dimnames : C OHeap) (fun σ' => ∃ l, Owns σ σ' c.2 l ox.isList ox.sizes ox.s4 ∧
      ∀ u, lk l u = if u = .class_ then none else
        restored (lx.map (·.2)) (lt.map (·.2)) (isDf dfClass t (lt.map (·.2))) u) := by
    rw [hlkx]
    have hu : ∀ u, List.lookup u (lx.map (·.2)) = lk lx u := fun _ => rfl
    have hv : ∀ u, List.lookup u (lt.map (·.2)) = lk lt u := fun _ => rfl
    cases hd : lk lx .dim with
    | none =>
      dsimp only
      refine Ret.bind_eq (pairlistGet_ok .names hes hlen) (Ret.bind_eq (pairlistGet_ok .rowNames hes hlen)
        (Ret.bind_eq (isDataFrameObj_ok dfClass hdest hdt) (Ret.bind hown fun σ1 o1 => ?_)))
      refine Ret.bind (attribPoke_ok o1 .names _) fun σ2 ⟨l2, o2, e2⟩ => ?_
      by_cases hr : ((lk es .rowNames).isSome && isDf dfClass t (lt.map (·.2))) = true
      · rw [if_pos hr]
        refine (attribPoke_ok o2 .rowNames _).mono ?_
        rintro σ3 ⟨l3, o3, e3⟩
        refine ⟨l3, o3, fun u => ?_⟩
        simp only [Bool.and_eq_true] at hr
        rw [e3, e2, hkeep, hlkx, hlkx]
        cases u <;> simp [restored, hu, hv, hd, hr.2, isSpecialTag]
      · rw [if_neg hr]
        refine Ret.ok ⟨l2, o2, fun u => ?_⟩
        rw [e2, hkeep, hlkx]
        rw [hlkx] at hr
        cases u <;> simp [restored, hu, hv, hd, isSpecialTag]
        intro hdf
        simp only [hdf, Bool.and_true, Option.isSome_iff_ne_none, ne_eq, Decidable.not_not] at hr
        simpa using hr.symm
    | some dim =>
      dsimp only
      refine Ret.bind_eq (pairlistGet_ok .dimNames hes hlen) (Ret.bind hown fun σ1 o1 => ?_)
      refine Ret.bind (attribPoke_ok o1 .dim _) fun σ2 ⟨l2, o2, e2⟩ => ?_
      refine (attribPoke_ok o2 .dimNames _).mono ?_
      rintro σ3 ⟨l3, o3, e3⟩
      refine ⟨l3, o3, fun u => ?_⟩
      rw [e3, e2, hkeep, hlkx]
      cases u <;> simp [restored, hu, hv, hd, isSpecialTag]
  refine Ret.bind hmid fun σ1 ⟨l1, o1, e1⟩ => ?_
  have hcls : Ret (if d.2.2.isSome then attribPoke σ1 c.2 .class_ d.2.2 else .ok σ1 : C OHeap) (fun σ' =>
      ∃ l, Owns σ σ' c.2 l ox.isList ox.sizes ox.s4 ∧
      ∀ u, lk l u = restored (lx.map (·.2)) (lt.map (·.2)) (isDf dfClass t (lt.map (·.2))) u) := by
    rw [d2]
    by_cases hc : (lk lt .class_).isSome = true
    · rw [if_pos hc]
      refine (attribPoke_ok o1 .class_ _).mono ?_
      rintro σ2 ⟨l2, o2, e2⟩
      refine ⟨l2, o2, fun u => ?_⟩
      rw [e2, e1]
      by_cases hu : u = .class_
      · subst hu; simp [restored, lk]
      · simp [hu]
    · rw [if_neg hc]
      refine Ret.ok ⟨l1, o1, fun u => ?_⟩
      rw [e1]
      by_cases hu : u = .class_
      · subst hu
        simp only [Bool.not_eq_true, Option.isSome_eq_false_iff, Option.isNone_iff_eq_none] at hc
        simp only [if_true, restored]
        exact hc.symm
      · simp [hu]
  refine Ret.bind hcls fun σ2 ⟨l2, o2, e2⟩ => ?_
  by_cases hs4 : t.s4 = true
  · rw [if_pos hs4]
    obtain ⟨o', g1, g2, g3, g4, g5⟩ := o2.obj
    have hl := (List.getElem?_eq_some_iff.1 g1).1
    refine Ret.bind_eq (rd_of_getElem? g1) (Ret.bind_eq (wr_ok hl) (Ret.ok ⟨c1, l2, ⟨⟨_, List.getElem?_set_self hl,
      g2, g3, g4, by simp [hs4]⟩, o2.fresh, ⟨o2.only.nodes, fun z hz hlt => ?_⟩⟩, e2⟩))
    dsimp only
    rw [List.getElem?_set_ne (Ne.symm hz)]
    exact o2.only.objs z hz hlt
  · rw [if_neg hs4]
    have : (ox.s4 || t.s4) = ox.s4 := by simp [hs4]
    rw [this]
    exact Ret.ok ⟨c1, l2, o2, e2⟩

theorem Owns.restored {σ σ' : OHeap} {x y : Nat} {ox : VObj} {owned s4 : Bool} {l : List AEnt}
    {want : AttrTag → Option AttrVal} (h : Owns σ σ' y l ox.isList ox.sizes s4) (hp : Place σ x y ox owned)
    (hl : ∀ u, lk l u = want u) : Restored σ x owned ox s4 want σ' y := by
  obtain ⟨o, h1, h2, h3, h4, h5⟩ := h.obj
  exact ⟨hp, h.only, o, _, ⟨h1, hasAttribs_iff.2 ⟨l, h2, rfl⟩⟩, hl, h3, h4, h5⟩

theorem tags_nodup {l : List (AttrTag × AttrVal)} {es : List AEnt} (h : es.map (·.2) = l)
    (hn : (l.map (·.1)).Nodup) : (es.map (·.2.1)).Nodup := by
  subst h
  simpa [List.map_map, Function.comp_def] using hn

/-- Restoring gives the names, dimensions and row names of `x` and the other attributes and the class
of the target.  The result is `x` itself if the caller owns it or it is not shared, a copy otherwise;
the target, `x` if copied and all other objects keep their attributes, even if `x` and the target are
one object or share their attributes. -/
theorem C78_default (dfClass : AttrVal → Bool) {σ : OHeap} {x dest : Nat} {ox t : VObj}
    {lx lt : List (AttrTag × AttrVal)} (hx : AttribsOf σ x ox lx) (ht : AttribsOf σ dest t lt)
    (hn : (lt.map (·.1)).Nodup) (hne : t.attrib ≠ none ∨ t.s4 = true) (owned : Bool) :
    Ret (restoreDefault dfClass σ x dest owned) (fun r =>
      Restored σ x owned ox (ox.s4 || t.s4) (restored lx lt (isDf dfClass t lt)) r.1 r.2) := by
  obtain ⟨es, h1, h2⟩ := hasAttribs_iff.1 hx.2
  obtain ⟨et, h3, h4⟩ := hasAttribs_iff.1 ht.2
  refine (restoreDefault_owns dfClass hx.1 h1 ht.1 h3 (tags_nodup h4 hn) hne owned).mono ?_
  rintro r ⟨hp, l, ho, hl⟩
  rw [h2, h4] at hl
  exact ho.restored hp hl

/-- A target without attributes: `x` is returned as it is. -/
theorem C78_bare (dfClass : AttrVal → Bool) {σ : OHeap} {x dest : Nat} {t : VObj}
    (ht : σ.objs[dest]? = some t) (h : t.attrib = none) (h4 : t.s4 = false) (owned : Bool) :
    restoreDefault dfClass σ x dest owned = .ok (σ, x) := by
  unfold restoreDefault
  rw [rd_of_getElem? ht, ok_bind, if_pos (by simp [h, h4])]

/-- Other objects keep their attributes. -/
theorem C78_others {σ σ' : OHeap} {y z : Nat} {oz : VObj} {lz : List (AttrTag × AttrVal)}
    (h : OnlyChanges σ σ' y) (hz : z ≠ y) (hl : AttribsOf σ z oz lz) : AttribsOf σ' z oz lz := by
  obtain ⟨es, h1, h2⟩ := hasAttribs_iff.1 hl.2
  refine ⟨?_, hasAttribs_iff.2 ⟨es, pchain_frame h1 fun e he => prefix_getElem? h.nodes (pchain_lt h1 e he), h2⟩⟩
  rw [h.objs z hz (List.getElem?_eq_some_iff.1 hl.1).1]
  exact hl.1

namespace Spec

/-- The attributes of a restored data frame: it always has names and row names; `rep` are the
identifiers made unique. -/
def dfRestored (want : AttrTag → Option AttrVal) (sizes : List Nat) (rep : List Name → List Name) :
    AttrTag → Option AttrVal
  | .names => some (match want .names with
    | none => .chr (sizes.map fun _ => some [])
    | some v => v)
  | .rowNames => some (match want .rowNames with
    | none => (match sizes with
      | [] => .int []
      | 0 :: _ => .int []
      | (n + 1) :: _ => .int [naInt, -((n : Int) + 1)])
    | some (.chr l) => .chr (rep l)
    | some v => v)
  | t => want t

end Spec

theorem lk_get {σ0 σ : OHeap} {y : Nat} {l : List AEnt} {b : Bool} {ss : List Nat} {s4 : Bool}
    (h : Owns σ0 σ y l b ss s4) : ∃ o, rd σ.objs y = .ok o ∧ o.sizes = ss ∧
      ∀ tag, pairlistGet σ.nodes.length σ.nodes o.attrib tag = .ok (lk l tag) := by
  obtain ⟨o, h1, h2, _, h4, _⟩ := h.obj
  exact ⟨o, rd_of_getElem? h1, h4, fun tag => pairlistGet_ok tag h2 (pchain_length h2)⟩

theorem bareDfRestore_ok (h : Name → BitVec 32) (dfClass : AttrVal → Bool) {σ : OHeap} {x dest : Nat} {ox t : VObj}
    {lx lt : List (AttrTag × AttrVal)} (hx : AttribsOf σ x ox lx) (ht : AttribsOf σ dest t lt)
    (hn : (lt.map (·.1)).Nodup) (hlist : ox.isList = true) (hdf : isDf dfClass t lt = true) (owned : Bool)
    (rep : List Name → List Name)
    (hrep : ∀ l, restored lx lt true .rowNames = some (.chr l) → vecAsUniqueNames h l = .ok (rep l))
    (hrn : ∀ n, restored lx lt true .rowNames ≠ some (.other n)) :
    Ret (bareDfRestore h dfClass σ x dest owned) (fun r =>
      Restored σ x owned ox (ox.s4 || t.s4) (dfRestored (restored lx lt true) ox.sizes rep) r.1 r.2) := by
  obtain ⟨es, h1, h2⟩ := hasAttribs_iff.1 hx.2
  obtain ⟨et, h3, h4⟩ := hasAttribs_iff.1 ht.2
  unfold bareDfRestore
  refine Ret.bind_eq (rd_of_getElem? hx.1) ?_
  rw [if_neg (by simp [hlist])]
  refine Ret.bind_eq (isDataFrameObj_ok dfClass ht.1 h3) ?_
  rw [h4, if_neg (by simp [hdf])]
  have hne : t.attrib ≠ none ∨ t.s4 = true := by
    left
    intro hc
    rw [hc] at h3
    have he : et = [] := by
      cases et with
      | nil => rfl
      | cons e et => cases h3.1
    rw [he] at h4
    subst h4
    simp [isDf] at hdf
  refine Ret.bind (restoreDefault_owns dfClass hx.1 h1 ht.1 h3 (tags_nodup h4 hn) hne owned) fun r ⟨hp, l, ho, hl⟩ => ?_
  rw [h2, h4, hdf] at hl
  dsimp only
  obtain ⟨o, g1, g2, g3⟩ := lk_get ho
  refine Ret.bind_eq g1 (Ret.bind_eq (g3 .names) ?_)
  have hnames : Ret (match lk l .names with
      | none => attribPoke r.1 r.2 .names (some (.chr (List.replicate o.sizes.length (some []))))
      | some _ => .ok r.1 : C OHeap) (fun σ' => ∃ l', Owns σ σ' r.2 l' ox.isList ox.sizes (ox.s4 || t.s4) ∧
        ∀ u, lk l' u = if u = .names then dfRestored (restored lx lt true) ox.sizes rep .names
          else restored lx lt true u) := by
    rw [hl]
    cases hw : restored lx lt true .names with
    | none =>
      dsimp only
      refine (attribPoke_ok ho .names _).mono ?_
      rintro σ' ⟨l', o', e'⟩
      refine ⟨l', o', fun u => ?_⟩
      rw [e', hl, g2]
      by_cases hu : u = .names
      · rw [if_pos hu, if_pos hu, dfRestored, hw]
        simp [List.map_const']
      · rw [if_neg hu, if_neg hu]
    | some v =>
      dsimp only
      refine Ret.ok ⟨l, ho, fun u => ?_⟩
      by_cases hu : u = .names
      · rw [if_pos hu, dfRestored, hw, hu, hl, hw]
      · rw [if_neg hu, hl]
  refine Ret.bind hnames fun σ2 ⟨l2, o2, e2⟩ => ?_
  obtain ⟨q, q1, q2, q3⟩ := lk_get o2
  refine Ret.bind_eq q1 (Ret.bind_eq (q3 .rowNames) ?_)
  have hr : lk l2 .rowNames = restored lx lt true .rowNames := by rw [e2]; simp
  rw [hr]
  -- setting the row names
  have fin : ∀ v, dfRestored (restored lx lt true) ox.sizes rep .rowNames = some v →
      Ret (do
        let σ ← attribPoke σ2 r.2 .rowNames (some v)
        .ok (σ, r.2) : C (OHeap × Nat)) (fun r =>
      Restored σ x owned ox (ox.s4 || t.s4) (dfRestored (restored lx lt true) ox.sizes rep) r.1 r.2) := by
    intro v hv
    refine Ret.bind (attribPoke_ok o2 .rowNames _) fun σ3 ⟨l3, o3, e3⟩ => Ret.ok (o3.restored hp fun u => ?_)
    rw [e3, e2]
    cases u <;> first | (rw [if_pos rfl]; exact hv.symm) | simp [dfRestored]
  cases hw : restored lx lt true .rowNames with
  | none =>
    dsimp only
    rw [q2]
    cases hs : ox.sizes with
    | nil =>
      rw [hs] at fin
      exact Ret.bind_eq rfl (fin _ (by simp [dfRestored, hw, compactRownames]))
    | cons n ss =>
      rw [hs] at fin
      refine Ret.bind_eq rfl (fin _ ?_)
      cases n <;> simp [dfRestored, hw, compactRownames]
  | some v =>
    cases v with
    | chr l =>
      dsimp only
      exact Ret.bind_eq (hrep l hw) (fin _ (by simp [dfRestored, hw]))
    | int l =>
      dsimp only
      refine Ret.ok (o2.restored hp fun u => ?_)
      rw [e2]
      cases u <;> simp [dfRestored, hw]
    | other n => exact absurd hw (hrn n)

/-- Restoring a data frame: the attributes are those of `C78_default`, blank names if there are none,
the identifiers made unique, and row names counting the rows of the first column if there are none. -/
theorem C78_df (h : Name → BitVec 32) (dfClass : AttrVal → Bool) {σ : OHeap} {x dest : Nat} {ox t : VObj}
    {lx lt : List (AttrTag × AttrVal)} (hx : AttribsOf σ x ox lx) (ht : AttribsOf σ dest t lt)
    (hn : (lt.map (·.1)).Nodup) (hlist : ox.isList = true) (hdf : isDf dfClass t lt = true) (owned : Bool)
    (hrn : ∀ n, lx.lookup .rowNames ≠ some (.other n))
    (hfit : ∀ l, lx.lookup .rowNames = some (.chr l) → l.length ≤ 2147483647 ∧
      ∀ s, some s ∈ l → s.length ≤ 2147483619) :
    Ret (bareDfRestore h dfClass σ x dest owned) (fun r => ∃ out,
      (∀ l, lx.lookup .dim = none → lx.lookup .rowNames = some (.chr l) → UniqueRepair l out) ∧
      Restored σ x owned ox (ox.s4 || t.s4) (dfRestored (restored lx lt true) ox.sizes fun _ => out) r.1 r.2) := by
  have hsub : ∀ v, restored lx lt true .rowNames = some v → lx.lookup .rowNames = some v := by
    intro v hv
    simp only [restored] at hv
    split at hv
    · exact hv
    · cases hv
  have hout : ∃ out, ∀ l, lx.lookup .rowNames = some (.chr l) →
      vecAsUniqueNames h l = .ok out ∧ UniqueRepair l out := by
    cases hl : lx.lookup .rowNames with
    | none => exact ⟨[], fun l hc => by cases hc⟩
    | some v =>
      cases v with
      | chr l =>
        obtain ⟨out, h1, h2⟩ := vecAsUniqueNames_ok h l (hfit l hl).1 (short_base (hfit l hl).2)
        exact ⟨out, fun l' hc => by cases hc; exact ⟨h1, h2⟩⟩
      | int l => exact ⟨[], fun l hc => by cases hc⟩
      | other n => exact absurd hl (hrn n)
  obtain ⟨out, hout⟩ := hout
  refine (bareDfRestore_ok h dfClass hx ht hn hlist hdf owned (fun _ => out)
    (fun l hl => (hout l (hsub _ hl)).1) (fun n hc => hrn n (hsub _ hc))).mono ?_
  exact fun r hr => ⟨out, fun l _ hl => (hout l hl).2, hr⟩

/-- A shared `x` and a target with the same list of attributes: `names`, `class` and another one. -/
def exHeap : OHeap :=
  ⟨[⟨.class_, .other 7, some 1⟩, ⟨.names, .chr [some ['a']], some 2⟩, ⟨.other 3, .other 4, none⟩],
   [⟨true, [2], some 0, false, true⟩, ⟨true, [5], some 1, false, true⟩]⟩

example : AttribsOf exHeap 0 ⟨true, [2], some 0, false, true⟩
    [(.class_, .other 7), (.names, .chr [some ['a']]), (.other 3, .other 4)] :=
  ⟨rfl, .cons rfl (.cons rfl (.cons rfl .nil))⟩
example : AttribsOf exHeap 1 ⟨true, [5], some 1, false, true⟩
    [(.names, .chr [some ['a']]), (.other 3, .other 4)] :=
  ⟨rfl, .cons rfl (.cons rfl .nil)⟩
example : ∃ σ', restoreDefault (fun _ => true) exHeap 1 0 false = .ok (σ', 2) ∧
    σ'.objs[0]? = exHeap.objs[0]? := ⟨_, rfl, rfl⟩
example : isDf (fun _ => true) ⟨true, [2], some 0, false, true⟩
    [(.class_, .other 7), (.names, .chr [some ['a']]), (.other 3, .other 4)] = true := rfl

end Vctrs
