import Verif.Model.SetAttributes
import Verif.Props.C78

/-!
# C78: setting all attributes at once
-/

namespace Vctrs

namespace Spec

/-- The first `n` elements of a named list give the attribute `t` the value `v`: the last one with this name counts, and
`NULL` (`none`) is no attribute. -/
def Gives (sym : List Char → AttrTag) (names : List Name) (vals : List (Option AttrVal)) (n : Nat) (t : AttrTag)
    (v : Option AttrVal) : Prop :=
  (∃ i s, i < n ∧ names[i]? = some (some s) ∧ sym s = t ∧ vals[i]? = some v ∧
    ∀ j s', i < j → j < n → names[j]? = some (some s') → sym s' ≠ t) ∨
  (v = none ∧ ∀ i s, i < n → names[i]? = some (some s) → sym s ≠ t)

/-- A list all of whose elements have names. -/
def AllNamed (names : List Name) (vals : List (Option AttrVal)) : Prop :=
  names.length = vals.length ∧ ∀ nm ∈ names, ∃ s, nm = some s ∧ s ≠ []

end Spec

open Spec

theorem checkAttribNames_ok {names : List Name} {vals : List (Option AttrVal)} (h : AllNamed names vals) :
    checkAttribNames names vals.length = .ok () := by
  have : Ret (checkAttribNames names vals.length) (fun _ => True) := by
    unfold checkAttribNames
    refine Ret.forN (fun _ _ => True) trivial fun i _ hi _ => ?_
    have hg := List.getElem?_eq_getElem (l := names) (i := i) (by rw [h.1]; exact hi)
    obtain ⟨s, e, hs⟩ := h.2 _ (List.mem_of_getElem? hg)
    refine Ret.bind_eq (rd_of_getElem? hg) ?_
    rw [e, if_neg (by simp [hs])]
    exact Ret.ok trivial
  obtain ⟨⟨⟩, h, _⟩ := this
  exact h

theorem findDimPos_ok {names : List Name} {n : Nat} (hl : names.length = n) :
    Ret (findDimPos names n) (fun pos => match pos with
      | none => ∀ i, i < n → names[i]? ≠ some (some "dim".toList)
      | some d => d < n ∧ names[d]? = some (some "dim".toList)) := by
  unfold findDimPos
  refine Ret.forBrk (fun i s => s = none ∧ ∀ j, j < i → names[j]? ≠ some (some "dim".toList)) _ ⟨rfl, by omega⟩ ?_ ?_
  · rintro i s hi ⟨rfl, hI⟩
    have hg := List.getElem?_eq_getElem (l := names) (i := i) (by omega)
    refine Ret.bind_eq (rd_of_getElem? hg) ?_
    by_cases h : names[i] = some "dim".toList
    · rw [if_pos h]
      exact Ret.ok ⟨hi, by rw [hg, h]⟩
    · rw [if_neg h]
      refine Ret.ok ⟨rfl, fun j hj => ?_⟩
      by_cases hji : j = i
      · subst hji
        rw [hg]
        exact fun e => h (Option.some.inj e)
      · exact hI j (by omega)
  · rintro s ⟨rfl, h⟩
    exact h

/-- Without interaction of `dim` and `dimnames`. -/
theorem setAttribR_ok {σ0 σ : OHeap} {y : Nat} {l : List AEnt} {b : Bool} {ss : List Nat} {s4 : Bool}
    (h : Owns σ0 σ y l b ss s4) (tag : AttrTag) (v : Option AttrVal) (h1 : tag = .dim → lk l .dimNames = none)
    (h2 : tag = .dimNames → v ≠ none → lk l .dim ≠ none) :
    Ret (setAttribR σ y tag v) (fun σ' => ∃ l', Owns σ0 σ' y l' b ss s4 ∧
      ∀ t, lk l' t = if t = tag then v else lk l t) := by
  unfold setAttribR
  by_cases ht : tag = .dim
  · subst ht
    rw [if_pos rfl]
    refine Ret.bind (attribPoke_ok h .dimNames none) fun σ1 ⟨l1, o1, e1⟩ => ?_
    refine (attribPoke_ok o1 .dim v).mono ?_
    rintro σ2 ⟨l2, o2, e2⟩
    refine ⟨l2, o2, fun t => ?_⟩
    rw [e2, e1]
    by_cases hd : t = .dimNames
    · subst hd
      simp [h1 rfl]
    · simp [hd]
  · rw [if_neg ht]
    by_cases hd : tag = .dimNames ∧ v ≠ none
    · rw [if_pos hd]
      obtain ⟨o, g1, _, g3⟩ := lk_get h
      refine Ret.bind_eq g1 (Ret.bind_eq (g3 .dim) ?_)
      cases hk : lk l .dim with
      | none => exact absurd hk (h2 hd.1 hd.2)
      | some d =>
        dsimp only
        rw [← hd.1]
        exact attribPoke_ok h tag v
    · rw [if_neg hd]
      exact attribPoke_ok h tag v

theorem Spec.Gives.step {sym : List Char → AttrTag} {names : List Name} {vals : List (Option AttrVal)} {n : Nat}
    {s : List Char} {w : Option AttrVal} (hn : names[n]? = some (some s)) (hv : vals[n]? = some w) {t : AttrTag}
    {v : Option AttrVal} (h : t ≠ sym s → Gives sym names vals n t v) (hw : t = sym s → v = w) :
    Gives sym names vals (n + 1) t v := by
  by_cases ht : t = sym s
  · refine .inl ⟨n, s, by omega, hn, ht.symm, by rw [hv, hw ht], fun j _ h1 h2 => by omega⟩
  · rcases h ht with ⟨i, s0, h1, h2, h3, h4, h5⟩ | ⟨h1, h2⟩
    · refine .inl ⟨i, s0, by omega, h2, h3, h4, fun j s' hj hj' hs' => ?_⟩
      by_cases e : j = n
      · subst e
        rw [hn] at hs'
        cases hs'
        exact fun e => ht e.symm
      · exact h5 j s' hj (by omega) hs'
    · refine .inr ⟨h1, fun i s0 hi hs0 => ?_⟩
      by_cases e : i = n
      · subst e
        rw [hn] at hs0
        cases hs0
        exact fun e => ht e.symm
      · exact h2 i s0 (by omega) hs0

section
variable (sym : List Char → AttrTag) (hsym : ∀ s, sym s = .dim ↔ s = "dim".toList) {σ : OHeap} {x : Nat} {ox : VObj}
  {lx : List (AttrTag × AttrVal)} (hx : AttribsOf σ x ox lx) {names : List Name} {vals : List (Option AttrVal)}
include hx

theorem setStart_ok : Ret (do
      let c ← cloneObj σ x false
      let σ' ← pokeAttribs c.1 c.2 none
      .ok (σ', c.2) : C (OHeap × Nat)) (fun r => Place σ x r.2 ox false ∧ Owns σ r.1 r.2 [] ox.isList ox.sizes ox.s4) := by
  obtain ⟨es, h1, _⟩ := hasAttribs_iff.1 hx.2
  refine Ret.bind (cloneObj_ok false hx.1 h1) fun c ⟨c1, c2, c3, o, es', c4, c5, c6, c7, c8, c9, _⟩ => ?_
  have hyl := (List.getElem?_eq_some_iff.1 c4).1
  unfold pokeAttribs
  refine Ret.bind_eq (a := ⟨c.1.nodes, c.1.objs.set c.2 { o with attrib := none }⟩) ?_ (Ret.ok ⟨c1, ?_⟩)
  · rw [rd_of_getElem? c4, ok_bind, wr_ok hyl, ok_bind]
  · refine ⟨⟨_, List.getElem?_set_self hyl, rfl, c7, c8, c9⟩, fun e he => by simp at he, ⟨c2, fun z hz hlt => ?_⟩⟩
    dsimp only
    rw [List.getElem?_set_ne (Ne.symm hz), prefix_getElem? c3 hlt]

include hsym

/-- The attributes after `dim` was set. -/
theorem setDim_ok (hnm : AllNamed names vals) {σ1 : OHeap} {y : Nat} (ho : Owns σ σ1 y [] ox.isList ox.sizes ox.s4)
    {pos : Option Nat} : (∀ d, pos = some d → d < vals.length) →
    Ret (match pos with
        | none => .ok σ1
        | some d => do
          let v ← rd vals d
          setAttribR σ1 y .dim v : C OHeap) (fun σ' => ∃ l, Owns σ σ' y l ox.isList ox.sizes ox.s4 ∧
      (∀ t, t ≠ .dim → lk l t = none) ∧ (pos = none → lk l .dim = none) ∧
      (∀ d, pos = some d → vals[d]? = some (lk l .dim))) := by
  intro hpos
  cases pos with
  | none => exact Ret.ok ⟨[], ho, fun _ _ => rfl, fun _ => rfl, fun d h => by cases h⟩
  | some d =>
    have hg := List.getElem?_eq_getElem (hpos d rfl)
    refine Ret.bind_eq (rd_of_getElem? hg) ((setAttribR_ok ho .dim _ (fun _ => rfl) (fun h => by cases h)).mono ?_)
    rintro σ2 ⟨l, o2, e2⟩
    refine ⟨l, o2, fun t ht => by rw [e2, if_neg ht]; rfl, fun h => (by cases h), fun d' h => ?_⟩
    cases h
    rw [e2, if_pos rfl, hg]

/-- `vec_set_attributes()`: the attributes are those of the list, in whichever order they are given; those of before are
gone.  The result is the object itself if it is not shared, a copy otherwise; no other object changes. -/
theorem C78_set_attributes (hnm : AllNamed names vals)
    (hone : ∀ i j : Nat, names[i]? = some (some "dim".toList) → names[j]? = some (some "dim".toList) → i = j)
    (hdn : ∀ (i : Nat) (s : List Char) (v : AttrVal), names[i]? = some (some s) → sym s = .dimNames → vals[i]? = some (some v) →
      ∃ (j : Nat) (w : AttrVal), names[j]? = some (some "dim".toList) ∧ vals[j]? = some (some w)) :
    Ret (setAttributes sym σ x (some names) vals) (fun r => Place σ x r.2 ox false ∧ OnlyChanges σ r.1 r.2 ∧
      ∃ o ly, AttribsOf r.1 r.2 o ly ∧ (∀ t, Gives sym names vals vals.length t (ly.lookup t)) ∧
        o.isList = ox.isList ∧ o.sizes = ox.sizes ∧ o.s4 = ox.s4) := by
  obtain ⟨⟨σ1, y⟩, hst, hpl, ho⟩ := setStart_ok hx
  dsimp only at hpl ho
  unfold setAttributes
  obtain ⟨es, h1, _⟩ := hasAttribs_iff.1 hx.2
  obtain ⟨c, hc, _⟩ := cloneObj_ok false hx.1 h1
  rw [hc, ok_bind] at hst ⊢
  dsimp only
  cases hpk : pokeAttribs c.1 c.2 none with
  | error e => rw [hpk] at hst; cases hst
  | ok σ1' =>
    rw [hpk] at hst
    cases hst
    rw [ok_bind]
    have fin : ∀ {σ2 : OHeap} {l : List AEnt}, Owns σ σ2 c.2 l ox.isList ox.sizes ox.s4 →
        (∀ t, Gives sym names vals vals.length t (lk l t)) →
        Place σ x c.2 ox false ∧ OnlyChanges σ σ2 c.2 ∧ ∃ o ly, AttribsOf σ2 c.2 o ly ∧
          (∀ t, Gives sym names vals vals.length t (ly.lookup t)) ∧
          o.isList = ox.isList ∧ o.sizes = ox.sizes ∧ o.s4 = ox.s4 := by
      intro σ2 l o2 hg
      obtain ⟨o, g1, g2, g3, g4, g5⟩ := o2.obj
      exact ⟨hpl, o2.only, o, _, ⟨g1, hasAttribs_iff.2 ⟨l, g2, rfl⟩⟩, hg, g3, g4, g5⟩
    by_cases h0 : vals.length = 0
    · rw [if_pos h0]
      refine Ret.ok (fin ho fun t => .inr ⟨rfl, fun i s hi => by omega⟩)
    · rw [if_neg h0]
      refine Ret.bind_eq (checkAttribNames_ok hnm) (Ret.bind (findDimPos_ok hnm.1) fun pos hpos => ?_)
      refine Ret.bind (setDim_ok sym hsym hx hnm ho (pos := pos) fun d hd => by subst hd; exact hpos.1)
        fun σ2 ⟨l2, o2, e1, e2, e3⟩ => ?_
      have hdim : ∀ i, names[i]? = some (some "dim".toList) → pos = some i := by
        intro i hi
        cases pos with
        | none =>
          have := (List.getElem?_eq_some_iff.1 hi).1
          exact absurd hi (hpos i (by rw [← hnm.1]; exact this))
        | some d => rw [hone i d hi hpos.2]
      have loop : Ret (forN vals.length (setAttribTurn sym names vals c.2 pos) σ2) (fun σ' => ∃ l,
          Owns σ σ' c.2 l ox.isList ox.sizes ox.s4 ∧ lk l .dim = lk l2 .dim ∧
          ∀ t, t ≠ .dim → Gives sym names vals vals.length t (lk l t)) := by
        refine Ret.forN (fun i σ' => ∃ l, Owns σ σ' c.2 l ox.isList ox.sizes ox.s4 ∧ lk l .dim = lk l2 .dim ∧
          ∀ t, t ≠ .dim → Gives sym names vals i t (lk l t))
          ⟨l2, o2, rfl, fun t ht => .inr ⟨e1 t ht, fun i s hi => by omega⟩⟩ ?_
        rintro i σ3 hi ⟨l3, o3, d3, g3⟩
        have hg := List.getElem?_eq_getElem (l := names) (i := i) (by rw [hnm.1]; exact hi)
        have hv := List.getElem?_eq_getElem hi
        obtain ⟨s, es, _⟩ := hnm.2 _ (List.mem_of_getElem? hg)
        rw [es] at hg
        unfold setAttribTurn
        by_cases hp : pos = some i
        · rw [if_pos hp]
          refine Ret.ok ⟨l3, o3, d3, fun t ht => ?_⟩
          subst hp
          have hs : sym s = .dim := by
            have := hpos.2
            rw [hg] at this
            cases this
            exact (hsym _).2 rfl
          exact Gives.step hg hv (fun _ => g3 t ht) fun e => absurd (e.trans hs) ht
        · rw [if_neg hp]
          have hs : sym s ≠ .dim := by
            intro e
            rw [(hsym s).1 e] at hg
            exact hp (hdim i hg)
          refine Ret.bind_eq (rd_of_getElem? hg) ?_
          dsimp only
          refine Ret.bind_eq (rd_of_getElem? hv) ((setAttribR_ok o3 (sym s) _ (fun e => absurd e hs) ?_).mono ?_)
          · intro e hne
            obtain ⟨w, hw⟩ := Option.ne_none_iff_exists'.1 hne
            rw [hw] at hv
            obtain ⟨j, u, hj, hu⟩ := hdn i s w hg e hv
            have := e3 j (hdim j hj)
            rw [hu] at this
            rw [d3, ← Option.some.inj this]
            exact Option.some_ne_none u
          · rintro σ4 ⟨l4, o4, e4⟩
            refine ⟨l4, o4, by rw [e4, if_neg (Ne.symm hs), d3], fun t ht => ?_⟩
            rw [e4]
            refine Gives.step hg hv (fun hne => ?_) (fun he => by rw [if_pos he])
            rw [if_neg hne]
            exact g3 t ht
      refine Ret.bind loop fun σ4 ⟨l4, o4, d4, g4⟩ => Ret.ok (fin o4 fun t => ?_)
      by_cases ht : t = .dim
      · subst ht
        rw [d4]
        cases pos with
        | none =>
          refine .inr ⟨e2 rfl, fun i s hi hs e => ?_⟩
          rw [(hsym s).1 e] at hs
          exact hpos i hi hs
        | some d =>
          refine .inl ⟨d, _, hpos.1, hpos.2, (hsym _).2 rfl, e3 d rfl, fun j s' hj hj' hs' e => ?_⟩
          rw [(hsym s').1 e] at hs'
          have := hone d j hpos.2 hs'
          omega
      · exact g4 t ht

/-- `dimnames` without `dim` is an error. -/
theorem C78_set_dimnames (hnm : AllNamed names vals) (hno : ∀ i : Nat, names[i]? ≠ some (some "dim".toList))
    (hdn : ∃ (i : Nat) (s : List Char) (v : AttrVal), names[i]? = some (some s) ∧ sym s = .dimNames ∧ vals[i]? = some (some v)) :
    setAttributes sym σ x (some names) vals = .error .abort := by
  obtain ⟨⟨σ1, y⟩, hst, hpl, ho⟩ := setStart_ok hx
  dsimp only at hpl ho
  unfold setAttributes
  obtain ⟨es, h1, _⟩ := hasAttribs_iff.1 hx.2
  obtain ⟨c, hc, _⟩ := cloneObj_ok false hx.1 h1
  rw [hc, ok_bind] at hst ⊢
  dsimp only
  cases hpk : pokeAttribs c.1 c.2 none with
  | error e => rw [hpk] at hst; cases hst
  | ok σ1' =>
    rw [hpk] at hst
    cases hst
    rw [ok_bind]
    obtain ⟨k, s, v, hk, hs, hv⟩ := hdn
    have hkl := (List.getElem?_eq_some_iff.1 hv).1
    rw [if_neg (by omega)]
    rw [checkAttribNames_ok hnm, ok_bind]
    obtain ⟨pos, hp, hpos⟩ := findDimPos_ok hnm.1
    rw [hp, ok_bind]
    cases pos with
    | some d => exact absurd hpos.2 (hno d)
    | none =>
      dsimp only
      rw [ok_bind]
      -- the first of them
      let P : Nat → Prop := fun i => ∃ s v, names[i]? = some (some s) ∧ sym s = .dimNames ∧ vals[i]? = some (some v)
      have hfirst : ∃ k, P k ∧ ∀ j, j < k → ¬ P j := by
        refine Classical.byContradiction fun hn => ?_
        have : ∀ j, ¬ P j := by
          intro j
          induction j using Nat.strongRecOn with
          | ind j ih => exact fun h => hn ⟨j, h, ih⟩
        exact this k ⟨s, v, hk, hs, hv⟩
      obtain ⟨m, ⟨s', v', hm, hs', hv'⟩, hmin⟩ := hfirst
      have hml := (List.getElem?_eq_some_iff.1 hv').1
      refine bind_err_of (forN_err (k := m) (fun _ σ' => ∃ l, Owns σ σ' c.2 l ox.isList ox.sizes ox.s4 ∧ lk l .dim = none)
        hml ⟨[], ho, rfl⟩ ?_ ?_)
      · rintro i σ3 hi ⟨l3, o3, d3⟩
        have hg := List.getElem?_eq_getElem (l := names) (i := i) (by rw [hnm.1]; omega)
        have hw := List.getElem?_eq_getElem (l := vals) (i := i) (by omega)
        obtain ⟨u, eu, _⟩ := hnm.2 _ (List.mem_of_getElem? hg)
        rw [eu] at hg
        have hu : sym u ≠ .dim := fun e => by
          rw [(hsym u).1 e] at hg
          exact hno i hg
        have : Ret (setAttribTurn sym names vals c.2 none i σ3) (fun σ' => ∃ l,
            Owns σ σ' c.2 l ox.isList ox.sizes ox.s4 ∧ lk l .dim = none) := by
          unfold setAttribTurn
          rw [if_neg (by simp)]
          refine Ret.bind_eq (rd_of_getElem? hg) ?_
          dsimp only
          refine Ret.bind_eq (rd_of_getElem? hw) ((setAttribR_ok o3 (sym u) _ (fun e => absurd e hu) ?_).mono ?_)
          · intro e hne
            obtain ⟨w, hw'⟩ := Option.ne_none_iff_exists'.1 hne
            rw [hw'] at hw
            exact absurd ⟨u, w, hg, e, hw⟩ (hmin i hi)
          · rintro σ4 ⟨l4, o4, e4⟩
            exact ⟨l4, o4, by rw [e4, if_neg (Ne.symm hu), d3]⟩
        exact this
      · rintro σ3 ⟨l3, o3, d3⟩
        unfold setAttribTurn
        rw [if_neg (by simp), rd_of_getElem? hm, ok_bind]
        dsimp only
        rw [rd_of_getElem? hv', ok_bind, hs']
        unfold setAttribR
        rw [if_neg (by simp), if_pos ⟨rfl, by simp⟩]
        obtain ⟨o, g1, _, g3⟩ := lk_get o3
        rw [g1, ok_bind, g3, ok_bind, d3]

end

/-- Attributes without names are an error. -/
theorem C78_set_unnamed (sym : List Char → AttrTag) {σ : OHeap} {x : Nat} {ox : VObj} {lx : List (AttrTag × AttrVal)}
    (hx : AttribsOf σ x ox lx) (names : Option (List Name)) (vals : List (Option AttrVal)) (hv : vals ≠ [])
    (hbad : ∀ l, names = some l → l.length = vals.length ∧ ∃ nm ∈ l, nm = none ∨ nm = some []) :
    setAttributes sym σ x names vals = .error .abort := by
  obtain ⟨⟨σ1, y⟩, hst, hpl, ho⟩ := setStart_ok hx
  unfold setAttributes
  obtain ⟨es, h1, _⟩ := hasAttribs_iff.1 hx.2
  obtain ⟨c, hc, _⟩ := cloneObj_ok false hx.1 h1
  rw [hc, ok_bind] at hst ⊢
  dsimp only
  cases hpk : pokeAttribs c.1 c.2 none with
  | error e => rw [hpk] at hst; cases hst
  | ok σ1' =>
    rw [ok_bind, if_neg (by simpa using hv)]
    cases names with
    | none => rfl
    | some l =>
      dsimp only
      obtain ⟨hl, nm, hmem, hnm⟩ := hbad l rfl
      refine bind_err_of ?_
      unfold checkAttribNames
      have hfirst : ∃ k : Nat, (∃ h : k < l.length, l[k] = none ∨ l[k] = some []) ∧
          ∀ j (h : j < l.length), j < k → ¬ (l[j] = none ∨ l[j] = some []) := by
        obtain ⟨k, hk, e⟩ := List.getElem_of_mem hmem
        induction k using Nat.strongRecOn generalizing nm with
        | ind k ih =>
          by_cases hex : ∃ j, ∃ h : j < l.length, j < k ∧ (l[j] = none ∨ l[j] = some [])
          · obtain ⟨j, h, hj, hb⟩ := hex
            exact ih j hj _ (List.getElem_mem h) hb h rfl
          · exact ⟨k, ⟨hk, e ▸ hnm⟩, fun j h hj hb => hex ⟨j, h, hj, hb⟩⟩
      obtain ⟨k, ⟨hk, hb⟩, hmin⟩ := hfirst
      refine forN_err (k := k) (fun _ _ => True) (by omega) trivial ?_ ?_
      · intro i _ hi _
        have hil : i < l.length := by omega
        exact ⟨(), by rw [rd_of_getElem? (List.getElem?_eq_getElem hil), ok_bind, if_neg (hmin i hil hi)], trivial⟩
      · intro _ _
        rw [rd_of_getElem? (List.getElem?_eq_getElem hk), ok_bind, if_pos hb]

/-! ## Examples -/

/-- Some symbols. -/
def exSym (s : List Char) : AttrTag :=
  if s = "dim".toList then .dim else if s = "dimnames".toList then .dimNames
  else if s = "names".toList then .names else .other s.length

/-- `dimnames` before `dim`, and an attribute twice. -/
def exSetNames : List Name :=
  [some "dimnames".toList, some "foo".toList, some "dim".toList, some "foo".toList]

example : (∀ s, exSym s = .dim ↔ s = "dim".toList) ∧
    AllNamed exSetNames [some (.other 1), some (.other 2), some (.int [2, 3]), some (.other 5)] := by
  refine ⟨fun s => ?_, rfl, ?_⟩
  · unfold exSym
    by_cases h : s = "dim".toList
    · simp [h]
    · rw [if_neg h]
      refine ⟨fun e => ?_, fun e => absurd e h⟩
      split at e
      · cases e
      · split at e <;> cases e
  · unfold exSetNames
    simp

/-- The result for the shared object 1 of `exHeap`: a copy with the new attributes. -/
example : (match setAttributes exSym exHeap 1 (some exSetNames)
      [some (.other 1), some (.other 2), some (.int [2, 3]), some (.other 5)] with
    | .ok r => (r.2, match r.1.objs[r.2]? with
      | some o => (readAttribs r.1.nodes.length r.1.nodes o.attrib).toOption
      | none => none)
    | .error _ => (0, none)) =
    (2, some [(.dim, .int [2, 3]), (.dimNames, .other 1), (.other 3, .other 5)]) := by decide

example : (match setAttributes exSym exHeap 1 (some [some "dimnames".toList, some "foo".toList])
      [some (.other 1), some (.other 2)] with
    | .ok _ => none
    | .error e => some e) = some .abort := by decide

end Vctrs
