import Verif.Lemmas.RetOr
import Verif.Lemmas.Scatter
import Verif.SpecHeap

namespace Vctrs

open Spec

variable {S : Type}

theorem forall₂_of_get {α β : Type} {R : α → β → Prop} {l : List α} {m : List β} (hl : m.length = l.length)
    (h : ∀ (i : Nat) a b, l[i]? = some a → m[i]? = some b → R a b) : List.Forall₂ R l m := by
  induction l generalizing m with
  | nil =>
    cases m with
    | nil => exact .nil
    | cons b m => simp at hl
  | cons a l ih =>
    cases m with
    | nil => simp at hl
    | cons b m =>
      exact .cons (h 0 a b rfl rfl) (ih (by simpa using hl) (fun i a b ha hb => h (i + 1) a b ha hb))

theorem mem_kids_list {o : TObj S} {l : List Nat} (h : o.kind = .list l) {c : Nat} (hc : c ∈ l) : c ∈ kids o := by
  unfold kids
  rw [h]
  exact List.mem_append_left _ hc

theorem mem_kids_attr {o : TObj S} {p : String × Nat} (hc : p ∈ o.attrs) : p.2 ∈ kids o := by
  unfold kids
  exact List.mem_append_right _ (List.mem_map.2 ⟨p, hc, rfl⟩)

/-- Relations between types that only have to hold for the elements. -/
theorem Spec.KindRel.imp {f g : S → S → Prop} {r r' : Nat → Nat → Prop} {k k' : TKind S}
    (hf : ∀ s s', f s s' → g s s')
    (hr : ∀ l l', k = .list l → k' = .list l' → ∀ c c', c ∈ l → c' ∈ l' → r c c' → r' c c') (h : KindRel f r k k') :
    KindRel g r' k k' := by
  cases k <;> cases k' <;> try exact h
  · exact List.Forall₂.imp hf h
  · rename_i l l'
    have hr := hr l l' rfl rfl
    have key : ∀ (l l' : List Nat), List.Forall₂ r l l' → (∀ c c', c ∈ l → c' ∈ l' → r c c' → r' c c') →
        List.Forall₂ r' l l' := by
      intro l l' h
      induction h with
      | nil => intro _; exact .nil
      | cons h1 _ ih =>
        intro hi
        exact .cons (hi _ _ (by simp) (by simp) h1)
          (ih (fun c c' hc hc' => hi c c' (List.mem_cons_of_mem _ hc) (List.mem_cons_of_mem _ hc')))
    exact key l l' h hr

theorem Spec.AttrRel.imp {r r' : Nat → Nat → Prop} {l l' : List (String × Nat)}
    (hr : ∀ p p', p ∈ l → p' ∈ l' → r p.2 p'.2 → r' p.2 p'.2) (h : AttrRel r l l') : AttrRel r' l l' := by
  unfold AttrRel at h ⊢
  induction h with
  | nil => exact .nil
  | cons h1 _ ih =>
    exact .cons ⟨h1.1, hr _ _ (by simp) (by simp) h1.2⟩
      (ih (fun p p' hp hp' => hr p p' (List.mem_cons_of_mem _ hp) (List.mem_cons_of_mem _ hp')))

/-- What an object looks like does not change if nothing that it reaches changes. -/
theorem Spec.Same.right {f : S → S → Prop} {h h1 h2 : THeap S} (Q : Nat → Prop)
    (hQ : ∀ c o, Q c → h1[c]? = some o → (∀ k ∈ kids o, Q k) ∧
      ∃ o', h2[c]? = some o' ∧ o'.kind = o.kind ∧ o'.attrs = o.attrs) :
    ∀ {d : Nat} {a b : Nat}, Q b → Same f d h a h1 b → Same f d h a h2 b := by
  intro d
  induction d with
  | zero => intro a b _ _; trivial
  | succ d ih =>
    rintro a b hb ⟨o, o1, h3, h4, h5, h6⟩
    obtain ⟨hk, o2, h7, h8, h9⟩ := hQ b o1 hb h4
    refine ⟨o, o2, h3, h7, ?_, ?_⟩
    · rw [h8]
      exact h5.imp (fun _ _ h => h) (fun l l' _ hl' c c' _ hc' hs => ih (hk _ (mem_kids_list hl' hc')) hs)
    · rw [h9]
      exact h6.imp (fun p p' _ hp' hs => ih (hk _ (mem_kids_attr hp')) hs)

theorem Spec.Same.trans {f : S → S → Prop} {h h1 h2 : THeap S} :
    ∀ {d : Nat} {a b c : Nat}, Same (fun s s' => s = s') d h a h1 b → Same f d h1 b h2 c → Same f d h a h2 c := by
  intro d
  induction d with
  | zero => intro a b c _ _; trivial
  | succ d ih =>
    rintro a b c ⟨o, o1, h3, h4, h5, h6⟩ ⟨o1', o2, h7, h8, h9, h10⟩
    rw [h4] at h7
    cases h7
    refine ⟨o, o2, h3, h8, ?_, ?_⟩
    · generalize o.kind = k at h5
      generalize o1.kind = k1 at h5 h9
      generalize o2.kind = k2 at h9
      cases k <;> cases k1 <;> cases k2 <;> try first | exact h5.elim | exact h9.elim | trivial
      · rename_i l l1 l2
        have : l = l1 := List.forall₂_eq_eq_eq ▸ h5
        subst this
        exact h9
      · rename_i l l1 l2
        have key : ∀ (l l1 : List Nat), List.Forall₂ (fun c c' => Same (fun s s' => s = s') d h c h1 c') l l1 →
            ∀ l2 : List Nat, List.Forall₂ (fun c c' => Same f d h1 c h2 c') l1 l2 →
              List.Forall₂ (fun c c' => Same f d h c h2 c') l l2 := by
          intro l l1 hl
          induction hl with
          | nil => intro l2 h; cases h; exact .nil
          | cons g _ ih' =>
            intro l2 h
            cases h with
            | cons g2 g3 => exact .cons (ih g g2) (ih' _ g3)
        exact key l l1 h5 l2 h9
    · have key : ∀ (l l1 : List (String × Nat)), AttrRel (fun c c' => Same (fun s s' => s = s') d h c h1 c') l l1 →
          ∀ l2 : List (String × Nat), AttrRel (fun c c' => Same f d h1 c h2 c') l1 l2 →
            AttrRel (fun c c' => Same f d h c h2 c') l l2 := by
        intro l l1 hl
        unfold AttrRel at hl
        induction hl with
        | nil => intro l2 h; cases h; exact .nil
        | cons g _ ih' =>
          intro l2 h
          cases h with
          | cons g2 g3 => exact .cons ⟨g.1.trans g2.1, ih g.2 g2.2⟩ (ih' _ g3)
      exact key _ _ h6 _ h10

theorem kids_in {h : THeap S} (hs : Sound h) {a : Nat} {o : TObj S} (ho : h[a]? = some o) {c : Nat} (hc : c ∈ kids o) :
    c < h.length := by
  obtain ⟨o', h1, _⟩ := hs a o ho c hc
  exact (List.getElem?_eq_some_iff.1 h1).1

theorem Spec.Same.refl {h : THeap S} (hs : Sound h) :
    ∀ (d : Nat) {a : Nat}, a < h.length → Same (fun s s' => s = s') d h a h a := by
  intro d
  induction d with
  | zero => intro a _; trivial
  | succ d ih =>
    intro a ha
    have ho : h[a]? = some h[a] := List.getElem?_eq_getElem ha
    refine ⟨h[a], h[a], ho, ho, ?_, ?_⟩
    · generalize hk : h[a].kind = k
      cases k with
      | chr l => exact List.forall₂_same.2 (fun _ _ => rfl)
      | list l => exact List.forall₂_same.2 (fun c hc => ih (kids_in hs ho (mem_kids_list hk hc)))
      | other => trivial
    · exact List.forall₂_same.2 (fun p hp => ⟨rfl, ih (kids_in hs ho (mem_kids_attr hp))⟩)

/-- A change to an unshared object `x` alone leaves the look of everything else. -/
theorem Spec.Untouched.same {f : S → S → Prop} {h h1 h2 : THeap S} {x : Nat} (hs : Sound h1) (hu : Untouched h1 h2 x)
    {d a b : Nat} {o : TObj S} (hb : h1[b]? = some o) (hbx : b ≠ x ∨ o.refd = true) (h3 : Same f d h a h1 b) :
    Same f d h a h2 b := by
  refine Same.right (fun c => ∀ o, h1[c]? = some o → (c ≠ x ∨ o.refd = true)) ?_ ?_ h3
  · intro c o hc ho
    refine ⟨fun k hk o' hk' => ?_, o, hu c o ho (hc o ho), rfl, rfl⟩
    obtain ⟨o'', h4, h5⟩ := hs c o ho k hk
    rw [h4] at hk'
    cases hk'
    exact Or.inr h5
  · intro o' ho'
    rw [hb] at ho'
    cases ho'
    exact hbx

theorem Spec.Untouched.refl (h : THeap S) (x : Nat) : Untouched h h x := fun _ _ h _ => h

/-- The object at `a` nests less than `d` levels, and its strings have `P`. -/
def DeepP (P : S → Prop) : Nat → THeap S → Nat → Prop
  | 0, _, _ => False
  | d + 1, h, a => ∃ o, h[a]? = some o ∧ (∀ l, o.kind = .chr l → ∀ s ∈ l, P s) ∧ ∀ c ∈ kids o, DeepP P d h c

theorem DeepP.of_reach {h : THeap S} {a : Nat} : ∀ {d b : Nat}, Reach h a b → Deep d h b → DeepP (StrIn h a) d h b := by
  intro d
  induction d with
  | zero => intro b _ h; exact h
  | succ d ih =>
    rintro b hr ⟨o, ho, hk⟩
    exact ⟨o, ho, fun l hl s hs => ⟨b, o, l, hr, ho, hl, hs⟩, fun c hc => ih (.kid hr ho hc) (hk c hc)⟩

theorem DeepP.imp {P Q : S → Prop} (hPQ : ∀ s, P s → Q s) {h : THeap S} :
    ∀ {d b : Nat}, DeepP P d h b → DeepP Q d h b := by
  intro d
  induction d with
  | zero => intro b h; exact h
  | succ d ih =>
    rintro b ⟨o, ho, h1, hk⟩
    exact ⟨o, ho, fun l hl s hs => hPQ s (h1 l hl s hs), fun c hc => ih (hk c hc)⟩

theorem DeepP.mono_heap {P : S → Prop} {h h2 : THeap S} {x : Nat} (hs : Sound h) (hu : Untouched h h2 x) :
    ∀ {d b : Nat} {o : TObj S}, h[b]? = some o → (b ≠ x ∨ o.refd = true) → DeepP P d h b → DeepP P d h2 b := by
  intro d
  induction d with
  | zero => intro b o _ _ h; exact h
  | succ d ih =>
    rintro b o hb hbx ⟨o', h1, hP, h2⟩
    rw [hb] at h1
    cases h1
    refine ⟨o, hu b o hb hbx, hP, fun c hc => ?_⟩
    obtain ⟨oc, h3, h4⟩ := hs b o hb c hc
    exact ih h3 (Or.inr h4) (h2 c hc)

/-- The errors: a string that cannot be translated. -/
def TErr (E : TEnc S) (P : S → Prop) (e : Err) : Prop := ∃ s, P s ∧ E.isNorm s = false ∧ E.norm s = .error e

theorem Spec.Untouched.step {h h1 h2 : THeap S} {a x : Nat} (h01 : Untouched h h1 a) (h12 : Untouched h1 h2 x)
    (hx : x = a ∨ h[x]? = none) : Untouched h h2 a := by
  intro b o hb hba
  refine h12 b o (h01 b o hb hba) ?_
  rcases hba with hba | hba
  · rcases hx with rfl | hx
    · exact Or.inl hba
    · left
      rintro rfl
      rw [hb] at hx
      cases hx
  · exact Or.inr hba

theorem Spec.Untouched.step_refd {h h1 h2 : THeap S} {a x : Nat} {ox : TObj S} (h01 : Untouched h h1 a)
    (h12 : Untouched h1 h2 x) (hx : h1[x]? = some ox) (hr : ox.refd = true) : Untouched h h2 a := by
  intro b o hb hba
  have hb1 := h01 b o hb hba
  refine h12 b o hb1 ?_
  by_cases hbx : b = x
  · subst hbx
    rw [hx] at hb1
    cases hb1
    exact Or.inr hr
  · exact Or.inl hbx

/-- Replacing an object that nothing refers to. -/
theorem sound_set {h : THeap S} (hs : Sound h) {x : Nat} {ox o : TObj S} (hx : h[x]? = some ox) (hr : ox.refd = false)
    (hk : ∀ c ∈ kids o, ∃ oc, h[c]? = some oc ∧ oc.refd = true) : Sound (h.set x o) := by
  have hlt := (List.getElem?_eq_some_iff.1 hx).1
  have hmove : ∀ c : Nat, (∃ oc, h[c]? = some oc ∧ oc.refd = true) → ∃ oc, (h.set x o)[c]? = some oc ∧ oc.refd = true := by
    rintro c ⟨oc, h1, h2⟩
    refine ⟨oc, ?_, h2⟩
    by_cases hc : x = c
    · subst hc
      rw [hx] at h1
      cases h1
      rw [hr] at h2
      cases h2
    · rw [List.getElem?_set_ne hc]
      exact h1
  intro a oa ha c hc
  by_cases hax : x = a
  · subst hax
    rw [List.getElem?_set_self hlt] at ha
    cases ha
    exact hmove c (hk c hc)
  · rw [List.getElem?_set_ne hax] at ha
    exact hmove c (hs a oa ha c hc)

theorem poke_ok {h1 : THeap S} {x : Nat} {o1 : TObj S} (hs1 : Sound h1) (ho : h1[x]? = some o1) {o : TObj S}
    (hk : ∀ c ∈ kids o, ∃ oc, h1[c]? = some oc ∧ oc.refd = true) :
    ∃ h2 x2, tCloneReferenced h1 x = .ok (h2, x2) ∧ h2[x2]? = some { o1 with refd := false } ∧
      Sound (h2.set x2 o) ∧ Untouched h1 (h2.set x2 o) x ∧ (x2 = x ∨ h1[x2]? = none) ∧ (h2.set x2 o)[x2]? = some o ∧ h1.length ≤ (h2.set x2 o).length := by
  have hlt := (List.getElem?_eq_some_iff.1 ho).1
  unfold tCloneReferenced
  rw [rd_of_getElem? ho, ok_bind]
  by_cases hr : o1.refd = true
  · rw [if_pos hr]
    unfold tClone
    rw [rd_of_getElem? ho, ok_bind]
    have hn : (h1 ++ [{ o1 with refd := false }])[h1.length]? = some { o1 with refd := false } := by simp
    refine ⟨_, _, rfl, hn, ?_, ?_, Or.inr (by simp), ?_⟩
    · refine sound_set ?_ hn rfl ?_
      · intro b ob hb c hc
        by_cases hbl : b < h1.length
        · rw [List.getElem?_append_left hbl] at hb
          obtain ⟨oc, h3, h4⟩ := hs1 b ob hb c hc
          exact ⟨oc, by rw [List.getElem?_append_left (List.getElem?_eq_some_iff.1 h3).1]; exact h3, h4⟩
        · have hbe : b = h1.length := by
            have := (List.getElem?_eq_some_iff.1 hb).1
            simp at this
            omega
          subst hbe
          rw [hn] at hb
          cases hb
          obtain ⟨oc, h3, h4⟩ := hs1 x o1 ho c hc
          exact ⟨oc, by rw [List.getElem?_append_left (List.getElem?_eq_some_iff.1 h3).1]; exact h3, h4⟩
      · intro c hc
        obtain ⟨oc, h3, h4⟩ := hk c hc
        exact ⟨oc, by rw [List.getElem?_append_left (List.getElem?_eq_some_iff.1 h3).1]; exact h3, h4⟩
    · intro b ob hb _
      have hbl := (List.getElem?_eq_some_iff.1 hb).1
      rw [List.getElem?_set_ne (by omega), List.getElem?_append_left hbl]
      exact hb
    · exact ⟨List.getElem?_set_self (by simp), by simp⟩
  · have hr : o1.refd = false := by simpa using hr
    rw [if_neg (by simp [hr])]
    refine ⟨h1, x, rfl, ?_, sound_set hs1 ho hr hk, ?_, Or.inl rfl, List.getElem?_set_self hlt, by simp⟩
    · rw [ho, ← hr]
    · intro b ob hb hbx
      have hne : x ≠ b := by
        rintro rfl
        rcases hbx with hbx | hbx
        · exact hbx rfl
        · rw [ho] at hb
          cases hb
          rw [hr] at hbx
          cases hbx
      rw [List.getElem?_set_ne hne]
      exact hb

/-- Referring to an object from somewhere. -/
theorem mark_ok {h1 : THeap S} {e : Nat} {oe : TObj S} (hs1 : Sound h1) (he : h1[e]? = some oe) :
    tMark h1 e = .ok (h1.set e { oe with refd := true }) ∧ Sound (h1.set e { oe with refd := true }) ∧
    (∀ (c : Nat) o, h1[c]? = some o → ∃ o', (h1.set e { oe with refd := true })[c]? = some o' ∧ o'.kind = o.kind ∧
      o'.attrs = o.attrs ∧ (o.refd = true → o'.refd = true)) ∧
    Untouched h1 (h1.set e { oe with refd := true }) e := by
  have hlt := (List.getElem?_eq_some_iff.1 he).1
  have hall : ∀ (c : Nat) o, h1[c]? = some o → ∃ o', (h1.set e { oe with refd := true })[c]? = some o' ∧
      o'.kind = o.kind ∧ o'.attrs = o.attrs ∧ (o.refd = true → o'.refd = true) := by
    intro c o hc
    by_cases hce : e = c
    · subst hce
      rw [he] at hc
      cases hc
      exact ⟨_, List.getElem?_set_self hlt, rfl, rfl, fun _ => rfl⟩
    · exact ⟨o, by rw [List.getElem?_set_ne hce]; exact hc, rfl, rfl, fun h => h⟩
  refine ⟨?_, ?_, hall, ?_⟩
  · unfold tMark
    rw [rd_of_getElem? he, ok_bind, wr_ok hlt]
  · intro a oa ha c hc
    have hmove : ∀ c : Nat, (∃ oc, h1[c]? = some oc ∧ oc.refd = true) →
        ∃ oc, (h1.set e { oe with refd := true })[c]? = some oc ∧ oc.refd = true := by
      rintro c ⟨oc, h1, h2⟩
      obtain ⟨o', h3, _, _, h4⟩ := hall c oc h1
      exact ⟨o', h3, h4 h2⟩
    refine hmove c ?_
    by_cases hae : e = a
    · subst hae
      rw [List.getElem?_set_self hlt] at ha
      cases ha
      exact hs1 e oe he c hc
    · rw [List.getElem?_set_ne hae] at ha
      exact hs1 a oa ha c hc
  · intro b ob hb hbe
    by_cases h : e = b
    · subst h
      rw [he] at hb
      cases hb
      rcases hbe with hbe | hbe
      · exact absurd rfl hbe
      · rw [List.getElem?_set_self hlt]
        cases oe
        simp_all
    · rw [List.getElem?_set_ne h]
      exact hb

theorem Spec.Same.mark {f : S → S → Prop} {h h1 : THeap S} {e : Nat} {oe : TObj S} (hs1 : Sound h1)
    (he : h1[e]? = some oe) {d a b : Nat} (h2 : Same f d h a h1 b) :
    Same f d h a (h1.set e { oe with refd := true }) b := by
  refine Same.right (fun _ => True) (fun c o _ hc => ⟨fun _ _ => trivial, ?_⟩) trivial h2
  obtain ⟨o', h3, h4, h5, _⟩ := (mark_ok hs1 he).2.2.1 c o hc
  exact ⟨o', h3, h4, h5⟩

/-- Every object stays, but something may refer to it. -/
def Grow (h h' : THeap S) : Prop := ∀ (b : Nat) o, h[b]? = some o →
  ∃ o', h'[b]? = some o' ∧ o'.kind = o.kind ∧ o'.attrs = o.attrs ∧ (o.refd = true → o'.refd = true)

theorem Grow.same {f : S → S → Prop} {h h1 h2 : THeap S} (hg : Grow h1 h2) {d a b : Nat} (h3 : Same f d h a h1 b) :
    Same f d h a h2 b := by
  refine Same.right (fun _ => True) (fun c o _ hc => ⟨fun _ _ => trivial, ?_⟩) trivial h3
  obtain ⟨o', h3, h4, h5, _⟩ := hg c o hc
  exact ⟨o', h3, h4, h5⟩

theorem Grow.trans {h h1 h2 : THeap S} (h01 : Grow h h1) (h12 : Grow h1 h2) : Grow h h2 := by
  intro b o hb
  obtain ⟨o1, g1, g2, g3, g4⟩ := h01 b o hb
  obtain ⟨o2, g5, g6, g7, g8⟩ := h12 b o1 g1
  exact ⟨o2, g5, g6.trans g2, g7.trans g3, fun h => g8 (g4 h)⟩

theorem Grow.of_same {h h1 : THeap S} (hh : ∀ (b : Nat) o, h[b]? = some o → h1[b]? = some o) : Grow h h1 :=
  fun b o hb => ⟨o, hh b o hb, rfl, rfl, fun h => h⟩

theorem Grow.refd {h h1 : THeap S} (hg : Grow h h1) {b : Nat} (hb : ∃ o, h[b]? = some o ∧ o.refd = true) :
    ∃ o, h1[b]? = some o ∧ o.refd = true := by
  obtain ⟨o, h1, h2⟩ := hb
  obtain ⟨o', h3, _, _, h4⟩ := hg b o h1
  exact ⟨o', h3, h4 h2⟩

/-- What `obj_normalize_encoding()` does to the object at `a`. -/
structure TPost (E : TEnc S) (h : THeap S) (a : Nat) (r : THeap S × Nat) : Prop where
  sound : Sound r.1
  untouched : Untouched h r.1 a
  len : h.length ≤ r.1.length
  addr : r.2 = a ∨ h[r.2]? = none
  same : ∀ d, Same (NormRel E) d h a r.1 r.2

/-- The recursive calls, on objects that nest less than `k` levels. -/
def RecOK (E : TEnc S) (P : S → Prop) (rec : THeap S → Nat → C (THeap S × Nat)) (k : Nat) : Prop :=
  ∀ (h : THeap S) (a : Nat), Sound h → DeepP P k h a → RetOr (rec h a) (TPost E h a) (TErr E P)

/-- A recursive call on an element or attribute `c` while at `h1`, having started at `h`. -/
theorem rec_kid {E : TEnc S} {P : S → Prop} {rec : THeap S → Nat → C (THeap S × Nat)} {k : Nat} (hrec : RecOK E P rec k)
    {h h1 : THeap S} {a : Nat} {o : TObj S} (hs : Sound h) (ho : h[a]? = some o) (hd : ∀ c ∈ kids o, DeepP P k h c)
    (hs1 : Sound h1) (hu : Untouched h h1 a) {c : Nat} (hc : c ∈ kids o) :
    RetOr (rec h1 c) (fun r => Sound r.1 ∧ Untouched h r.1 a ∧ (∀ (b : Nat) ob, h1[b]? = some ob → r.1[b]? = some ob) ∧
      (r.2 = c ∨ h1[r.2]? = none) ∧ (∃ oe, r.1[r.2]? = some oe) ∧ h1.length ≤ r.1.length ∧
      ∀ d, Same (NormRel E) d h c r.1 r.2) (TErr E P) := by
  obtain ⟨oc, h1c, h2c⟩ := hs a o ho c hc
  have hc1 := hu c oc h1c (Or.inr h2c)
  refine RetOr.mono (hrec h1 c hs1 (DeepP.mono_heap hs hu h1c (Or.inr h2c) (hd c hc))) ?_
  rintro ⟨h2, e⟩ ⟨g1, g2, g5, g3, g4⟩
  refine ⟨g1, hu.step_refd g2 hc1 h2c, ?_, g3, ?_, g5, ?_⟩
  · intro b ob hb
    refine g2 b ob hb ?_
    by_cases hbc : b = c
    · subst hbc
      rw [hc1] at hb
      cases hb
      exact Or.inr h2c
    · exact Or.inl hbc
  · obtain ⟨_, oe, _, h4, _⟩ := g4 1
    exact ⟨oe, h4⟩
  · intro d
    refine Same.trans ?_ (g4 d)
    exact hu.same hs h1c (Or.inr h2c) (Same.refl hs d (List.getElem?_eq_some_iff.1 h1c).1)

/-- Copying, then referring to another object `e`: in the other order. -/
theorem clone_set {h : THeap S} {x e : Nat} {v : TObj S} {hm : THeap S} {x2 : Nat} (hex : e ≠ x) (he : e < h.length)
    (hc : tCloneReferenced (h.set e v) x = .ok (hm, x2)) :
    ∃ h2, tCloneReferenced h x = .ok (h2, x2) ∧ hm = h2.set e v ∧ x2 ≠ e ∧ h2[e]? = h[e]? := by
  unfold tCloneReferenced tClone at hc ⊢
  have hr : rd (h.set e v) x = rd h x := by
    unfold rd
    rw [List.getElem?_set_ne hex]
  rw [hr] at hc
  cases hh : rd h x with
  | error e => rw [hh] at hc; cases hc
  | ok o =>
    rw [hh, ok_bind] at hc
    rw [ok_bind]
    by_cases hro : o.refd = true
    · rw [if_pos hro, ok_bind] at hc
      rw [if_pos hro, ok_bind]
      cases hc
      refine ⟨_, by rw [List.length_set], ?_, ?_, ?_⟩
      · rw [List.set_append_left _ _ he]
      · rw [List.length_set]; omega
      · rw [List.getElem?_append_left he]
    · rw [if_neg hro] at hc
      rw [if_neg hro]
      cases hc
      exact ⟨h, rfl, rfl, fun h => hex h.symm, rfl⟩

/-- The state of the loop over the elements of a list. -/
def ListInv (E : TEnc S) (h : THeap S) (a : Nat) (o : TObj S) (l : List Nat) (i : Nat) (s : THeap S × Nat) : Prop :=
  Sound s.1 ∧ Untouched h s.1 a ∧ h.length ≤ s.1.length ∧ (s.2 = a ∨ h[s.2]? = none) ∧
  ∃ oi li, s.1[s.2]? = some oi ∧ oi.kind = .list li ∧ oi.attrs = o.attrs ∧ li.length = l.length ∧
    ∀ (j : Nat) c c', l[j]? = some c → li[j]? = some c' →
      (j < i → ∀ d, Same (NormRel E) d h c s.1 c') ∧ (i ≤ j → c' = c)

theorem getElem?_none_of_len {α β : Type} {l : List α} {m : List β} {i : Nat} (h : l.length ≤ m.length) (hm : m[i]? = none) :
    l[i]? = none := by
  rw [List.getElem?_eq_none_iff] at hm ⊢
  omega

theorem listNormStep_ok {E : TEnc S} {P : S → Prop} {rec : THeap S → Nat → C (THeap S × Nat)} {k : Nat} (hrec : RecOK E P rec k)
    {h : THeap S} {a : Nat} {o : TObj S} {l : List Nat} (hs : Sound h) (ho : h[a]? = some o) (hl : o.kind = .list l)
    (hd : ∀ c ∈ kids o, DeepP P k h c) {i : Nat} (hi : i < l.length) {s : THeap S × Nat} (hinv : ListInv E h a o l i s) :
    RetOr (listNormStep rec i s) (ListInv E h a o l (i + 1)) (TErr E P) := by
  obtain ⟨h1, x⟩ := s
  obtain ⟨hs1, hu, hlen, hx, oi, li, h2, h3, h4, h5, h6⟩ := hinv
  dsimp only at hs1 hu hlen hx h2 h6
  unfold listNormStep
  dsimp only
  refine RetOr.bind_eq (rd_of_getElem? h2) ?_
  rw [h3]
  dsimp only
  have hil : i < li.length := by omega
  have hli : li[i]? = some l[i] := by
    rw [List.getElem?_eq_getElem hil]
    congr 1
    exact (h6 i l[i] li[i] (List.getElem?_eq_getElem hi) (List.getElem?_eq_getElem hil)).2 (by omega)
  refine RetOr.bind_eq (rd_of_getElem? hli) ?_
  refine RetOr.bind (rec_kid hrec hs ho hd hs1 hu (mem_kids_list hl (List.getElem_mem hi))) ?_
  rintro ⟨h', e⟩ ⟨g1, g2, g3, g4, ⟨oe, g5⟩, g7, g6⟩
  dsimp only at g1 g2 g3 g4 g5 g6 g7 ⊢
  have hkid : ∀ (j : Nat) c', li[j]? = some c' → ∃ oc, h1[c']? = some oc ∧ oc.refd = true := fun j c' hc' =>
    hs1 x oi h2 c' (mem_kids_list h3 (List.mem_of_getElem? hc'))
  have hg1 : Grow h1 h' := Grow.of_same g3
  by_cases hec : l[i] = e
  · rw [if_pos hec]
    refine RetOr.ok ⟨g1, g2, Nat.le_trans hlen g7, hx, oi, li, g3 _ _ h2, h3, h4, h5, ?_⟩
    intro j c c' hc hc'
    refine ⟨fun hj d => ?_, fun hj => (h6 j c c' hc hc').2 (by omega)⟩
    by_cases hji : j = i
    · subst hji
      rw [hli] at hc'
      rw [List.getElem?_eq_getElem hi] at hc
      cases hc
      cases hc'
      have := g6 d
      rwa [← hec] at this
    · exact hg1.same ((h6 j c c' hc hc').1 (by omega) d)
  · rw [if_neg hec]
    have hfresh : h1[e]? = none := by
      rcases g4 with g4 | g4
      · exact absurd g4.symm hec
      · exact g4
    have hex : e ≠ x := by
      rintro rfl
      rw [h2] at hfresh
      cases hfresh
    have hel : e < h'.length := (List.getElem?_eq_some_iff.1 g5).1
    have hhe : h[e]? = none := getElem?_none_of_len hlen hfresh
    -- mark first, then clone and poke
    obtain ⟨_, m2, m3, m4⟩ := mark_ok g1 g5
    have hg2 : Grow h1 (h'.set e { oe with refd := true }) := hg1.trans m3
    have hxm : (h'.set e { oe with refd := true })[x]? = some oi := by
      rw [List.getElem?_set_ne hex]
      exact g3 _ _ h2
    have hum : Untouched h (h'.set e { oe with refd := true }) a := g2.step m4 (Or.inr hhe)
    have hem : (h'.set e { oe with refd := true })[e]? = some { oe with refd := true } := List.getElem?_set_self hel
    have hkl : ∀ c ∈ li.set i e, ∃ oc, (h'.set e { oe with refd := true })[c]? = some oc ∧ oc.refd = true := by
      intro c hc
      rcases List.mem_or_eq_of_mem_set hc with hc | rfl
      · exact hg2.refd (hs1 x oi h2 c (mem_kids_list h3 hc))
      · exact ⟨_, hem, rfl⟩
    have hk : ∀ c ∈ kids ({ oi with kind := .list (li.set i e), refd := false } : TObj S),
        ∃ oc, (h'.set e { oe with refd := true })[c]? = some oc ∧ oc.refd = true := by
      intro c hc
      rcases List.mem_append.1 hc with hc | hc
      · exact hkl c hc
      · obtain ⟨p, hp, rfl⟩ := List.mem_map.1 hc
        exact hg2.refd (hs1 x oi h2 _ (mem_kids_attr hp))
    obtain ⟨hm2, x2, k1, k2, k3, k4, k5, k6, k7⟩ := poke_ok m2 hxm hk
    obtain ⟨h2', q1, q2, q3, q4⟩ := clone_set hex hel k1
    refine RetOr.bind_eq q1 ?_
    have hx2 : h2'[x2]? = some { oi with refd := false } := by
      rw [q2, List.getElem?_set_ne (fun h => q3 h.symm)] at k2
      exact k2
    have hx2l := (List.getElem?_eq_some_iff.1 hx2).1
    have hpoke : tPokeList h2' x2 i e = .ok (hm2.set x2 { oi with kind := .list (li.set i e), refd := false }) := by
      unfold tPokeList
      rw [rd_of_getElem? hx2, ok_bind]
      dsimp only
      rw [h3]
      dsimp only
      rw [wr_ok hil, ok_bind, wr_ok hx2l, ok_bind]
      unfold tMark
      have he2 : (h2'.set x2 ({ oi with kind := .list (li.set i e), refd := false } : TObj S))[e]? = some oe := by
        rw [List.getElem?_set_ne q3, q4]
        exact g5
      rw [rd_of_getElem? he2, ok_bind, wr_ok (List.getElem?_eq_some_iff.1 he2).1, q2, List.set_comm _ _ q3]
    dsimp only
    refine RetOr.bind_eq hpoke ?_
    refine RetOr.ok ⟨k3, hum.step k4 hx, ?_, ?_, _, _, k6, rfl, h4, by rw [List.length_set]; exact h5, ?_⟩
    · dsimp only
      rw [List.length_set] at k7
      omega
    · rcases k5 with k5 | k5
      · rw [k5]; exact hx
      · refine Or.inr (getElem?_none_of_len ?_ k5)
        rw [List.length_set]
        omega
    · intro j c c' hc hc'
      obtain ⟨oc, hoc1, hoc2⟩ := hkl c' (List.mem_of_getElem? hc')
      have hmv : ∀ d, Same (NormRel E) d h c (h'.set e { oe with refd := true }) c' →
          Same (NormRel E) d h c (hm2.set x2 { oi with kind := .list (li.set i e), refd := false }) c' :=
        fun d hsm => k4.same m2 hoc1 (Or.inr hoc2) hsm
      by_cases hji : i = j
      · subst hji
        rw [List.getElem?_set_self hil] at hc'
        cases hc'
        rw [List.getElem?_eq_getElem hi] at hc
        cases hc
        exact ⟨fun _ d => hmv d ((g6 d).mark g1 g5), fun hj => by omega⟩
      · rw [List.getElem?_set_ne hji] at hc'
        exact ⟨fun hj d => hmv d (hg2.same ((h6 j c c' hc hc').1 (by omega) d)),
          fun hj => (h6 j c c' hc hc').2 (by omega)⟩

/-- What the data step of `obj_normalize_encoding()` does. -/
structure DPost (E : TEnc S) (h : THeap S) (a : Nat) (o : TObj S) (r : THeap S × Nat) : Prop where
  sound : Sound r.1
  untouched : Untouched h r.1 a
  len : h.length ≤ r.1.length
  addr : r.2 = a ∨ h[r.2]? = none
  data : ∃ ox, r.1[r.2]? = some ox ∧ ox.attrs = o.attrs ∧
    ∀ d, KindRel (NormRel E) (fun c c' => Same (NormRel E) d h c r.1 c') o.kind ox.kind

theorem listNormalize_ok {E : TEnc S} {P : S → Prop} {rec : THeap S → Nat → C (THeap S × Nat)} {k : Nat} (hrec : RecOK E P rec k)
    {h : THeap S} {a : Nat} {o : TObj S} {l : List Nat} (hs : Sound h) (ho : h[a]? = some o) (hl : o.kind = .list l)
    (hd : ∀ c ∈ kids o, DeepP P k h c) : RetOr (listNormalize rec h a l) (DPost E h a o) (TErr E P) := by
  refine RetOr.mono (RetOr.forN (ListInv E h a o l) ?_ (fun i s hi hI => listNormStep_ok hrec hs ho hl hd hi hI)) ?_
  · refine ⟨hs, Untouched.refl h a, Nat.le_refl _, Or.inl rfl, o, l, ho, hl, rfl, rfl, ?_⟩
    intro j c c' hc hc'
    refine ⟨fun h => by omega, fun _ => ?_⟩
    rw [hc] at hc'
    cases hc'
    rfl
  · rintro ⟨h1, x⟩ ⟨g1, g2, g3, g4, oi, li, g5, g6, g7, g8, g9⟩
    refine ⟨g1, g2, g3, g4, oi, g5, g7, fun d => ?_⟩
    rw [hl, g6]
    exact forall₂_of_get g8 (fun j c c' hc hc' => (g9 j c c' hc hc').1 (List.getElem?_eq_some_iff.1 hc).1 d)

theorem chrFindStart_ok (E : TEnc S) (l : List S) : Ret (chrFindStart E l) (fun n => n ≤ l.length ∧
    (∀ (j : Nat) s, j < n → l[j]? = some s → E.isNorm s = true) ∧
    ∀ s, l[n]? = some s → E.isNorm s = false) := by
  refine Ret.forBrk (fun i n => n = i ∧ i ≤ l.length ∧ ∀ (j : Nat) s, j < i → l[j]? = some s → E.isNorm s = true)
    _ ⟨rfl, by omega, fun j s hj => by omega⟩ ?_ ?_
  · rintro i n hi ⟨rfl, h1, h2⟩
    refine Ret.bind_eq (rd_ok hi) ?_
    by_cases hn : E.isNorm l[n] = true
    · rw [if_pos hn]
      refine Ret.ok ⟨rfl, by omega, fun j s hj hs => ?_⟩
      by_cases hjn : j = n
      · subst hjn
        rw [List.getElem?_eq_getElem hi] at hs
        cases hs
        exact hn
      · exact h2 j s (by omega) hs
    · rw [if_neg hn]
      refine Ret.ok ⟨h1, h2, fun s hs => ?_⟩
      rw [List.getElem?_eq_getElem hi] at hs
      cases hs
      simpa using hn
  · rintro n ⟨rfl, h1, h2⟩
    refine ⟨h1, h2, fun s hs => ?_⟩
    simp at hs

theorem chrNormalize_ok {E : TEnc S} {P : S → Prop} {h : THeap S} {a : Nat} {o : TObj S} {l : List S} (hs : Sound h)
    (ho : h[a]? = some o) (hl : o.kind = .chr l) (hP : ∀ s ∈ l, P s) : RetOr (chrNormalize E h a l) (DPost E h a o) (TErr E P) := by
  unfold chrNormalize
  obtain ⟨n, hn0, hn1, hn2, hn3⟩ := chrFindStart_ok E l
  refine RetOr.bind_eq hn0 ?_
  dsimp only
  by_cases hsn : l.length = n
  · rw [if_pos hsn]
    refine RetOr.ok ⟨hs, Untouched.refl h a, Nat.le_refl _, Or.inl rfl, o, ho, rfl, fun d => ?_⟩
    rw [hl]
    refine List.forall₂_same.2 (fun s hs => ?_)
    obtain ⟨j, hj, rfl⟩ := List.getElem_of_mem hs
    unfold NormRel
    rw [if_pos (hn2 j _ (by omega) (List.getElem?_eq_getElem hj))]
  · rw [if_neg hsn]
    have hkids : ∀ (l' : List S), ∀ c ∈ kids ({ o with kind := .chr l', refd := false } : TObj S),
        ∃ oc, h[c]? = some oc ∧ oc.refd = true := by
      intro l' c hc
      rcases List.mem_append.1 hc with hc | hc
      · cases hc
      · obtain ⟨p, hp, rfl⟩ := List.mem_map.1 hc
        exact hs a o ho _ (mem_kids_attr hp)
    obtain ⟨h2, x2, k1, k2, _⟩ := poke_ok hs ho (hkids l)
    refine RetOr.bind_eq k1 ?_
    have hx2l := (List.getElem?_eq_some_iff.1 k2).1
    dsimp only
    refine RetOr.bind (P := fun (hf : THeap S) => ∃ li : List S, hf = h2.set x2 { o with kind := .chr li, refd := false } ∧
        List.Forall₂ (NormRel E) l li) ?_ ?_
    · refine RetOr.mono (RetOr.forFrom (fun i hi => ∃ li : List S,
          hi = h2.set x2 { o with kind := .chr li, refd := false } ∧ li.length = l.length ∧
          ∀ (j : Nat) s s', l[j]? = some s → li[j]? = some s' → (j < i → NormRel E s s') ∧ (i ≤ j → s' = s))
        (l.length - n) n h2 ?_ ?_) ?_
      · refine ⟨l, ?_, rfl, ?_⟩
        · rw [← hl]
          obtain ⟨hh1, hh2⟩ := List.getElem?_eq_some_iff.1 k2
          rw [← hh2, List.set_getElem_self]
        · intro j s s' hjs hjs'
          rw [hjs] at hjs'
          cases hjs'
          refine ⟨fun hj => ?_, fun _ => rfl⟩
          unfold NormRel
          rw [if_pos (hn2 j _ hj hjs)]
      · rintro i hi hni hil ⟨li, rfl, q1, q2⟩
        have hil : i < l.length := by omega
        have hili : i < li.length := by omega
        have hx : (h2.set x2 ({ o with kind := .chr li, refd := false } : TObj S))[x2]? =
          some { o with kind := .chr li, refd := false } := List.getElem?_set_self hx2l
        unfold chrNormStep
        refine RetOr.bind_eq (rd_of_getElem? hx) ?_
        dsimp only
        have hlii : li[i] = l[i] :=
          (q2 i l[i] li[i] (List.getElem?_eq_getElem hil) (List.getElem?_eq_getElem hili)).2 (by omega)
        refine RetOr.bind_eq (rd_ok hili) ?_
        rw [hlii]
        by_cases hnm : E.isNorm l[i] = true
        · rw [if_pos hnm]
          refine RetOr.ok ⟨li, rfl, q1, ?_⟩
          intro j s s' hjs hjs'
          refine ⟨fun hj => ?_, fun hj => (q2 j s s' hjs hjs').2 (by omega)⟩
          by_cases hji : j = i
          · subst hji
            have := (q2 j s s' hjs hjs').2 (by omega)
            subst this
            rw [List.getElem?_eq_getElem hil] at hjs
            cases hjs
            unfold NormRel
            rw [if_pos hnm]
          · exact (q2 j s s' hjs hjs').1 (by omega)
        · rw [if_neg hnm]
          cases hno : E.norm l[i] with
          | error e => exact Or.inr ⟨e, rfl, l[i], hP _ (List.getElem_mem _), by simpa using hnm, hno⟩
          | ok t =>
            rw [ok_bind]
            unfold tPokeChr
            refine RetOr.bind_eq (rd_of_getElem? hx) ?_
            dsimp only
            refine RetOr.bind_eq (wr_ok hili) ?_
            rw [wr_ok (by rw [List.length_set]; exact hx2l), List.set_set]
            refine RetOr.ok ⟨li.set i t, rfl, by rw [List.length_set]; exact q1, ?_⟩
            intro j s s' hjs hjs'
            by_cases hji : i = j
            · subst hji
              rw [List.getElem?_set_self hili] at hjs'
              cases hjs'
              rw [List.getElem?_eq_getElem hil] at hjs
              cases hjs
              refine ⟨fun _ => ?_, fun hj => by omega⟩
              unfold NormRel
              rw [if_neg hnm]
              exact hno
            · rw [List.getElem?_set_ne hji] at hjs'
              exact ⟨fun hj => (q2 j s s' hjs hjs').1 (by omega), fun hj => (q2 j s s' hjs hjs').2 (by omega)⟩
      · rintro hf ⟨li, q1, q2, q3⟩
        refine ⟨li, q1, forall₂_of_get q2 (fun j s s' hjs hjs' => (q3 j s s' hjs hjs').1 ?_)⟩
        have := (List.getElem?_eq_some_iff.1 hjs).1
        omega
    · rintro hf ⟨li, rfl, q⟩
      obtain ⟨h2', x2', p1, p2, p3, p4, p5, p6, p7⟩ := poke_ok hs ho (hkids li)
      rw [k1] at p1
      cases p1
      refine RetOr.ok ⟨p3, p4, p7, p5, _, p6, rfl, fun d => ?_⟩
      rw [hl]
      exact q

theorem dataNormalize_ok {E : TEnc S} {P : S → Prop} {rec : THeap S → Nat → C (THeap S × Nat)} {k : Nat} (hrec : RecOK E P rec k)
    {h : THeap S} {a : Nat} {o : TObj S} (hs : Sound h) (ho : h[a]? = some o)
    (hP : ∀ l, o.kind = .chr l → ∀ s ∈ l, P s) (hd : ∀ c ∈ kids o, DeepP P k h c) :
    RetOr (dataNormalize E rec h a) (DPost E h a o) (TErr E P) := by
  unfold dataNormalize
  refine RetOr.bind_eq (rd_of_getElem? ho) ?_
  cases hk : o.kind with
  | chr l => exact chrNormalize_ok hs ho hk (hP l hk)
  | list l => exact listNormalize_ok hrec hs ho hk hd
  | other => exact RetOr.ok ⟨hs, Untouched.refl h a, Nat.le_refl _, Or.inl rfl, o, ho, rfl, fun d => by rw [hk]; trivial⟩

/-- The state of the loop over the attributes. -/
def AttrInv (E : TEnc S) (h : THeap S) (a : Nat) (o ox : TObj S) (x : Nat) (i : Nat)
    (s : THeap S × List (String × Nat) × Bool) : Prop :=
  Sound s.1 ∧ Untouched h s.1 a ∧ h.length ≤ s.1.length ∧ s.1[x]? = some ox ∧
  (∀ d, KindRel (NormRel E) (fun c c' => Same (NormRel E) d h c s.1 c') o.kind ox.kind) ∧
  (s.2.2 = false → s.2.1 = o.attrs) ∧
  s.2.1.length = o.attrs.length ∧ (∀ p ∈ s.2.1, ∃ oc, s.1[p.2]? = some oc ∧ oc.refd = true) ∧
  ∀ (j : Nat) p p', o.attrs[j]? = some p → s.2.1[j]? = some p' → p.1 = p'.1 ∧
    (j < i → ∀ d, Same (NormRel E) d h p.2 s.1 p'.2) ∧ (i ≤ j → p' = p)

theorem attribNormStep_ok {E : TEnc S} {P : S → Prop} {rec : THeap S → Nat → C (THeap S × Nat)} {k : Nat} (hrec : RecOK E P rec k)
    {h : THeap S} {a : Nat} {o ox : TObj S} {x : Nat} (hs : Sound h) (ho : h[a]? = some o)
    (hd : ∀ c ∈ kids o, DeepP P k h c) {i : Nat} (hi : i < o.attrs.length) {s : THeap S × List (String × Nat) × Bool}
    (hinv : AttrInv E h a o ox x i s) : RetOr (attribNormStep rec i s) (AttrInv E h a o ox x (i + 1)) (TErr E P) := by
  obtain ⟨h1, at1, ow⟩ := s
  obtain ⟨hs1, hu, hlen, hx, hkr, how, hal, hrefd, hrel⟩ := hinv
  dsimp only at hs1 hu hlen hx hkr how hal hrefd hrel
  unfold attribNormStep
  dsimp only
  have hia : i < at1.length := by omega
  have hai : at1[i] = o.attrs[i] :=
    (hrel i _ _ (List.getElem?_eq_getElem hi) (List.getElem?_eq_getElem hia)).2.2 (by omega)
  refine RetOr.bind_eq (rd_ok hia) ?_
  rw [hai]
  refine RetOr.bind (rec_kid hrec hs ho hd hs1 hu (mem_kids_attr (List.getElem_mem hi))) ?_
  rintro ⟨h', e⟩ ⟨g1, g2, g3, g4, ⟨oe, g5⟩, g7, g6⟩
  dsimp only at g1 g2 g3 g4 g5 g6 g7 ⊢
  have hg1 : Grow h1 h' := Grow.of_same g3
  by_cases hec : o.attrs[i].2 = e
  · rw [if_pos hec]
    refine RetOr.ok ⟨g1, g2, Nat.le_trans hlen g7, g3 _ _ hx, ?_, how, hal, fun p hp => hg1.refd (hrefd p hp), ?_⟩
    · intro d
      exact (hkr d).imp (fun _ _ h => h) (fun _ _ _ _ _ _ _ _ hsm => hg1.same hsm)
    · intro j p p' hp hp'
      refine ⟨(hrel j p p' hp hp').1, fun hj d => ?_, fun hj => (hrel j p p' hp hp').2.2 (by omega)⟩
      by_cases hji : j = i
      · subst hji
        have := (hrel j p p' hp hp').2.2 (by omega)
        subst this
        rw [List.getElem?_eq_getElem hi] at hp
        cases hp
        have := g6 d
        rwa [← hec] at this
      · exact hg1.same ((hrel j p p' hp hp').2.1 (by omega) d)
  · rw [if_neg hec]
    have hfresh : h1[e]? = none := by
      rcases g4 with g4 | g4
      · exact absurd g4.symm hec
      · exact g4
    have hel : e < h'.length := (List.getElem?_eq_some_iff.1 g5).1
    have hhe : h[e]? = none := getElem?_none_of_len hlen hfresh
    have hex : e ≠ x := by
      rintro rfl
      rw [hx] at hfresh
      cases hfresh
    obtain ⟨m1, m2, m3, m4⟩ := mark_ok g1 g5
    have hg2 := hg1.trans m3
    refine RetOr.bind_eq (wr_ok hia) ?_
    refine RetOr.bind_eq m1 ?_
    refine RetOr.ok ⟨m2, g2.step m4 (Or.inr hhe), ?_, ?_, ?_, (fun h => by cases h), ?_, ?_, ?_⟩
    · dsimp only
      rw [List.length_set]
      omega
    · dsimp only
      rw [List.getElem?_set_ne hex]
      exact g3 _ _ hx
    · intro d
      exact (hkr d).imp (fun _ _ h => h) (fun _ _ _ _ _ _ _ _ hsm => hg2.same hsm)
    · dsimp only
      rw [List.length_set]
      exact hal
    · intro p hp
      rcases List.mem_or_eq_of_mem_set hp with hp | rfl
      · exact hg2.refd (hrefd p hp)
      · exact ⟨_, List.getElem?_set_self hel, rfl⟩
    · intro j p p' hp hp'
      dsimp only at hp'
      by_cases hji : i = j
      · subst hji
        rw [List.getElem?_set_self hia] at hp'
        cases hp'
        rw [List.getElem?_eq_getElem hi] at hp
        cases hp
        exact ⟨rfl, fun _ d => (g6 d).mark g1 g5, fun hj => by omega⟩
      · rw [List.getElem?_set_ne hji] at hp'
        exact ⟨(hrel j p p' hp hp').1, fun hj d => hg2.same ((hrel j p p' hp hp').2.1 (by omega) d),
          fun hj => (hrel j p p' hp hp').2.2 (by omega)⟩

theorem same_of_parts {E : TEnc S} {h h' : THeap S} {a x : Nat} {o ox : TObj S} (ho : h[a]? = some o)
    (hx : h'[x]? = some ox) (hk : ∀ d, KindRel (NormRel E) (fun c c' => Same (NormRel E) d h c h' c') o.kind ox.kind)
    (ha : ∀ d, AttrRel (fun c c' => Same (NormRel E) d h c h' c') o.attrs ox.attrs) (d : Nat) :
    Same (NormRel E) d h a h' x := by
  cases d with
  | zero => trivial
  | succ d => exact ⟨o, ox, ho, hx, hk d, ha d⟩

theorem objNormalize_ok (E : TEnc S) (P : S → Prop) : ∀ (fuel : Nat), RecOK E P (objNormalize E fuel) fuel := by
  intro fuel
  induction fuel with
  | zero => intro h a _ hd; exact hd.elim
  | succ fuel ih =>
    rintro h a hs ⟨o, ho, hP, hd⟩
    unfold objNormalize
    refine RetOr.bind (dataNormalize_ok ih hs ho hP hd) ?_
    rintro ⟨h1, x⟩ ⟨g1, g2, g3, g4, ox, g5, g6, g7⟩
    dsimp only at g1 g2 g3 g4 g5 g7 ⊢
    refine RetOr.bind_eq (rd_of_getElem? g5) ?_
    by_cases hat : ox.attrs = []
    · rw [if_pos hat]
      refine RetOr.ok ⟨g1, g2, g3, g4, same_of_parts ho g5 g7 (fun d => ?_)⟩
      rw [← g6, hat]
      exact .nil
    · rw [if_neg hat]
      unfold objAttribNormalize
      rw [g6]
      refine RetOr.bind (RetOr.forN (AttrInv E h a o ox x) ?_ (fun i s hi hI => attribNormStep_ok ih hs ho hd hi hI)) ?_
      · refine ⟨g1, g2, g3, g5, g7, fun _ => rfl, rfl, ?_, ?_⟩
        · intro p hp
          dsimp only at hp
          exact g1 x ox g5 _ (mem_kids_attr (g6 ▸ hp))
        · intro j p p' hp hp'
          dsimp only at hp'
          rw [hp] at hp'
          cases hp'
          exact ⟨rfl, fun h => by omega, fun _ => rfl⟩
      · rintro ⟨h2, at2, ow⟩ ⟨q1, q2, q3, q4, q5, q6, q7, q8, q9⟩
        dsimp only at q1 q2 q3 q4 q5 q6 q7 q8 q9 ⊢
        have hall : ∀ d, AttrRel (fun c c' => Same (NormRel E) d h c h2 c') o.attrs at2 := fun d =>
          forall₂_of_get q7 (fun j p p' hp hp' =>
            ⟨(q9 j p p' hp hp').1, (q9 j p p' hp hp').2.1 (List.getElem?_eq_some_iff.1 hp).1 d⟩)
        cases ow with
        | false =>
          refine RetOr.ok ⟨q1, q2, q3, g4, same_of_parts ho q4 q5 (fun d => ?_)⟩
          have := hall d
          rw [q6 rfl] at this
          rw [g6]
          exact this
        | true =>
          have hk : ∀ c ∈ kids ({ ox with attrs := at2, refd := false } : TObj S),
              ∃ oc, h2[c]? = some oc ∧ oc.refd = true := by
            intro c hc
            rcases List.mem_append.1 hc with hc | hc
            · exact q1 x ox q4 c (List.mem_append_left _ hc)
            · obtain ⟨p, hp, rfl⟩ := List.mem_map.1 hc
              exact q8 p hp
          obtain ⟨h3, x2, p1, p2, p3, p4, p5, p6, p7⟩ := poke_ok q1 q4 hk
          refine RetOr.bind_eq p1 ?_
          dsimp only
          unfold tPokeAttrib
          rw [rd_of_getElem? p2, ok_bind, wr_ok (List.getElem?_eq_some_iff.1 p2).1, ok_bind]
          refine RetOr.ok ⟨p3, q2.step p4 g4, Nat.le_trans q3 p7, ?_, same_of_parts ho p6 (fun d => ?_) (fun d => ?_)⟩
          · rcases p5 with p5 | p5
            · rw [p5]; exact g4
            · exact Or.inr (getElem?_none_of_len q3 p5)
          · refine (q5 d).imp (fun _ _ h => h) ?_
            intro l l' _ hl' c c' _ hc' hsm
            obtain ⟨oc, r1, r2⟩ := q1 x ox q4 c' (mem_kids_list (o := ox) hl' hc')
            exact p4.same q1 r1 (Or.inr r2) hsm
          · refine (hall d).imp ?_
            intro p p' _ hp' hsm
            obtain ⟨oc, r1, r2⟩ := q8 p' hp'
            exact p4.same q1 r1 (Or.inr r2) hsm

/-! Objects whose strings are all normalised. -/

theorem chrFindStart_all {E : TEnc S} {l : List S} (h : ∀ s ∈ l, E.isNorm s = true) : chrFindStart E l = .ok l.length := by
  obtain ⟨n, h0, h1, _, h3⟩ := chrFindStart_ok E l
  rw [h0]
  by_cases hn : n < l.length
  · have := h3 l[n] (List.getElem?_eq_getElem hn)
    rw [h _ (List.getElem_mem hn)] at this
    cases this
  · congr 1
    omega

theorem objNormalize_id {E : TEnc S} : ∀ {fuel : Nat} {h : THeap S} {a : Nat},
    DeepP (fun s => E.isNorm s = true) fuel h a → objNormalize E fuel h a = .ok (h, a) := by
  intro fuel
  induction fuel with
  | zero => intro h a hd; exact hd.elim
  | succ fuel ih =>
    rintro h a ⟨o, ho, hP, hk⟩
    have hdata : dataNormalize E (objNormalize E fuel) h a = .ok (h, a) := by
      unfold dataNormalize
      rw [rd_of_getElem? ho, ok_bind]
      cases hok : o.kind with
      | chr l =>
        dsimp only
        unfold chrNormalize
        rw [chrFindStart_all (hP l hok), ok_bind]
        exact if_pos rfl
      | list l =>
        obtain ⟨s, h1, h2⟩ := Ret.forN (f := listNormStep (objNormalize E fuel)) (n := l.length) (s := (h, a))
          (fun _ s => s = (h, a)) rfl (by
            rintro i s hi rfl
            refine Ret.of_eq ?_ rfl
            unfold listNormStep
            dsimp only
            rw [rd_of_getElem? ho, ok_bind, hok]
            dsimp only
            rw [rd_ok hi, ok_bind, ih (hk _ (mem_kids_list hok (List.getElem_mem hi))), ok_bind]
            exact if_pos rfl)
        dsimp only
        unfold listNormalize
        rw [h1, h2]
      | other => rfl
    unfold objNormalize
    rw [hdata, ok_bind]
    dsimp only
    rw [rd_of_getElem? ho, ok_bind]
    by_cases hat : o.attrs = []
    · exact if_pos hat
    · rw [if_neg hat]
      unfold objAttribNormalize attribNormalize
      obtain ⟨s, h1, h2⟩ := Ret.forN (f := attribNormStep (objNormalize E fuel)) (n := o.attrs.length)
        (s := (h, o.attrs, false)) (fun _ s => s = (h, o.attrs, false)) rfl (by
          rintro i s hi rfl
          refine Ret.of_eq ?_ rfl
          unfold attribNormStep
          dsimp only
          rw [rd_ok hi, ok_bind, ih (hk _ (mem_kids_attr (List.getElem_mem hi))), ok_bind]
          exact if_pos rfl)
      rw [h1, h2, ok_bind]
      rfl

/-- What is related to an object by normalisation nests like it, with normalised strings. -/
theorem DeepP.of_same {E : TEnc S} (hE : ∀ s t, E.norm s = .ok t → E.isNorm t = true) {h h' : THeap S} :
    ∀ {d a a' : Nat}, Deep d h a → Same (NormRel E) d h a h' a' → DeepP (fun s => E.isNorm s = true) d h' a' := by
  intro d
  induction d with
  | zero => intro a a' h _; exact h
  | succ d ih =>
    rintro a a' ⟨o, ho, hk⟩ ⟨o1, o', h1, h2, h3, h4⟩
    rw [ho] at h1
    cases h1
    refine ⟨o', h2, ?_, ?_⟩
    · intro l' hl' s hs
      rw [hl'] at h3
      generalize o.kind = k at h3
      cases k with
      | chr l =>
        obtain ⟨s0, _, hr⟩ := forall₂_mem_right h3 hs
        unfold NormRel at hr
        by_cases hn : E.isNorm s0 = true
        · rw [if_pos hn] at hr
          rw [hr]
          exact hn
        · rw [if_neg hn] at hr
          exact hE _ _ hr
      | list l => exact h3.elim
      | other => exact h3.elim
    · intro c hc
      rcases List.mem_append.1 hc with hc | hc
      · generalize hk' : o'.kind = k' at h3 hc
        cases k' with
        | list l' =>
          generalize hk0 : o.kind = k0 at h3
          cases k0 with
          | list l =>
            obtain ⟨c0, hc0, hr⟩ := forall₂_mem_right h3 hc
            exact ih (hk c0 (mem_kids_list hk0 hc0)) hr
          | chr l => exact h3.elim
          | other => exact h3.elim
        | chr l => cases hc
        | other => cases hc
      · obtain ⟨p, hp, rfl⟩ := List.mem_map.1 hc
        obtain ⟨p0, hp0, hr⟩ := forall₂_mem_right h4 hp
        exact ih (hk _ (mem_kids_attr hp0)) hr.2

end Vctrs
