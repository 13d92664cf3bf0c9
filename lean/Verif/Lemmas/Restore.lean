import Verif.Model.Restore
import Verif.Lemmas.Base

/-! # Lists of attributes on a heap -/

namespace Vctrs

/-- An entry of a list of attributes with its address. -/
abbrev AEnt := Nat × AttrTag × AttrVal

/-- The list of attributes at a pointer. -/
def PChain (nodes : List PNode) : Option Nat → List AEnt → Prop
  | p, [] => p = none
  | p, e :: rest => p = some e.1 ∧ ∃ c, nodes[e.1]? = some ⟨e.2.1, e.2.2, c⟩ ∧ PChain nodes c rest

/-- The value of a tag. -/
def lk (l : List AEnt) (tag : AttrTag) : Option AttrVal := (l.map (·.2)).lookup tag

theorem lk_nil (tag : AttrTag) : lk [] tag = none := rfl

theorem lk_cons (e : AEnt) (l : List AEnt) (tag : AttrTag) :
    lk (e :: l) tag = if e.2.1 = tag then some e.2.2 else lk l tag := by
  unfold lk
  rw [List.map_cons, List.lookup_cons]
  by_cases h : e.2.1 = tag
  · simp [h]
  · rw [if_neg h]
    have : (tag == e.2.1) = false := by simpa using fun h' => h h'.symm
    rw [this]

theorem pchain_det {nodes : List PNode} : ∀ {l l' : List AEnt} {p : Option Nat}, PChain nodes p l →
    PChain nodes p l' → l = l' := by
  intro l
  induction l with
  | nil =>
    intro l' p h h'
    cases l' with
    | nil => rfl
    | cons e l' =>
      obtain ⟨h', _⟩ := h'
      have h : p = none := h
      rw [h] at h'
      cases h'
  | cons e l ih =>
    intro l' p h h'
    cases l' with
    | nil =>
      obtain ⟨h, _⟩ := h
      have h' : p = none := h'
      rw [h'] at h
      cases h
    | cons e' l' =>
      rw [PChain] at h h'
      obtain ⟨h1, c, h2, h3⟩ := h
      obtain ⟨g1, c', g2, g3⟩ := h'
      have he : e.1 = e'.1 := by rw [h1] at g1; exact Option.some.inj g1
      rw [he, g2] at h2
      injection h2 with h2
      injection h2 with i1 i2 i3
      subst i3
      rw [ih h3 g3]
      congr 1
      obtain ⟨a, t, v⟩ := e
      obtain ⟨a', t', v'⟩ := e'
      simp only at he i1 i2
      rw [he, i1, i2]

theorem pchain_tail {nodes : List PNode} : ∀ {k r : List AEnt} {p : Option Nat}, PChain nodes p (k ++ r) →
    ∃ m, PChain nodes m r := by
  intro k
  induction k with
  | nil => intro r p h; exact ⟨p, h⟩
  | cons e k ih =>
    intro r p h
    rw [List.cons_append, PChain] at h
    obtain ⟨_, c, _, h⟩ := h
    exact ih h

/-- A list of attributes has no node twice. -/
theorem pchain_nodup {nodes : List PNode} : ∀ {l : List AEnt} {p : Option Nat}, PChain nodes p l →
    (l.map (·.1)).Nodup := by
  intro l
  induction l with
  | nil => intro p _; exact List.nodup_nil
  | cons e l ih =>
    intro p h
    have h0 := h
    rw [PChain] at h
    obtain ⟨h1, c, h2, h3⟩ := h
    rw [List.map_cons, List.nodup_cons]
    refine ⟨fun hm => ?_, ih h3⟩
    obtain ⟨e', he', hee⟩ := List.mem_map.1 hm
    obtain ⟨k, r, rfl⟩ := List.append_of_mem he'
    obtain ⟨m, hr⟩ := pchain_tail h3
    have hm' : m = p := by
      rw [PChain] at hr
      rw [hr.1, h1, hee]
    subst hm'
    have := congrArg List.length (pchain_det hr h0)
    simp only [List.length_cons, List.length_append] at this
    omega

theorem pchain_lt {nodes : List PNode} : ∀ {l : List AEnt} {p : Option Nat}, PChain nodes p l →
    ∀ e ∈ l, e.1 < nodes.length := by
  intro l
  induction l with
  | nil => intro p _ e he; cases he
  | cons e l ih =>
    intro p h e' he'
    rw [PChain] at h
    obtain ⟨h1, c, h2, h3⟩ := h
    rcases List.mem_cons.1 he' with rfl | he'
    · exact (List.getElem?_eq_some_iff.1 h2).1
    · exact ih h3 e' he'

theorem nodup_bounded : ∀ (n : Nat) (l : List Nat), l.Nodup → (∀ a ∈ l, a < n) → l.length ≤ n := by
  intro n
  induction n with
  | zero =>
    intro l _ h
    cases l with
    | nil => simp
    | cons a l => exact absurd (h a (by simp)) (by omega)
  | succ n ih =>
    intro l hn h
    have h1 := ih (l.filter (fun a => decide (a ≠ n))) (hn.filter _) (fun a ha => by
      obtain ⟨ha, hne⟩ := List.mem_filter.1 ha
      have := h a ha
      simp at hne
      omega)
    have h2 : l.length ≤ (l.filter (fun a => decide (a ≠ n))).length + 1 := by
      clear ih h h1
      induction l with
      | nil => simp
      | cons a l ih =>
        rw [List.nodup_cons] at hn
        by_cases ha : a = n
        · subst ha
          have : l.filter (fun b => decide (b ≠ a)) = l := by
            rw [List.filter_eq_self]
            intro b hb
            simp only [ne_eq, decide_eq_true_eq]
            rintro rfl
            exact hn.1 hb
          rw [List.filter_cons_of_neg (by simp), this, List.length_cons]
          exact Nat.le_refl _
        · rw [List.filter_cons_of_pos (by simpa using ha)]
          have := ih hn.2
          simp only [List.length_cons]
          omega
    omega

theorem pchain_length {nodes : List PNode} {l : List AEnt} {p : Option Nat} (h : PChain nodes p l) :
    l.length ≤ nodes.length := by
  have := nodup_bounded nodes.length (l.map (·.1)) (pchain_nodup h) (by
    intro a ha
    obtain ⟨e, he, rfl⟩ := List.mem_map.1 ha
    exact pchain_lt h e he)
  simpa using this

/-- A list of attributes only depends on its nodes. -/
theorem pchain_frame {nodes nodes' : List PNode} : ∀ {l : List AEnt} {p : Option Nat}, PChain nodes p l →
    (∀ e ∈ l, nodes'[e.1]? = nodes[e.1]?) → PChain nodes' p l := by
  intro l
  induction l with
  | nil => intro p h _; exact h
  | cons e l ih =>
    intro p h hf
    rw [PChain] at h ⊢
    obtain ⟨h1, c, h2, h3⟩ := h
    exact ⟨h1, c, by rw [hf e (by simp)]; exact h2, ih h3 fun e' he' => hf e' (by simp [he'])⟩

theorem readAttribs_ok {nodes : List PNode} : ∀ {l : List AEnt} {p : Option Nat} {fuel : Nat},
    PChain nodes p l → l.length ≤ fuel → readAttribs fuel nodes p = .ok (l.map (·.2)) := by
  intro l
  induction l with
  | nil =>
    intro p fuel h _
    rw [PChain] at h
    subst h
    cases fuel <;> rfl
  | cons e l ih =>
    intro p fuel h hf
    rw [PChain] at h
    obtain ⟨rfl, c, h2, h3⟩ := h
    cases fuel with
    | zero => simp at hf
    | succ fuel =>
      simp only [readAttribs]
      rw [rd_of_getElem? h2, ok_bind]
      dsimp only
      rw [ih h3 (by simpa using hf), ok_bind]
      rfl

theorem allocAttribs_ok (nodes : List PNode) : ∀ (l : List (AttrTag × AttrVal)),
    nodes <+: (allocAttribs nodes l).1 ∧
    ∃ es : List AEnt, PChain (allocAttribs nodes l).1 (allocAttribs nodes l).2 es ∧ es.map (·.2) = l ∧
      ∀ e ∈ es, nodes.length ≤ e.1 := by
  intro l
  induction l with
  | nil => exact ⟨List.prefix_refl _, [], rfl, rfl, by simp⟩
  | cons x l ih =>
    obtain ⟨t, v⟩ := x
    obtain ⟨h1, es, h2, h3, h4⟩ := ih
    simp only [allocAttribs]
    refine ⟨h1.trans (List.prefix_append _ _), ((allocAttribs nodes l).1.length, t, v) :: es, ?_, ?_, ?_⟩
    · rw [PChain]
      refine ⟨rfl, (allocAttribs nodes l).2, by simp, ?_⟩
      refine pchain_frame h2 fun e he => ?_
      rw [List.getElem?_append_left (pchain_lt h2 e he)]
    · rw [List.map_cons, h3]
    · intro e he
      rcases List.mem_cons.1 he with rfl | he
      · exact h1.length_le
      · exact h4 e he

theorem cloneAttribs_ok {nodes : List PNode} {l : List AEnt} {p : Option Nat} (h : PChain nodes p l) :
    Ret (cloneAttribs nodes p) (fun r => nodes <+: r.1 ∧ ∃ es : List AEnt, PChain r.1 r.2 es ∧
      es.map (·.2) = l.map (·.2) ∧ ∀ e ∈ es, nodes.length ≤ e.1) := by
  unfold cloneAttribs
  exact Ret.bind_eq (readAttribs_ok h (pchain_length h)) (Ret.ok (allocAttribs_ok nodes _))

theorem pairlistGet_ok {nodes : List PNode} (tag : AttrTag) : ∀ {l : List AEnt} {p : Option Nat} {fuel : Nat},
    PChain nodes p l → l.length ≤ fuel → pairlistGet fuel nodes p tag = .ok (lk l tag) := by
  intro l
  induction l with
  | nil =>
    intro p fuel h _
    rw [PChain] at h
    subst h
    cases fuel <;> rfl
  | cons e l ih =>
    intro p fuel h hf
    rw [PChain] at h
    obtain ⟨rfl, c, h2, h3⟩ := h
    cases fuel with
    | zero => simp at hf
    | succ fuel =>
      simp only [pairlistGet]
      rw [rd_of_getElem? h2, ok_bind, lk_cons]
      dsimp only
      by_cases ht : e.2.1 = tag
      · rw [if_pos ht, if_pos ht]
      · rw [if_neg ht, if_neg ht]
        exact ih h3 (by simpa using hf)

/-- Setting a value; a new entry gets the address `n`. -/
def setEnt (n : Nat) (tag : AttrTag) (v : AttrVal) : List AEnt → List AEnt
  | [] => [(n, tag, v)]
  | e :: r => if e.2.1 = tag then (e.1, tag, v) :: r else e :: setEnt n tag v r

theorem setEnt_lk (n : Nat) (tag : AttrTag) (v : AttrVal) (t : AttrTag) : ∀ l : List AEnt,
    lk (setEnt n tag v l) t = if t = tag then some v else lk l t := by
  intro l
  induction l with
  | nil =>
    rw [setEnt, lk_cons]
    by_cases h : t = tag
    · subst h; simp
    · rw [if_neg h, if_neg (fun h' => h h'.symm)]
  | cons e l ih =>
    rw [setEnt]
    by_cases he : e.2.1 = tag
    · rw [if_pos he, lk_cons, lk_cons]
      by_cases h : t = tag
      · subst h; simp
      · rw [if_neg h, if_neg (fun h' => h h'.symm), if_neg (fun h' => h (h'.symm.trans he))]
    · rw [if_neg he, lk_cons, lk_cons, ih]
      by_cases h : t = tag
      · subst h; simp [he]
      · rw [if_neg h, if_neg h]

theorem setEnt_addr (n : Nat) (tag : AttrTag) (v : AttrVal) : ∀ (l : List AEnt), ∀ e ∈ setEnt n tag v l,
    e.1 = n ∨ ∃ e' ∈ l, e'.1 = e.1 := by
  intro l
  induction l with
  | nil => intro e he; simp [setEnt] at he; subst he; exact .inl rfl
  | cons x l ih =>
    intro e he
    rw [setEnt] at he
    by_cases hx : x.2.1 = tag
    · rw [if_pos hx] at he
      rcases List.mem_cons.1 he with rfl | he
      · exact .inr ⟨x, by simp, rfl⟩
      · exact .inr ⟨e, by simp [he], rfl⟩
    · rw [if_neg hx] at he
      rcases List.mem_cons.1 he with rfl | he
      · exact .inr ⟨_, by simp, rfl⟩
      · rcases ih e he with h | ⟨e', h1, h2⟩
        · exact .inl h
        · exact .inr ⟨e', by simp [h1], h2⟩

theorem pairlistSet_ok (tag : AttrTag) (v : AttrVal) : ∀ {l : List AEnt} {nodes : List PNode} {a : Nat} {fuel : Nat},
    PChain nodes (some a) l → l.length ≤ fuel → Ret (pairlistSet fuel nodes a tag v) (fun nodes' =>
      PChain nodes' (some a) (setEnt nodes.length tag v l) ∧ nodes.length ≤ nodes'.length ∧
      ∀ i, i < nodes.length → (∀ e ∈ l, e.1 ≠ i) → nodes'[i]? = nodes[i]?) := by
  intro l
  induction l with
  | nil => intro nodes a fuel h _; cases h
  | cons e l ih =>
    intro nodes a fuel h hf
    have hnd := pchain_nodup h
    rw [List.map_cons, List.nodup_cons] at hnd
    rw [PChain] at h
    obtain ⟨ha, c, h2, h3⟩ := h
    injection ha with ha
    subst ha
    have hl := (List.getElem?_eq_some_iff.1 h2).1
    have hne : ∀ e' ∈ l, e'.1 ≠ e.1 := fun e' he' hc => hnd.1 (List.mem_map.2 ⟨e', he', hc⟩)
    cases fuel with
    | zero => simp at hf
    | succ fuel =>
      simp only [pairlistSet]
      refine Ret.bind_eq (rd_of_getElem? h2) ?_
      dsimp only
      rw [setEnt]
      by_cases ht : e.2.1 = tag
      · rw [if_pos ht, if_pos ht]
        refine Ret.of_eq (wr_ok hl) ⟨?_, by simp, ?_⟩
        · rw [PChain]
          refine ⟨rfl, c, by rw [List.getElem?_set_self hl]; simp [ht], ?_⟩
          refine pchain_frame h3 fun e' he' => ?_
          rw [List.getElem?_set_ne (Ne.symm (hne e' he'))]
        · intro i _ hi
          rw [List.getElem?_set_ne (hi e (by simp))]
      · rw [if_neg ht, if_neg ht]
        cases c with
        | none =>
          cases l with
          | cons e' l => cases h3.1
          | nil =>
            have hl' : e.1 < (nodes ++ [(⟨tag, v, none⟩ : PNode)]).length := by simp; omega
            refine Ret.of_eq (wr_ok hl') ⟨?_, by simp, ?_⟩
            · rw [PChain]
              refine ⟨rfl, some nodes.length, List.getElem?_set_self hl', ?_⟩
              rw [setEnt, PChain]
              refine ⟨rfl, none, ?_, rfl⟩
              rw [List.getElem?_set_ne (by dsimp only; omega)]
              simp
            · intro i hi he
              rw [List.getElem?_set_ne (he e (by simp)), List.getElem?_append_left hi]
        | some q =>
          refine (ih h3 (by simpa using hf)).mono ?_
          rintro nodes' ⟨g1, g2, g3⟩
          refine ⟨?_, g2, fun i hi he => g3 i hi fun e' he' => he e' (by simp [he'])⟩
          rw [PChain]
          exact ⟨rfl, some q, by rw [g3 e.1 hl hne]; exact h2, g1⟩

/-- Removing a tag. -/
def dropTag (tag : AttrTag) (l : List AEnt) : List AEnt := l.filter (fun e => decide (e.2.1 ≠ tag))

theorem dropTag_lk (tag t : AttrTag) : ∀ l : List AEnt,
    lk (dropTag tag l) t = if t = tag then none else lk l t := by
  intro l
  induction l with
  | nil => simp [dropTag, lk_nil]
  | cons e l ih =>
    unfold dropTag at ih ⊢
    by_cases he : e.2.1 = tag
    · rw [List.filter_cons_of_neg (by simpa using he), ih, lk_cons]
      by_cases h : t = tag
      · simp [h]
      · rw [if_neg h, if_neg h, if_neg (fun h' => h (h'.symm.trans he))]
    · rw [List.filter_cons_of_pos (by simpa using he), lk_cons, lk_cons, ih]
      by_cases h : t = tag
      · subst h; simp [he]
      · rw [if_neg h, if_neg h]

theorem attribRemove_ok (tag : AttrTag) : ∀ {l : List AEnt} {nodes : List PNode} {p : Option Nat} {fuel : Nat},
    PChain nodes p l → l.length ≤ fuel → Ret (attribRemove fuel nodes p tag) (fun r =>
      PChain r.1 r.2 (dropTag tag l) ∧ r.1.length = nodes.length ∧
      ∀ i, (∀ e ∈ l, e.1 ≠ i) → r.1[i]? = nodes[i]?) := by
  intro l
  induction l with
  | nil =>
    intro nodes p fuel h _
    rw [PChain] at h
    subst h
    cases fuel <;> exact Ret.ok ⟨rfl, rfl, fun _ _ => rfl⟩
  | cons e l ih =>
    intro nodes p fuel h hf
    have hnd := pchain_nodup h
    rw [List.map_cons, List.nodup_cons] at hnd
    rw [PChain] at h
    obtain ⟨rfl, c, h2, h3⟩ := h
    have hl := (List.getElem?_eq_some_iff.1 h2).1
    have hne : ∀ e' ∈ l, e'.1 ≠ e.1 := fun e' he' hc => hnd.1 (List.mem_map.2 ⟨e', he', hc⟩)
    cases fuel with
    | zero => simp at hf
    | succ fuel =>
      simp only [attribRemove]
      refine Ret.bind_eq (rd_of_getElem? h2) ?_
      dsimp only
      have hr := ih h3 (fuel := fuel) (by simpa using hf)
      by_cases ht : e.2.1 = tag
      · rw [if_pos ht]
        have hd : dropTag tag (e :: l) = dropTag tag l := by
          unfold dropTag; rw [List.filter_cons_of_neg (by simpa using ht)]
        rw [hd]
        exact hr.mono fun r ⟨g1, g2, g3⟩ => ⟨g1, g2, fun i hi => g3 i fun e' he' => hi e' (by simp [he'])⟩
      · rw [if_neg ht]
        have hd : dropTag tag (e :: l) = e :: dropTag tag l := by
          unfold dropTag; rw [List.filter_cons_of_pos (by simpa using ht)]
        rw [hd]
        refine Ret.bind hr fun r ⟨g1, g2, g3⟩ => ?_
        have hl' : e.1 < r.1.length := by rw [g2]; exact hl
        refine Ret.bind_eq (wr_ok hl') (Ret.ok ⟨?_, by simpa using g2, ?_⟩)
        · rw [PChain]
          refine ⟨rfl, r.2, List.getElem?_set_self hl', ?_⟩
          refine pchain_frame g1 fun e' he' => ?_
          rw [List.getElem?_set_ne]
          exact Ne.symm (hne e' (List.mem_filter.1 he').1)
        · intro i hi
          dsimp only
          rw [List.getElem?_set_ne (hi e (by simp))]
          exact g3 i fun e' he' => hi e' (by simp [he'])

/-- Replacing the end of a list of attributes after an entry. -/
theorem pchain_change {nodes nodes' : List PNode} {e : AEnt} {r r' : List AEnt} : ∀ {k : List AEnt} {p : Option Nat},
    PChain nodes p (k ++ e :: r) → (∀ x ∈ k, nodes'[x.1]? = nodes[x.1]?) →
    PChain nodes' (some e.1) (e :: r') → PChain nodes' p (k ++ e :: r') := by
  intro k
  induction k with
  | nil =>
    intro p h _ h'
    rw [List.nil_append, PChain] at h
    rw [h.1]
    exact h'
  | cons x k ih =>
    intro p h hf h'
    rw [List.cons_append, PChain] at h ⊢
    obtain ⟨h1, c, h2, h3⟩ := h
    exact ⟨h1, c, by rw [hf x (by simp)]; exact h2, ih h3 (fun y hy => hf y (by simp [hy])) h'⟩

/-- Entries that are kept. -/
def keepOther (l : List AEnt) : List AEnt := l.filter (fun e => !isSpecialTag e.2.1)

/-- The last class. -/
def lastClass (l : List AEnt) (cls : Option AttrVal) : Option AttrVal :=
  l.foldl (fun c e => if e.2.1 = .class_ then some e.2.2 else c) cls

theorem dropSpecial_ok : ∀ {rest kept : List AEnt} {nodes : List PNode} {attrib : Option Nat} {fuel : Nat}
    {cls : Option AttrVal}, PChain nodes attrib (kept ++ rest) → rest.length ≤ fuel →
    Ret (dropSpecial fuel nodes attrib (kept.getLast?.map (·.1)) (rest.head?.map (·.1)) cls) (fun r =>
      PChain r.1 r.2.1 (kept ++ keepOther rest) ∧ r.2.2 = lastClass rest cls ∧ r.1.length = nodes.length ∧
      ∀ i, (∀ e ∈ kept ++ rest, e.1 ≠ i) → r.1[i]? = nodes[i]?) := by
  intro rest
  induction rest with
  | nil =>
    intro kept nodes attrib fuel cls h _
    cases fuel <;> exact Ret.ok ⟨by simpa [keepOther] using h, rfl, rfl, fun _ _ => rfl⟩
  | cons e rest ih =>
    intro kept nodes attrib fuel cls h hf
    have hnd := pchain_nodup h
    cases fuel with
    | zero => simp at hf
    | succ fuel =>
      obtain ⟨m, hm⟩ := pchain_tail h
      rw [PChain] at hm
      obtain ⟨_, c, h2, h3⟩ := hm
      have hc : c = rest.head?.map (·.1) := by
        cases rest with
        | nil => exact h3
        | cons e' rest => exact h3.1
      simp only [List.head?_cons, Option.map_some, dropSpecial]
      refine Ret.bind_eq (rd_of_getElem? h2) ?_
      dsimp only
      by_cases hs : isSpecialTag e.2.1 = true
      · rw [if_pos hs]
        have hk : keepOther (e :: rest) = keepOther rest := by
          unfold keepOther; rw [List.filter_cons_of_neg (by simp [hs])]
        have hcl : lastClass (e :: rest) cls =
            lastClass rest (if e.2.1 = .class_ then some e.2.2 else cls) := rfl
        rw [hk, hcl]
        cases hkept : kept.getLast? with
        | none =>
          have hk0 : kept = [] := by simpa using hkept
          subst hk0
          have ha : attrib = some e.1 := by
            rw [List.nil_append, PChain] at h; exact h.1
          subst ha
          simp only [Option.map_none]
          refine Ret.bind_eq (rd_of_getElem? h2) ?_
          dsimp only
          rw [hc]
          rw [hc] at h3
          refine (ih (kept := []) h3 (by simpa using hf)).mono ?_
          rintro r ⟨g1, g2, g3, g4⟩
          exact ⟨g1, g2, g3, fun i hi => g4 i fun e' he' => hi e' (by
            simp only [List.nil_append] at he' ⊢
            simp [he'])⟩
        | some q =>
          obtain ⟨k', rfl⟩ : ∃ k', kept = k' ++ [q] := by
            have hne : kept ≠ [] := by rintro rfl; simp at hkept
            refine ⟨kept.dropLast, ?_⟩
            rw [List.getLast?_eq_some_getLast hne] at hkept
            have := List.dropLast_concat_getLast hne
            rw [← Option.some.inj hkept]
            exact this.symm
          have h' : PChain nodes attrib (k' ++ q :: e :: rest) := by simpa using h
          obtain ⟨m, hm⟩ := pchain_tail h'
          rw [PChain] at hm
          obtain ⟨_, cq, hq, _⟩ := hm
          have hql := (List.getElem?_eq_some_iff.1 hq).1
          simp only [Option.map_some]
          refine Ret.bind_eq (rd_of_getElem? hq) (Ret.bind_eq (wr_ok hql) ?_)
          dsimp only
          have hnd' := pchain_nodup h'
          rw [List.map_append, List.map_cons, List.map_cons] at hnd'
          have hnq : (∀ x ∈ k', x.1 ≠ q.1) ∧ ∀ x ∈ rest, x.1 ≠ q.1 := by
            rw [List.nodup_append] at hnd'
            obtain ⟨n1, n2, n3⟩ := hnd'
            rw [List.nodup_cons] at n2
            refine ⟨fun x hx hc => ?_, fun x hx hc => ?_⟩
            · exact n3 x.1 (List.mem_map.2 ⟨x, hx, rfl⟩) q.1 (by simp) hc
            · exact n2.1 (List.mem_cons_of_mem _ (List.mem_map.2 ⟨x, hx, hc⟩))
          have hnew : PChain (nodes.set q.1 ⟨q.2.1, q.2.2, c⟩) attrib ((k' ++ [q]) ++ rest) := by
            rw [List.append_assoc, List.singleton_append]
            refine pchain_change h' (fun x hx => ?_) ?_
            · rw [List.getElem?_set_ne (Ne.symm (hnq.1 x hx))]
            · rw [PChain]
              refine ⟨rfl, c, List.getElem?_set_self hql, pchain_frame h3 fun x hx => ?_⟩
              rw [List.getElem?_set_ne (Ne.symm (hnq.2 x hx))]
          have := ih (kept := k' ++ [q]) (cls := if e.2.1 = .class_ then some e.2.2 else cls) hnew
            (fuel := fuel) (by simpa using hf)
          rw [hkept, ← hc] at this
          refine this.mono ?_
          rintro r ⟨g1, g2, g3, g4⟩
          refine ⟨g1, g2, by simpa using g3, fun i hi => ?_⟩
          rw [g4 i fun e' he' => hi e' (by
            rcases List.mem_append.1 he' with h5 | h5
            · exact List.mem_append_left _ h5
            · exact List.mem_append_right _ (List.mem_cons_of_mem _ h5)), List.getElem?_set_ne (hi q (by simp))]
      · rw [if_neg hs]
        have hk : keepOther (e :: rest) = e :: keepOther rest := by
          unfold keepOther; rw [List.filter_cons_of_pos (by simpa using hs)]
        have hcl : lastClass (e :: rest) cls = lastClass rest cls := by
          unfold lastClass
          rw [List.foldl_cons, if_neg]
          intro hcc
          rw [hcc] at hs
          exact hs rfl
        rw [hk, hcl]
        have := ih (kept := kept ++ [e]) (cls := cls) (nodes := nodes) (attrib := attrib) (fuel := fuel)
          (by simpa using h) (by simpa using hf)
        rw [List.getLast?_concat, ← hc] at this
        refine this.mono ?_
        rintro r ⟨g1, g2, g3, g4⟩
        exact ⟨by simpa using g1, g2, g3, fun i hi => g4 i fun e' he' => hi e' (by simpa using he')⟩

theorem lastClass_eq : ∀ (l : List AEnt) (cls : Option AttrVal), (l.map (·.2.1)).Nodup →
    lastClass l cls = (lk l .class_).or cls := by
  intro l
  induction l with
  | nil => intro cls _; rfl
  | cons e l ih =>
    intro cls hn
    rw [List.map_cons, List.nodup_cons] at hn
    have : lastClass (e :: l) cls = lastClass l (if e.2.1 = .class_ then some e.2.2 else cls) := rfl
    rw [this, ih _ hn.2, lk_cons]
    by_cases h : e.2.1 = .class_
    · rw [if_pos h, if_pos h]
      have hl : lk l .class_ = none := by
        have hm : AttrTag.class_ ∉ l.map (·.2.1) := by rw [← h]; exact hn.1
        clear ih hn this
        induction l with
        | nil => rfl
        | cons x l ih =>
          rw [lk_cons, if_neg, ih]
          · exact fun hc => hm (by rw [List.map_cons]; exact List.mem_cons_of_mem _ hc)
          · intro hc; exact hm (by rw [List.map_cons, hc]; simp)
      rw [hl]
      rfl
    · rw [if_neg h, if_neg h]

theorem keepOther_lk (t : AttrTag) : ∀ l : List AEnt,
    lk (keepOther l) t = if isSpecialTag t then none else lk l t := by
  intro l
  induction l with
  | nil => simp [keepOther, lk_nil]
  | cons e l ih =>
    unfold keepOther at ih ⊢
    by_cases he : isSpecialTag e.2.1 = true
    · rw [List.filter_cons_of_neg (by simp [he]), ih, lk_cons]
      by_cases h : isSpecialTag t = true
      · simp [h]
      · rw [if_neg h, if_neg h, if_neg]
        rintro rfl
        exact h he
    · rw [List.filter_cons_of_pos (by simpa using he), lk_cons, lk_cons, ih]
      by_cases h : isSpecialTag t = true
      · rw [if_pos h, if_neg, if_pos h]
        rintro rfl
        exact he h
      · rw [if_neg h, if_neg h]

end Vctrs
