import Verif.Lemmas.Cbind
import Verif.SpecBind

/-!
# Lemmas about putting values one after the other
-/

namespace Vctrs

open Spec

/-- Assigning to places in the middle of a buffer. -/
theorem assignBase_mid {α : Type} (A M R : List α) (h : M.length ≤ R.length) :
    assignBase (A ++ R) (.seq A.length M.length 1) M = .ok (A ++ M ++ R.drop M.length) := by
  simp only [assignBase]
  rw [assignCompact, if_neg (by simp)]
  obtain ⟨s, h1, h2⟩ := Ret.forN (n := M.length) (s := (A ++ R, (A.length : Int)))
    (f := fun i (s : List α × Int) => do
      let v ← rd M i
      let out ← wrI s.1 s.2 v
      .ok (out, s.2 + 1))
    (fun i s => s = (A ++ M.take i ++ R.drop i, ((A.length + i : Nat) : Int)))
    (by simp) (by
      rintro i s hi rfl
      have hm := List.getElem?_eq_getElem hi
      refine Ret.bind_eq (rd_of_getElem? hm) ?_
      dsimp only
      have hw : wrI (A ++ M.take i ++ R.drop i) ((A.length + i : Nat) : Int) M[i] =
          .ok (A ++ M.take (i + 1) ++ R.drop (i + 1)) := by
        rw [wrI, if_neg (by omega), Int.toNat_natCast, wr_ok (by simp; omega)]
        congr 1
        have hl : (A ++ M.take i).length = A.length + i := by simp; omega
        rw [List.set_append_right _ _ (by omega), hl, Nat.sub_self, List.drop_eq_getElem_cons (by omega), List.set_cons_zero,
          take_succ_of hm]
        simp only [List.append_assoc, List.cons_append, List.nil_append]
      refine Ret.bind_eq hw (Ret.ok ?_)
      simp [Int.add_assoc])
  rw [Int.toNat_natCast, h1, ok_bind, h2, List.take_of_length_le (Nat.le_refl _)]

/-! ## Names -/

/-- The names of a part. -/
def blockOf (p : Nat × Option (List Name)) : List Name :=
  match p.2 with
  | none => List.replicate p.1 (some [])
  | some l => l

/-- The number of elements of parts. -/
def sizeOf' (parts : List (Nat × Option (List Name))) : Nat := (parts.map (fun p => p.1)).sum

/-- Names after some parts have been put in place. -/
def NamesPart (tot : Nat) (start : Option (List Name)) (parts : List (Nat × Option (List Name)))
    (cur : Option (List Name)) : Prop :=
  lazyNames cur tot = (parts.map blockOf).flatten ++ List.replicate (tot - sizeOf' parts) (some []) ∧
  (cur = none ↔ start = none ∧ ∀ p ∈ parts, p.2 = none) ∧
  (∀ p ∈ parts, ∀ l, p.2 = some l → l.length = p.1) ∧ sizeOf' parts ≤ tot

theorem sizeOf'_snoc (parts : List (Nat × Option (List Name))) (p : Nat × Option (List Name)) :
    sizeOf' (parts ++ [p]) = sizeOf' parts + p.1 := by simp [sizeOf']

theorem blockOf_length {p : Nat × Option (List Name)} (h : ∀ l, p.2 = some l → l.length = p.1) :
    (blockOf p).length = p.1 := by
  rcases p with ⟨n, _ | l⟩
  · simp [blockOf]
  · simpa [blockOf] using h l rfl

theorem blocks_length {parts : List (Nat × Option (List Name))}
    (h : ∀ p ∈ parts, ∀ l, p.2 = some l → l.length = p.1) :
    ((parts.map blockOf).flatten).length = sizeOf' parts := by
  induction parts with
  | nil => rfl
  | cons p ps ih =>
    have := blockOf_length (h p (by simp))
    have h2 := ih (fun q hq => h q (by simp [hq]))
    simp only [sizeOf'] at h2
    simp [this, sizeOf', h2]

theorem NamesPart.zero (tot : Nat) {start : Option (List Name)}
    {cur : Option (List Name)} (h : (start = none ∧ cur = none) ∨ (start ≠ none ∧ cur = some (List.replicate tot (some [])))) :
    NamesPart tot start [] cur := by
  rcases h with ⟨h1, h2⟩ | ⟨h1, h2⟩
  · subst h1 h2; exact ⟨by simp [lazyNames, sizeOf'], by simp, by simp, by simp [sizeOf']⟩
  · subst h2; exact ⟨by simp [lazyNames, sizeOf'], by simp [h1], by simp, by simp [sizeOf']⟩

/-- A part without names. -/
theorem NamesPart.skip {tot : Nat} {start : Option (List Name)} {parts : List (Nat × Option (List Name))}
    {cur : Option (List Name)} (h : NamesPart tot start parts cur) {k : Nat} (hk : sizeOf' parts + k ≤ tot) :
    NamesPart tot start (parts ++ [(k, none)]) cur := by
  obtain ⟨h1, h2, h3, h4⟩ := h
  refine ⟨?_, ?_, ?_, by rw [sizeOf'_snoc]; exact hk⟩
  · rw [h1, sizeOf'_snoc]
    have e : tot - sizeOf' parts = k + (tot - (sizeOf' parts + k)) := by omega
    simp only [List.map_append, List.map_cons, List.map_nil, List.flatten_append, List.flatten_cons, List.flatten_nil,
      List.append_nil, List.append_assoc]
    rw [e, List.replicate_add]; rfl
  · rw [h2]
    refine and_congr Iff.rfl ⟨fun h p hp => ?_, fun h p hp => h p (by simp [hp])⟩
    rcases List.mem_append.1 hp with hp | hp
    · exact h p hp
    · simp at hp; rw [hp]
  · intro p hp l hl
    rcases List.mem_append.1 hp with hp | hp
    · exact h3 p hp l hl
    · simp at hp; rw [hp] at hl; cases hl

/-- A part with names. -/
theorem NamesPart.put {tot : Nat} {start : Option (List Name)} {parts : List (Nat × Option (List Name))}
    {cur : Option (List Name)} (h : NamesPart tot start parts cur) {k : Nat} (hk : sizeOf' parts + k ≤ tot)
    {l : List Name} (hl : l.length = k) :
    Ret (assignBase (lazyNames cur tot) (.seq (sizeOf' parts) k 1) l)
      (fun r => NamesPart tot start (parts ++ [(k, some l)]) (some r)) := by
  obtain ⟨h1, h2, h3, h4⟩ := h
  have e := assignBase_mid (parts.map blockOf).flatten l (List.replicate (tot - sizeOf' parts) (some []))
    (by simp; omega)
  rw [blocks_length h3, hl, ← h1] at e
  refine Ret.of_eq e ⟨?_, ?_, ?_, by rw [sizeOf'_snoc]; exact hk⟩
  · simp only [lazyNames, sizeOf'_snoc]
    simp [blockOf, Nat.sub_sub]
  · refine ⟨nofun, fun h => ?_⟩
    have := h.2 (k, some l) (by simp)
    cases this
  · intro p hp m hm
    rcases List.mem_append.1 hp with hp | hp
    · exact h3 p hp m hm
    · simp at hp; subst hp; cases hm; exact hl

theorem NamesPart.assign {tot : Nat} {start : Option (List Name)} {parts : List (Nat × Option (List Name))}
    {cur : Option (List Name)} (h : NamesPart tot start parts cur) {k : Nat} (hk : sizeOf' parts + k ≤ tot)
    {keep : Bool} {value : Option (List Name)} (hl : ∀ l, value = some l → l.length = k) :
    Ret (assignNamesIf keep tot cur (.seq (sizeOf' parts) k 1) value)
      (NamesPart tot start (parts ++ [(k, if keep then value else none)])) := by
  cases keep with
  | false => exact Ret.ok (by simpa using h.skip hk)
  | true =>
    simp only [assignNamesIf, if_true]
    cases value with
    | none => exact Ret.ok (h.skip hk)
    | some v =>
      refine Ret.bind (h.put hk (hl v rfl)) ?_
      intro r hr
      exact Ret.ok hr

theorem NamesPart.done {tot : Nat} {start : Option (List Name)} {parts : List (Nat × Option (List Name))}
    {cur : Option (List Name)} (h : NamesPart tot start parts cur) (hk : sizeOf' parts = tot) :
    StackedNames start parts cur := by
  obtain ⟨h1, h2, h3, h4⟩ := h
  cases cur with
  | none =>
    obtain ⟨g1, g2⟩ := h2.1 rfl
    exact Or.inl ⟨g1, g2, rfl⟩
  | some l =>
    refine Or.inr ⟨?_, parts.map blockOf, ?_, ?_⟩
    · by_contra hc
      push Not at hc
      have := h2.2 ⟨hc.1, hc.2⟩
      cases this
    · rw [hk, Nat.sub_self, List.replicate_zero, List.append_nil] at h1
      exact congrArg some h1
    · clear h1 h2 h4 hk
      induction parts with
      | nil => exact .nil
      | cons p ps ih =>
        refine .cons ?_ (ih (fun q hq => h3 q (by simp [hq])))
        rcases p with ⟨n, _ | l⟩
        · exact Or.inr ⟨rfl, rfl⟩
        · exact Or.inl rfl

/-! ## Values -/

/-- A value of `tot` rows after the values `xs` of `off` rows have been put in place. -/
inductive Placed (keep : Bool) (tot : Nat) : Nat → NVal → List NVal → NVal → Prop
  | vec {t : VTy} {e rest : List t.El} {start nms : Option (List Name)} {off : Nat}
      {parts : List (List t.El × Option (List Name))} :
      off = sizeOf' (parts.map (fun p => (p.1.length, if keep then p.2 else none))) →
      rest.length = tot - off →
      NamesPart tot start (parts.map (fun p => (p.1.length, if keep then p.2 else none))) nms →
      Placed keep tot off (.vec t e start) (parts.map (fun p => .vec t p.1 p.2))
        (.vec t ((parts.map (fun p => p.1)).flatten ++ rest) nms)
  | df {m : Nat} {cn : List Name} {pcols xs cols : List NVal} {colsOf : Nat → List NVal} {off : Nat}
      {rows : List (Nat × Option (List Name))} {rn : Option (List Name)} :
      off = sizeOf' rows →
      cols.length = pcols.length →
      (∀ c, c < pcols.length → List.Forall₂ (ColumnOf c) xs (colsOf c)) →
      (∀ (c : Nat) (p y : NVal), pcols[c]? = some p → cols[c]? = some y → Placed keep tot off p (colsOf c) y) →
      List.Forall₂ (RowsOf keep) xs rows → ShortNames rows →
      NamesPart tot none rows rn →
      Placed keep tot off (.df m cn pcols none) xs (.df tot cn cols rn)

theorem forall₂_snoc {α β : Type} {R : α → β → Prop} {l : List α} {m : List β} {a : α} {b : β}
    (h : List.Forall₂ R l m) (hab : R a b) : List.Forall₂ R (l ++ [a]) (m ++ [b]) := by
  induction h with
  | nil => exact .cons hab .nil
  | cons h _ ih => exact .cons h ih

theorem nvalAssignCols_ok (keep : Bool) (index : Subscript) : (cols vs : List NVal) → vs.length = cols.length →
    (Q : Nat → NVal → Prop) →
    (∀ (c : Nat) y v, cols[c]? = some y → vs[c]? = some v → Ret (nvalAssign keep index y v) (Q c)) →
    Ret (nvalAssignCols keep index cols vs) (fun ys => ys.length = cols.length ∧
      ∀ (c : Nat) y, ys[c]? = some y → Q c y)
  | [], [], _, Q, _ => by
    rw [nvalAssignCols]
    exact Ret.ok ⟨rfl, fun c y hy => by simp at hy⟩
  | [], _ :: _, h, _, _ => by simp at h
  | _ :: _, [], h, _, _ => by simp at h
  | x :: xs, v :: vs, h, Q, hq => by
    rw [nvalAssignCols]
    refine Ret.bind (hq 0 x v rfl rfl) ?_
    intro y hy
    refine Ret.bind (nvalAssignCols_ok keep index xs vs (by simpa using h) (fun c => Q (c + 1))
      (fun c y v hy hv => hq (c + 1) y v (by simpa using hy) (by simpa using hv))) ?_
    rintro ys ⟨h1, h2⟩
    refine Ret.ok ⟨by simp [h1], ?_⟩
    intro c z hz
    cases c with
    | zero => simp at hz; subst hz; exact hy
    | succ c => exact h2 c z (by simpa using hz)

theorem Placed.step {keep : Bool} {tot off k : Nat} {p y : NVal} {xs : List NVal}
    (h : Placed keep tot off p xs y) : ∀ {x : NVal}, HasType k p x → off + k ≤ tot →
    Ret (nvalAssign keep (.seq off k 1) y x) (Placed keep tot (off + k) p (xs ++ [x])) := by
  induction h with
  | @vec t e rest start nms off parts ho hr hn =>
    intro x hx hk
    cases hx with
    | @vec _ _ ys _ nms' h1 h2 =>
      rw [nvalAssign, dif_pos rfl]
      have hlen : ((parts.map (fun p => p.1)).flatten).length = off := by
        rw [ho, sizeOf', List.length_flatten, List.map_map, List.map_map]; rfl
      have e1 := assignBase_mid (parts.map (fun p => p.1)).flatten ys rest (by omega)
      rw [hlen, h1] at e1
      refine Ret.bind_eq e1 ?_
      have htot : ((parts.map (fun p => p.1)).flatten ++ ys ++ rest.drop k).length = tot := by
        simp only [List.length_append, List.length_drop, hlen, hr, h1]; omega
      rw [htot]
      have e2 := hn.assign (k := k) (by rw [← ho]; exact hk) (keep := keep) h2
      rw [← ho] at e2
      refine Ret.bind e2 ?_
      intro r hr2
      refine Ret.ok ?_
      have key := Placed.vec (keep := keep) (tot := tot) (t := t) (e := e) (start := start) (nms := r) (off := off + k)
        (parts := parts ++ [(ys, nms')]) (rest := rest.drop k)
        (by rw [List.map_append, List.map_cons, List.map_nil, sizeOf'_snoc, ← ho, h1])
        (by rw [List.length_drop, hr]; omega)
        (by rw [List.map_append, List.map_cons, List.map_nil, h1]; exact hr2)
      simpa using key
  | @df m cn pcols xs cols colsOf off rows rn ho hl hc hp hrow hs hn ih =>
    intro x hx hk
    cases hx with
    | @df _ _ _ vcols vrn h1 h2 h3 =>
      rw [nvalAssign, if_neg (by omega)]
      refine Ret.bind (nvalAssignCols_ok keep (.seq off k 1) cols vcols (by omega)
        (fun c y => ∀ p v, pcols[c]? = some p → vcols[c]? = some v →
          Placed keep tot (off + k) p (colsOf c ++ [v]) y) ?_) ?_
      · intro c y v hy hv
        have hcl := (List.getElem?_eq_some_iff.1 hy).1
        have hpc := List.getElem?_eq_getElem (l := pcols) (i := c) (by omega)
        refine (ih c _ y hpc hy (h2 c _ v hpc hv) hk).mono ?_
        intro z hz p' v' hp' hv'
        rw [hpc] at hp'; cases hp'
        rw [hv] at hv'; cases hv'
        exact hz
      · rintro cols' ⟨g1, g2⟩
        have e2 := hn.assign (k := k) (by rw [← ho]; exact hk) (keep := keep) (fun l hl => (h3 l hl).1)
        rw [← ho] at e2
        refine Ret.bind e2 ?_
        intro r hr
        refine Ret.ok (.df (colsOf := fun c => colsOf c ++ (vcols[c]?).toList)
          (rows := rows ++ [(k, if keep then vrn else none)]) ?_ (by omega) ?_ ?_ ?_ ?_ hr)
        · rw [sizeOf'_snoc, ho]
        · intro c hcl
          have hv := List.getElem?_eq_getElem (l := vcols) (i := c) (by omega)
          rw [hv]
          exact forall₂_snoc (hc c hcl) ⟨_, _, _, _, rfl, hv⟩
        · intro c p y hpc hy
          have hcl := (List.getElem?_eq_some_iff.1 hpc).1
          have hv := List.getElem?_eq_getElem (l := vcols) (i := c) (by omega)
          have := g2 c y hy p _ hpc hv
          rw [hv]
          exact this
        · exact forall₂_snoc hrow ⟨_, _, _, _, rfl, rfl⟩
        · intro q hq l hl s hsl
          rcases List.mem_append.1 hq with hq | hq
          · exact hs q hq l hl s hsl
          · simp at hq
            subst hq
            cases keep with
            | false => cases hl
            | true => exact (h3 l hl).2 s hsl

/-! ## The start -/

theorem Spec.IsPtype.isTab {p : NVal} (h : IsPtype p) : IsTab 0 p := by
  induction h with
  | vec h => exact .vec rfl (fun l hl => by rw [h l hl]; rfl)
  | df h1 _ ih => exact .df h1 ih nofun

theorem located_none {α : Type} {b : α} {n : Nat} {xs ys : List α}
    (h : Located (fun v => v = b) (List.replicate n none) xs ys) : ys = List.replicate n b := by
  obtain ⟨h1, h2, _⟩ := h
  rw [List.length_replicate] at h1
  refine List.ext_getElem? (fun k => ?_)
  by_cases hk : k < n
  · obtain ⟨v, h3, h4⟩ := h2 k (by rw [List.getElem?_replicate, if_pos hk])
    rw [h3, h4, List.getElem?_replicate, if_pos hk]
  · rw [List.getElem?_eq_none (by omega), List.getElem?_replicate, if_neg hk]

theorem Placed.start {keep : Bool} {tot : Nat} {p y : NVal} (hp : IsPtype p) :
    SlicedAs (List.replicate tot none) p y → Placed keep tot 0 p [] y := by
  intro h
  induction h with
  | @vec t xs ys nms nms' h1 h2 =>
    have hl : ys.length = tot := by rw [h1.1, List.length_replicate]
    have key := Placed.vec (keep := keep) (tot := tot) (t := t) (e := xs) (start := nms) (nms := nms') (off := 0)
        (parts := []) (rest := ys) (by simp [sizeOf']) (by omega) (NamesPart.zero tot (by
          rcases h2 with ⟨g1, g2⟩ | ⟨a, b, g1, g2, g3⟩
          · exact Or.inl ⟨g1, g2⟩
          · exact Or.inr ⟨by rw [g1]; nofun, by rw [g2, located_none g3]⟩))
    simpa using key
  | @df n cn cols cols' rn rn' h1 h2 h3 ih =>
    cases hp with
    | df g1 g2 =>
      rcases h3 with ⟨_, hr⟩ | ⟨a, _, _, _, ha, _⟩
      · subst hr
        rw [List.length_replicate]
        refine .df (colsOf := fun _ => []) (rows := []) rfl h1 (fun c _ => .nil) ?_ .nil nofun
          (NamesPart.zero tot (Or.inl ⟨rfl, rfl⟩))
        intro c p y hp hy
        exact ih c p y hp hy (g2 p (List.mem_of_getElem? hp))
      · cases ha

/-! ## The end -/

theorem restoreRownames_ok (h : Name → BitVec 32) {a : Option (List Name)}
    (ha : ∀ l, a = some l → l.length ≤ 2147483647 ∧ ∀ s, some s ∈ l → s.length ≤ 2147483619) :
    Ret (restoreRownames h a) (RowRepair a) := by
  cases a with
  | none => exact Ret.ok (Or.inl ⟨rfl, rfl⟩)
  | some l =>
    rw [restoreRownames]
    refine Ret.bind (vecAsUniqueNames_ok h l (ha l rfl).1 (short_base (ha l rfl).2)) ?_
    intro r hr
    exact Ret.ok (Or.inr ⟨l, r, rfl, rfl, hr⟩)

theorem NamesPart.fits {tot : Nat} {start : Option (List Name)} {parts : List (Nat × Option (List Name))}
    {cur : Option (List Name)} (h : NamesPart tot start parts cur) (hs : ShortNames parts) :
    ∀ l, cur = some l → l.length = tot ∧ ∀ s, some s ∈ l → s.length ≤ 2147483619 := by
  rintro l rfl
  obtain ⟨h1, h2, h3, h4⟩ := h
  simp only [lazyNames] at h1
  subst h1
  refine ⟨?_, ?_⟩
  · rw [List.length_append, blocks_length h3, List.length_replicate]; omega
  · intro s hs2
    rcases List.mem_append.1 hs2 with hm | hm
    · obtain ⟨b, hb, hsb⟩ := List.mem_flatten.1 hm
      obtain ⟨p, hp, rfl⟩ := List.mem_map.1 hb
      rcases p with ⟨n, _ | l⟩
      · rw [blockOf, List.mem_replicate] at hsb
        cases hsb.2; simp
      · exact hs _ hp l rfl s hsb
    · rw [List.mem_replicate] at hm
      cases hm.2; simp

theorem nvalRestoreCols_ok (h : Name → BitVec 32) : (cols : List NVal) → (Q : Nat → NVal → Prop) →
    (∀ (c : Nat) y, cols[c]? = some y → Ret (nvalRestore h y) (Q c)) →
    Ret (nvalRestoreCols h cols) (fun ys => ys.length = cols.length ∧ ∀ (c : Nat) y, ys[c]? = some y → Q c y)
  | [], Q, _ => by
    rw [nvalRestoreCols]
    exact Ret.ok ⟨rfl, fun c y hy => by simp at hy⟩
  | x :: xs, Q, hq => by
    rw [nvalRestoreCols]
    refine Ret.bind (hq 0 x rfl) ?_
    intro y hy
    refine Ret.bind (nvalRestoreCols_ok h xs (fun c => Q (c + 1)) (fun c y hy => hq (c + 1) y (by simpa using hy))) ?_
    rintro ys ⟨h1, h2⟩
    refine Ret.ok ⟨by simp [h1], ?_⟩
    intro c z hz
    cases c with
    | zero => simp at hz; subst hz; exact hy
    | succ c => exact h2 c z (by simpa using hz)

theorem Placed.finish (h : Name → BitVec 32) {keep : Bool} {tot off : Nat} {p y : NVal} {xs : List NVal}
    (hp : Placed keep tot off p xs y) (ht : off = tot) (hn : tot ≤ 2147483647) :
    Ret (nvalRestore h y) (Stacked keep p xs) := by
  induction hp with
  | @vec t e rest start nms off parts ho hr hnm =>
    rw [nvalRestore]
    have : rest = [] := List.eq_nil_of_length_eq_zero (by omega)
    subst this
    rw [List.append_nil]
    exact Ret.ok (.vec (hnm.done (by omega)))
  | @df m cn pcols xs cols colsOf off rows rn ho hl hc hp hrow hs hnm ih =>
    rw [nvalRestore]
    refine Ret.bind (nvalRestoreCols_ok h cols (fun c y => ∀ p, pcols[c]? = some p → Stacked keep p (colsOf c) y) ?_) ?_
    · intro c y hy
      have hcl := (List.getElem?_eq_some_iff.1 hy).1
      have hpc := List.getElem?_eq_getElem (l := pcols) (i := c) (by omega)
      refine (ih c _ y hpc hy ht).mono ?_
      intro z hz p hp
      rw [hpc] at hp; cases hp
      exact hz
    · rintro cols' ⟨g1, g2⟩
      refine Ret.bind (restoreRownames_ok h (a := rn) (fun l hl => ?_)) ?_
      · have := hnm.fits hs l hl
        exact ⟨by omega, this.2⟩
      · intro rn' hrn
        exact Ret.ok (.df (by omega) hc (fun c p y hpc hy => g2 c y hy p hpc) hrow (by rw [← ht, ho, sizeOf'])
          (hnm.done (by omega)) hrn)

end Vctrs
