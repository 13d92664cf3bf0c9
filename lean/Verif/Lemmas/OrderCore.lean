import Verif.Lemmas.Base
import Verif.Model.Order
import Mathlib.Data.List.Basic

/-!
# Stable ordering by a key, with the sizes of the groups of ties
-/

namespace Vctrs

variable {β κ : Type} [DecidableEq κ]

/-- `ks` consists of the blocks `bs`: strictly ordered values, each repeated. -/
structure Blocks (R : κ → κ → Prop) (ks : List κ) (bs : List (κ × Nat)) : Prop where
  pos : ∀ b ∈ bs, 0 < b.2
  lt : bs.Pairwise (fun a b => R a.1 b.1)
  eq : ks = bs.flatMap (fun b => List.replicate b.2 b.1)

/-- `w'` is `w` stably ordered by `key`, with groups of ties of sizes `gs`. -/
def Ordered (R : κ → κ → Prop) (key : β → κ) (w w' : List β) (gs : List Nat) : Prop :=
  (∀ k, w'.filter (fun a => decide (key a = k)) = w.filter (fun a => decide (key a = k))) ∧
    ∃ bs, Blocks R (w'.map key) bs ∧ gs = bs.map (·.2)

omit [DecidableEq κ] in
theorem Blocks.nil (R : κ → κ → Prop) : Blocks R [] [] :=
  ⟨by simp, List.Pairwise.nil, rfl⟩

omit [DecidableEq κ] in
theorem Blocks.mem {R : κ → κ → Prop} {ks : List κ} {bs : List (κ × Nat)} (h : Blocks R ks bs)
    {k : κ} : k ∈ ks ↔ ∃ b ∈ bs, b.1 = k := by
  rw [h.eq]
  constructor
  · intro hk
    obtain ⟨b, hb, hk⟩ := List.mem_flatMap.1 hk
    exact ⟨b, hb, (List.eq_of_mem_replicate hk).symm⟩
  · rintro ⟨b, hb, rfl⟩
    exact List.mem_flatMap.2 ⟨b, hb, by
      have := h.pos b hb
      simp; omega⟩

omit [DecidableEq κ] in
theorem Blocks.append {R : κ → κ → Prop} {k1 k2 : List κ} {b1 b2 : List (κ × Nat)}
    (h1 : Blocks R k1 b1) (h2 : Blocks R k2 b2) (h : ∀ a ∈ k1, ∀ b ∈ k2, R a b) :
    Blocks R (k1 ++ k2) (b1 ++ b2) := by
  refine ⟨?_, ?_, ?_⟩
  · intro b hb
    rcases List.mem_append.1 hb with hb | hb
    · exact h1.pos b hb
    · exact h2.pos b hb
  · rw [List.pairwise_append]
    refine ⟨h1.lt, h2.lt, ?_⟩
    intro a ha b hb
    exact h _ (h1.mem.2 ⟨a, ha, rfl⟩) _ (h2.mem.2 ⟨b, hb, rfl⟩)
  · rw [List.flatMap_append, ← h1.eq, ← h2.eq]

omit [DecidableEq κ] in
theorem Blocks.const (R : κ → κ → Prop) {n : Nat} (k : κ) (hn : 0 < n) :
    Blocks R (List.replicate n k) [(k, n)] :=
  ⟨by simpa using hn, List.pairwise_singleton _ _, by simp⟩

omit [DecidableEq κ] in
theorem Blocks.sum {R : κ → κ → Prop} {ks : List κ} {bs : List (κ × Nat)} (h : Blocks R ks bs) :
    (bs.map (·.2)).sum = ks.length := by
  rw [h.eq]
  simp [List.length_flatMap]

omit [DecidableEq κ] in
theorem Blocks.length_le {R : κ → κ → Prop} {ks : List κ} {bs : List (κ × Nat)}
    (h : Blocks R ks bs) : bs.length ≤ ks.length := by
  rw [← h.sum]
  have hp := h.pos
  clear h
  induction bs with
  | nil => simp
  | cons b bs ih =>
    have := hp b (by simp)
    have := ih (fun b hb => hp b (by simp [hb]))
    simp; omega

theorem Ordered.mem {R : κ → κ → Prop} {key : β → κ} {w w' : List β} {gs : List Nat}
    (h : Ordered R key w w' gs) {a : β} : a ∈ w' ↔ a ∈ w := by
  have : ∀ v : List β, a ∈ v ↔ a ∈ v.filter (fun b => decide (key b = key a)) := by
    intro v; simp
  rw [this w', this w, h.1]

theorem Ordered.perm {R : κ → κ → Prop} {key : β → κ} {w w' : List β} {gs : List Nat}
    (h : Ordered R key w w' gs) : w'.Perm w := by
  classical
  rw [List.perm_iff_count]
  intro a
  have : ∀ v : List β, v.count a = (v.filter (fun b => decide (key b = key a))).count a := by
    intro v
    rw [List.count_filter (by simp)]
  rw [this w', this w, h.1]

theorem Ordered.length {R : κ → κ → Prop} {key : β → κ} {w w' : List β} {gs : List Nat}
    (h : Ordered R key w w' gs) : w'.length = w.length := h.perm.length_eq

theorem Ordered.gs_length {R : κ → κ → Prop} {key : β → κ} {w w' : List β} {gs : List Nat}
    (h : Ordered R key w w' gs) : gs.length ≤ w.length := by
  obtain ⟨bs, hb, rfl⟩ := h.2
  have := hb.length_le
  rw [← h.length]
  simpa using this

theorem Ordered.gs_sum {R : κ → κ → Prop} {key : β → κ} {w w' : List β} {gs : List Nat}
    (h : Ordered R key w w' gs) : gs.sum = w.length := by
  obtain ⟨bs, hb, rfl⟩ := h.2
  rw [hb.sum, ← h.length]
  simp

theorem Ordered.gs_pos {R : κ → κ → Prop} {key : β → κ} {w w' : List β} {gs : List Nat}
    (h : Ordered R key w w' gs) : ∀ g ∈ gs, 0 < g := by
  obtain ⟨bs, hb, rfl⟩ := h.2
  intro g hg
  obtain ⟨b, hb', rfl⟩ := List.mem_map.1 hg
  exact hb.pos b hb'

theorem Ordered.nil (R : κ → κ → Prop) (key : β → κ) : Ordered R key [] [] [] :=
  ⟨by simp, [], Blocks.nil R, rfl⟩

theorem Ordered.append {R : κ → κ → Prop} {key : β → κ} {w1 w1' w2 w2' : List β}
    {g1 g2 : List Nat} (h1 : Ordered R key w1 w1' g1) (h2 : Ordered R key w2 w2' g2)
    (h : ∀ a ∈ w1, ∀ b ∈ w2, R (key a) (key b)) :
    Ordered R key (w1 ++ w2) (w1' ++ w2') (g1 ++ g2) := by
  obtain ⟨f1, b1, hb1, rfl⟩ := h1
  obtain ⟨f2, b2, hb2, rfl⟩ := h2
  have m1 : ∀ a, a ∈ w1' ↔ a ∈ w1 := fun a =>
    Ordered.mem (R := R) (key := key) ⟨f1, b1, hb1, rfl⟩
  have m2 : ∀ a, a ∈ w2' ↔ a ∈ w2 := fun a =>
    Ordered.mem (R := R) (key := key) ⟨f2, b2, hb2, rfl⟩
  refine ⟨?_, b1 ++ b2, ?_, by simp⟩
  · intro k
    rw [List.filter_append, List.filter_append, f1, f2]
  · rw [List.map_append]
    refine hb1.append hb2 ?_
    intro a ha b hb
    obtain ⟨a, ha', rfl⟩ := List.mem_map.1 ha
    obtain ⟨b, hb', rfl⟩ := List.mem_map.1 hb
    exact h a ((m1 a).1 ha') b ((m2 b).1 hb')

/-- All elements tied. -/
theorem Ordered.const (R : κ → κ → Prop) {key : β → κ} {w : List β} {k : κ}
    (h : ∀ a ∈ w, key a = k) (hw : 0 < w.length) : Ordered R key w w [w.length] := by
  refine ⟨fun _ => rfl, [(k, w.length)], ?_, rfl⟩
  have : w.map key = List.replicate w.length k := by
    rw [List.eq_replicate_iff]
    refine ⟨by simp, ?_⟩
    intro b hb
    obtain ⟨a, ha, rfl⟩ := List.mem_map.1 hb
    exact h a ha
  rw [this]
  exact Blocks.const R k hw

/-- The result depends on the ordered sublists of ties only. -/
theorem Ordered.congr_left {R : κ → κ → Prop} {key : β → κ} {w v w' : List β} {gs : List Nat}
    (h : Ordered R key w w' gs)
    (hv : ∀ k, w.filter (fun a => decide (key a = k)) = v.filter (fun a => decide (key a = k))) :
    Ordered R key v w' gs :=
  ⟨fun k => (h.1 k).trans (hv k), h.2⟩

/-- Ordering is the same for keys that order the elements in the same way. -/
theorem Ordered.congr_key {κ' : Type} [DecidableEq κ'] {R : κ → κ → Prop} {R' : κ' → κ' → Prop}
    {key : β → κ} {key' : β → κ'} {w w' : List β} {gs : List Nat}
    (h : Ordered R key w w' gs)
    (he : ∀ a ∈ w, ∀ b ∈ w, key a = key b ↔ key' a = key' b)
    (hr : ∀ a ∈ w, ∀ b ∈ w, R (key a) (key b) → R' (key' a) (key' b)) :
    Ordered R' key' w w' gs := by
  have hm : ∀ a, a ∈ w' ↔ a ∈ w := fun a => h.mem
  obtain ⟨hf, bs, hb, rfl⟩ := h
  refine ⟨?_, ?_⟩
  · intro k
    by_cases hk : ∃ a ∈ w, key' a = k
    · obtain ⟨a, ha, rfl⟩ := hk
      have := hf (key a)
      have e1 : ∀ v : List β, (∀ b ∈ v, b ∈ w) →
          v.filter (fun b => decide (key' b = key' a)) =
            v.filter (fun b => decide (key b = key a)) := by
        intro v hv
        apply List.filter_congr
        intro b hb
        simp [he b (hv b hb) a ha]
      rw [e1 w' (fun b hb => (hm b).1 hb), e1 w (fun b hb => hb), this]
    · have e1 : ∀ v : List β, (∀ b ∈ v, b ∈ w) →
          v.filter (fun b => decide (key' b = k)) = [] := by
        intro v hv
        rw [List.filter_eq_nil_iff]
        intro b hb hkb
        exact hk ⟨b, hv b hb, by simpa using hkb⟩
      rw [e1 w' (fun b hb => (hm b).1 hb), e1 w (fun b hb => hb)]
  · -- the keys of a block come from elements
    suffices H : ∀ (v : List β) (bs : List (κ × Nat)), (∀ b ∈ v, b ∈ w) →
        Blocks R (v.map key) bs →
        ∃ bs', Blocks R' (v.map key') bs' ∧ bs'.map (·.2) = bs.map (·.2) by
      obtain ⟨bs', h1, h2⟩ := H w' bs (fun b hb => (hm b).1 hb) hb
      exact ⟨bs', h1, h2.symm⟩
    intro v bs
    induction bs generalizing v with
    | nil =>
      intro _ hb
      have : v = [] := by have := hb.eq; simpa using this
      subst this
      exact ⟨[], Blocks.nil R', rfl⟩
    | cons b bs ih =>
      intro hv hb
      obtain ⟨k, n⟩ := b
      have heq := hb.eq
      simp only [List.flatMap_cons] at heq
      obtain ⟨v1, v2, rfl, h1, h2⟩ := List.map_eq_append_iff.1 heq
      have hn := hb.pos (k, n) (by simp)
      simp at hn
      have hb2 : Blocks R (v2.map key) bs := ⟨fun b hb' => hb.pos b (by simp [hb']),
        (List.pairwise_cons.1 hb.lt).2, h2⟩
      obtain ⟨bs', hb', hbs'⟩ := ih v2 (fun b hb => hv b (by simp [hb])) hb2
      have hl1 : v1.length = n := by have := congrArg List.length h1; simpa using this
      have hk1 : ∀ a ∈ v1, key a = k := by
        intro a ha
        have : key a ∈ v1.map key := List.mem_map.2 ⟨a, ha, rfl⟩
        rw [h1] at this
        exact List.eq_of_mem_replicate this
      cases v1 with
      | nil => simp at hl1; omega
      | cons a v1 =>
        have hb1 : Blocks R' ((a :: v1).map key') [(key' a, n)] := by
          have : (a :: v1).map key' = List.replicate n (key' a) := by
            rw [List.eq_replicate_iff]
            refine ⟨by simpa using hl1, ?_⟩
            intro x hx
            obtain ⟨b, hb, rfl⟩ := List.mem_map.1 hx
            exact (he b (hv b (by simp at hb ⊢; tauto)) a (hv a (by simp))).1
              ((hk1 b hb).trans (hk1 a (by simp)).symm)
          rw [this]
          exact Blocks.const R' _ hn
        refine ⟨(key' a, n) :: bs', ?_, by simp [hbs']⟩
        rw [List.map_append]
        refine hb1.append hb' ?_
        intro x hx y hy
        obtain ⟨x, hx', rfl⟩ := List.mem_map.1 hx
        obtain ⟨y, hy', rfl⟩ := List.mem_map.1 hy
        refine hr x (hv x (by simp at hx' ⊢; tauto)) y (hv y (by simp [hy'])) ?_
        rw [hk1 x hx']
        have : key y ∈ v2.map key := List.mem_map.2 ⟨y, hy', rfl⟩
        obtain ⟨c, hc, hc'⟩ := hb2.mem.1 this
        rw [← hc']
        exact (List.pairwise_cons.1 hb.lt).1 c hc

/-! ## Group infos -/

/-- The current group info holds the sizes `l`. -/
def GHas (gi : GroupInfos) (l : List Nat) : Prop :=
  gi.current.nGroups = l.length ∧ gi.current.data.take l.length = l.map some

/-- There is room for `k` more groups. -/
def Room (gi : GroupInfos) (k : Nat) : Prop :=
  gi.ignore = false → ∃ l, GHas gi l ∧ l.length + k ≤ gi.maxDataSize

/-- The group info that is not the current one. -/
def GroupInfos.other (g : GroupInfos) : GroupInfo := if g.second then g.info0 else g.info1

/-- Largest element, 0 if there is none. -/
def maxOf (l : List Nat) : Nat := l.foldr max 0

theorem maxOf_append (a b : List Nat) : maxOf (a ++ b) = max (maxOf a) (maxOf b) := by
  induction a with
  | nil => simp [maxOf]
  | cons x a ih =>
    have : maxOf (x :: a ++ b) = max x (maxOf (a ++ b)) := rfl
    have h2 : maxOf (x :: a) = max x (maxOf a) := rfl
    rw [this, h2, ih]; omega

theorem le_maxOf {l : List Nat} {x : Nat} (h : x ∈ l) : x ≤ maxOf l := by
  induction l with
  | nil => simp at h
  | cons y l ih =>
    have h2 : maxOf (y :: l) = max y (maxOf l) := rfl
    rw [h2]
    rcases List.mem_cons.1 h with rfl | h
    · omega
    · have := ih h; omega

theorem maxOf_le {l : List Nat} {m : Nat} (h : ∀ x ∈ l, x ≤ m) : maxOf l ≤ m := by
  induction l with
  | nil => simp [maxOf]
  | cons y l ih =>
    have h2 : maxOf (y :: l) = max y (maxOf l) := rfl
    rw [h2]
    have := h y (by simp)
    have := ih (fun x hx => h x (by simp [hx]))
    omega

/-- `gi'` has everything in common with `gi` except the current info. -/
structure SameStatic (gi gi' : GroupInfos) : Prop where
  ignore : gi'.ignore = gi.ignore
  force : gi'.force = gi.force
  maxData : gi'.maxDataSize = gi.maxDataSize
  second : gi'.second = gi.second
  other : gi'.other = gi.other

/-- `gi'` is `gi` with the groups `gs` pushed. -/
structure Pushed (gi : GroupInfos) (gs : List Nat) (gi' : GroupInfos) : Prop where
  static : SameStatic gi gi'
  ign : gi.ignore = true → gi' = gi
  has : gi.ignore = false → ∀ l, GHas gi l → GHas gi' (l ++ gs)
  max : gi.ignore = false →
    gi'.current.maxGroupSize = Nat.max gi.current.maxGroupSize (maxOf gs)

theorem SameStatic.refl (gi : GroupInfos) : SameStatic gi gi := ⟨rfl, rfl, rfl, rfl, rfl⟩

theorem SameStatic.trans {a b c : GroupInfos} (h1 : SameStatic a b) (h2 : SameStatic b c) :
    SameStatic a c :=
  ⟨h2.ignore.trans h1.ignore, h2.force.trans h1.force, h2.maxData.trans h1.maxData,
    h2.second.trans h1.second, h2.other.trans h1.other⟩

theorem Pushed.refl (gi : GroupInfos) : Pushed gi [] gi :=
  ⟨SameStatic.refl gi, fun _ => rfl, fun _ l h => by simpa using h, fun _ => by simp [maxOf]⟩

theorem Pushed.trans {a b c : GroupInfos} {g1 g2 : List Nat} (h1 : Pushed a g1 b)
    (h2 : Pushed b g2 c) : Pushed a (g1 ++ g2) c := by
  refine ⟨h1.static.trans h2.static, ?_, ?_, ?_⟩
  · intro h
    rw [h2.ign (by rw [h1.static.ignore, h]), h1.ign h]
  · intro h l hl
    have := h2.has (by rw [h1.static.ignore, h]) _ (h1.has h l hl)
    simpa using this
  · intro h
    have e := h2.max (by rw [h1.static.ignore, h])
    rw [e, h1.max h, maxOf_append]
    exact Nat.max_assoc _ _ _

theorem GHas.unique {gi : GroupInfos} {l l' : List Nat} (h : GHas gi l) (h' : GHas gi l') :
    l = l' := by
  have hl : l.length = l'.length := h.1.symm.trans h'.1
  have := h.2
  rw [hl, h'.2] at this
  exact (List.map_injective_iff.2 (fun _ _ h => Option.some.inj h) this).symm

theorem Room.pushed {gi gi' : GroupInfos} {gs : List Nat} {k : Nat} (h : Room gi k)
    (hp : Pushed gi gs gi') (hk : gs.length ≤ k) : Room gi' (k - gs.length) := by
  intro hi
  rw [hp.static.ignore] at hi
  obtain ⟨l, hl, hlk⟩ := h hi
  refine ⟨l ++ gs, hp.has hi l hl, ?_⟩
  rw [hp.static.maxData]
  simp; omega

theorem Room.mono {gi : GroupInfos} {k k' : Nat} (h : Room gi k) (hk : k' ≤ k) : Room gi k' := by
  intro hi
  obtain ⟨l, hl, hlk⟩ := h hi
  exact ⟨l, hl, by omega⟩

theorem current_setCurrent (g : GroupInfos) (i : GroupInfo) : (g.setCurrent i).current = i := by
  unfold GroupInfos.setCurrent GroupInfos.current
  split <;> rename_i h <;> simp [h]

theorem sameStatic_setCurrent (g : GroupInfos) (i : GroupInfo) :
    SameStatic g (g.setCurrent i) := by
  unfold GroupInfos.setCurrent
  constructor <;> split <;> rename_i h <;> simp [GroupInfos.other, h]

theorem intResize_grow {α : Type} (x : List (Option α)) {n : Nat} (h : x.length ≤ n) :
    (intResize x n).length = n ∧ (intResize x n).take x.length = x := by
  unfold intResize
  split
  · rename_i h'; subst h'; simp
  · constructor
    · simp; omega
    · rw [List.take_append_of_le_length (by simp; omega), List.take_take,
        Nat.min_eq_left h, List.take_length]

theorem groupsSizePush_ok {gi : GroupInfos} {size : Nat} (hs : 0 < size) {l : List Nat}
    (hl : GHas gi l) (hr : l.length < gi.maxDataSize) :
    Ret (groupsSizePush size gi) (fun g => SameStatic gi g ∧ GHas g (l ++ [size]) ∧
      g.current.maxGroupSize = Nat.max gi.current.maxGroupSize size) := by
  unfold groupsSizePush
  rw [if_neg (by omega)]
  obtain ⟨hn, hd⟩ := hl
  have hle : l.length ≤ gi.current.data.length := by
    have := congrArg List.length hd
    simp at this; omega
  -- the info with room
  suffices H : ∀ i : GroupInfo, i.nGroups = l.length → l.length < i.data.length →
      i.data.take l.length = l.map some → i.maxGroupSize = gi.current.maxGroupSize →
      Ret (do
        let data ← wr i.data i.nGroups (some size)
        .ok (gi.setCurrent ⟨data, i.nGroups + 1,
          if i.maxGroupSize < size then size else i.maxGroupSize⟩))
        (fun g => SameStatic gi g ∧ GHas g (l ++ [size]) ∧
          g.current.maxGroupSize = Nat.max gi.current.maxGroupSize size) by
    dsimp only
    split
    · rename_i hfull
      rw [hn] at hfull
      have hsz : l.length < groupsReallocSize gi.current.data.length gi.maxDataSize := by
        unfold groupsReallocSize groupDataSizeDefault
        dsimp only
        split <;> split <;> omega
      have hg := intResize_grow gi.current.data
        (n := groupsReallocSize gi.current.data.length gi.maxDataSize) (by omega)
      refine H (groupRealloc _ gi.current) hn ?_ ?_ rfl
      · show l.length < (intResize gi.current.data _).length
        rw [hg.1]; exact hsz
      · show (intResize gi.current.data _).take l.length = _
        rw [← hfull, hg.2, ← hd, hfull.symm, List.take_length]
    · rename_i hfull
      exact H gi.current hn (by omega) hd rfl
  intro i hn hlt hd hm
  refine Ret.bind_eq (wr_ok (by omega)) (Ret.ok ⟨sameStatic_setCurrent _ _, ?_, ?_⟩)
  · unfold GHas
    rw [current_setCurrent]
    refine ⟨by simp [hn], ?_⟩
    show (i.data.set i.nGroups (some size)).take (l ++ [size]).length = _
    rw [hn, List.length_append, List.length_singleton]
    rw [List.take_succ, List.take_set_of_le (Nat.le_refl _), hd, List.getElem?_set_self hlt]
    simp
  · rw [current_setCurrent]
    show (if i.maxGroupSize < size then size else i.maxGroupSize) = _
    rw [hm]
    split
    · exact (Nat.max_eq_right (by omega)).symm
    · exact (Nat.max_eq_left (by omega)).symm

theorem groupsSizeMaybePush_ok {gi : GroupInfos} {size : Nat} (hs : 0 < size)
    (hr : Room gi 1) : Ret (groupsSizeMaybePush size gi) (Pushed gi [size]) := by
  unfold groupsSizeMaybePush
  split
  · rename_i hi
    refine Ret.ok ⟨SameStatic.refl gi, fun _ => rfl, ?_, ?_⟩
    · intro h; rw [hi] at h; cases h
    · intro h; rw [hi] at h; cases h
  · rename_i hi
    have hi : gi.ignore = false := by simpa using hi
    obtain ⟨l, hl, hlk⟩ := hr hi
    refine (groupsSizePush_ok hs hl (by omega)).mono ?_
    rintro g ⟨h1, h2, h3⟩
    refine ⟨h1, ?_, ?_, ?_⟩
    · intro h; rw [hi] at h; cases h
    · intro _ l' hl'
      rw [hl'.unique hl]
      exact h2
    · intro _
      rw [h3]
      simp [maxOf]

end Vctrs
