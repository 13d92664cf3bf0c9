import Verif.Lemmas.Combine
import Verif.Props.C62

/-!
# C63: vec_c() combines elements, columns and names

The inputs have been cast to the common type; `HasType` is what the cast gives.
-/

namespace Vctrs

open Spec

theorem cins_of {names names' : Option (List Name)} {xs : List NVal} {outer : List (Option Name)} {ptype : NVal}
    (hn : (if ptype.isDf then none else names) = names') (ho : OuterNames names' xs outer)
    (hx : ∀ x ∈ xs, x = .null ∨ ∃ k, HasType k ptype x) :
    CIns (outer.zip xs) (if ptype.isDf then none else names) ptype := by
  subst hn
  refine ⟨?_, fun p hp => hx _ (mem_zip_right hp)⟩
  intro i p hp
  obtain ⟨hq1, hq2⟩ := List.getElem?_zip_eq_some.1 hp
  rcases ho with ⟨h1, rfl⟩ | ⟨l, h1, h2, rfl⟩
  · have hi : i < xs.length := (List.getElem?_eq_some_iff.1 hq2).1
    rw [List.getElem?_replicate, if_pos hi] at hq1
    rw [h1, outerOf, ← Option.some.inj hq1]
  · rw [List.getElem?_map, Option.map_eq_some_iff] at hq1
    obtain ⟨o, ho1, ho2⟩ := hq1
    rw [h1, outerOf, rd_of_getElem? ho1, ok_bind, ← ho2]

theorem total_of_blocks {spec : NameSpec} {ins : List (Option Name × NVal)} {blocks : List (Nat × Option (List Name))}
    (hb : List.Forall₂ (CBlock spec) ins blocks) : sizeOf' blocks = totalRows (ins.map (fun p => p.2)) := by
  rw [cblocks_size hb, totalRows]
  generalize ins.map (fun p => p.2) = xs
  induction xs with
  | nil => rfl
  | cons x xs ih => cases x <;> simp [rowsOf, NVal.size, ih, List.filterMap_cons]

/-- **C63**: whenever the names of the inputs can be merged with their own names, `vec_c()` gives their
elements in order, the columns of data frames at any depth likewise, and the merged names, repaired.  The
names of the inputs do not count for data frames. -/
theorem C63_combine (h : Name → BitVec 32) {xs : List NVal} {names names' : Option (List Name)} {ptype : NVal}
    {spec : NameSpec} {repair : NameRepair} {outer : List (Option Name)} {kept : List (Option Name × NVal)}
    {blocks : List (Nat × Option (List Name))} (hp : IsPtype ptype)
    (hx : ∀ x ∈ xs, x = .null ∨ ∃ k, HasType k ptype x) (ht : totalRows xs ≤ 2147483647)
    (hn : (∃ t e nms, ptype = .vec t e nms ∧ names' = names) ∨ (∃ m cn cols rn, ptype = .df m cn cols rn ∧ names' = none))
    (ho : OuterNames names' xs outer) (hk : KeptRows (outer.zip xs) kept)
    (hb : List.Forall₂ (CBlock spec) (outer.zip xs) blocks) (hs : ShortNames blocks) :
    ∃ y, vecCNames h xs names ptype spec repair = .ok y ∧ Combined spec repair (outer.zip xs) kept ptype y := by
  have hl := ho.length
  have hv : (outer.zip xs).map (fun p => p.2) = xs := List.map_snd_zip (by omega)
  have hn' : (if ptype.isDf then none else names) = names' := by
    rcases hn with ⟨t, e, nms, rfl, rfl⟩ | ⟨m, cn, cols, rn, rfl, rfl⟩ <;> rfl
  have := vecCNames_ok h (repair := repair) hp (cins_of hn' ho hx) hb hs (by rw [total_of_blocks hb, hv]; exact ht)
  rw [hv, ← hk.eq] at this
  exact this

/-- **C63** (unnamed): without names of the inputs, or for data frames, names can always be merged. -/
theorem C63_unnamed (h : Name → BitVec 32) {xs : List NVal} {names : Option (List Name)} {ptype : NVal}
    {spec : NameSpec} {repair : NameRepair} {kept : List (Option Name × NVal)} (hp : IsPtype ptype)
    (hx : ∀ x ∈ xs, x = .null ∨ ∃ k, HasType k ptype x) (ht : totalRows xs ≤ 2147483647)
    (hn : names = none ∨ ∃ m cn cols rn, ptype = .df m cn cols rn)
    (hs : ∀ x ∈ xs, ∀ l, namesOf x = some l → ∀ s, some s ∈ l → s.length ≤ 2147483619)
    (hk : KeptRows ((List.replicate xs.length none).zip xs) kept) :
    ∃ y, vecCNames h xs names ptype spec repair = .ok y ∧
      Combined spec repair ((List.replicate xs.length none).zip xs) kept ptype y := by
  obtain ⟨blocks, hb, hsh⟩ : ∃ blocks, List.Forall₂ (CBlock spec) ((List.replicate xs.length none).zip xs) blocks ∧
      ShortNames blocks := by
    clear hk ht
    induction xs with
    | nil => exact ⟨[], .nil, nofun⟩
    | cons x xs ih =>
      obtain ⟨bs, h1, h2⟩ := ih (fun q hq => hx q (by simp [hq])) (fun q hq => hs q (by simp [hq]))
      have hsz : rowsOf x = some x.size ∨ x = .null ∧ x.size = 0 := by
        cases x with
        | null => exact Or.inr ⟨rfl, rfl⟩
        | vec => exact Or.inl rfl
        | df => exact Or.inl rfl
      by_cases hz : spec = .zap
      · refine ⟨(x.size, none) :: bs, .cons ⟨hsz, .zap hz⟩ h1, ?_⟩
        intro q hq l hl
        rcases List.mem_cons.1 hq with rfl | hq
        · cases hl
        · exact h2 q hq l hl
      · refine ⟨(x.size, namesOf x) :: bs, .cons ⟨hsz, .unnamed hz⟩ h1, ?_⟩
        intro q hq l hl
        rcases List.mem_cons.1 hq with rfl | hq
        · exact hs x (by simp) l hl
        · exact h2 q hq l hl
  refine C63_combine h (names' := none) hp hx ht ?_ (Or.inl ⟨rfl, rfl⟩) hk hb hsh
  rcases hn with rfl | ⟨m, cn, cols, rn, rfl⟩
  · cases hp with
    | vec => exact Or.inl ⟨_, _, _, rfl, rfl⟩
    | df => exact Or.inr ⟨_, _, _, _, rfl, rfl⟩
  · exact Or.inr ⟨_, _, _, _, rfl, rfl⟩

/-- **C63** (error): without a name specification, the name of an input beside several elements or names is
an error. -/
theorem C63_unmerged (h : Name → BitVec 32) {xs : List NVal} {names : Option (List Name)} {t : VTy} {e : List t.El}
    {start : Option (List Name)} {spec : NameSpec} {repair : NameRepair} {outer : List (Option Name)}
    {pre post : List (Option Name × NVal)} {blocks : List (Nat × Option (List Name))} {o : Option Name} {x : NVal} {n : Nat}
    (hp : IsPtype (.vec t e start)) (hx : ∀ x ∈ xs, x = .null ∨ ∃ k, HasType k (.vec t e start) x)
    (ht : totalRows xs ≤ 2147483647) (ho : OuterNames names xs outer) (hq : outer.zip xs = pre ++ (o, x) :: post)
    (hb : List.Forall₂ (CBlock spec) pre blocks) (hr : rowsOf x = some n) (hu : Unmerged spec n o (namesOf x)) :
    vecCNames h xs names (.vec t e start) spec repair = .error .abort := by
  have hl := ho.length
  have hv : (outer.zip xs).map (fun p => p.2) = xs := List.map_snd_zip (by omega)
  have htot : ((xs.map NVal.size)).sum = totalRows xs := by
    rw [totalRows]
    clear hx ht ho hq hb hr hl hv
    induction xs with
    | nil => rfl
    | cons x xs ih => cases x <;> simp [rowsOf, NVal.size, ih, List.filterMap_cons]
  have := vecCNames_bad h (repair := repair) hp (cins_of rfl ho hx) hq hb (by rw [hv, htot]; exact ht) hr hu
  rw [hv] at this
  exact this

/-- **C63** (determined): the specification leaves no choice. -/
theorem C63_determined {spec : NameSpec} {repair : NameRepair} {ins kept : List (Option Name × NVal)} {ptype y z : NVal}
    (h : Combined spec repair ins kept ptype y) (h' : Combined spec repair ins kept ptype z) : y = z :=
  h.unique h'

/-! ## Examples -/

/-! `vec_c(u = 1L, NULL, c(r = 2L, s = 3L), k = 4:5, .name_spec = f)` -/

def cxXs : List NVal := [.vec (.atom .int) ([1] : List Int) none, .null,
  .vec (.atom .int) ([2, 3] : List Int) (some [some ['u'], some ['s']]), .vec (.atom .int) ([4, 5] : List Int) none]

def cxNames : List Name := [some ['u'], some [], none, some ['k']]

def cxP : NVal := .vec (.atom .int) ([] : List Int) none

def cxBlocks : List (Nat × Option (List Name)) :=
  [(1, some [some ['u']]), (0, some []), (2, some [some ['u'], some ['s']]), (2, some [some ['k'], some ['k']])]

theorem cx_ptype : IsPtype cxP := .vec nofun

theorem cx_inputs : ∀ x ∈ cxXs, x = .null ∨ ∃ k, HasType k cxP x := by
  intro x hx
  simp only [cxXs, List.mem_cons, List.not_mem_nil, or_false] at hx
  rcases hx with rfl | rfl | rfl | rfl
  · exact Or.inr ⟨1, .vec rfl nofun⟩
  · exact Or.inl rfl
  · exact Or.inr ⟨2, .vec rfl (fun l hl => by cases hl; rfl)⟩
  · exact Or.inr ⟨2, .vec rfl nofun⟩

theorem cx_short : ShortNames cxBlocks := by
  intro p hp l hl
  simp only [cxBlocks, List.mem_cons, List.not_mem_nil, or_false] at hp
  rcases hp with rfl | rfl | rfl | rfl <;> cases hl <;> exact (rb_short ⟨rfl, by decide⟩).2

example : ∃ y, vecCNames exHash cxXs (some cxNames) cxP rbSpec .unique = .ok y ∧
    Combined rbSpec .unique ((cxNames.map some).zip cxXs) (keptOf ((cxNames.map some).zip cxXs)) cxP y := by
  refine C63_combine exHash (blocks := cxBlocks) cx_ptype cx_inputs (by decide) (Or.inl ⟨_, _, _, rfl, rfl⟩)
    (Or.inr ⟨_, rfl, rfl, rfl⟩) (keptRows_keptOf _) ?_ cx_short
  exact .cons ⟨Or.inl rfl, .one (fun h => by cases h) (by decide) nofun rfl⟩
    (.cons ⟨Or.inr ⟨rfl, rfl⟩, .blank (n := 0) (fun h => by cases h) (Or.inr rfl)⟩
      (.cons ⟨Or.inl rfl, .inner (fun h => by cases h) (Or.inl rfl)⟩
        (.cons ⟨Or.inl rfl, .index rfl (by decide) nofun (by decide) rfl (Or.inr ⟨_, _, rfl, rfl, Or.inl ⟨rfl, rfl⟩⟩)⟩ .nil)))

/-- The integers of a vector. -/
def exInts : NVal → Option (List Int)
  | .vec (.atom .int) xs _ => some xs
  | _ => none

example :
    exShow exInts (vecCNames exHash cxXs (some cxNames) cxP rbSpec .unique) = .ok (some [1, 2, 3, 4, 5]) ∧
    exShow NVal.vnames (vecCNames exHash cxXs (some cxNames) cxP rbSpec .unique) =
      .ok (some [some ['u', '.', '.', '.', '1'], some ['u', '.', '.', '.', '2'], some ['s'],
        some ['k', '.', '.', '.', '4'], some ['k', '.', '.', '.', '5']]) ∧
    exShow NVal.vnames (vecCNames exHash cxXs (some cxNames) cxP .zap .unique) = .ok none := by
  refine ⟨?_, ?_, ?_⟩ <;> decide +kernel

/-! Without a specification, `k` cannot be merged with two elements. -/

example : vecCNames exHash cxXs (some cxNames) cxP .null .minimal = .error .abort := by
  refine C63_unmerged exHash (outer := cxNames.map some)
    (pre := [(some (some ['u']), .vec (.atom .int) ([1] : List Int) none), (some (some []), .null),
      (some none, .vec (.atom .int) ([2, 3] : List Int) (some [some ['u'], some ['s']]))])
    (post := []) (o := some (some ['k'])) (x := .vec (.atom .int) ([4, 5] : List Int) none) (n := 2)
    (blocks := cxBlocks.take 3) cx_ptype cx_inputs (by decide) (Or.inr ⟨_, rfl, rfl, rfl⟩) rfl ?_ rfl
    ⟨rfl, _, (by decide), rfl, Or.inl (by decide)⟩
  exact .cons ⟨Or.inl rfl, .one (fun h => by cases h) (by decide) nofun rfl⟩
    (.cons ⟨Or.inr ⟨rfl, rfl⟩, .blank (n := 0) (fun h => by cases h) (Or.inr rfl)⟩
      (.cons ⟨Or.inl rfl, .inner (fun h => by cases h) (Or.inl rfl)⟩ .nil))

/-! The data frames of C62, with names that do not count. -/

theorem rb_rowNames : ∀ x ∈ rbXs, ∀ l, namesOf x = some l → ∀ s, some s ∈ l → s.length ≤ 2147483619 := by
  intro x hx l hl
  rcases rb_inputs x hx with rfl | ⟨k, hk⟩
  · cases hl
  · cases hk with
    | df _ _ h3 => exact (h3 l hl).2

example : ∃ y, vecCNames exHash rbXs (some rbNames) (.df 0 rbCn rbCols none) .null .minimal = .ok y ∧
    Combined .null .minimal ((List.replicate 6 none).zip rbXs) [(none, rbA), (none, rbB), (none, rbC), (none, rbD)]
      (.df 0 rbCn rbCols none) y :=
  C63_unnamed exHash rb_ptype rb_inputs (by decide) (Or.inr ⟨_, _, _, _, rfl⟩) rb_rowNames (keptRows_keptOf _)

example :
    exShow exFirst (vecCNames exHash rbXs (some rbNames) (.df 0 rbCn rbCols none) .null .minimal) =
      .ok (some [1, 2, 3, 4, 5, 6]) ∧
    exShow NVal.vnames (vecCNames exHash rbXs (some rbNames) (.df 0 rbCn rbCols none) .null .minimal) =
      .ok (some [some ['.', '.', '.', '1'], some ['r', '.', '.', '.', '2'], some ['s'], some ['.', '.', '.', '4'],
        some ['.', '.', '.', '5'], some ['r', '.', '.', '.', '6']]) := by
  refine ⟨?_, ?_⟩ <;> decide +kernel

end Vctrs
