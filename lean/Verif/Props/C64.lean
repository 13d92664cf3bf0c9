import Verif.Lemmas.Scatter
import Verif.Props.C63

/-!
# C64: vec_assign() replaces the located elements in every column and no others
-/

namespace Vctrs

open Spec

theorem Spec.HasType.isTab {k : Nat} {p x : NVal} (hp : IsPtype p) (h : HasType k p x) : IsTab k x := by
  induction h with
  | vec h1 h2 => exact .vec h1 h2
  | @df m cn pcols cols rn h1 h2 h3 ih =>
    cases hp with
    | df g1 g2 =>
      refine .df (by omega) ?_ h3
      intro q hq
      obtain ⟨c, hc⟩ := List.mem_iff_getElem?.1 hq
      have hcl := (List.getElem?_eq_some_iff.1 hc).1
      have hpc := List.getElem?_eq_getElem (l := pcols) (i := c) (by omega)
      exact ih c _ q hpc hc (g2 _ (List.mem_of_getElem? hpc))

theorem nameStrings_length {n : Nat} {x : NVal} (hx : IsTab n x) : ∀ nms, nameStrings x.vnames = some nms → nms.length = n := by
  intro nms hn
  simp only [nameStrings, Option.map_eq_some_iff] at hn
  obtain ⟨a, ha, rfl⟩ := hn
  rw [List.length_map]
  cases hx with
  | vec h1 h2 => exact h2 a ha
  | df h1 h2 h3 => exact (h3 a ha).1

theorem nvalAssignAt_eq (h : Name → BitVec 32) {keep : Bool} {n m : Nat} {x value : NVal} (hx : IsTab n x)
    (hv : IsTab m value) (i : RSubscript) : nvalAssignAt h keep x i value = (do
      let loc ← vecAsLocation i n (nameStrings x.vnames) {}
      let value ← nvalRecycle h value loc.length
      let out ← nvalAssign keep (.locs loc) x value
      nvalRestore h out) := by
  have hs := hx.size_eq
  have hnn := hx.notNull
  unfold nvalAssignAt
  cases x with
  | null => cases hnn
  | vec => dsimp only; rw [hv.notNull, if_neg (by simp), hs]
  | df => dsimp only; rw [hv.notNull, if_neg (by simp), hs]

/-- **C64**: assigning to a vector or a data frame, nested to any depth, at locations that `vec_as_location()`
accepts gives at each location the last value assigned there, in every column, and keeps all others.  Names are
assigned only if `keep`. -/
theorem C64_assign (h : Name → BitVec 32) {keep : Bool} {n m : Nat} {p x value v : NVal} {i : RSubscript} {loc : List Int}
    (hp : IsPtype p) (hx : HasType n p x) (hvt : IsTab m value) (hn : n ≤ intMax) (hi : subLength i ≤ intMax)
    (hl : vecAsLocation i n (nameStrings x.vnames) {} = .ok loc) (hm : loc.length ≤ 2147483647)
    (hr : Recycled loc.length value v) (hv : HasType loc.length p v) :
    ∃ y, nvalAssignAt h keep x i value = .ok y ∧ AssignedAt keep loc x v y := by
  have hxt := hx.isTab hp
  have hloc : LocsOk n loc := by
    rcases C55_locations (n := n) hi hn (nameStrings_length hxt) with ⟨loc', h1, h2⟩ | h1
    · rw [hl] at h1; cases h1; exact h2
    · rw [hl] at h1; cases h1
  have hmm : m = loc.length ∨ m = 1 := by
    have e := hvt.rowsOf
    rcases hr with ⟨h1, _⟩ | ⟨h1, _⟩ <;> rw [e] at h1 <;> cases h1
    · exact Or.inl rfl
    · exact Or.inr rfl
  obtain ⟨v', hv1, hv2⟩ := nvalRecycle_ok h hvt hm hmm
  have : v' = v := hv2.unique hr
  subst this
  obtain ⟨z, hz1, hz2⟩ := (Scattered.start (keep := keep) hx).step hx hv hloc
  have hn' : n ≤ 2147483647 := hn
  obtain ⟨y, hy1, hy2⟩ := hz2.restore h hx (by
    intro q hq
    simp only [List.nil_append, List.mem_singleton] at hq
    subst hq; exact hv) hn'
  refine ⟨y, ?_, z, hz2, hy2⟩
  rw [nvalAssignAt_eq h hxt hvt, hl, ok_bind, hv1, ok_bind, hz1, ok_bind, hy1]

/-- **C64** (no recycling): a value with one row for each location. -/
theorem C64_assign_exact (h : Name → BitVec 32) {keep : Bool} {n : Nat} {p x value : NVal} {i : RSubscript} {loc : List Int}
    (hp : IsPtype p) (hx : HasType n p x) (hn : n ≤ intMax) (hi : subLength i ≤ intMax)
    (hl : vecAsLocation i n (nameStrings x.vnames) {} = .ok loc) (hm : loc.length ≤ 2147483647)
    (hv : HasType loc.length p value) :
    ∃ y, nvalAssignAt h keep x i value = .ok y ∧ AssignedAt keep loc x value y :=
  C64_assign h hp hx (hv.isTab hp) hn hi hl hm (Or.inl ⟨(hv.isTab hp).rowsOf, rfl⟩) hv

/-- **C64** (errors): an invalid subscript, a value that cannot be recycled to the number of locations and
`NULL` as a value are errors. -/
theorem C64_error (h : Name → BitVec 32) {keep : Bool} {n m : Nat} {x value : NVal} {i : RSubscript} (hx : IsTab n x)
    (hv : IsTab m value) :
    (∀ e, vecAsLocation i n (nameStrings x.vnames) {} = .error e → nvalAssignAt h keep x i value = .error e) ∧
    (∀ loc, vecAsLocation i n (nameStrings x.vnames) {} = .ok loc → m ≠ loc.length → m ≠ 1 →
      nvalAssignAt h keep x i value = .error .abort) ∧
    nvalAssignAt h keep x i .null = .error .abort := by
  refine ⟨?_, ?_, ?_⟩
  · intro e he
    rw [nvalAssignAt_eq h hx hv, he]; rfl
  · intro loc hl h1 h2
    rw [nvalAssignAt_eq h hx hv, hl, ok_bind, nvalRecycle_bad h hv ⟨h1, h2⟩]; rfl
  · have hnn := hx.notNull
    unfold nvalAssignAt
    cases x with
    | null => cases hnn
    | vec => rfl
    | df => rfl

/-- **C64** (determined): the specification leaves no choice. -/
theorem C64_determined {keep : Bool} {loc : List Int} {x v y z : NVal} (h : AssignedAt keep loc x v y)
    (h' : AssignedAt keep loc x v z) : y = z := by
  obtain ⟨m, h1, h2⟩ := h
  obtain ⟨m', h3, h4⟩ := h'
  have := h1.unique h3
  subst this
  exact h2.unique h4

/-- **C64** (read back): the last value at a location is found there. -/
theorem C64_read_back {keep : Bool} {loc : List Int} {t : VTy} {xs vs : List t.El} {a b : Option (List Name)} {y : NVal}
    (h : AssignedAt keep loc (.vec t xs a) (.vec t vs b) y) (hl : vs.length = loc.length) {k l : Nat}
    (hk : loc[k]? = some ((l : Int) + 1)) (hkl : l < xs.length) (hlast : ∀ j, k < j → loc[j]? ≠ some ((l : Int) + 1)) :
    ∃ ys c, y = .vec t ys c ∧ ys.length = xs.length ∧ ys[l]? = vs[k]? := by
  obtain ⟨m, h1, h2⟩ := h
  generalize he : [(loc, NVal.vec t vs b)] = ps at h1
  cases h1 with
  | @vec _ _ ys _ c parts hw hn =>
    cases h2
    refine ⟨ys, c, rfl, hw.1, ?_⟩
    have hps := parts_inj (ps := [(loc, vs, b)]) (qs := parts) he
    rw [← hps] at hw
    simp only [List.flatMap_cons, List.flatMap_nil, List.append_nil] at hw
    have hkv : k < vs.length := by rw [hl]; exact (List.getElem?_eq_some_iff.1 hk).1
    have hv := List.getElem?_eq_getElem hkv
    have hz : (loc.zip vs)[k]? = some ((l : Int) + 1, vs[k]) := List.getElem?_zip_eq_some.2 ⟨hk, hv⟩
    have hmem := List.mem_of_getElem? hz
    rcases hw.2 l hkl with ⟨pre, v, post, e, hpost, hvv⟩ | ⟨hno, _⟩
    · rw [hvv, hv]
      congr 1
      have hzk := (List.getElem?_eq_some_iff.1 hz).1
      have hze := (List.getElem?_eq_some_iff.1 hz).2
      refine last_write_unique (k := (l : Int) + 1) (pre := pre) (post := post) (pre' := (loc.zip vs).take k)
        (post' := (loc.zip vs).drop (k + 1)) ?_ hpost ?_
      · rw [← e, ← hze, ← List.drop_eq_getElem_cons hzk, List.take_append_drop]
      · intro w hw hc
        obtain ⟨j, hj⟩ := List.mem_iff_getElem?.1 hw
        rw [List.getElem?_drop] at hj
        obtain ⟨k1, _⟩ := List.getElem?_zip_eq_some.1 hj
        exact hlast (k + 1 + j) (by omega) (by rw [k1, hc])
    · exact absurd rfl (hno _ hmem)

/-! ## Examples -/

/-! Rows 2, missing and 2 of a data frame with a nested data frame. -/

def asP : NVal := .df 0 [some ['a'], some ['b']]
  [.vec (.atom .int) ([] : List Int) none,
   .df 0 [some ['c']] [.vec (.atom .chr) ([] : List Name) none] none] none

def asV : NVal := .df 3 [some ['a'], some ['b']]
  [.vec (.atom .int) ([7, 8, 9] : List Int) (some [some ['x'], some ['y'], some ['z']]),
   .df 3 [some ['c']] [.vec (.atom .chr) ([some ['k'], some ['l'], some ['m']] : List Name) none] none]
  (some [some ['f'], some ['g'], some ['r']])

theorem as_ptype : IsPtype asP := by
  refine .df rfl ?_
  intro p hp
  simp only [List.mem_cons, List.not_mem_nil, or_false] at hp
  rcases hp with rfl | rfl
  · exact .vec nofun
  · refine .df rfl ?_
    intro p hp
    simp only [List.mem_cons, List.not_mem_nil, or_false] at hp
    subst hp
    exact .vec nofun

theorem as_typed {k : Nat} {xs : List Int} {ys : List Name} {nms : Option (List Name)} {rn : List Name} (h1 : xs.length = k)
    (h2 : ys.length = k) (h3 : ∀ l, nms = some l → l.length = k) (h4 : rn.length = k) (h5 : ∀ q ∈ rn, q.all (fun s => s.length ≤ 1) = true) :
    HasType k asP (.df k [some ['a'], some ['b']] [.vec (.atom .int) xs nms,
      .df k [some ['c']] [.vec (.atom .chr) ys none] none] (some rn)) := by
  refine .df rfl ?_ ?_
  · intro c p x hp hx
    match c with
    | 0 => cases hp; cases hx; exact .vec h1 h3
    | 1 =>
      cases hp; cases hx
      refine .df rfl ?_ nofun
      intro c p x hp hx
      match c with
      | 0 => cases hp; cases hx; exact .vec h2 nofun
      | c + 1 => cases hp
    | c + 2 => cases hp
  · intro l hl
    cases hl
    exact ⟨h4, fun s hs => Nat.le_trans (by simpa using h5 _ hs) (by decide)⟩

theorem as_x : HasType 2 asP exTab := as_typed rfl rfl (fun l hl => by cases hl; rfl) rfl (by decide)

theorem as_v : HasType 3 asP asV := as_typed rfl rfl (fun l hl => by cases hl; rfl) rfl (by decide)

example (keep : Bool) : ∃ y, nvalAssignAt exHash keep exTab (.int [2, naInt, 2]) asV = .ok y ∧
    AssignedAt keep [2, naInt, 2] exTab asV y :=
  C64_assign_exact exHash as_ptype as_x (by decide) (by decide +kernel) (by decide +kernel) (by decide) as_v

example :
    exShow exFirst (nvalAssignAt exHash false exTab (.int [2, naInt, 2]) asV) = .ok (some [1, 9]) ∧
    exShow exFirstNames (nvalAssignAt exHash false exTab (.int [2, naInt, 2]) asV) = .ok (some [some ['u'], some ['v']]) ∧
    exShow exFirstNames (nvalAssignAt exHash true exTab (.int [2, naInt, 2]) asV) = .ok (some [some ['u'], some ['z']]) ∧
    exShow exNested (nvalAssignAt exHash false exTab (.int [2, naInt, 2]) asV) = .ok (some [some ['x'], some ['m']]) ∧
    exShow NVal.vnames (nvalAssignAt exHash false exTab (.int [2, naInt, 2]) asV) = .ok (some [some ['r'], some ['s']]) ∧
    exShow NVal.vnames (nvalAssignAt exHash true exTab (.int [2, naInt, 2]) asV) =
      .ok (some [some "r...1".toList, some "r...2".toList]) := by
  refine ⟨?_, ?_, ?_, ?_, ?_, ?_⟩ <;> decide +kernel

/-! A value of one element is recycled. -/

def asInts : NVal := .vec (.atom .int) ([1, 2, 3] : List Int) (some [some ['a'], some ['b'], some ['c']])

example : ∃ y, nvalAssignAt exHash false asInts (.chr [some "c", some "a"]) (.vec (.atom .int) ([9] : List Int) none) = .ok y ∧
    AssignedAt false [3, 1] asInts (.vec (.atom .int) ([9, 9] : List Int) none) y :=
  C64_assign exHash (n := 3) (m := 1) (p := .vec (.atom .int) ([] : List Int) none) (.vec nofun)
    (.vec rfl (fun l hl => by cases hl; rfl)) (.vec rfl nofun) (by decide) (by decide +kernel) (by decide +kernel) (by decide)
    (Or.inr ⟨rfl, by decide, .vec ⟨rfl, fun k hk => by
      match k with
      | 0 => cases hk
      | 1 => cases hk
      | k + 2 => simp at hk, fun k i hk => by
      match k with
      | 0 => cases hk; exact ⟨_, rfl, rfl⟩
      | 1 => cases hk; exact ⟨_, rfl, rfl⟩
      | k + 2 => simp at hk⟩ (Or.inl ⟨rfl, rfl⟩)⟩)
    (.vec rfl nofun)

example : exShow exInts
    (nvalAssignAt exHash false asInts (.chr [some "c", some "a"]) (.vec (.atom .int) ([9] : List Int) none)) =
    .ok (some ([9, 2, 9] : List Int)) := by decide +kernel

example : nvalAssignAt exHash false asInts (.int [1, 2, 3]) (.vec (.atom .int) ([9, 8] : List Int) none) = .error .abort :=
  (C64_error exHash (n := 3) (m := 2) (x := asInts) (value := .vec (.atom .int) ([9, 8] : List Int) none)
    (.vec rfl (fun l hl => by cases hl; rfl)) (.vec rfl nofun)).2.1 [1, 2, 3]
    (by decide +kernel) (by decide) (by decide)

end Vctrs
