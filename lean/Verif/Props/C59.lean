import Verif.Lemmas.Table
import Verif.Props.C55

/-!
# C59: slicing keeps rows, columns and names together
-/

namespace Vctrs

open Spec

/-- **C59**: slicing a vector or a data frame, nested to any depth, with locations that
`vec_as_location()` accepts gives exactly those rows in every column with their names, and missing
values for missing locations. -/
theorem C59_slice (h : Name → BitVec 32) {n : Nat} {x : NVal} {i : RSubscript} {loc : List Int}
    (hx : IsTab n x) (hn : n ≤ intMax) (hi : subLength i ≤ intMax)
    (hl : vecAsLocation i n (nameStrings x.vnames) {} = .ok loc) (hm : loc.length ≤ 2147483647) :
    ∃ y, ffiSlice h x i = .ok y ∧ SlicedAs (locations loc) x y := by
  have hnm : ∀ nms, nameStrings x.vnames = some nms → nms.length = n := by
    intro nms hn
    simp only [nameStrings, Option.map_eq_some_iff] at hn
    obtain ⟨a, ha, rfl⟩ := hn
    rw [List.length_map]
    cases hx with
    | vec h1 h2 => exact h2 a ha
    | df h1 h2 h3 => exact (h3 a ha).1
  have hr : SubscriptOk n (.locs loc) := by
    rcases C55_locations (n := n) hi hn hnm with ⟨loc', h1, h2⟩ | h1
    · rw [hl] at h1; cases h1; exact h2
    · rw [hl] at h1; cases h1
  obtain ⟨y, h1, h2⟩ := nvalSlice_ok h hr (pointsAt_locs (loc := loc))
    (by simpa [locations] using hm) x hx
  refine ⟨y, ?_, h2⟩
  cases hx with
  | vec g1 g2 =>
    rw [ffiSlice]
    · simp only [NVal.size, g1]; rw [hl]; exact h1
    · nofun
  | df g1 g2 g3 =>
    rw [ffiSlice]
    · simp only [NVal.size]; rw [hl]; exact h1
    · nofun

/-! Two rows named `r` and `s`, an integer column with names and a nested data frame; the rows 2,
missing and 2. -/

def exTab : NVal := .df 2 [some ['a'], some ['b']]
  [.vec (.atom .int) ([1, 2] : List Int) (some [some ['u'], some ['v']]),
   .df 2 [some ['c']] [.vec (.atom .chr) ([some ['x'], some ['y']] : List Name) none] none]
  (some [some ['r'], some ['s']])

def exHash : Name → BitVec 32 := fun _ => 7

/-- The integers in the first column. -/
def exFirst : NVal → Option (List Int)
  | .df _ _ (.vec (.atom .int) xs _ :: _) _ => some xs
  | _ => none

/-- The names in the first column. -/
def exFirstNames : NVal → Option (List Name)
  | .df _ _ (.vec _ _ nms :: _) _ => nms
  | _ => none

/-- The strings in the first column of the second column. -/
def exNested : NVal → Option (List Name)
  | .df _ _ [_, .df _ _ (.vec (.atom .chr) xs _ :: _) _] _ => some xs
  | _ => none

/-- A part of the result. -/
def exShow {α : Type} (f : NVal → α) (c : C NVal) : C α := do
  let y ← c
  .ok (f y)

theorem exTab_isTab : IsTab 2 exTab := by
  refine .df rfl ?_ ?_
  · intro p hp
    simp only [List.mem_cons, List.not_mem_nil, or_false] at hp
    rcases hp with rfl | rfl
    · exact .vec rfl (by intro l hl; cases hl; rfl)
    · refine .df rfl ?_ nofun
      intro p hp
      simp only [List.mem_cons, List.not_mem_nil, or_false] at hp
      subst hp
      exact .vec rfl nofun
  · intro l hl
    cases hl
    refine ⟨rfl, ?_⟩
    intro s hs
    simp only [List.mem_cons, Option.some.injEq, List.not_mem_nil, or_false] at hs
    rcases hs with rfl | rfl <;> simp

example : vecAsLocation (.int [2, naInt, 2] : RSubscript) 2 (nameStrings exTab.vnames) {} = .ok [2, naInt, 2] := by
  decide +kernel

example : ∃ y, ffiSlice exHash exTab (.int [2, naInt, 2]) = .ok y ∧
    SlicedAs [some 1, none, some 1] exTab y :=
  C59_slice exHash exTab_isTab (by decide) (by decide +kernel) (loc := [2, naInt, 2]) (by decide +kernel) (by decide)

example : exShow NVal.size (ffiSlice exHash exTab (.int [2, naInt, 2])) = .ok 3 ∧
    exShow exFirst (ffiSlice exHash exTab (.int [2, naInt, 2])) =
      .ok (some [2, naInt, 2]) ∧
    exShow exFirstNames (ffiSlice exHash exTab (.int [2, naInt, 2])) = .ok (some [some ['v'], some [], some ['v']]) ∧
    exShow exNested (ffiSlice exHash exTab (.int [2, naInt, 2])) = .ok (some [some ['y'], none, some ['y']]) ∧
    exShow NVal.vnames (ffiSlice exHash exTab (.int [2, naInt, 2])) =
      .ok (some [some "s...1".toList, some "...2".toList, some "s...3".toList]) := by
  refine ⟨?_, ?_, ?_, ?_, ?_⟩ <;> decide +kernel

/-- **C59** (errors): an invalid subscript is the only error. -/
theorem C59_error (h : Name → BitVec 32) {n : Nat} {x : NVal} {i : RSubscript} {e : Err}
    (hx : IsTab n x) (hl : vecAsLocation i n (nameStrings x.vnames) {} = .error e) :
    ffiSlice h x i = .error e := by
  cases hx with
  | vec g1 g2 =>
    rw [ffiSlice]
    · simp only [NVal.size, g1]; rw [hl]; rfl
    · nofun
  | df g1 g2 g3 =>
    rw [ffiSlice]
    · simp only [NVal.size]; rw [hl]; rfl
    · nofun

example : vecAsLocation (.int [3] : RSubscript) 2 (nameStrings exTab.vnames) {} = .error .abort ∧
    ffiSlice exHash exTab (.int [3]) = .error .abort := by
  have h : vecAsLocation (.int [3] : RSubscript) 2 (nameStrings exTab.vnames) {} = .error .abort := by decide +kernel
  exact ⟨h, C59_error exHash exTab_isTab h⟩

/-- **C59** (`vec_init()`): `n` rows of missing values. -/
theorem C59_init (h : Name → BitVec 32) {m n : Nat} {x : NVal} (hx : IsTab m x) (hn : n ≤ 2147483647) :
    ∃ y, nvalInit h x n = .ok y ∧ SlicedAs (List.replicate n none) x y := nvalInit_ok h hx hn

example : exShow exFirst (nvalInit exHash exTab 2) = .ok (some [naInt, naInt]) ∧
    exShow exFirstNames (nvalInit exHash exTab 2) = .ok (some [some [], some []]) ∧
    exShow exNested (nvalInit exHash exTab 2) = .ok (some [none, none]) ∧
    exShow NVal.vnames (nvalInit exHash exTab 2) = .ok (some [some "...1".toList, some "...2".toList]) := by
  refine ⟨?_, ?_, ?_, ?_⟩ <;> decide +kernel

/-- **C59** (row names): row names after slicing are distinct and neither missing nor empty, whatever
rows are repeated or missing. -/
theorem C59_row_names {locs : List (Option Nat)} {x : NVal} {m : Nat} {cn rn : List Name} {cols : List NVal}
    (hs : SlicedAs locs x (.df m cn cols (some rn))) : rn.length = m ∧ rn.Nodup ∧ none ∉ rn ∧ some [] ∉ rn := by
  generalize hy : NVal.df m cn cols (some rn) = y at hs
  cases hs with
  | vec => cases hy
  | df h1 h2 h3 =>
    cases hy
    rcases h3 with ⟨_, h3⟩ | ⟨a, b, c, d, h3, h4, h5, h6, h7⟩
    · cases h3
    · cases h4
      refine ⟨by rw [h7.size, h6.size, h5.1], ?_, ?_, ?_⟩
      · rw [List.nodup_iff_getElem?_ne_getElem?]
        intro i j hij hj he
        have := h7.inj (i := i) (j := j) (n := rn[j]) (by
          rw [he]; exact List.getElem?_eq_getElem hj) (List.getElem?_eq_getElem hj)
        omega
      · intro hm
        obtain ⟨s, hs, _⟩ := h7.valid _ hm
        simp at hs
      · intro hm
        obtain ⟨s, hs, h0⟩ := h7.valid _ hm
        simp at hs
        exact h0 hs

/-- **C59** (row names kept): rows selected once, whose names are distinct, valid and without a
`...<digits>` suffix, keep their names. -/
theorem C59_row_names_kept {locs : List (Option Nat)} {n m : Nat} {cn cn' rn rn' : List Name} {cols cols' : List NVal}
    (hs : SlicedAs locs (.df n cn cols (some rn)) (.df m cn' cols' (some rn'))) {k i : Nat} {s : List Char}
    (hk : locs[k]? = some (some i)) (hi : rn[i]? = some (some s)) (hb : ¬ BadName s) (hsuf : ∀ b, ¬ Suffixed b s)
    (h1 : ∀ j : Nat, j ≠ k → locs[j]? ≠ some (some i))
    (h2 : ∀ (j : Nat) (t : List Char), j ≠ i → rn[j]? = some (some t) → ¬ BadName t → ¬ StripsTo t s)
    (hne : s ≠ []) : rn'[k]? = some (some s) := by
  have hbase : ∀ {nm : Name}, BaseName nm s → ∃ t, nm = some t ∧ ¬ BadName t ∧ StripsTo t s := by
    intro nm h
    cases nm with
    | none => exact absurd h hne
    | some t =>
      rcases h with ⟨_, h⟩ | ⟨h3, h4⟩
      · exact absurd h hne
      · exact ⟨t, rfl, h3, h4⟩
  have hself : BaseName (some s) s := Or.inr ⟨hb, .done hsuf⟩
  cases hs with
  | df g1 g2 g3 =>
    rcases g3 with ⟨g3, _⟩ | ⟨a, b, c, d, g3, g4, g5, g6, g7⟩
    · cases g3
    · cases g3; cases g4
      obtain ⟨v, h3, h4⟩ := g5.2.2 k i hk
      rw [hi] at h4; cases h4
      have other : ∀ (j : Nat) (nm : Name), j ≠ k → b[j]? = some nm → ¬ BaseName nm s := by
        intro j nm hj hnm hbn
        obtain ⟨t, rfl, h5, h6⟩ := hbase hbn
        have hjl : j < locs.length := by rw [← g5.1]; exact (List.getElem?_eq_some_iff.1 hnm).1
        have hlj := List.getElem?_eq_getElem hjl
        cases hl : locs[j] with
        | none =>
          obtain ⟨v, h7, h8⟩ := g5.2.1 j (by rw [hlj, hl])
          rw [hnm, h8] at h7; cases h7
        | some i' =>
          obtain ⟨v, h7, h8⟩ := g5.2.2 j i' (by rw [hlj, hl])
          rw [hnm] at h7; cases h7
          by_cases hii : i' = i
          · exact h1 j hj (by rw [hlj, hl, hii])
          · exact h2 i' t hii h8 h5 h6
      have hc := g6.keep k _ s h3 hself hne other
      refine g7.keep k _ s hc hself hne ?_
      intro j nm hj hnm hbn
      obtain ⟨nb, hnb⟩ : ∃ nb, b[j]? = some nb := by
        have : j < b.length := by rw [← g6.size]; exact (List.getElem?_eq_some_iff.1 hnm).1
        exact ⟨_, List.getElem?_eq_getElem this⟩
      have e1 := g6.base hnb hnm
      rw [baseName_iff.1 hbn] at e1
      split at e1
      · exact hne e1
      · exact other j nb hj hnb (baseName_iff.2 e1.symm)

/-- The second row of the example keeps its name when the rows are swapped. -/
example : ∃ y, ffiSlice exHash exTab (.int [2, 1]) = .ok y ∧
    ∀ m cn cols rn, y = .df m cn cols (some rn) → rn[0]? = some (some ['s']) := by
  obtain ⟨y, h1, h2⟩ := C59_slice exHash exTab_isTab (i := .int [2, 1]) (by decide) (by decide +kernel)
    (loc := [2, 1]) (by decide +kernel) (by decide)
  refine ⟨y, h1, ?_⟩
  rintro m cn cols rn rfl
  have hsuf : ∀ (c : Char) b, ¬ Suffixed b [c] := by
    rintro c b ⟨_, d, _, _, h⟩
    have := congrArg List.length h
    simp at this
    omega
  have hbad : ∀ c : Char, ¬ BadName [c] := by
    rintro c (h | h | ⟨p, w, g, d, r, h1, _, _, _, _, h⟩)
    · cases h
    · cases h
    · have := congrArg List.length h
      rcases h1 with rfl | rfl <;> simp at this <;> omega
  refine C59_row_names_kept h2 (i := 1) rfl rfl (hbad _) (hsuf _) ?_ ?_ (by decide)
  · intro j hj he
    match j with
    | 0 => exact hj rfl
    | 1 => cases he
    | j + 2 => cases he
  · intro j t hj ht hb hs
    match j with
    | 0 =>
      cases ht
      cases hs with
      | step h => exact hsuf _ _ h
    | 1 => exact hj rfl
    | j + 2 => cases ht

end Vctrs
