import Verif.Lemmas.Hash
import Verif.Lemmas.Dictionary

/-! # C27: incomplete rows are marked when `na_equal = FALSE`

True as long as no raw column stands to the right of the last missing value of a row.
`raw_hash_fill_na_propagate` (src/hash.c:357-359) does not look at the marker and overwrites
it. -/

namespace Vctrs

open Spec

/-- C27 would be: `dictIncomplete addr x i` answers TRUE iff some column of `x` is missing in row
`i`.  It never answers TRUE for a complete row; it answers TRUE for an incomplete row if no raw
column comes after the last missing value (missing: rows where one does, for which it is
false by `C27_raw_column`). -/
theorem C27_incomplete_rows_partial (addr : Name → BitVec 64) (x : Val) (hx : Flat x)
    (ho : HashableVal addr x) (i : Nat) (hi : i < x.size) :
    ∃ b, dictIncomplete addr x i = .ok b ∧
      ((¬ ∃ (c : Nat) (p : Val), (columns x)[c]? = some p ∧ MissingCell p i) → b = false) ∧
      ((∃ (c : Nat) (p : Val), (columns x)[c]? = some p ∧ MissingCell p i ∧
        ∀ (d : Nat) (xs : List (BitVec 8)), c < d →
          (columns x)[d]? ≠ some (.vec (.atom .raw) xs)) → b = true) := by
  obtain ⟨hs, h1, h2, h3⟩ := dictHashes_rows addr false hx ho
  obtain ⟨h, hh, hr⟩ := h3 i hi
  obtain ⟨b, hb, hbi⟩ := pIsIncomplete_ok hx hi
  unfold dictIncomplete
  rw [h1, ok_bind, rd_of_getElem? hh, ok_bind]
  by_cases hm : h = hashMissing
  · rw [if_pos hm, hb]
    refine ⟨b, rfl, fun hn => ?_, ?_⟩
    · cases b
      · rfl
      · exact absurd (hbi.1 rfl) hn
    · rintro ⟨c, p, hp, hmc, -⟩
      exact hbi.2 ⟨c, p, hp, hmc⟩
  · rw [if_neg hm]
    refine ⟨false, rfl, fun _ => rfl, ?_⟩
    rintro ⟨c, p, hp, hmc, hraw⟩
    refine absurd ?_ hm
    refine rowSlot_missing addr hi (columns x) 0 h hr ?_ c p hp hmc hraw
    intro q hq
    obtain ⟨d, hd⟩ := List.mem_iff_getElem?.1 hq
    obtain ⟨t, xs, -, e1, -, l1, -⟩ := hx.cols d q q hd hd
    exact ⟨t, xs, e1, l1⟩

/-- The equivalence, for every sequence of column types without raw: lists, nested or not, and
strings included. -/
theorem C27_no_raw_columns (addr : Name → BitVec 64) (x : Val) (hx : Flat x)
    (ho : HashableVal addr x) (hraw : ∀ xs : List (BitVec 8), Val.vec (.atom .raw) xs ∉ columns x)
    (i : Nat) (hi : i < x.size) :
    ∃ b, dictIncomplete addr x i = .ok b ∧
      (b = true ↔ ∃ (c : Nat) (p : Val), (columns x)[c]? = some p ∧ MissingCell p i) := by
  obtain ⟨b, h1, h2, h3⟩ := C27_incomplete_rows_partial addr x hx ho i hi
  refine ⟨b, h1, fun hb => ?_, ?_⟩
  · by_contra hn
    rw [h2 hn] at hb
    cases hb
  · rintro ⟨c, p, hp, hm⟩
    exact h3 ⟨c, p, hp, hm, fun d xs _ hd => hraw xs (List.mem_of_getElem? hd)⟩

/-- A vector on its own is never affected, raw or not. -/
theorem C27_vector (addr : Name → BitVec 64) (t : ATy) (xs : List t.El) (i : Nat) (a : t.El)
    (ha : xs[i]? = some a) :
    ∃ b, dictIncomplete addr (.vec (.atom t) xs) i = .ok b ∧ (b = true ↔ MissingAtom t a) := by
  have hx : Flat (.vec (.atom t) xs) :=
    { kind := trivial, size := rfl, ncol := rfl, cols := by
        intro c p q hp hq
        match c, hp, hq with
        | 0, hp, hq => cases hp; cases hq; exact ⟨_, _, _, rfl, rfl, rfl, rfl⟩
        | _ + 1, hp, hq => simp [columns] at hp }
  have hi : i < (Val.vec (.atom t) xs).size := (List.getElem?_eq_some_iff.1 ha).1
  obtain ⟨b, h1, h2, h3⟩ := C27_incomplete_rows_partial addr _ hx (fun l hl => by
    simp only [columns, List.mem_cons, List.not_mem_nil, or_false] at hl
    cases hl) i hi
  refine ⟨b, h1, fun hb => ?_, fun hm => h3 ⟨0, _, rfl, ⟨a, ha, hm⟩, fun d ys hd => ?_⟩⟩
  · by_contra hn
    rw [h2] at hb
    · cases hb
    · rintro ⟨c, p, hp, hmc⟩
      match c, hp with
      | 0, hp =>
        simp only [columns, List.getElem?_cons_zero, Option.some.injEq] at hp
        subst hp
        obtain ⟨a', ha', hm⟩ := hmc
        have e : some a' = some a := ha'.symm.trans ha
        cases e
        exact hn hm
      | c + 1, hp => simp [columns] at hp
  · match d, hd with
    | d + 1, _ => simp [columns]

/-! ## `vec_in()` and `vec_match()` on rows -/

theorem rowHashPropagate_marked (addr : Name → BitVec 64) : (ts : List ATy) → .raw ∉ ts →
    (r : Row ts) → rowHashPropagate addr ts r hashMissing = hashMissing
  | [], _, _ => rfl
  | t :: ts, hr, (a, r) => by
      have h1 : t ≠ .raw := fun h => hr (by simp [h])
      have h2 : .raw ∉ ts := fun h => hr (by simp [h])
      simp only [rowHashPropagate]
      rw [if_neg h1, if_pos trivial]
      exact rowHashPropagate_marked addr ts h2 r

theorem rowHashPropagate_incomplete (addr : Name → BitVec 64) : (ts : List ATy) → .raw ∉ ts →
    (r : Row ts) → (h : BitVec 32) → rowIsIncomplete ts r = true →
    rowHashPropagate addr ts r h = hashMissing
  | [], _, _, _, hi => by simp [rowIsIncomplete] at hi
  | t :: ts, hr, (a, r), h, hi => by
      have h1 : t ≠ .raw := fun h => hr (by simp [h])
      have h2 : .raw ∉ ts := fun h => hr (by simp [h])
      simp only [rowHashPropagate]
      simp only [rowIsIncomplete] at hi
      rw [if_neg h1]
      by_cases hh : h = hashMissing
      · rw [if_pos hh, hh]
        exact rowHashPropagate_marked addr ts h2 r
      · rw [if_neg hh]
        cases hm : isMissing t a
        · rw [hm, if_neg (by simp)] at hi
          exact rowHashPropagate_incomplete addr ts h2 r _ hi
        · rw [if_pos rfl]
          exact rowHashPropagate_marked addr ts h2 r

theorem rowIsIncomplete_iff : (ts : List ATy) → (r : Row ts) →
    (rowIsIncomplete ts r = true ↔ SomeMissing ts r)
  | [], _ => by show false = true ↔ False; simp
  | t :: ts, (a, r) => by
      have h1 : isMissing t a = true ↔ MissingAtom t a := missingScalar_iff (.atom t) a
      show (if isMissing t a then true else rowIsIncomplete ts r) = true ↔
        MissingAtom t a ∨ SomeMissing ts r
      rw [← h1, ← rowIsIncomplete_iff ts r]
      cases isMissing t a <;> simp

theorem rowEqual_iff : (ts : List ATy) → (r s : Row ts) →
    (rowEqual ts r s = true ↔ SameCells ts r s)
  | [], _, _ => by show true = true ↔ True; simp
  | t :: ts, (a, r), (b, s) => by
      show (if !equalNaEqual t a b then false else rowEqual ts r s) = true ↔
        SameAtom t a b ∧ SameCells ts r s
      rw [← equalNaEqual_same, ← rowEqual_iff ts r s]
      cases equalNaEqual t a b <;> simp

/-- `vec_in(na_equal = FALSE)` on data frames without raw columns: NA for exactly the incomplete
needles, and otherwise whether the same row is in the haystack. -/
theorem C27_in_rows (addr : Name → BitVec 64) (ts : List ATy) (hraw : .raw ∉ ts)
    (needles haystack : List (Row ts)) (hn : haystack.length ≤ 2147483647) :
    ∃ out, vecIn (rowOps addr false ts) (rowIsIncomplete ts) false needles haystack = .ok out ∧
      out.length = needles.length ∧
      ∀ (i : Nat) (y : Row ts), needles[i]? = some y → ∃ r, out[i]? = some r ∧
        (SomeMissing ts y → r = none) ∧
        (¬ SomeMissing ts y → ∃ b, r = some b ∧ (b = true ↔ ∃ a ∈ haystack, SameCells ts a y)) := by
  obtain ⟨out, h1, h2, h3⟩ := vecIn_ok (rowOps_eqv addr false ts) (rowIsIncomplete ts) false
    (fun _ r hr => rowHashPropagate_incomplete addr ts hraw r 0 hr) needles haystack hn
  refine ⟨out, h1, h2, fun i y hy => ?_⟩
  have hi := (List.getElem?_eq_some_iff.1 hy).1
  obtain ⟨r, hr, hr'⟩ := h3 i hi
  refine ⟨r, hr, ?_⟩
  have := hr' y hy
  unfold InRes at this
  rw [← rowIsIncomplete_iff]
  constructor
  · intro hm
    rwa [if_pos ⟨rfl, hm⟩] at this
  · intro hm
    rw [if_neg (fun h => hm h.2)] at this
    obtain ⟨b, hb, hb'⟩ := this
    refine ⟨b, hb, hb'.trans ?_⟩
    constructor
    · rintro ⟨a, ha, he⟩; exact ⟨a, ha, (rowEqual_iff ts a y).1 he⟩
    · rintro ⟨a, ha, he⟩; exact ⟨a, ha, (rowEqual_iff ts a y).2 he⟩

/-! ## The raw column -/

/-- `data_frame(x = NA_integer_, y = as.raw(1))`. -/
def C27_x : Val := .df 1 [.vec (.atom .int) [(naInt : Int)], .vec (.atom .raw) [(1#8 : BitVec 8)]]

/-- The same with the columns swapped. -/
def C27_y : Val := .df 1 [.vec (.atom .raw) [(1#8 : BitVec 8)], .vec (.atom .int) [(naInt : Int)]]

theorem C27_flat : Flat C27_x where
  kind := trivial
  size := rfl
  ncol := rfl
  cols c p q hp hq := by
    match c, hp, hq with
    | 0, hp, hq => cases hp; cases hq; exact ⟨_, _, _, rfl, rfl, rfl, rfl⟩
    | 1, hp, hq => cases hp; cases hq; exact ⟨_, _, _, rfl, rfl, rfl, rfl⟩
    | _ + 2, hp, hq => simp [C27_x, columns] at hp

/-- C27 fails: the first row is missing its first column, but it is not found to be incomplete;
with the columns in the other order it is.  As a consequence `vec_in()` answers TRUE instead of
NA, and `vec_match()` gives a location. -/
theorem C27_raw_column : Flat C27_x ∧
    (∃ p, (columns C27_x)[0]? = some p ∧ MissingCell p 0) ∧
    dictIncomplete (fun _ => 0) C27_x 0 = .ok false ∧
    dictIncomplete (fun _ => 0) C27_y 0 = .ok true ∧
    vecIn (rowOps (fun _ => 0) false [.int, .raw]) (rowIsIncomplete [.int, .raw]) false
      [((naInt : Int), ((1#8 : BitVec 8), ()))] [((naInt : Int), ((1#8 : BitVec 8), ()))] =
        .ok [some true] ∧
    vecMatch (rowOps (fun _ => 0) false [.int, .raw]) (rowIsIncomplete [.int, .raw]) false
      [((naInt : Int), ((1#8 : BitVec 8), ()))] [((naInt : Int), ((1#8 : BitVec 8), ()))] =
        .ok [some 1] := by
  refine ⟨C27_flat, ⟨_, rfl, naInt, rfl, rfl⟩, ?_, ?_, ?_, ?_⟩ <;> decide +kernel

/-! ## Examples -/

/-- The swapped data frame meets the hypotheses of `C27_incomplete_rows_partial`: nothing follows
the missing column. -/
example : MissingCell (.vec (.atom .int) [(naInt : Int)]) 0 ∧
    (columns C27_y)[1]? = some (.vec (.atom .int) [(naInt : Int)]) ∧
    ∀ (d : Nat) (xs : List (BitVec 8)), 1 < d →
      (columns C27_y)[d]? ≠ some (.vec (.atom .raw) xs) := by
  refine ⟨⟨naInt, rfl, rfl⟩, rfl, fun d xs hd => ?_⟩
  rw [List.getElem?_eq_none (by simp only [C27_y, columns, List.length_cons, List.length_nil]; omega)]
  simp

example : SomeMissing [.int, .chr] ((3 : Int), ((none : Name), ())) ∧
    ¬ SomeMissing [.int, .chr] ((3 : Int), ((some ['a'] : Name), ())) := by
  constructor
  · exact .inr (.inl rfl)
  · rintro (h | h | h)
    · exact absurd (show (3 : Int) = naInt from h) (by decide)
    · cases h
    · exact h

example : vecIn (rowOps (fun _ => 9) false [.int, .chr]) (rowIsIncomplete [.int, .chr]) false
    [((3 : Int), ((none : Name), ())), ((3 : Int), ((some ['a'] : Name), ()))]
    [((3 : Int), ((some ['a'] : Name), ()))] = .ok [none, some true] := by decide +kernel

end Vctrs
