import Verif.Lemmas.Hash

/-! # C26: equal elements hash equally -/

namespace Vctrs

open Spec

/-- For any vectors or data frames without lists, with columns of the same types: hashing
succeeds, and rows that are the same get the same hash, within one vector or across two,
whatever `na_equal` is and wherever R has put its strings. -/
theorem C26_same_hash (addr : Name → BitVec 64) (naEqual : Bool) (x y : Val) (hx : Flat x)
    (hy : Flat y) (hlx : NoList x) (hly : NoList y)
    (hn : (columns x).length = (columns y).length)
    (ht : ∀ (c : Nat) (p q : Val), (columns x)[c]? = some p → (columns y)[c]? = some q →
      ∃ t xs ys, p = .vec t xs ∧ q = .vec t ys) :
    ∃ hsx hsy, dictHashes addr naEqual x = .ok hsx ∧ dictHashes addr naEqual y = .ok hsy ∧
      hsx.length = x.size ∧ hsy.length = y.size ∧
      ∀ i j, i < x.size → j < y.size → SameRow x i y j → hsx[i]? = hsy[j]? := by
  obtain ⟨hsx, h1, h2, h3⟩ := dictHashes_rows addr naEqual hx (fun l hl => absurd hl (hlx l))
  obtain ⟨hsy, g1, g2, g3⟩ := dictHashes_rows addr naEqual hy (fun l hl => absurd hl (hly l))
  refine ⟨hsx, hsy, h1, g1, h2, g2, fun i j hi hj hs => ?_⟩
  obtain ⟨a, ha, ha'⟩ := h3 i hi
  obtain ⟨b, hb, hb'⟩ := g3 j hj
  have hr : rowSlot addr naEqual i 0 (columns x) = rowSlot addr naEqual j 0 (columns y) := by
    refine foldlM_congr _ _ hn (fun c p q hp hq h => ?_) 0
    obtain ⟨t, xs, ys, rfl, rfl⟩ := ht c p q hp hq
    obtain ⟨_, xs', -, e1, -, l1, -⟩ := hx.cols c _ _ hp hp
    obtain ⟨_, ys', -, e2, -, l2, -⟩ := hy.cols c _ _ hq hq
    cases e1
    cases e2
    have gx := List.getElem?_eq_getElem (l := xs) (i := i) (by omega)
    have gy := List.getElem?_eq_getElem (l := ys) (i := j) (by omega)
    rw [cellHash_vec gx, cellHash_vec gy]
    exact eltHash_congr addr naEqual h _ _ _ (hs c _ xs ys _ _ hp hq gx gy)
  rw [hr, hb'] at ha'
  cases ha'
  rw [ha, hb]

/-- What `vec_equal(na_equal = TRUE)` finds equal hashes equally. -/
theorem C26_equal_hash (addr : Name → BitVec 64) (naEqual : Bool) (x y : Val) (h : Compat x y)
    (hl : NoList x) :
    ∃ hsx hsy out, dictHashes addr naEqual x = .ok hsx ∧ dictHashes addr naEqual y = .ok hsy ∧
      vecEqual true x y = .ok out ∧ hsx.length = x.size ∧ hsy.length = x.size ∧
      ∀ i : Nat, out[i]? = some (some true) → hsx[i]? = hsy[i]? := by
  have hsz := h.size
  obtain ⟨hsx, hsy, h1, h2, h3, h4, h5⟩ := C26_same_hash addr naEqual x y (h.trans h.symm)
    (h.symm.trans h) hl (h.noList hl) h.ncol (fun c p q hp hq => by
      obtain ⟨t, xs, ys, e1, e2, -, -⟩ := h.cols c p q hp hq
      exact ⟨t, xs, ys, e1, e2⟩)
  obtain ⟨out, g1, g2, g3⟩ := vecEqual_true h (cellsTotal_of_supported true h hl.supported)
  refine ⟨hsx, hsy, _, h1, h2, g1, h3, by omega, fun i hi => ?_⟩
  rw [List.getElem?_map, Option.map_eq_some_iff] at hi
  obtain ⟨b, hb, hb'⟩ := hi
  cases hb'
  have hix : i < x.size := by rw [← g2]; exact (List.getElem?_eq_some_iff.1 hb).1
  exact h5 i i hix (by omega) ((cells_same h hix (hl.sameAttrCount y i)).1 ((g3 i hix).1 hb))

/-- A row of atomic values as found at row `i` of the columns. -/
def RowAt : (ts : List ATy) → List Val → Nat → Row ts → Prop
  | [], cols, _, _ => cols = []
  | t :: ts, cols, i, (a, r) =>
    ∃ (xs : List t.El) (rest : List Val), cols = .vec (.atom t) xs :: rest ∧ xs[i]? = some a ∧
      RowAt ts rest i r

theorem rowSlot_rowHash (addr : Name → BitVec 64) (naEqual : Bool) {i : Nat} :
    (ts : List ATy) → (cols : List Val) → (r : Row ts) → RowAt ts cols i r → (h : BitVec 32) →
    rowSlot addr naEqual i h cols =
      .ok (if naEqual then rowHash addr ts r h else rowHashPropagate addr ts r h)
  | [], cols, r, hr, h => by
      have : cols = [] := hr
      subst this
      cases naEqual <;> rfl
  | t :: ts, cols, (a, r), hr, h => by
      obtain ⟨xs, rest, rfl, ha, hr⟩ := hr
      have h1 : rowSlot addr naEqual i h (.vec (.atom t) xs :: rest) =
          (do rowSlot addr naEqual i (← eltHash addr naEqual h (.atom t) a) rest) := by
        simp only [rowSlot, List.foldlM_cons]
        rw [cellHash_vec (t := .atom t) ha]
      rw [h1]
      simp only [eltHash]
      rw [ok_bind, rowSlot_rowHash addr naEqual ts rest r hr]
      congr 1
      cases naEqual
      · by_cases ht : t = .raw
        · subst ht; rfl
        · simp only [rowHashPropagate, Bool.false_or, decide_eq_true_eq, if_neg ht,
            Bool.false_eq_true, if_false]
      · rfl

/-- Hashing is what the hash based functions assume about it: for data frames of atomic columns,
the slot of a row holds the hash of `rowOps`, whose equality is an equivalence relation
preserved by the hash. -/
theorem C26_dictionary_rows (addr : Name → BitVec 64) (naEqual : Bool) (ts : List ATy) (n : Nat)
    (cols : List Val) (rows : Nat → Row ts) (hx : Flat (.df n cols))
    (hrows : ∀ i, i < n → RowAt ts cols i (rows i)) :
    dictHashes addr naEqual (.df n cols) =
        .ok ((List.range n).map fun i => (rowOps addr naEqual ts).hash (rows i)) ∧
      EqvHash (rowOps addr naEqual ts) := by
  refine ⟨dictHashes_ok addr naEqual hx _ (fun i hi => ?_), rowOps_eqv addr naEqual ts⟩
  rw [show columns (.df n cols) = cols from rfl, rowSlot_rowHash addr naEqual ts cols _ (hrows i hi)]
  rfl

/-- The same for atomic vectors. -/
theorem C26_dictionary_vector (addr : Name → BitVec 64) (naEqual : Bool) (t : ATy)
    (xs : List t.El) :
    dictHashes addr naEqual (.vec (.atom t) xs) = .ok (xs.map (atomOps addr naEqual t).hash) ∧
      EqvHash (atomOps addr naEqual t) := by
  refine ⟨?_, atomOps_eqv addr naEqual t⟩
  have hx : Flat (.vec (.atom t) xs) :=
    { kind := trivial, size := rfl, ncol := rfl, cols := by
        intro c p q hp hq
        match c, hp, hq with
        | 0, hp, hq => cases hp; cases hq; exact ⟨_, _, _, rfl, rfl, rfl, rfl⟩
        | _ + 1, hp, hq => simp [columns] at hp }
  have key : ∀ i, ∃ r, i < xs.length → rowSlot addr naEqual i 0 [.vec (.atom t) xs] = .ok r ∧
      xs[i]?.map (atomOps addr naEqual t).hash = some r := by
    intro i
    by_cases hi : i < xs.length
    · refine ⟨(atomOps addr naEqual t).hash xs[i], fun _ => ⟨?_, by simp [hi]⟩⟩
      simp only [rowSlot, List.foldlM_cons, List.foldlM_nil]
      rw [cellHash_vec (t := .atom t) (List.getElem?_eq_getElem (l := xs) hi)]
      simp only [eltHash]
      rw [ok_bind, if_neg (show ¬ (0 : BitVec 32) = hashMissing by decide)]
      simp only [atomOps]
      rfl
    · exact ⟨0, fun h => absurd h hi⟩
  choose g hg using key
  rw [dictHashes_ok addr naEqual hx g (fun i hi => (hg i hi).1)]
  congr 1
  apply List.ext_getElem?
  intro i
  have hsz : (Val.vec (.atom t) xs).size = xs.length := rfl
  by_cases hi : i < xs.length
  · rw [List.getElem?_map, List.getElem?_map, (hg i hi).2, hsz, List.getElem?_range hi]
    rfl
  · rw [List.getElem?_eq_none (by simp [hsz]; omega), List.getElem?_eq_none (by simp; omega)]

/-! ## Lists, beyond the property -/

/-- List elements that are the same and hold equally many attributes hash equally, or fail to
hash in the same way. -/
theorem C26_list_elements (addr : Name → BitVec 64) (x y : Obj) (h : eqObj x y = .ok true)
    (ha : nAttr x = nAttr y) : hashObj addr x = hashObj addr y :=
  hashObj_congr addr x h ha.ge

/-- Not so when `y` holds more attributes, which the one-sided comparison of attributes
(src/equal.c:389-414) does not notice: `1L` is found equal to `structure(1L, a = 2L)` but
their hashes differ. -/
theorem C26_list_attributes :
    eqObj (.vec .int [(1 : Int)] .nil)
      (.vec .int [(1 : Int)] (.cons 7 (.vec .int [(2 : Int)] .nil) .nil)) = .ok true ∧
    hashObj (fun _ => 0) (.vec .int [(1 : Int)] .nil) ≠
      hashObj (fun _ => 0) (.vec .int [(1 : Int)] (.cons 7 (.vec .int [(2 : Int)] .nil) .nil)) := by
  refine ⟨by decide +kernel, by decide +kernel⟩

/-! ## Examples -/

/-- `data_frame(x = c(0, NA), y = c("a", NA))`. -/
def C26_x : Val := .df 2 [.vec (.atom .dbl) [(0x0#64 : Dbl), (naReal : Dbl)],
  .vec (.atom .chr) [(some ['a'] : Name), (none : Name)]]

/-- The same rows with another zero and another NA payload. -/
def C26_y : Val := .df 2 [.vec (.atom .dbl) [(0x8000000000000000#64 : Dbl),
  (0xFFFF0000000007A2#64 : Dbl)],
  .vec (.atom .chr) [(some ['a'] : Name), (none : Name)]]

theorem C26_compat : Compat C26_x C26_y where
  kind := trivial
  size := rfl
  ncol := rfl
  cols c p q hp hq := by
    match c, hp, hq with
    | 0, hp, hq => cases hp; cases hq; exact ⟨_, _, _, rfl, rfl, rfl, rfl⟩
    | 1, hp, hq => cases hp; cases hq; exact ⟨_, _, _, rfl, rfl, rfl, rfl⟩
    | _ + 2, hp, hq => simp [C26_x, columns] at hp

theorem C26_nolist : NoList C26_x := by
  intro xs h
  simp only [C26_x, columns, List.mem_cons, List.not_mem_nil, or_false] at h
  rcases h with h | h <;> cases h

example (addr : Name → BitVec 64) := C26_equal_hash addr true C26_x C26_y C26_compat C26_nolist

example : vecEqual true C26_x C26_y = .ok [some true, some true] := by decide

example : dictHashes (fun s => if s = none then 5 else 9) false C26_x =
    dictHashes (fun s => if s = none then 5 else 9) false C26_y := by decide +kernel

/-- The first row of `C26_x`, for `C26_dictionary_rows`. -/
example : RowAt [.dbl, .chr] [.vec (.atom .dbl) [(0x0#64 : Dbl), (naReal : Dbl)],
    .vec (.atom .chr) [(some ['a'] : Name), (none : Name)]] 0
    ((0x0#64 : Dbl), ((some ['a'] : Name), ())) :=
  ⟨_, _, rfl, rfl, _, _, rfl, rfl, rfl⟩

end Vctrs
