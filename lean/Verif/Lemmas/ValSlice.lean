import Verif.Lemmas.Proxy
import Verif.Lemmas.OrderTop
import Verif.Model.ValSlice

namespace Vctrs

open Spec

/-- The elements of `xs` at `l`. -/
def pickList {α : Type} (l : List Nat) (xs : List α) : List α := l.filterMap (fun i => xs[i]?)

theorem pickList_map {α : Type} {l : List Nat} {xs : List α} (h : ∀ i ∈ l, i < xs.length) :
    (pickList l xs).map some = l.map (fun i => xs[i]?) := by
  induction l with
  | nil => rfl
  | cons i l ih =>
    have hi := h i (by simp)
    unfold pickList at ih ⊢
    rw [List.filterMap_cons_some (List.getElem?_eq_getElem hi), List.map_cons, List.map_cons,
      ih (fun j hj => h j (by simp [hj])), List.getElem?_eq_getElem hi]

theorem pickList_length {α : Type} {l : List Nat} {xs : List α} (h : ∀ i ∈ l, i < xs.length) :
    (pickList l xs).length = l.length := by
  have := congrArg List.length (pickList_map h)
  simpa using this

theorem pickList_get {α : Type} {l : List Nat} {xs : List α} (h : ∀ i ∈ l, i < xs.length) {k i : Nat}
    (hk : l[k]? = some i) : (pickList l xs)[k]? = xs[i]? := by
  have := congrArg (fun l => l[k]?) (pickList_map h)
  simp only [List.getElem?_map, hk, Option.map_some] at this
  have hi := h i (List.mem_of_getElem? hk)
  rw [List.getElem?_eq_getElem hi] at this ⊢
  cases hp : (pickList l xs)[k]? with
  | none => simp [hp] at this
  | some a => simpa [hp] using this

theorem mem_pickList {α : Type} {l : List Nat} {xs : List α} {a : α} (h : a ∈ pickList l xs) :
    a ∈ xs := by
  obtain ⟨i, _, hi⟩ := List.mem_filterMap.1 h
  exact List.mem_of_getElem? hi

mutual

/-- The rows `l` of a value. -/
def pick (l : List Nat) : Val → Val
  | .vec t xs => .vec t (pickList l xs)
  | .df _ cols => .df l.length (pickAll l cols)

/-- The same for a list of columns. -/
def pickAll (l : List Nat) : List Val → List Val
  | [] => []
  | x :: xs => pick l x :: pickAll l xs

end

theorem pickAll_eq (l : List Nat) (xs : List Val) : pickAll l xs = xs.map (pick l) := by
  induction xs with
  | nil => rfl
  | cons x xs ih => rw [pickAll, ih]; rfl

mutual

theorem leaves_pick (l : List Nat) : (x : Val) → leaves (pick l x) = (leaves x).map (pick l)
  | .vec t xs => rfl
  | .df n cols => by
    rw [pick, leaves, leaves, leavesAll_pick l cols]

theorem leavesAll_pick (l : List Nat) : (xs : List Val) →
    leavesAll (pickAll l xs) = (leavesAll xs).map (pick l)
  | [] => rfl
  | x :: xs => by
    rw [pickAll, leavesAll, leavesAll, leaves_pick l x, leavesAll_pick l xs, List.map_append]

end

theorem columns_pick (l : List Nat) (x : Val) : columns (pick l x) = (columns x).map (pick l) := by
  cases x with
  | vec t xs => rfl
  | df n cols => rw [pick, columns, columns, pickAll_eq]

theorem Spec.Sized.pick_size {n : Nat} {x : Val} (h : Sized n x) {l : List Nat}
    (hl : ∀ i ∈ l, i < n) : (pick l x).size = l.length := by
  cases h with
  | vec t xs hx => exact pickList_length (fun i hi => hx ▸ hl i hi)
  | df cols hc => rfl

mutual

theorem Spec.Sized.pick {n : Nat} {l : List Nat} (hl : ∀ i ∈ l, i < n) : (x : Val) → Sized n x →
    Sized l.length (Vctrs.pick l x)
  | .vec t xs, h => by
    cases h with
    | vec _ _ hx => exact .vec _ _ (pickList_length (fun i hi => hx ▸ hl i hi))
  | .df m cols, h => by
    cases h with
    | df _ hc =>
      rw [Vctrs.pick]
      exact .df _ (fun p hp => sizedAll_pick hl cols hc p hp)

theorem sizedAll_pick {n : Nat} {l : List Nat} (hl : ∀ i ∈ l, i < n) : (xs : List Val) →
    (∀ x ∈ xs, Sized n x) → ∀ p ∈ pickAll l xs, Sized l.length p
  | [], _ => by simp [pickAll]
  | x :: xs, h => by
    intro p hp
    rw [pickAll, List.mem_cons] at hp
    rcases hp with rfl | hp
    · exact Spec.Sized.pick hl x (h x (by simp))
    · exact sizedAll_pick hl xs (fun y hy => h y (by simp [hy])) p hp

end

theorem slice_pick {α : Type} (na : α) {xs : List α} {l : List Nat} (h : ∀ i ∈ l, i < xs.length) :
    sliceBase na xs (.locs (l.map (fun (i : Nat) => (i : Int) + 1))) = .ok (pickList l xs) := by
  obtain ⟨out, h1, h2⟩ := sliceLocs_eq na (x := xs) (l := l.map (fun (i : Nat) => (i : Int) + 1)) (by
    intro v hv
    obtain ⟨i, hi, rfl⟩ := List.mem_map.1 hv
    have := h i hi
    right; omega)
  rw [h1]
  congr 1
  refine List.map_injective_iff.2 (Option.some_injective α) ?_
  rw [h2, pickList_map h, List.map_map]
  apply List.map_congr_left
  intro i hi
  simp only [Function.comp, atLoc]
  rw [if_neg (by simp only [naInt]; omega)]
  congr 1
  omega

mutual

theorem valSlice_ok {n : Nat} {l : List Nat} (hl : ∀ i ∈ l, i < n) : (x : Val) → Sized n x →
    valSlice (.locs (l.map (fun (i : Nat) => (i : Int) + 1))) x = .ok (Vctrs.pick l x)
  | .vec t xs, h => by
    cases h with
    | vec _ _ hx =>
      rw [valSlice, slice_pick _ (fun i hi => hx ▸ hl i hi)]
      rfl
  | .df m cols, h => by
    cases h with
    | df _ hc =>
      rw [valSlice, valSliceCols_ok hl cols hc, ok_bind]
      simp [subscriptSize, Vctrs.pick]

theorem valSliceCols_ok {n : Nat} {l : List Nat} (hl : ∀ i ∈ l, i < n) : (xs : List Val) →
    (∀ x ∈ xs, Sized n x) →
    valSliceCols (.locs (l.map (fun (i : Nat) => (i : Int) + 1))) n xs = .ok (pickAll l xs)
  | [], _ => rfl
  | x :: xs, h => by
    rw [valSliceCols, if_neg (by simpa using (h x (by simp)).size), valSlice_ok hl x (h x (by simp)),
      ok_bind, valSliceCols_ok hl xs (fun y hy => h y (by simp [hy])), ok_bind]
    rfl

end

theorem sized_of_sortable {n : Nat} {p : Val} (h : Sortable n p) : Sized n p := by
  match p, h with
  | .vec (.atom .lgl) (x : List Int), ⟨hx, _⟩ => exact .vec _ _ hx
  | .vec (.atom .int) (x : List Int), ⟨hx, _⟩ => exact .vec _ _ hx
  | .vec (.atom .dbl) (x : List Dbl), hx => exact .vec _ _ hx
  | .vec (.atom .cpl) (x : List (Dbl × Dbl)), hx => exact .vec _ _ hx
  | .vec (.atom .chr) (x : List Name), ⟨hx, _⟩ => exact .vec _ _ hx

theorem sortable_pick {n : Nat} {v : Val} (h : Sortable n v) {l : List Nat} (hl : ∀ i ∈ l, i < n) :
    Sortable l.length (pick l v) := by
  match v, h with
  | .vec (.atom .lgl) (x : List Int), ⟨hx, hv⟩ =>
    exact ⟨pickList_length (fun i hi => hx ▸ hl i hi), fun v h => hv v (mem_pickList h)⟩
  | .vec (.atom .int) (x : List Int), ⟨hx, hv⟩ =>
    exact ⟨pickList_length (fun i hi => hx ▸ hl i hi), fun v h => hv v (mem_pickList h)⟩
  | .vec (.atom .dbl) (x : List Dbl), hx =>
    exact pickList_length (fun i hi => by have := hl i hi; simp only [Sortable] at hx; omega)
  | .vec (.atom .cpl) (x : List (Dbl × Dbl)), hx =>
    exact pickList_length (fun i hi => by have := hl i hi; simp only [Sortable] at hx; omega)
  | .vec (.atom .chr) (x : List Name), ⟨hx, hv⟩ =>
    exact ⟨pickList_length (fun i hi => hx ▸ hl i hi), fun v h => hv v (mem_pickList h)⟩

theorem isComplex_pick {l : List Nat} {v : Val} : IsComplex (pick l v) ↔ IsComplex v := by
  cases v with
  | vec t xs =>
    cases t with
    | atom t => cases t <;> rfl
    | list => rfl
  | df n cols => rfl

theorem keyBefore_pick {nanDistinct : Bool} {n : Nat} {k : SortKey} (h : Sized n k.2.2) {l : List Nat}
    (hl : ∀ i ∈ l, i < n) {a b i j : Nat} (ha : l[a]? = some i) (hb : l[b]? = some j) :
    KeyBefore nanDistinct (k.1, k.2.1, pick l k.2.2) a b ↔ KeyBefore nanDistinct k i j := by
  obtain ⟨d, m, v⟩ := k
  dsimp only at h ⊢
  unfold KeyBefore
  dsimp only
  constructor
  · rintro ⟨t, xs, u, w, he, hu, hw, hB⟩
    cases h with
    | vec t' xs' hx =>
      rw [pick] at he
      have hh : ∀ i ∈ l, i < xs'.length := fun i hi => hx ▸ hl i hi
      cases he
      exact ⟨t, xs', u, w, rfl, (pickList_get hh ha).symm.trans hu,
        (pickList_get hh hb).symm.trans hw, hB⟩
    | df cols hc => cases he
  · rintro ⟨t, xs, u, w, he, hu, hw, hB⟩
    cases h with
    | vec t' xs' hx =>
      have hh : ∀ i ∈ l, i < xs'.length := fun i hi => hx ▸ hl i hi
      cases he
      exact ⟨t, pickList l xs, u, w, rfl, (pickList_get hh ha).trans hu,
        (pickList_get hh hb).trans hw, hB⟩
    | df cols hc => cases he

theorem sortKeys_pick (l : List Nat) (x : Val) (ds ns : List Bool) :
    sortKeys (pick l x) ds ns =
      (sortKeys x ds ns).map (fun k => (k.1, k.2.1, pick l k.2.2)) := by
  unfold sortKeys
  rw [columns_pick, List.map_flatMap, List.zip_map_left, List.flatMap_map]
  apply List.flatMap_congr
  rintro ⟨c, d, m⟩ _
  simp only [Prod.map, leaves_pick, List.map_map, id]
  rfl

theorem sortKeys_mem_leaves {x : Val} {ds ns : List Bool} {k : SortKey}
    (hk : k ∈ sortKeys x ds ns) : k.2.2 ∈ leaves x := by
  unfold sortKeys at hk
  obtain ⟨⟨c, d, m⟩, hc, hk⟩ := List.mem_flatMap.1 hk
  obtain ⟨p, hp, rfl⟩ := List.mem_map.1 hk
  have hc' := (List.of_mem_zip hc).1
  rw [← leavesAll_columns]
  clear hc hk
  revert hc'
  generalize columns x = cs
  intro hc'
  induction cs with
  | nil => simp at hc'
  | cons y ys ih =>
    rw [leavesAll, List.mem_append]
    rcases List.mem_cons.1 hc' with rfl | h'
    · exact Or.inl hp
    · exact Or.inr (ih h')

theorem sortKeys_sized {n : Nat} {x : Val} (h : ∀ p ∈ leaves x, Sized n p) {ds ns : List Bool}
    {k : SortKey} (hk : k ∈ sortKeys x ds ns) : Sized n k.2.2 := h _ (sortKeys_mem_leaves hk)

theorem rowBefore_pick {nanDistinct : Bool} {n : Nat} {x : Val} (h : ∀ p ∈ leaves x, Sized n p)
    {ds ns : List Bool} {l : List Nat} (hl : ∀ i ∈ l, i < n) {a b i j : Nat} (ha : l[a]? = some i)
    (hb : l[b]? = some j) :
    RowBefore nanDistinct (sortKeys (pick l x) ds ns) a b ↔
      RowBefore nanDistinct (sortKeys x ds ns) i j := by
  rw [sortKeys_pick]
  have hk : ∀ k ∈ sortKeys x ds ns, Sized n k.2.2 := fun k hk => sortKeys_sized h hk
  generalize sortKeys x ds ns = ks at *
  unfold RowBefore
  constructor
  · rintro ⟨m, k, hm, hB, hT⟩
    rw [List.getElem?_map, Option.map_eq_some_iff] at hm
    obtain ⟨k0, hm, rfl⟩ := hm
    refine ⟨m, k0, hm, (keyBefore_pick (hk _ (List.mem_of_getElem? hm)) hl ha hb).1 hB, ?_⟩
    intro m' k' hlt hm'
    have := hT m' (k'.1, k'.2.1, pick l k'.2.2) hlt (by rw [List.getElem?_map, hm']; rfl)
    rw [keyBefore_pick (hk _ (List.mem_of_getElem? hm')) hl ha hb,
      keyBefore_pick (hk _ (List.mem_of_getElem? hm')) hl hb ha] at this
    exact this
  · rintro ⟨m, k, hm, hB, hT⟩
    refine ⟨m, (k.1, k.2.1, pick l k.2.2), by rw [List.getElem?_map, hm]; rfl,
      (keyBefore_pick (hk _ (List.mem_of_getElem? hm)) hl ha hb).2 hB, ?_⟩
    intro m' k' hlt hm'
    rw [List.getElem?_map, Option.map_eq_some_iff] at hm'
    obtain ⟨k0, hm', rfl⟩ := hm'
    rw [keyBefore_pick (hk _ (List.mem_of_getElem? hm')) hl ha hb,
      keyBefore_pick (hk _ (List.mem_of_getElem? hm')) hl hb ha]
    exact hT m' k0 hlt hm'

/-- The positions of TRUE. -/
def truePos (w : List Bool) : List Nat := (List.range w.length).filter (fun i => w[i]? == some true)

theorem mem_truePos {w : List Bool} {i : Nat} : i ∈ truePos w ↔ w[i]? = some true := by
  unfold truePos
  rw [List.mem_filter, List.mem_range, beq_iff_eq]
  constructor
  · exact fun h => h.2
  · intro h
    exact ⟨(List.getElem?_eq_some_iff.1 h).1, h⟩

theorem truePos_sorted (w : List Bool) : (truePos w).Pairwise (· < ·) :=
  List.Pairwise.filter _ List.pairwise_lt_range

theorem whichLocs_truePos (w : List Bool) : (whichLocs (w.map some) true).map whichVal =
    (truePos w).map (fun (i : Nat) => (i : Int) + 1) := by
  have h1 : whichLocs (w.map some) true = (kept id w).map (fun v => (some v.1, v.2)) := by
    rw [whichLocs, kept_map]
    congr 2
    funext b
    cases b <;> rfl
  rw [h1, List.map_map]
  have h2 : (kept id w).map Prod.snd = truePos w := by
    unfold kept truePos
    rw [List.zipIdx_eq_zip_range']
    rw [show (List.range' 0 w.length) = List.range w.length from List.range_eq_range'.symm]
    have : ∀ (l : List Nat) (v : List Bool), (∀ (k i : Nat), l[k]? = some i → w[i]? = v[k]?) →
        l.length = v.length →
        ((v.zip l).filter (fun v => id v.1)).map Prod.snd = l.filter (fun i => w[i]? == some true) := by
      intro l
      induction l with
      | nil => intro v _ _; simp
      | cons i l ih =>
        intro v hv hlen
        cases v with
        | nil => simp at hlen
        | cons b v =>
          have hi := hv 0 i rfl
          have := ih v (fun k j hk => hv (k + 1) j hk) (by simpa using hlen)
          simp only [List.getElem?_cons_zero] at hi
          simp only [List.zip_cons_cons]
          cases b
          · rw [List.filter_cons_of_neg (by simp), List.filter_cons_of_neg (by simp [hi])]
            exact this
          · rw [List.filter_cons_of_pos (by simp), List.filter_cons_of_pos (by simp [hi]),
              List.map_cons, this]
    exact this _ _ (fun k i hk => by
      obtain ⟨h, e⟩ := List.getElem?_eq_some_iff.1 hk
      simp at e; rw [e]) (by simp)
  rw [← h2, List.map_map]
  apply List.map_congr_left
  intro v _
  simp [whichVal]

theorem rSlice_lgl {n : Nat} {x : Val} (h : Sized n x) (hn : n ≤ intMax) {w : List Bool}
    (hw : w.length = n) : rSlice x (.lgl (w.map some)) = .ok (pick (truePos w) x) := by
  unfold rSlice vecAsLocation
  have h1 := lglAsLocation_full (x := w.map some) (by simpa [hw] using hn) {} (by simp)
  rw [List.length_map, hw, ← h.size] at h1
  have e : decide (({} : LocOpts).missing = .propagate) = true := rfl
  rw [e, whichLocs_truePos] at h1
  dsimp only
  rw [h1, ok_bind]
  exact valSlice_ok (fun i hi => by rw [← hw]; exact (List.getElem?_eq_some_iff.1 (mem_truePos.1 hi)).1)
    x h

end Vctrs
