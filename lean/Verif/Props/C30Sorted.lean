import Verif.Props.C30
import Verif.Props.C32
import Verif.Props.C33
import Verif.Props.C34
import Verif.Lemmas.MatchJoint

/-!
# C30, C32, C33, C34: there is one stable order, and sorted vectors are in order

The specification of the order, `StableOrder`, is met by one permutation only.  So a vector where no element
comes before an earlier one has the order 1 to n, in particular a vector sliced by its own order.
-/

namespace Vctrs

open Spec

theorem naSmaller_asymm_of {na : Bool} {p q l l' : Prop} (hl : l → ¬ l') (h : NaSmaller na p q l) :
    ¬ NaSmaller na q p l' := by
  cases na
  · exact naSmaller_asymm hl h
  · rcases h with h | h | h <;> rintro (h' | h' | h')
    · exact hl h.2.2 h'.2.2
    · exact h.1 h'.2.2
    · exact absurd h'.1 (by simp)
    · exact h'.1 h.2.2
    · exact h'.2.1 h.2.2
    · exact absurd h'.1 (by simp)
    · exact absurd h.1 (by simp)
    · exact absurd h.1 (by simp)
    · exact absurd h.1 (by simp)

theorem dblSmaller_asymm_of {na nd : Bool} {a b : Dbl} (h : DblSmaller na nd a b) : ¬ DblSmaller na nd b a := by
  rcases h with h | ⟨h1, h2, h3, h⟩
  · rintro (h' | ⟨h1', h2', h3', h'⟩)
    · exact naSmaller_asymm_of (fun h h' => lt_asymm h h') h h'
    · rcases h with h | h | h
      · exact h.1 h3'
      · exact h.2.1 h3'
      · exact h.2.2 h2'
  · rintro (h' | ⟨h1', h2', h3', h'⟩)
    · rcases h' with h' | h' | h'
      · exact h'.1 h3
      · exact h'.2.1 h3
      · exact h'.2.2 h2
    · exact naSmaller_asymm_of (fun h _ => h) h h'

theorem smaller_asymm_of (na nd : Bool) : (t : ATy) → {a b : t.El} → Smaller na nd t a b → ¬ Smaller na nd t b a
  | .lgl, (a : Int), (b : Int), h => naSmaller_asymm_of (by omega) h
  | .int, (a : Int), (b : Int), h => naSmaller_asymm_of (by omega) h
  | .dbl, (a : Dbl), (b : Dbl), h => dblSmaller_asymm_of h
  | .cpl, (a : Dbl × Dbl), (b : Dbl × Dbl), h => by
      rcases h with h | ⟨h, h2⟩ <;> rintro (h' | ⟨h', h2'⟩)
      · exact dblSmaller_asymm_of h h'
      · exact h' h
      · exact h h'
      · exact dblSmaller_asymm_of h2 h2'
  | .chr, (a : Name), (b : Name), h => by
      refine naSmaller_asymm_of ?_ h
      rintro ⟨s, t, rfl, rfl, hst⟩ ⟨s', t', e1, e2, hst'⟩
      cases e1
      cases e2
      exact bytesLt_irrefl _ (bytesLt_trans hst hst')
  | .raw, _, _, h => h.elim

theorem before_asymm_of {desc na nd : Bool} {t : ATy} {a b : t.El} (h : Before desc na nd t a b) :
    ¬ Before desc na nd t b a := by
  unfold Before at h ⊢
  cases desc
  · exact smaller_asymm_of na nd t h
  · exact smaller_asymm_of na nd t h

theorem rowBefore_not_both {nd : Bool} {ks : List SortKey} {i j : Nat} (h : RowBefore nd ks i j) :
    ¬ RowBefore nd ks j i := by
  obtain ⟨m, k, hk, hb, hm⟩ := h
  rintro ⟨m', k', hk', hb', hm'⟩
  rcases Nat.lt_trichotomy m m' with h | h | h
  · exact (hm' m k h hk).2 hb
  · subst h
    rw [hk] at hk'
    cases hk'
    obtain ⟨t, xs, a, b, e, ha, hb, hab⟩ := hb
    obtain ⟨t', xs', a', b', e', ha', hb', hab'⟩ := hb'
    rw [e] at e'
    cases e'
    rw [ha] at hb'
    cases hb'
    rw [hb] at ha'
    cases ha'
    exact before_asymm_of hab hab'
  · exact (hm m' k' h hk').2 hb'

/-- There is one stable order at most. -/
theorem stableOrder_unique {before : Nat → Nat → Prop} (ha : ∀ i j, before i j → ¬ before j i) {n : Nat}
    {o o' : List Int} (h : StableOrder before n o) (h' : StableOrder before n o') : o = o' := by
  obtain ⟨p, rfl, h1, h2⟩ := h
  obtain ⟨q, rfl, h3, h4⟩ := h'
  congr 1
  refine List.Perm.eq_of_pairwise ?_ h2 h4 (h1.trans h3.symm)
  rintro i j _ _ (h | ⟨h, hij⟩) (h' | ⟨h', hji⟩)
  · exact absurd h' (ha _ _ h)
  · exact absurd h h'
  · exact absurd h' h
  · omega

/-- If no row comes before an earlier one, 1 to n is a stable order. -/
theorem stableOrder_sorted {before : Nat → Nat → Prop} {n : Nat} (h : ∀ i j : Nat, i < j → ¬ before j i) :
    StableOrder before n ((List.range n).map (fun (i : Nat) => (i : Int) + 1)) :=
  ⟨List.range n, rfl, .refl _, List.pairwise_lt_range.imp (fun hij => .inr ⟨h _ _ hij, hij⟩)⟩

/-! ## Data frames -/

/-- The order of the rows is the only stable one (no complex vector after the first). -/
theorem C34_unique_partial (x : Val) (hn : x.size ≤ intMax) (hs : ∀ p ∈ leaves x, Sortable x.size p)
    (hc : ∀ (i : Nat) (p : Val), 0 < i → (leaves x)[i]? = some p → ¬ IsComplex p)
    (direction naValue : List Name) (ds ns : List Bool)
    (hd : ForColumns IsDirection direction (columns x).length ds)
    (hna : ForColumns IsNaValue naValue (columns x).length ns) (nanDistinct : Bool) (tl : TL)
    (h0 : ∀ u, 0 ≤ tl u) (fuel : Nat) (hf : (leaves x).length ≤ fuel) (o : List Int) :
    vecOrder fuel x direction naValue nanDistinct tl (List.replicate 100001 0) =
        .ok (o, tl, List.replicate 100001 0) ↔
      StableOrder (RowBefore nanDistinct (sortKeys x ds ns)) x.size o := by
  obtain ⟨o', h1, h2⟩ := C34_order_only_partial x hn hs hc direction naValue ds ns hd hna nanDistinct tl h0
    fuel hf
  rw [h1]
  constructor
  · intro h
    cases h
    exact h2
  · intro h
    rw [stableOrder_unique (fun _ _ => rowBefore_not_both) h2 h]

/-- Rows where none comes before an earlier one have the order 1 to n. -/
theorem C34_sorted_partial (x : Val) (hn : x.size ≤ intMax) (hs : ∀ p ∈ leaves x, Sortable x.size p)
    (hc : ∀ (i : Nat) (p : Val), 0 < i → (leaves x)[i]? = some p → ¬ IsComplex p)
    (direction naValue : List Name) (ds ns : List Bool)
    (hd : ForColumns IsDirection direction (columns x).length ds)
    (hna : ForColumns IsNaValue naValue (columns x).length ns) (nanDistinct : Bool) (tl : TL)
    (h0 : ∀ u, 0 ≤ tl u) (fuel : Nat) (hf : (leaves x).length ≤ fuel)
    (hx : ∀ i j : Nat, i < j → ¬ RowBefore nanDistinct (sortKeys x ds ns) j i) :
    vecOrder fuel x direction naValue nanDistinct tl (List.replicate 100001 0) =
        .ok ((List.range x.size).map (fun (i : Nat) => (i : Int) + 1), tl, List.replicate 100001 0) :=
  (C34_unique_partial x hn hs hc direction naValue ds ns hd hna nanDistinct tl h0 fuel hf _).2
    (stableOrder_sorted hx)

/-! ## Vectors -/

theorem elementBefore_asymm {desc na nd : Bool} {t : ATy} {xs : List t.El} (i j : Nat)
    (h : ∃ a b, xs[i]? = some a ∧ xs[j]? = some b ∧ Before desc na nd t a b) :
    ¬ ∃ a b, xs[j]? = some a ∧ xs[i]? = some b ∧ Before desc na nd t a b := by
  obtain ⟨a, b, ha, hb, h⟩ := h
  rintro ⟨c, d, hc, hd, h'⟩
  rw [hb] at hc
  cases hc
  rw [ha] at hd
  cases hd
  exact before_asymm_of h h'

/-- A vector sliced by its order is sorted. -/
theorem order_slice_sorted {desc na nd : Bool} {t : ATy} {xs ys : List t.El} {o : List Int}
    (ho : StableOrder (fun i j => ∃ a b, xs[i]? = some a ∧ xs[j]? = some b ∧ Before desc na nd t a b)
      xs.length o)
    (hy : ys.map some = o.map (fun l => xs[(l - 1).toNat]?)) :
    ys.length = xs.length ∧ ys.Pairwise (fun a b => ¬ Before desc na nd t b a) := by
  obtain ⟨p, rfl, h1, h2⟩ := ho
  have hy' : ys.map some = p.map (fun (i : Nat) => xs[i]?) := by
    rw [hy, List.map_map]
    refine List.map_congr_left (fun i _ => ?_)
    simp only [Function.comp_apply]
    congr 1
    omega
  constructor
  · have := congrArg List.length hy'
    simpa [h1.length_eq] using this
  · rw [List.pairwise_iff_getElem]
    intro i j hi hj hij hb
    have hlen : ys.length = p.length := by simpa using congrArg List.length hy'
    have e (k : Nat) (hk : k < ys.length) : xs[p[k]'(hlen ▸ hk)]? = some ys[k] := by
      have := congrArg (fun l => l[k]?) hy'
      simp only [List.getElem?_map, List.getElem?_eq_getElem hk,
        List.getElem?_eq_getElem (hlen ▸ hk : k < p.length), Option.map_some, Option.some.injEq] at this
      exact this.symm
    have hp := (List.pairwise_iff_getElem.1 h2) i j (hlen ▸ hi) (hlen ▸ hj) hij
    have hb' : ∃ a b, xs[p[j]'(hlen ▸ hj)]? = some a ∧ xs[p[i]'(hlen ▸ hi)]? = some b ∧
        Before desc na nd t a b := ⟨_, _, e j hj, e i hi, hb⟩
    rcases hp with h | h
    · exact elementBefore_asymm _ _ h hb'
    · exact h.1 hb'

theorem sorted_rows {desc na nd : Bool} {t : ATy} {xs : List t.El}
    (hx : xs.Pairwise (fun a b => ¬ Before desc na nd t b a)) (i j : Nat) (hij : i < j) :
    ¬ ∃ a b, xs[j]? = some a ∧ xs[i]? = some b ∧ Before desc na nd t a b := by
  rintro ⟨a, b, ha, hb, h⟩
  obtain ⟨hj, rfl⟩ := List.getElem?_eq_some_iff.1 ha
  obtain ⟨hi, rfl⟩ := List.getElem?_eq_some_iff.1 hb
  exact (List.pairwise_iff_getElem.1 hx) i j hi hj hij h

/-- Sorted integers have the order 1 to n. -/
theorem C30_sorted (x : List Int) (hx : ∀ v ∈ x, IsInt v) (hn : x.length ≤ intMax)
    (direction naValue : Name) (desc naLargest : Bool) (hd : IsDirection direction desc)
    (hna : IsNaValue naValue naLargest) (nanDistinct : Bool) (tl : TL) (h0 : ∀ u, 0 ≤ tl u) (fuel : Nat)
    (hs : x.Pairwise (fun a b => ¬ Before desc naLargest nanDistinct .int b a)) :
    vecOrder fuel (.vec (.atom .int) x) [direction] [naValue] nanDistinct tl (List.replicate 100001 0) =
      .ok ((List.range x.length).map (fun (i : Nat) => (i : Int) + 1), tl, List.replicate 100001 0) := by
  obtain ⟨o, h1, h2⟩ := C30_order_only x hx hn direction naValue desc naLargest hd hna nanDistinct tl h0 fuel
  rw [h1, stableOrder_unique (elementBefore_asymm (t := .int)) h2 (stableOrder_sorted (sorted_rows (t := .int) hs))]

/-- Integers sliced by their order are sorted, so that their order is 1 to n. -/
theorem C30_twice (x : List Int) (hx : ∀ v ∈ x, IsInt v) (hn : x.length ≤ intMax)
    (direction naValue : Name) (desc naLargest : Bool) (hd : IsDirection direction desc)
    (hna : IsNaValue naValue naLargest) (nanDistinct : Bool) (tl : TL) (h0 : ∀ u, 0 ≤ tl u) (fuel : Nat)
    (o : List Int) (ho : vecOrder fuel (.vec (.atom .int) x) [direction] [naValue] nanDistinct tl
      (List.replicate 100001 0) = .ok (o, tl, List.replicate 100001 0))
    (y : List Int) (hy : y.map some = o.map (fun l => x[(l - 1).toNat]?)) :
    y.Pairwise (fun a b => ¬ Before desc naLargest nanDistinct .int b a) ∧
    vecOrder fuel (.vec (.atom .int) y) [direction] [naValue] nanDistinct tl (List.replicate 100001 0) =
      .ok ((List.range x.length).map (fun (i : Nat) => (i : Int) + 1), tl, List.replicate 100001 0) := by
  obtain ⟨o', h1, h2⟩ := C30_order_only x hx hn direction naValue desc naLargest hd hna nanDistinct tl h0 fuel
  rw [h1] at ho
  cases ho
  obtain ⟨hl, hs⟩ := order_slice_sorted (t := .int) h2 hy
  have hl : y.length = x.length := hl
  have hy' : ∀ v ∈ y, IsInt v := by
    intro v hv
    have : some v ∈ y.map some := List.mem_map.2 ⟨v, hv, rfl⟩
    rw [hy] at this
    obtain ⟨l, _, hl⟩ := List.mem_map.1 this
    exact hx v (List.mem_of_getElem? hl)
  refine ⟨hs, ?_⟩
  rw [C30_sorted y hy' (by omega) direction naValue desc naLargest hd hna nanDistinct tl h0 fuel hs, hl]

/-- Sorted doubles have the order 1 to n. -/
theorem C32_sorted (x : List Dbl) (hn : x.length ≤ intMax)
    (direction naValue : Name) (desc naLargest : Bool) (hd : IsDirection direction desc)
    (hna : IsNaValue naValue naLargest) (nanDistinct : Bool) (tl : TL) (h0 : ∀ u, 0 ≤ tl u) (fuel : Nat)
    (hs : x.Pairwise (fun a b => ¬ Before desc naLargest nanDistinct .dbl b a)) :
    vecOrder fuel (.vec (.atom .dbl) x) [direction] [naValue] nanDistinct tl (List.replicate 100001 0) =
      .ok ((List.range x.length).map (fun (i : Nat) => (i : Int) + 1), tl, List.replicate 100001 0) := by
  obtain ⟨o, h1, h2⟩ := C32_order_only x hn direction naValue desc naLargest hd hna nanDistinct tl h0 fuel
  rw [h1, stableOrder_unique (elementBefore_asymm (t := .dbl)) h2 (stableOrder_sorted (sorted_rows (t := .dbl) hs))]

/-- Doubles sliced by their order are sorted, so that their order is 1 to n. -/
theorem C32_twice (x : List Dbl) (hn : x.length ≤ intMax)
    (direction naValue : Name) (desc naLargest : Bool) (hd : IsDirection direction desc)
    (hna : IsNaValue naValue naLargest) (nanDistinct : Bool) (tl : TL) (h0 : ∀ u, 0 ≤ tl u) (fuel : Nat)
    (o : List Int) (ho : vecOrder fuel (.vec (.atom .dbl) x) [direction] [naValue] nanDistinct tl
      (List.replicate 100001 0) = .ok (o, tl, List.replicate 100001 0))
    (y : List Dbl) (hy : y.map some = o.map (fun l => x[(l - 1).toNat]?)) :
    y.Pairwise (fun a b => ¬ Before desc naLargest nanDistinct .dbl b a) ∧
    vecOrder fuel (.vec (.atom .dbl) y) [direction] [naValue] nanDistinct tl (List.replicate 100001 0) =
      .ok ((List.range x.length).map (fun (i : Nat) => (i : Int) + 1), tl, List.replicate 100001 0) := by
  obtain ⟨o', h1, h2⟩ := C32_order_only x hn direction naValue desc naLargest hd hna nanDistinct tl h0 fuel
  rw [h1] at ho
  cases ho
  obtain ⟨hl, hs⟩ := order_slice_sorted (t := .dbl) h2 hy
  have hl : y.length = x.length := hl
  refine ⟨hs, ?_⟩
  rw [C32_sorted y (by omega) direction naValue desc naLargest hd hna nanDistinct tl h0 fuel hs, hl]

/-- Sorted strings have the order 1 to n. -/
theorem C33_sorted (x : List Name) (hx : ∀ s, some s ∈ x → ByteString s) (hn : x.length ≤ intMax)
    (direction naValue : Name) (desc naLargest : Bool) (hd : IsDirection direction desc)
    (hna : IsNaValue naValue naLargest) (nanDistinct : Bool) (tl : TL) (h0 : ∀ u, 0 ≤ tl u) (fuel : Nat)
    (hs : x.Pairwise (fun a b => ¬ Before desc naLargest nanDistinct .chr b a)) :
    vecOrder fuel (.vec (.atom .chr) x) [direction] [naValue] nanDistinct tl (List.replicate 100001 0) =
      .ok ((List.range x.length).map (fun (i : Nat) => (i : Int) + 1), tl, List.replicate 100001 0) := by
  obtain ⟨o, h1, h2⟩ := C33_order_only x hx hn direction naValue desc naLargest hd hna nanDistinct tl h0 fuel
  rw [h1, stableOrder_unique (elementBefore_asymm (t := .chr)) h2 (stableOrder_sorted (sorted_rows (t := .chr) hs))]

/-- Strings sliced by their order are sorted, so that their order is 1 to n. -/
theorem C33_twice (x : List Name) (hx : ∀ s, some s ∈ x → ByteString s) (hn : x.length ≤ intMax)
    (direction naValue : Name) (desc naLargest : Bool) (hd : IsDirection direction desc)
    (hna : IsNaValue naValue naLargest) (nanDistinct : Bool) (tl : TL) (h0 : ∀ u, 0 ≤ tl u) (fuel : Nat)
    (o : List Int) (ho : vecOrder fuel (.vec (.atom .chr) x) [direction] [naValue] nanDistinct tl
      (List.replicate 100001 0) = .ok (o, tl, List.replicate 100001 0))
    (y : List Name) (hy : y.map some = o.map (fun l => x[(l - 1).toNat]?)) :
    y.Pairwise (fun a b => ¬ Before desc naLargest nanDistinct .chr b a) ∧
    vecOrder fuel (.vec (.atom .chr) y) [direction] [naValue] nanDistinct tl (List.replicate 100001 0) =
      .ok ((List.range x.length).map (fun (i : Nat) => (i : Int) + 1), tl, List.replicate 100001 0) := by
  obtain ⟨o', h1, h2⟩ := C33_order_only x hx hn direction naValue desc naLargest hd hna nanDistinct tl h0 fuel
  rw [h1] at ho
  cases ho
  obtain ⟨hl, hs⟩ := order_slice_sorted (t := .chr) h2 hy
  have hl : y.length = x.length := hl
  have hy' : ∀ s, some s ∈ y → ByteString s := by
    intro s hv
    have : some (some s) ∈ y.map some := List.mem_map.2 ⟨some s, hv, rfl⟩
    rw [hy] at this
    obtain ⟨l, _, hl⟩ := List.mem_map.1 this
    exact hx s (List.mem_of_getElem? hl)
  refine ⟨hs, ?_⟩
  rw [C33_sorted y hy' (by omega) direction naValue desc naLargest hd hna nanDistinct tl h0 fuel hs, hl]

/-! ## Examples -/

/-- NA is first when it is the smallest, or the largest in descending order. -/
example : ([naInt, -7, 1, 1, 3] : List Int).Pairwise (fun a b => ¬ Before false false true .int b a) ∧
    ([naInt, 3, 1, 1, -7] : List Int).Pairwise (fun a b => ¬ Before true true true .int b a) ∧
    exRun (vecOrderInfo 0 (.vec (.atom .int) ([naInt, 3, 1, 1, -7] : List Int)) exDesc exLargest true true
      false exTl exStatic) = some ⟨[1, 2, 3, 4, 5], none⟩ := by
  refine ⟨?_, ?_, by decide +kernel⟩
  · exact of_decide_eq_true (p := List.Pairwise (fun (a b : Int) => ¬ ((¬ b = naInt ∧ ¬ a = naInt ∧ b < a) ∨
      (false = true ∧ ¬ b = naInt ∧ a = naInt) ∨ (false = false ∧ b = naInt ∧ ¬ a = naInt)))
      [naInt, -7, 1, 1, 3]) (by decide)
  · exact of_decide_eq_true (p := List.Pairwise (fun (a b : Int) => ¬ ((¬ a = naInt ∧ ¬ b = naInt ∧ a < b) ∨
      (true = true ∧ ¬ a = naInt ∧ b = naInt) ∨ (true = false ∧ a = naInt ∧ ¬ b = naInt)))
      [naInt, 3, 1, 1, -7]) (by decide)

/-- NA, NaN, minus infinity, the two zeros; strings by their bytes, "a" before "aa" before "b"; and rows sorted
by integers first. -/
example : exRun (vecOrderInfo 0 (.vec (.atom .dbl) ([naReal, rNaN, 0xFFF0000000000000#64, 0#64,
      0x8000000000000000#64] : List Dbl)) exAsc exSmallest true true false exTl exStatic) =
      some ⟨[1, 2, 3, 4, 5], none⟩ ∧
    exRun (vecOrderInfo 0 (.vec (.atom .chr) ([none, some ['a'], some ['a', 'a'], some ['b'], some ['b']] :
      List Name)) exAsc exSmallest true true false exTl exStatic) = some ⟨[1, 2, 3, 4, 5], none⟩ ∧
    exRun (vecOrderInfo 9 (.df 3 [.vec (.atom .int) ([1, 1, 2] : List Int),
      .vec (.atom .chr) ([some ['a'], some ['b'], none] : List Name)]) exAsc exSmallest true true false exTl
      exStatic) = some ⟨[1, 2, 3], none⟩ := by decide +kernel

end Vctrs
