import Verif.Model.Collate
import Verif.Props.C34
import Verif.Props.C84

/-!
# C87: collation functions
-/

namespace Vctrs.Spec

mutual

/-- `x` with every character vector in it replaced by `g` of it. -/
def mapChr (g : List Name → List Name) : Val → Val
  | .vec (.atom .chr) xs => .vec (.atom .chr) (g xs)
  | .vec t xs => .vec t xs
  | .df n cols => .df n (mapChrs g cols)

/-- The same for a list of columns. -/
def mapChrs (g : List Name → List Name) : List Val → List Val
  | [] => []
  | x :: xs => mapChr g x :: mapChrs g xs

end

/-- On the character vectors of `x`, the function `f` gives what `g` gives: a character vector of the
same length, without dimensions. -/
def CollatesAs (f : Collation) (g : List Name → List Name) (x : Val) : Prop :=
  ∀ xs : List Name, Val.vec (.atom .chr) xs ∈ leaves x → f xs = .ok (some ⟨g xs, none⟩) ∧ (g xs).length = xs.length

end Vctrs.Spec

namespace Vctrs
open Spec

variable {α : Type}

theorem mapM_rd_range (l : List α) : (List.range l.length).mapM (rd l) = .ok l := by
  have : ∀ (r pre : List α), l = pre ++ r → (List.range' pre.length r.length).mapM (rd l) = .ok r := by
    intro r
    induction r with
    | nil => intro pre _; rfl
    | cons a r ih =>
      intro pre h
      rw [List.length_cons, List.range'_succ, List.mapM_cons, rd_of_getElem? (a := a) (by rw [h]; simp), ok_bind]
      have := ih (pre ++ [a]) (by rw [h]; simp)
      rw [List.length_append] at this
      rw [show pre.length + 1 = pre.length + [a].length from rfl, this]
      rfl
  have := this l [] rfl
  rw [List.length_nil, ← List.range_eq_range'] at this
  exact this

theorem chrApply_plain {f : Collation} {xs ys : List Name} (h : f xs = .ok (some ⟨ys, none⟩)) :
    chrApply f xs = if ys.length = xs.length then .ok ys else .error .abort := by
  unfold chrApply
  rw [h, ok_bind]
  dsimp only
  rw [show (ChrObj.mk ys none).size = .ok ys.length from rfl, ok_bind]
  by_cases hl : ys.length = xs.length
  · rw [if_neg (by omega), if_pos hl, mapM_rd_range]
  · rw [if_pos (by omega), if_neg hl]

/-- What `chr_apply` does to one leaf. -/
def leafApply (f : Collation) (p : Val) : C Val :=
  match p.chr? with
  | none => .ok p
  | some x => do .ok (.vec (.atom .chr) (← chrApply f x))

theorem chr?_eq {p : Val} {x : List Name} (h : p.chr? = some x) : p = .vec (.atom .chr) x := by
  unfold Val.chr? at h
  split at h
  · injection h with h; subst h; rfl
  · cases h

/-- The second loop of `df_apply`. -/
theorem dfApply_loop (f : Collation) (cols : List Val) : ∀ (r i : Nat) (pre : List Val), i + r = cols.length →
    pre.length = i →
    forFrom (fun i (out : List Val) => do
      let col ← rd cols i
      match col.chr? with
      | none => .ok out
      | some x => do
        let y ← chrApply f x
        wr out i (.vec (.atom .chr) y)) i r (pre ++ cols.drop i) =
      (do let rest ← (cols.drop i).mapM (leafApply f); .ok (pre ++ rest))
  | 0, i, pre, hi, hp => by
    have : cols.drop i = [] := List.drop_eq_nil_of_le (by omega)
    rw [this, forFrom]
    rfl
  | r + 1, i, pre, hi, hp => by
    have hlt : i < cols.length := by omega
    rw [forFrom, rd_ok hlt, ok_bind, List.drop_eq_getElem_cons hlt, List.mapM_cons]
    have hleaf : leafApply f cols[i] = (match cols[i].chr? with
      | none => .ok cols[i]
      | some x => do .ok (.vec (.atom .chr) (← chrApply f x))) := rfl
    rw [hleaf]
    cases h : cols[i].chr? with
    | none =>
      have ih := dfApply_loop f cols r (i + 1) (pre ++ [cols[i]]) (by omega) (by simp [hp])
      dsimp only
      rw [ok_bind, ok_bind]
      rw [List.append_assoc, List.singleton_append] at ih
      rw [ih]
      cases (cols.drop (i + 1)).mapM (leafApply f) with
      | error e => rfl
      | ok rest => simp [ok_bind]
    | some x =>
      dsimp only
      cases hc : chrApply f x with
      | error e => rfl
      | ok y =>
        have ih := dfApply_loop f cols r (i + 1) (pre ++ [.vec (.atom .chr) y]) (by omega) (by simp [hp])
        rw [ok_bind, wr_ok (by simp [hp]; omega), ok_bind, ok_bind]
        have hset : (pre ++ cols[i] :: cols.drop (i + 1)).set i (.vec (.atom .chr) y) =
            pre ++ [.vec (.atom .chr) y] ++ cols.drop (i + 1) := by
          rw [List.set_append_right _ _ (by omega), hp, Nat.sub_self, List.set_cons_zero]
          simp
        rw [hset, ih]
        cases (cols.drop (i + 1)).mapM (leafApply f) with
        | error e => rfl
        | ok rest => simp [ok_bind]

theorem dfApply_eq (f : Collation) (cols : List Val) : dfApply f cols = cols.mapM (leafApply f) := by
  have hfirst : Ret (forBrk cols.length (fun i (_ : Nat) => do
      let col ← rd cols i
      if col.chr?.isSome then .ok (.brk i) else .ok (.next (i + 1))) 0)
      (fun i => i ≤ cols.length ∧ ∀ (j : Nat) p, j < i → cols[j]? = some p → p.chr? = none) := by
    refine Ret.forBrk (fun k (s : Nat) => s = k ∧ ∀ (j : Nat) p, j < k → cols[j]? = some p → p.chr? = none) _ ?_ ?_ ?_
    · exact ⟨rfl, fun j p hj => absurd hj (by omega)⟩
    · rintro k s hk ⟨rfl, h⟩
      refine Ret.bind_eq (rd_ok hk) ?_
      by_cases hc : cols[s].chr?.isSome = true
      · rw [if_pos hc]
        exact Ret.ok ⟨by omega, h⟩
      · rw [if_neg hc]
        refine Ret.ok ⟨rfl, fun j p hj hp => ?_⟩
        by_cases hjs : j = s
        · subst hjs
          rw [List.getElem?_eq_getElem hk] at hp
          injection hp with hp
          subst hp
          simpa using hc
        · exact h j p (by omega) hp
    · rintro s ⟨rfl, h⟩
      exact ⟨Nat.le_refl _, h⟩
  obtain ⟨i, h1, h2, h3⟩ := hfirst
  have hpre : (cols.take i).mapM (leafApply f) = .ok (cols.take i) := by
    have : ∀ l : List Val, (∀ p ∈ l, p.chr? = none) → l.mapM (leafApply f) = .ok l := by
      intro l
      induction l with
      | nil => intro _; rfl
      | cons p l ih =>
        intro h
        rw [List.mapM_cons, ih (fun p hp => h p (by simp [hp]))]
        unfold leafApply
        rw [h p (by simp)]
        rfl
    refine this _ (fun p hp => ?_)
    obtain ⟨j, hj, rfl⟩ := List.getElem_of_mem hp
    rw [List.length_take] at hj
    exact h3 j _ (by omega) (by rw [List.getElem_take, List.getElem?_eq_getElem])
  have hall : cols.mapM (leafApply f) = (do let rest ← (cols.drop i).mapM (leafApply f); .ok (cols.take i ++ rest)) := by
    conv_lhs => rw [← List.take_append_drop i cols, List.mapM_append, hpre]
    rfl
  unfold dfApply
  rw [h1, ok_bind, hall]
  by_cases hi : i = cols.length
  · rw [if_pos hi, hi, List.drop_length, List.take_length]
    simp [ok_bind, List.mapM_nil]
  · rw [if_neg hi]
    have := dfApply_loop f cols (cols.length - i) i (cols.take i) (by omega) (by simp; omega)
    rw [List.take_append_drop] at this
    exact this

theorem proxyApply_pack (f : Collation) {n : Nat} {ls : List Val} (h : ∀ p ∈ ls, p.isDf = false) :
    proxyApplyCollate (some f) (packLeaves n ls) = (do .ok (packLeaves n (← ls.mapM (leafApply f)))) := by
  have hdf : proxyApplyCollate (some f) (.df n ls) = (do .ok (.df n (← ls.mapM (leafApply f)))) := by
    unfold proxyApplyCollate
    dsimp only
    rw [dfApply_eq]
  have hlen : ∀ rest : List Val, ls.mapM (leafApply f) = .ok rest → rest.length = ls.length := fun _ h => mapM_len h
  match ls, h, hdf, hlen with
  | [p], h, _, _ =>
    have hp := h p (by simp)
    cases p with
    | df _ _ => cases hp
    | vec t xs =>
      rw [packLeaves, List.mapM_cons]
      unfold proxyApplyCollate leafApply
      dsimp only
      cases (Val.vec t xs).chr? with
      | none => rfl
      | some x =>
        dsimp only
        cases chrApply f x with
        | error e => rfl
        | ok y => rfl
  | [], _, hdf, _ => exact hdf
  | p :: q :: ls, _, hdf, hlen =>
    rw [packLeaves, hdf]
    · cases h : (p :: q :: ls).mapM (leafApply f) with
      | error e => rfl
      | ok rest =>
        have hl := hlen _ h
        match rest, hl with
        | [], hl => cases hl
        | [_], hl => cases hl
        | a :: b :: rest, _ => rfl
    · intro x hx; cases hx

mutual

theorem leaves_mapChr (g : List Name → List Name) : (x : Val) → leaves (mapChr g x) = (leaves x).map (mapChr g)
  | .vec t xs => by
    cases t with
    | list => rfl
    | atom t => cases t <;> rfl
  | .df n cols => by
    simp only [mapChr, leaves]
    exact leavesAll_mapChr g cols

theorem leavesAll_mapChr (g : List Name → List Name) : (xs : List Val) →
    leavesAll (mapChrs g xs) = (leavesAll xs).map (mapChr g)
  | [] => rfl
  | x :: xs => by
    simp only [mapChrs, leavesAll, List.map_append]
    rw [leaves_mapChr g x, leavesAll_mapChr g xs]

end

mutual

theorem expansion_mapChr (g : List Name → List Name) : (x : Val) →
    decreasingExpansion (mapChr g x) = decreasingExpansion x
  | .vec t xs => by
    cases t with
    | list => rfl
    | atom t => cases t <;> rfl
  | .df n cols => by
    simp only [mapChr, decreasingExpansion]
    exact expansions_mapChr g cols

theorem expansions_mapChr (g : List Name → List Name) : (xs : List Val) →
    decreasingExpansions (mapChrs g xs) = decreasingExpansions xs
  | [] => rfl
  | x :: xs => by
    simp only [mapChrs, decreasingExpansions]
    rw [expansion_mapChr g x, expansions_mapChr g xs]

end

theorem mapChrs_eq (g : List Name → List Name) : (xs : List Val) → mapChrs g xs = xs.map (mapChr g)
  | [] => rfl
  | x :: xs => by rw [mapChrs, mapChrs_eq g xs]; rfl

theorem expandArgs_mapChr (g : List Name → List Name) (x : Val) (d n : List Bool) :
    orderExpandArgs (mapChr g x) d n = orderExpandArgs x d n := by
  cases x with
  | vec t xs =>
    cases t with
    | list => rfl
    | atom t => cases t <;> rfl
  | df m cols =>
    simp only [mapChr, orderExpandArgs, dfExpandArgs, mapChrs_eq, List.length_map, List.map_map]
    have : cols.map (decreasingExpansion ∘ mapChr g) = cols.map decreasingExpansion :=
      List.map_congr_left (fun x _ => expansion_mapChr g x)
    rw [this]

theorem size_mapChr {f : Collation} {g : List Name → List Name} {x : Val} (h : CollatesAs f g x) :
    (mapChr g x).size = x.size := by
  cases x with
  | df n cols => rfl
  | vec t xs =>
    cases t with
    | list => rfl
    | atom t =>
      cases t with
      | chr => exact (h xs (by simp [leaves])).2
      | _ => rfl

theorem leafApply_ok {f : Collation} {g : List Name → List Name} {p : Val}
    (h : ∀ xs : List Name, p = .vec (.atom .chr) xs → f xs = .ok (some ⟨g xs, none⟩) ∧ (g xs).length = xs.length)
    (hp : p.isDf = false) : leafApply f p = .ok (mapChr g p) := by
  cases p with
  | df _ _ => cases hp
  | vec t xs =>
    cases t with
    | list => rfl
    | atom t =>
      cases t with
      | chr =>
        obtain ⟨h1, h2⟩ := h xs rfl
        show (do .ok (Val.vec (.atom .chr) (← chrApply f xs)) : C Val) = _
        have : chrApply f xs = .ok (g xs) := by
          rw [chrApply_plain h1, if_pos h2]
        rw [this]
        rfl
      | _ => rfl

theorem proxyApply_ok {f : Collation} {g : List Name → List Name} {x : Val} (h : CollatesAs f g x) :
    (do let proxy ← proxyVal x; proxyApplyCollate (some f) proxy) = proxyVal (mapChr g x) := by
  rw [proxyVal_ok, proxyVal_ok, ok_bind, proxyApply_pack f (leaves_vec x), leaves_mapChr, size_mapChr h]
  have : (leaves x).mapM (leafApply f) = .ok ((leaves x).map (mapChr g)) := by
    have key : ∀ l : List Val, (∀ p ∈ l, leafApply f p = .ok (mapChr g p)) → l.mapM (leafApply f) = .ok (l.map (mapChr g)) := by
      intro l
      induction l with
      | nil => intro _; rfl
      | cons p l ih =>
        intro h
        rw [List.mapM_cons, h p (by simp), ih (fun p hp => h p (by simp [hp]))]
        rfl
    refine key _ (fun p hp => leafApply_ok (fun xs e => ?_) (leaves_vec x p hp))
    subst e
    exact h xs hp
  rw [this]
  rfl

/-- **C87**: with a collation function that gives character vectors of the same length, ordering is
ordering of the vector with its strings, at any depth, replaced. -/
theorem C87_order_info {f : Collation} {g : List Name → List Name} {x : Val} (h : CollatesAs f g x) (fuel : Nat)
    (direction naValue : List Name) (nanDistinct chrOrdered groupSizes : Bool) (tl : TL) (static : List Nat) :
    orderInfoCollate (some f) fuel x direction naValue nanDistinct chrOrdered groupSizes tl static =
      vecOrderInfo fuel (mapChr g x) direction naValue nanDistinct chrOrdered groupSizes tl static := by
  unfold orderInfoCollate vecOrderInfo
  simp only [expandArgs_mapChr]
  have hp := proxyApply_ok h
  congr 1; funext d
  congr 1; funext n
  congr 1; funext dn
  congr 1; funext dn
  congr 1; funext na
  rw [← hp]
  simp only [bind_assoc]

/-- Without a collation function nothing is replaced. -/
theorem C87_none (fuel : Nat) (x : Val) (direction naValue : List Name) (nanDistinct chrOrdered groupSizes : Bool)
    (tl : TL) (static : List Nat) :
    orderInfoCollate none fuel x direction naValue nanDistinct chrOrdered groupSizes tl static =
      vecOrderInfo fuel x direction naValue nanDistinct chrOrdered groupSizes tl static := by
  unfold orderInfoCollate vecOrderInfo
  simp only [proxyApplyCollate, ok_bind]

theorem columns_mapChr (g : List Name → List Name) (x : Val) :
    (columns (mapChr g x)).length = (columns x).length := by
  cases x with
  | vec t xs =>
    cases t with
    | list => rfl
    | atom t => cases t <;> rfl
  | df n cols => simp [mapChr, columns, mapChrs_eq]

theorem not_complex_mapChr (g : List Name → List Name) {x : Val}
    (hc : ∀ (i : Nat) (p : Val), 0 < i → (leaves x)[i]? = some p → ¬ IsComplex p) (i : Nat) (p : Val) (hi : 0 < i)
    (hp : (leaves (mapChr g x))[i]? = some p) : ¬ IsComplex p := by
  rw [leaves_mapChr, List.getElem?_map] at hp
  cases hq : (leaves x)[i]? with
  | none => rw [hq] at hp; cases hp
  | some q =>
    rw [hq] at hp
    injection hp with hp
    subst hp
    have := hc i q hi hq
    cases q with
    | df _ _ => intro h; cases h
    | vec t xs =>
      cases t with
      | list => exact this
      | atom t =>
        cases t with
        | chr => intro h; cases h
        | _ => exact this

/-- **C87**: the stable order of the rows with the strings replaced, and the sizes of the groups of ties;
the shared buffers are as before. -/
theorem C87_order {f : Collation} {g : List Name → List Name} {x : Val} (h : CollatesAs f g x)
    (hn : x.size ≤ intMax) (hs : ∀ p ∈ leaves (mapChr g x), Sortable x.size p)
    (hc : ∀ (i : Nat) (p : Val), 0 < i → (leaves x)[i]? = some p → ¬ IsComplex p)
    (direction naValue : List Name) (ds ns : List Bool)
    (hd : ForColumns IsDirection direction (columns x).length ds)
    (hna : ForColumns IsNaValue naValue (columns x).length ns) (nanDistinct : Bool) (tl : TL)
    (h0 : ∀ u, 0 ≤ tl u) (fuel : Nat) (hf : (leaves x).length ≤ fuel) :
    ∃ (o : List Int) (sizes : List Nat) (m : Nat),
      orderInfoCollate (some f) fuel x direction naValue nanDistinct true true tl (List.replicate 100001 0) =
        .ok (⟨o, some (sizes, m)⟩, tl, List.replicate 100001 0) ∧
      StableOrder (RowBefore nanDistinct (sortKeys (mapChr g x) ds ns)) x.size o ∧
      GroupSizes (RowBefore nanDistinct (sortKeys (mapChr g x) ds ns)) x.size o sizes m := by
  rw [C87_order_info h]
  rw [← size_mapChr h] at hn hs ⊢
  rw [← columns_mapChr g] at hd hna
  refine C34_partial _ hn hs (not_complex_mapChr g hc) direction naValue ds ns hd hna nanDistinct tl h0 fuel ?_
  rw [leaves_mapChr, List.length_map]
  exact hf

/-- `vec_order()` with a collation function: the stable order of the rows with the strings replaced, whatever the
types of the columns, if no complex column follows the first one. -/
theorem C87_vec_order {f : Collation} {g : List Name → List Name} {x : Val} (h : CollatesAs f g x)
    (hn : x.size ≤ intMax) (hs : ∀ p ∈ leaves (mapChr g x), Sortable x.size p)
    (hc : ∀ (i : Nat) (p : Val), 0 < i → (leaves x)[i]? = some p → ¬ IsComplex p)
    (direction naValue : List Name) (ds ns : List Bool)
    (hd : ForColumns IsDirection direction (columns x).length ds)
    (hna : ForColumns IsNaValue naValue (columns x).length ns) (nanDistinct : Bool) (tl : TL)
    (h0 : ∀ u, 0 ≤ tl u) (fuel : Nat) (hf : (leaves x).length ≤ fuel) :
    ∃ o : List Int, vecOrderCollate (some f) fuel x direction naValue nanDistinct tl (List.replicate 100001 0) =
        .ok (o, tl, List.replicate 100001 0) ∧
      StableOrder (RowBefore nanDistinct (sortKeys (mapChr g x) ds ns)) x.size o := by
  have e : ∀ tl static, vecOrderCollate (some f) fuel x direction naValue nanDistinct tl static =
      vecOrder fuel (mapChr g x) direction naValue nanDistinct tl static := by
    intro tl static
    unfold vecOrderCollate vecOrder
    rw [C87_order_info h]
  rw [e]
  rw [← size_mapChr h] at hn hs ⊢
  rw [← columns_mapChr g] at hd hna
  refine C34_order_only_partial _ hn hs (not_complex_mapChr g hc) direction naValue ds ns hd hna nanDistinct tl h0 fuel ?_
  rw [leaves_mapChr, List.length_map]
  exact hf

/-- `vec_locate_sorted_groups()` with a collation function. -/
theorem C87_sorted_groups {f : Collation} {g : List Name → List Name} {x : Val} (h : CollatesAs f g x)
    (fuel : Nat) (direction naValue : List Name) (nanDistinct : Bool) (tl : TL) (static : List Nat) :
    sortedGroupsCollate (some f) fuel x direction naValue nanDistinct tl static =
      vecLocateSortedGroups fuel (mapChr g x) direction naValue nanDistinct tl static := by
  unfold sortedGroupsCollate vecLocateSortedGroups
  rw [C87_order_info h]
  rfl

/-- `vec_rank()` with a collation function. -/
theorem C87_rank {f : Collation} {g : List Name → List Name} {x : Val} (h : CollatesAs f g x)
    (fuel : Nat) (ties : Ties) (direction naValue : List Name) (nanDistinct : Bool) (tl : TL) (static : List Nat) :
    rankAllCollate (some f) fuel x ties direction naValue nanDistinct tl static =
      rankAll fuel (mapChr g x) ties direction naValue nanDistinct tl static := by
  unfold rankAllCollate rankAll
  rw [C87_order_info h, size_mapChr h]
  rfl

/-! ## Errors -/

/-- A result that cannot be used: the function failed, the result is not a character vector, or its length is wrong.
Results with dimensions are left out, see `C87_array_out_of_bounds`. -/
def Spec.BadCollation (f : Collation) (xs : List Name) : Prop :=
  f xs = .error .abort ∨ f xs = .ok none ∨ ∃ ys : List Name, f xs = .ok (some ⟨ys, none⟩) ∧ ys.length ≠ xs.length

theorem leafApply_bad {f : Collation} {xs : List Name} (h : BadCollation f xs) :
    leafApply f (.vec (.atom .chr) xs) = .error .abort := by
  show (do .ok (Val.vec (.atom .chr) (← chrApply f xs)) : C Val) = _
  have : chrApply f xs = .error .abort := by
    rcases h with h | h | ⟨ys, h, hl⟩
    · unfold chrApply
      rw [h]; rfl
    · unfold chrApply
      rw [h]; rfl
    · rw [chrApply_plain h, if_neg hl]
  rw [this]
  rfl

/-- **C87** (errors, partial): if the function cannot be used for some character vector of `x`,
the result is an error, whatever else is in `x`.  Missing: results with dimensions. -/
theorem C87_error_partial {f : Collation} {x : Val} {pre post : List Val} {xs : List Name}
    (hx : leaves x = pre ++ Val.vec (.atom .chr) xs :: post) (hbad : BadCollation f xs)
    (hpre : ∀ ys : List Name, Val.vec (.atom .chr) ys ∈ pre → BadCollation f ys ∨
      ∃ zs : List Name, f ys = .ok (some ⟨zs, none⟩) ∧ zs.length = ys.length)
    (direction naValue : List Name) (ds ns : List Bool)
    (hd : ForColumns IsDirection direction (columns x).length ds)
    (hna : ForColumns IsNaValue naValue (columns x).length ns) (nanDistinct chrOrdered groupSizes : Bool)
    (tl : TL) (static : List Nat) (fuel : Nat) :
    orderInfoCollate (some f) fuel x direction naValue nanDistinct chrOrdered groupSizes tl static = .error .abort := by
  obtain ⟨d, hd1, hd2, hd3⟩ := parse_forColumns (fun s d h => parseDirectionOne_ok h) hd
  obtain ⟨nl, hn1, hn2, hn3⟩ := parse_forColumns (fun s d h => parseNaValueOne_ok h) hna
  obtain ⟨d1, n1, d2, n2, ha1, ha2, hA⟩ := orderArgs_ok hd.1 hna.1 hd2 hn2 hd3 hn3
  obtain ⟨na, hl1, -⟩ := hA.naLast
  have hleaves : (leaves x).mapM (leafApply f) = .error .abort := by
    have hv := leaves_vec x
    rw [hx] at hv ⊢
    clear hx hd hna hA hd1 hd2 hd3 hn1 hn2 hn3 ha1 ha2 hl1
    induction pre with
    | nil =>
      rw [List.nil_append, List.mapM_cons, leafApply_bad hbad]
      rfl
    | cons p pre ih =>
      have ih := ih (fun ys hy => hpre ys (by simp [hy])) (fun q hq => hv q (by simp at hq ⊢; exact Or.inr hq))
      rw [List.cons_append, List.mapM_cons]
      have hp : leafApply f p = .error .abort ∨ ∃ q, leafApply f p = .ok q := by
        unfold leafApply
        cases hc : p.chr? with
        | none => exact Or.inr ⟨_, rfl⟩
        | some ys =>
          have hpe := chr?_eq hc
          rcases hpre ys (by simp [hpe]) with hb | ⟨zs, h1, h2⟩
          · left
            have := leafApply_bad hb
            exact this
          · right
            refine ⟨.vec (.atom .chr) zs, ?_⟩
            dsimp only
            rw [chrApply_plain h1, if_pos h2]
            rfl
      rcases hp with hp | ⟨q, hq⟩
      · rw [hp]; rfl
      · rw [hq, ok_bind, ih]; rfl
  unfold orderInfoCollate
  rw [hd1, ok_bind, hn1, ok_bind, ha1, ok_bind]
  dsimp only
  rw [ha2, ok_bind]
  dsimp only
  rw [hl1, ok_bind, proxyVal_ok, ok_bind, proxyApply_pack f (leaves_vec x), hleaves]
  rfl

/-- A function that gives as many rows as there are strings, but no strings. -/
def C87_rows : Collation := fun xs => .ok (some ⟨[], some [xs.length, 0]⟩)

/-- Disagreement: a result of a different length is not an error if it is an array with the right number of rows; strings
are read out of bounds. -/
theorem C87_array_out_of_bounds (s : Name) (xs : List Name) (direction naValue : List Name) (ds ns : List Bool)
    (hd : ForColumns IsDirection direction 1 ds) (hna : ForColumns IsNaValue naValue 1 ns)
    (nanDistinct chrOrdered groupSizes : Bool) (tl : TL) (static : List Nat) (fuel : Nat) :
    C87_rows (s :: xs) = .ok (some ⟨[], some [xs.length + 1, 0]⟩) ∧
    orderInfoCollate (some C87_rows) fuel (.vec (.atom .chr) (s :: xs)) direction naValue nanDistinct chrOrdered
      groupSizes tl static = .error .ub := by
  refine ⟨rfl, ?_⟩
  obtain ⟨d, hd1, hd2, hd3⟩ := parse_forColumns (fun s d h => parseDirectionOne_ok h) hd
  obtain ⟨nl, hn1, hn2, hn3⟩ := parse_forColumns (fun s d h => parseNaValueOne_ok h) hna
  obtain ⟨d1, n1, d2, n2, ha1, ha2, hA⟩ := orderArgs_ok (x := .vec (.atom .chr) (s :: xs)) hd.1 hna.1 hd2 hn2 hd3 hn3
  obtain ⟨na, hl1, -⟩ := hA.naLast
  have hc : chrApply C87_rows (s :: xs) = .error .ub := by
    unfold chrApply
    rw [show C87_rows (s :: xs) = .ok (some ⟨[], some [(s :: xs).length, 0]⟩) from rfl, ok_bind]
    dsimp only
    rw [show (ChrObj.mk [] (some [(s :: xs).length, 0])).size = .ok (xs.length + 1) from rfl, ok_bind,
      if_neg (by simp), List.range_succ_eq_map, List.mapM_cons]
    rfl
  unfold orderInfoCollate
  rw [hd1, ok_bind, hn1, ok_bind, ha1, ok_bind]
  dsimp only
  rw [ha2, ok_bind]
  dsimp only
  rw [hl1, ok_bind, proxyVal_ok, ok_bind, proxyApply_pack C87_rows (leaves_vec _)]
  rw [show leaves (.vec (.atom .chr) (s :: xs)) = [.vec (.atom .chr) (s :: xs)] by simp [leaves], List.mapM_cons]
  rw [show leafApply C87_rows (.vec (.atom .chr) (s :: xs)) =
    (do .ok (Val.vec (.atom .chr) (← chrApply C87_rows (s :: xs))) : C Val) from rfl, hc]
  rfl

/-! ## Examples -/

/-- Lower case letters for upper case ones. -/
def C87_lower (xs : List Name) : List Name := xs.map (fun s => s.map (List.map Char.toLower))

/-- The same as an R function. -/
def C87_tolower : Collation := fun xs => .ok (some ⟨C87_lower xs, none⟩)

/-- Numbers and, in a data frame column, strings. -/
def C87_x : Val :=
  .df 4 [.vec (.atom .int) ([2, 1, 1, 1] : List Int),
    .df 4 [.vec (.atom .chr) ([some ['b'], some ['B'], some ['a'], some ['b']] : List Name)]]

example : CollatesAs C87_tolower C87_lower C87_x := fun _ _ => ⟨rfl, by simp [C87_lower]⟩

example : ∀ p ∈ leaves (mapChr C87_lower C87_x), Sortable C87_x.size p := by
  intro p hp
  simp only [C87_x, mapChr, mapChrs, leaves, leavesAll, List.append_nil, List.mem_cons, List.not_mem_nil,
    or_false, List.singleton_append] at hp
  rcases hp with rfl | rfl
  · refine ⟨rfl, ?_⟩
    unfold IsInt
    decide
  · refine ⟨rfl, ?_⟩
    simp [C87_lower, ByteString]

-- "B" is with "b"; without the function it would come before "a"
example : exRun (orderInfoCollate (some C87_tolower) 4 C87_x exAsc exLargest true true true exTl exStatic) =
    some ⟨[3, 2, 4, 1], some ([1, 2, 1], 2)⟩ := by decide +kernel

example : exRun (orderInfoCollate none 4 C87_x exAsc exLargest true true true exTl exStatic) =
    some ⟨[2, 3, 4, 1], some ([1, 1, 1, 1], 1)⟩ := by decide +kernel

-- a function that drops values
example : BadCollation (fun xs => .ok (some ⟨xs.take 3, none⟩)) [some ['b'], some ['B'], some ['a'], some ['b']] :=
  Or.inr (Or.inr ⟨_, rfl, by decide⟩)

example : leaves C87_x = [.vec (.atom .int) ([2, 1, 1, 1] : List Int)] ++
    Val.vec (.atom .chr) ([some ['b'], some ['B'], some ['a'], some ['b']] : List Name) :: [] := rfl

example : ForColumns IsDirection exAsc (columns C87_x).length [false, false] :=
  ⟨rfl, Or.inl ⟨_, false, rfl, rfl, by simp⟩⟩

end Vctrs
