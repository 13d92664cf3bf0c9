import Verif.Model.Proxy
import Verif.Lemmas.Compare
import Verif.Lemmas.Subscript
import Verif.Lemmas.Chop

/-! # Flattening of data frames, and missingness -/

namespace Vctrs

open Spec

/-! ## Flattening -/

mutual

theorem leaves_vec : (x : Val) → ∀ p ∈ leaves x, p.isDf = false
  | .vec t xs, p, hp => by
      simp only [leaves, List.mem_singleton] at hp
      rw [hp]; rfl
  | .df _ cols, p, hp => leavesAll_vec cols p (by simpa only [leaves] using hp)

theorem leavesAll_vec : (xs : List Val) → ∀ p ∈ leavesAll xs, p.isDf = false
  | [], p, hp => by simp [leavesAll] at hp
  | x :: xs, p, hp => by
      simp only [leavesAll, List.mem_append] at hp
      rcases hp with hp | hp
      · exact leaves_vec x p hp
      · exact leavesAll_vec xs p hp

end

theorem leavesAll_flat : (l : List Val) → (∀ p ∈ l, p.isDf = false) → leavesAll l = l
  | [], _ => rfl
  | .vec t xs :: l, h => by
      simp only [leavesAll, leaves]
      rw [leavesAll_flat l (fun p hp => h p (by simp [hp]))]
      rfl
  | .df n c :: l, h => absurd (h (.df n c) (by simp)) (by simp [Val.isDf])

mutual

theorem flatWidthCol_eq : (x : Val) → flatWidthCol x = ((leaves x).length : Int) - 1
  | .vec t xs => by simp [flatWidthCol, leaves]
  | .df _ cols => by
      simp only [flatWidthCol, leaves]
      rw [flatWidthCols_eq cols]
      omega

theorem flatWidthCols_eq : (xs : List Val) → ∀ out : Int,
    flatWidthCols xs out = out - (xs.length : Int) + ((leavesAll xs).length : Int)
  | [], out => by simp [flatWidthCols, leavesAll]
  | x :: xs, out => by
      simp only [flatWidthCols, leavesAll, List.length_append, List.length_cons]
      rw [flatWidthCols_eq xs, flatWidthCol_eq x]
      omega

end

mutual

theorem flattenCol_ok : (x : Val) → ∀ (pre : List Val) (m : Nat), (leaves x).length ≤ m →
    flattenCol x (pre.map some ++ alloc Val m, pre.length) =
      .ok ((pre ++ leaves x).map some ++ alloc Val (m - (leaves x).length),
        (pre ++ leaves x).length)
  | .vec t xs, pre, m, hm => by
      simp only [leaves, List.length_singleton] at hm
      simp only [flattenCol]
      rw [wr_ok (by simp [alloc]; omega), ok_bind]
      simp only [leaves]
      congr 2
      · apply List.ext_getElem?
        intro j
        rw [getElem?_set' (by simp [alloc]; omega)]
        simp only [alloc, List.map_append, List.map_cons, List.map_nil, List.append_assoc]
        by_cases h1 : j < pre.length
        · rw [if_neg (by omega), List.getElem?_append_left (by simpa using h1),
            List.getElem?_append_left (by simpa using h1)]
        · rw [List.getElem?_append_right (by simp; omega), List.getElem?_append_right (by simp; omega)]
          simp only [List.length_map, List.length_singleton]
          by_cases h2 : j = pre.length
          · subst h2; simp
          · rw [if_neg h2]
            obtain ⟨k, hk⟩ : ∃ k, j - pre.length = k + 1 := ⟨j - pre.length - 1, by omega⟩
            rw [hk]
            simp only [List.singleton_append, List.getElem?_cons_succ]
            by_cases h3 : k + 1 < m
            · rw [List.getElem?_replicate, List.getElem?_replicate, if_pos h3, if_pos (by omega)]
            · rw [List.getElem?_replicate, List.getElem?_replicate, if_neg h3, if_neg (by omega)]
      · simp
  | .df _ cols, pre, m, hm => by
      simp only [leaves] at hm ⊢
      simp only [flattenCol]
      exact flattenLoop_ok cols pre m hm

theorem flattenLoop_ok : (xs : List Val) → ∀ (pre : List Val) (m : Nat),
    (leavesAll xs).length ≤ m →
    flattenLoop xs (pre.map some ++ alloc Val m, pre.length) =
      .ok ((pre ++ leavesAll xs).map some ++ alloc Val (m - (leavesAll xs).length),
        (pre ++ leavesAll xs).length)
  | [], pre, m, _ => by simp [flattenLoop, leavesAll]
  | x :: xs, pre, m, hm => by
      simp only [leavesAll, List.length_append] at hm
      simp only [flattenLoop]
      rw [flattenCol_ok x pre m (by omega), ok_bind, flattenLoop_ok xs _ _ (by omega)]
      simp only [leavesAll, List.length_append, List.append_assoc]
      rw [Nat.sub_sub]

end

theorem dfFlatten_ok (n : Nat) (cols : List Val) : dfFlatten n cols = .ok (.df n (leavesAll cols)) := by
  unfold dfFlatten dfFlattenInfo
  simp only [flatWidthCols_eq, Int.sub_self, Int.zero_add]
  by_cases h : cols.any Val.isDf
  · rw [h]
    simp only [Bool.not_true, Bool.false_eq_true, if_false, Int.toNat_natCast]
    rw [if_neg (by omega)]
    have := flattenLoop_ok cols [] (leavesAll cols).length (Nat.le_refl _)
    simp only [List.map_nil, List.nil_append, List.length_nil, Nat.sub_self, alloc,
      List.replicate_zero, List.append_nil] at this
    unfold alloc
    rw [this, ok_bind, initd_map_some, ok_bind]
  · simp only [h, Bool.not_false, if_true]
    rw [leavesAll_flat cols]
    intro p hp
    by_contra hc
    exact h (List.any_eq_true.2 ⟨p, hp, by simpa using hc⟩)

/-- A data frame of leaves, unwrapped. -/
def packLeaves (n : Nat) : List Val → Val
  | [x] => x
  | xs => .df n xs

theorem leaves_pack (n : Nat) (l : List Val) (h : ∀ p ∈ l, p.isDf = false) :
    leaves (packLeaves n l) = l := by
  match l, h with
  | [], _ => rfl
  | [.vec t xs], _ => rfl
  | [.df m c], h => exact absurd (h (.df m c) (by simp)) (by simp [Val.isDf])
  | x :: y :: l, h => exact leavesAll_flat _ h

theorem unwrap_df (n : Nat) (l : List Val) (h : ∀ p ∈ l, p.isDf = false) :
    proxyUnwrap (.df n l) = packLeaves n l := by
  match l, h with
  | [], _ => rfl
  | [.vec t xs], _ => rfl
  | [.df m c], h => exact absurd (h (.df m c) (by simp)) (by simp [Val.isDf])
  | x :: y :: l, h => rfl

mutual

theorem proxyVal_ok : (x : Val) → proxyVal x = .ok (packLeaves x.size (leaves x))
  | .vec t xs => rfl
  | .df n cols => by
      obtain ⟨cols', h1, h2⟩ := proxyCols_ok cols
      simp only [proxyVal, h1, ok_bind, dfFlatten_ok, h2, leaves]
      rw [unwrap_df n _ (leavesAll_vec cols)]
      rfl

theorem proxyCols_ok : (xs : List Val) → ∃ ys, proxyCols xs = .ok ys ∧ leavesAll ys = leavesAll xs
  | [] => ⟨[], rfl, rfl⟩
  | x :: xs => by
      obtain ⟨ys, h1, h2⟩ := proxyCols_ok xs
      refine ⟨packLeaves x.size (leaves x) :: ys, ?_, ?_⟩
      · simp only [proxyCols, proxyVal_ok x, h1, ok_bind]
      · simp only [leavesAll, h2, leaves_pack _ _ (leaves_vec x)]

end

theorem Spec.Sized.size {n : Nat} {x : Val} (h : Sized n x) : x.size = n := by
  cases h with
  | vec t xs hx => exact hx
  | df cols h => rfl

mutual

theorem sized_leaves {n : Nat} : (x : Val) → Sized n x → ∀ p ∈ leaves x,
    ∃ t xs, p = .vec t xs ∧ xs.length = n
  | .vec t xs, h, p, hp => by
      simp only [leaves, List.mem_singleton] at hp
      cases h with
      | vec _ _ hx => exact ⟨t, xs, hp, hx⟩
  | .df m cols, h, p, hp => by
      simp only [leaves] at hp
      cases h with
      | df _ hc => exact sized_leavesAll cols hc p hp

theorem sized_leavesAll {n : Nat} : (xs : List Val) → (∀ x ∈ xs, Sized n x) → ∀ p ∈ leavesAll xs,
    ∃ t xs, p = .vec t xs ∧ xs.length = n
  | [], _, p, hp => by simp [leavesAll] at hp
  | x :: xs, h, p, hp => by
      simp only [leavesAll, List.mem_append] at hp
      rcases hp with hp | hp
      · exact sized_leaves x (h x (by simp)) p hp
      · exact sized_leavesAll xs (fun y hy => h y (by simp [hy])) p hp

end

/-! ## Missingness -/

/-- The element of a column at row `i` is missing. -/
def cellMissing (p : Val) (i : Nat) : Bool :=
  match p with
  | .vec t xs => (xs[i]?).any (missingScalar t)
  | .df _ _ => false

theorem cellMissing_iff (p : Val) (i : Nat) : cellMissing p i = true ↔ MissingCell p i := by
  cases p with
  | vec t xs =>
    simp only [cellMissing, MissingCell, Option.any_eq_true]
    constructor
    · rintro ⟨a, h1, h2⟩; exact ⟨a, h1, (missingScalar_iff t a).1 h2⟩
    · rintro ⟨a, h1, h2⟩; exact ⟨a, h1, (missingScalar_iff t a).2 h2⟩
  | df n cols => simp [cellMissing, MissingCell]

theorem detectMissing_ok {α : Type} (missing : α → Bool) (x : List α) :
    detectMissing missing x = .ok (x.map missing) := by
  unfold detectMissing
  have h := mapLoop_eq (fun a => (.ok (missing a) : C Bool)) x
  simp only [ok_bind] at h
  rw [h]
  induction x with
  | nil => rfl
  | cons a l ih =>
    have ih' : l.mapM (fun a => (.ok (missing a) : C Bool)) = .ok (l.map missing) :=
      ih (by have h2 := mapLoop_eq (fun a => (.ok (missing a) : C Bool)) l
             simp only [ok_bind] at h2; exact h2)
    rw [List.mapM_cons, ok_bind, ih', ok_bind]
    rfl

theorem colDetectMissingLoop_ok {α : Type} (missing : α → Bool) (x : List α) (loc : List Nat)
    (k : Nat) (hk : k ≤ loc.length) (hv : ∀ l ∈ loc.take k, l < x.length) :
    Ret (colDetectMissingLoop missing x loc k) (fun r => r.1.length = loc.length ∧
      r.2 ≤ loc.length ∧ r.1.take r.2 = (loc.take k).filter (fun l => (x[l]?).any missing)) := by
  unfold colDetectMissingLoop
  refine (Ret.forN (fun i (s : List Nat × Nat) => s.1.length = loc.length ∧ s.2 ≤ i ∧
    s.1.take s.2 = (loc.take i).filter (fun l => (x[l]?).any missing) ∧
    ∀ j, i ≤ j → s.1[j]? = loc[j]?) ⟨rfl, Nat.le_refl _, by simp, fun _ _ => rfl⟩ ?_).mono ?_
  · rintro i ⟨l, c⟩ hi ⟨h1, h2, h3, h4⟩
    simp only at h1 h2 h3 h4
    have hli : l[i]? = some loc[i] := by
      rw [h4 i (Nat.le_refl _)]; exact List.getElem?_eq_getElem (by omega)
    have hx : loc[i] < x.length := by
      apply hv
      rw [List.mem_take_iff_getElem]
      exact ⟨i, by omega, rfl⟩
    simp only [rd_of_getElem? hli, ok_bind]
    rw [wr_ok (by omega), ok_bind, rd_of_getElem? (List.getElem?_eq_getElem hx), ok_bind]
    refine Ret.ok ⟨by simpa using h1, ?_, ?_, ?_⟩
    · simp only; split <;> omega
    · have ht : loc.take (i + 1) = loc.take i ++ [loc[i]] := by
        rw [List.take_succ, List.getElem?_eq_getElem (by omega)]; rfl
      rw [ht, List.filter_append]
      have hx' : x[loc[i]]? = some x[loc[i]] := List.getElem?_eq_getElem hx
      simp only
      by_cases hm : missing x[loc[i]] = true
      · rw [if_pos hm]
        have : [loc[i]].filter (fun l => (x[l]?).any missing) = [loc[i]] := by
          simp [hx', hm]
        rw [this, List.take_succ, getElem?_set' (by omega), if_pos rfl, ← h3,
          List.take_set_of_le (Nat.le_refl _)]
        rfl
      · rw [if_neg hm]
        have : [loc[i]].filter (fun l => (x[l]?).any missing) = [] := by
          simp [hx', hm]
        rw [this, List.append_nil, ← h3, Nat.add_zero, List.take_set_of_le (Nat.le_refl _)]
    · intro j hj
      simp only
      rw [getElem?_set' (by omega), if_neg (by omega)]
      exact h4 j (by omega)
  · rintro ⟨l, c⟩ ⟨h1, h2, h3, -⟩
    simp only at h1 h2 h3
    exact ⟨h1, by simp only; omega, h3⟩

theorem forFrom_congr {S : Type} {f g : Nat → S → C S} : ∀ (r i : Nat) (s : S),
    (∀ j s, j < i + r → f j s = g j s) → forFrom f i r s = forFrom g i r s
  | 0, _, _, _ => rfl
  | r + 1, i, s, h => by
      simp only [forFrom]
      rw [h i s (by omega)]
      congr 1
      funext s'
      exact forFrom_congr r (i + 1) s' (fun j s hj => h j s (by omega))

theorem forN_congr {S : Type} {f g : Nat → S → C S} {n : Nat} {s : S}
    (h : ∀ i s, i < n → f i s = g i s) : forN n f s = forN n g s :=
  forFrom_congr n 0 s (fun j s hj => h j s (by omega))

theorem filter_all_concat {n : Nat} {cols : List Val} {p : Val} :
    ((List.range n).filter (fun i => cols.all (fun q => cellMissing q i))).filter
      (fun i => cellMissing p i) =
    (List.range n).filter (fun i => (cols ++ [p]).all (fun q => cellMissing q i)) := by
  rw [List.filter_filter]
  congr 1
  funext i
  simp [List.all_append, Bool.and_comm]

theorem set_all_true (n : Nat) (L : List Nat) (hL : ∀ l ∈ L, l < n) :
    Ret (forN L.length (fun i (out : List Bool) => do
      let l ← rd L i
      wr out l true) (List.replicate n false))
      (fun out => out = (List.range n).map (fun i => decide (i ∈ L))) := by
  refine (Ret.forN (fun i (out : List Bool) => out = (List.range n).map
    (fun j => decide (j ∈ L.take i))) ?_ ?_).mono ?_
  · apply List.ext_getElem?
    intro j
    by_cases hj : j < n
    · simp [hj]
    · rw [List.getElem?_eq_none (by simp; omega), List.getElem?_eq_none (by simp; omega)]
  · rintro i out hi rfl
    have hl := hL L[i] (List.getElem_mem _)
    rw [rd_of_getElem? (List.getElem?_eq_getElem hi), ok_bind, wr_ok (by simpa using hl)]
    refine Ret.ok ?_
    apply List.ext_getElem?
    intro j
    rw [getElem?_set' (by simpa using hl)]
    have ht : L.take (i + 1) = L.take i ++ [L[i]] := by
      rw [List.take_succ, List.getElem?_eq_getElem hi]; rfl
    rw [ht]
    by_cases hj : j < n
    · simp only [List.getElem?_map, List.getElem?_range hj, Option.map_some, List.mem_append,
        List.mem_singleton]
      by_cases he : j = L[i]
      · rw [if_pos he]; simp [he]
      · rw [if_neg he]; simp [he]
    · rw [if_neg (by omega), List.getElem?_eq_none (by simp; omega),
        List.getElem?_eq_none (by simp; omega)]
  · intro out h
    rw [List.take_length] at h
    exact h

theorem forN_wr_range (n : Nat) : Ret (forN n (fun i (loc : List (Option Nat)) => wr loc i (some i))
    (alloc Nat n)) (fun r => r = (List.range n).map some) := by
  refine (Ret.forN (fun i (r : List (Option Nat)) => r.length = n ∧
    ∀ j, j < i → r[j]? = some (some j)) ⟨by simp [alloc], by intro j hj; omega⟩ ?_).mono ?_
  · rintro i r hi ⟨h1, h2⟩
    rw [wr_ok (by omega)]
    refine Ret.ok ⟨by simpa using h1, fun j hj => ?_⟩
    rw [getElem?_set' (by omega)]
    by_cases he : j = i
    · rw [if_pos he, he]
    · rw [if_neg he]; exact h2 j (by omega)
  · rintro r ⟨h1, h2⟩
    apply List.ext_getElem?
    intro j
    by_cases hj : j < n
    · rw [h2 j hj]; simp [hj]
    · rw [List.getElem?_eq_none (by omega), List.getElem?_eq_none (by simp; omega)]

/-- Rows where every one of the columns is missing. -/
def allMissing (cols : List Val) (i : Nat) : Bool := cols.all (fun p => cellMissing p i)

theorem dfDetectMissing_ok (n : Nat) (cols : List Val)
    (h : ∀ p ∈ cols, ∃ t xs, p = .vec t xs ∧ xs.length = n) :
    dfDetectMissing n cols = .ok ((List.range n).map (allMissing cols)) := by
  unfold dfDetectMissing
  obtain ⟨loc, h1, rfl⟩ := forN_wr_range n
  rw [h1, ok_bind, initd_map_some, ok_bind]
  have hloop : Ret (forBrk cols.length (fun i (s : List Nat × Nat) => do
      let col ← rd cols i
      let s ← colDetectMissing col s.1 s.2
      if s.2 = 0 then .ok (.brk s) else .ok (.next s)) (List.range n, n))
      (fun s => s.2 ≤ s.1.length ∧ s.1.length = n ∧
        s.1.take s.2 = (List.range n).filter (allMissing cols)) := by
    refine Ret.forBrk (fun c (s : List Nat × Nat) => s.2 ≤ s.1.length ∧ s.1.length = n ∧
      s.1.take s.2 = (List.range n).filter (allMissing (cols.take c))) _ ?_ ?_ ?_
    · refine ⟨by simp, by simp, ?_⟩
      simp only [List.take_zero]
      rw [show allMissing [] = fun _ => true from rfl]
      simp
    · rintro c ⟨l, k⟩ hc ⟨g1, g2, g3⟩
      simp only at g1 g2 g3
      rw [rd_of_getElem? (List.getElem?_eq_getElem hc), ok_bind]
      obtain ⟨t, xs, hp, hx⟩ := h cols[c] (List.getElem_mem _)
      have ht : cols.take (c + 1) = cols.take c ++ [cols[c]] := by
        rw [List.take_succ, List.getElem?_eq_getElem hc]; rfl
      have hv : ∀ i ∈ l.take k, i < xs.length := by
        intro i hi
        rw [g3] at hi
        rw [hx]
        exact List.mem_range.1 (List.mem_of_mem_filter hi)
      have hcol : colDetectMissing cols[c] l k = colDetectMissingLoop (missingScalar t) xs l k := by
        rw [hp]; rfl
      simp only [hcol]
      refine Ret.bind (colDetectMissingLoop_ok (missingScalar t) xs l k g1 hv) ?_
      rintro ⟨l', k'⟩ ⟨e1, e2, e3⟩
      simp only at e1 e2 e3
      have e4 : l'.take k' = (List.range n).filter (allMissing (cols.take (c + 1))) := by
        have hcm : (fun l => Option.any (missingScalar t) xs[l]?) = fun l => cellMissing cols[c] l := by
          funext l; rw [hp]; rfl
        rw [e3, g3, hcm, ht]
        exact filter_all_concat
      by_cases h0 : k' = 0
      · simp only [h0, if_true]
        refine Ret.ok ⟨by omega, by simp only; omega, ?_⟩
        rw [h0, List.take_zero] at e4
        simp only [List.take_zero]
        symm
        rw [List.filter_eq_nil_iff]
        intro i hi hall
        have := List.filter_eq_nil_iff.1 e4.symm i hi
        apply this
        unfold allMissing at hall ⊢
        rw [List.all_eq_true] at hall ⊢
        intro p hp
        exact hall p (List.mem_of_mem_take hp)
      · simp only [h0, if_false]
        exact Ret.ok ⟨by simp only; omega, by simp only; omega, e4⟩
    · rintro ⟨l, k⟩ hs
      rw [List.take_length] at hs
      exact hs
  obtain ⟨⟨l, k⟩, hl, g1, g2, g3⟩ := hloop
  simp only at g1 g2 g3
  rw [hl, ok_bind]
  simp only
  have hfin := set_all_true n (l.take k) (by
    intro i hi; rw [g3] at hi; exact List.mem_range.1 (List.mem_of_mem_filter hi))
  obtain ⟨out, ho, he⟩ := hfin
  have hlen : (l.take k).length = k := by simp; omega
  rw [hlen] at ho
  have hsame : forN k (fun i (out : List Bool) => do
      let l ← rd l i
      wr out l true) (List.replicate n false) = forN k (fun i (out : List Bool) => do
      let l ← rd (l.take k) i
      wr out l true) (List.replicate n false) := by
    apply forN_congr
    intro i s hi
    have : (l.take k)[i]? = l[i]? := by rw [List.getElem?_take, if_pos hi]
    simp only [rd, this]
  rw [hsame, ho, he]
  congr 1
  apply List.map_congr_left
  intro i hi
  rw [g3]
  simp only [List.mem_filter, hi, true_and]
  simp

theorem vecDetectMissing_pack (n : Nat) (l : List Val)
    (h : ∀ p ∈ l, ∃ t xs, p = .vec t xs ∧ xs.length = n) :
    vecDetectMissing (packLeaves n l) = .ok ((List.range n).map (allMissing l)) := by
  match l, h with
  | [], h => exact dfDetectMissing_ok n [] h
  | [p], h =>
    obtain ⟨t, xs, rfl, hx⟩ := h p (by simp)
    show detectMissing (missingScalar t) xs = _
    rw [detectMissing_ok]
    congr 1
    apply List.ext_getElem?
    intro i
    by_cases hi : i < n
    · simp only [List.getElem?_map, List.getElem?_range hi, Option.map_some,
        List.getElem?_eq_getElem (show i < xs.length by omega), allMissing, List.all_cons,
        List.all_nil, Bool.and_true, cellMissing, Option.any_some]
    · rw [List.getElem?_eq_none (by simp; omega), List.getElem?_eq_none (by simp; omega)]
  | p :: q :: l, h => exact dfDetectMissing_ok n _ h

theorem firstMissing_ok {α : Type} (missing : α → Bool) (x : List α) :
    Ret (firstMissing missing x) (fun r => r ≤ x.length ∧
      (∀ j, j < r → (x[j]?).any missing = false) ∧ (r < x.length → (x[r]?).any missing = true)) := by
  unfold firstMissing
  refine Ret.forBrk (fun i (r : Nat) => r = x.length ∧ ∀ j, j < i → (x[j]?).any missing = false) _
    ⟨rfl, by intro j hj; omega⟩ ?_ ?_
  · rintro i r hi ⟨rfl, h2⟩
    rw [rd_of_getElem? (List.getElem?_eq_getElem hi), ok_bind]
    by_cases hm : missing x[i] = true
    · rw [if_pos hm]
      refine Ret.ok ⟨by omega, h2, fun _ => ?_⟩
      rw [List.getElem?_eq_getElem hi]; simpa using hm
    · rw [if_neg hm]
      refine Ret.ok ⟨rfl, fun j hj => ?_⟩
      by_cases he : j = i
      · subst he; rw [List.getElem?_eq_getElem hi]; simpa using hm
      · exact h2 j (by omega)
  · rintro r ⟨rfl, h2⟩
    exact ⟨Nat.le_refl _, h2, fun e => by omega⟩

theorem pDfIsMissing_ok (n i : Nat) (hi : i < n) (cols : List Val)
    (h : ∀ p ∈ cols, ∃ t xs, p = .vec t xs ∧ xs.length = n) :
    pDfIsMissing cols i = .ok (allMissing cols i) := by
  suffices hr : Ret (pDfIsMissing cols i) (fun b => b = allMissing cols i) by
    obtain ⟨b, hb, rfl⟩ := hr; exact hb
  unfold pDfIsMissing
  refine Ret.forBrk (fun c (b : Bool) => b = true ∧ allMissing (cols.take c) i = true) _
    ⟨rfl, rfl⟩ ?_ ?_
  · rintro c b hc ⟨rfl, hI⟩
    obtain ⟨t, xs, hp, hx⟩ := h cols[c] (List.getElem_mem _)
    have hxi := List.getElem?_eq_getElem (l := xs) (i := i) (by omega)
    have hm : pIsMissing cols[c] i = .ok (cellMissing cols[c] i) := by
      rw [hp]
      simp only [pIsMissing, rd_of_getElem? hxi, ok_bind, cellMissing, hxi, Option.any_some]
    rw [rd_of_getElem? (List.getElem?_eq_getElem hc), ok_bind, hm, ok_bind]
    by_cases hc' : cellMissing cols[c] i = true
    · rw [hc']
      refine Ret.ok ⟨rfl, ?_⟩
      have ht : cols.take (c + 1) = cols.take c ++ [cols[c]] := by
        rw [List.take_succ, List.getElem?_eq_getElem hc]; rfl
      unfold allMissing at hI ⊢
      rw [ht, List.all_append, hI]
      simp [hc']
    · rw [Bool.not_eq_true] at hc'
      rw [hc']
      refine Ret.ok (show false = allMissing cols i from ?_)
      symm
      rw [Bool.eq_false_iff]
      intro hall
      have := List.all_eq_true.1 hall cols[c] (List.getElem_mem _)
      rw [hc'] at this
      cases this
  · rintro b ⟨rfl, hI⟩
    rw [List.take_length] at hI
    exact hI.symm

/-- What is asked of the first missing row. -/
def IsFirstMissing (n : Nat) (l : List Val) (r : Nat) : Prop :=
  r ≤ n ∧ (∀ j, j < r → allMissing l j = false) ∧ (r < n → allMissing l r = true)

theorem dfFirstMissing_scan (n start : Nat) (cols : List Val) (hs : start ≤ n)
    (h : ∀ p ∈ cols, ∃ t xs, p = .vec t xs ∧ xs.length = n)
    (hb : ∀ j, j < start → allMissing cols j = false) :
    Ret (forBrkFrom (fun i (out : Nat) => do
      if ← pDfIsMissing cols i then .ok (.brk i) else .ok (.next out)) start (n - start) n)
      (IsFirstMissing n cols) := by
  refine forBrkFrom_inv (fun i (r : Nat) => r = n ∧ ∀ j, j < i → allMissing cols j = false) _ _ _ _
    ⟨rfl, hb⟩ ?_ ?_
  · rintro j r h1 h2 ⟨rfl, h3⟩
    rw [pDfIsMissing_ok r j (by omega) cols h, ok_bind]
    by_cases hm : allMissing cols j = true
    · right
      rw [if_pos hm]
      exact ⟨j, rfl, by omega, h3, fun _ => hm⟩
    · left
      rw [if_neg hm]
      refine ⟨r, rfl, rfl, fun k hk => ?_⟩
      by_cases he : k = j
      · subst he; simpa using hm
      · exact h3 k (by omega)
  · rintro r ⟨rfl, h3⟩
    refine ⟨Nat.le_refl _, fun j hj => h3 j (by omega), fun e => by omega⟩

theorem dfFirstMissing_ok (n : Nat) (cols : List Val)
    (h : ∀ p ∈ cols, ∃ t xs, p = .vec t xs ∧ xs.length = n) :
    Ret (dfFirstMissing n cols) (IsFirstMissing n cols) := by
  unfold dfFirstMissing
  match cols, h with
  | [], h =>
    simp only [List.length_nil, Nat.lt_irrefl, if_false, ok_bind, decide_false, Bool.false_and,
      Bool.false_eq_true]
    exact dfFirstMissing_scan n 0 [] (Nat.zero_le _) h (by intro j hj; omega)
  | p :: cols, h =>
    obtain ⟨t, xs, rfl, hx⟩ := h p (by simp)
    rw [if_pos (by simp)]
    have h0 : rd (Val.vec t xs :: cols) 0 = .ok (.vec t xs) := rfl
    rw [h0, ok_bind]
    obtain ⟨r, hr, r1, r2, r3⟩ := firstMissing_ok (missingScalar t) xs
    simp only [hr, ok_bind]
    have hb : ∀ j, j < r → allMissing (.vec t xs :: cols) j = false := by
      intro j hj
      have := r2 j hj
      simp only [allMissing, List.all_cons, cellMissing, this, Bool.false_and]
    by_cases he : r = n
    · rw [if_pos (by simp [he])]
      exact Ret.ok ⟨Nat.le_refl _, by rw [← he]; exact hb, fun e => by omega⟩
    · rw [if_neg (by simp [he])]
      exact dfFirstMissing_scan n r _ (by omega) h hb

theorem vecFirstMissing_pack (n : Nat) (l : List Val)
    (h : ∀ p ∈ l, ∃ t xs, p = .vec t xs ∧ xs.length = n) :
    Ret (vecFirstMissing (packLeaves n l)) (IsFirstMissing n l) := by
  match l, h with
  | [], h => exact dfFirstMissing_ok n [] h
  | [p], h =>
    obtain ⟨t, xs, rfl, hx⟩ := h p (by simp)
    refine Ret.mono (firstMissing_ok (missingScalar t) xs) ?_
    rintro r ⟨h1, h2, h3⟩
    refine ⟨by omega, fun j hj => ?_, fun hr => ?_⟩
    · simp only [allMissing, List.all_cons, cellMissing, h2 j hj, Bool.false_and]
    · simp only [allMissing, List.all_cons, cellMissing, h3 (by omega), List.all_nil, Bool.and_true]
  | p :: q :: l, h => exact dfFirstMissing_ok n _ h

/-- Rows where none of the columns is missing. -/
def noneMissing (cols : List Val) (i : Nat) : Bool := cols.all (fun p => !cellMissing p i)

theorem detectCompleteLoop_ok {α : Type} (missing : α → Bool) (x : List α) (out : List Bool)
    (n : Nat) (hx : x.length = n) (g : Nat → Bool) (ho : out = (List.range n).map g) :
    Ret (detectCompleteLoop missing x n out)
      (fun r => r = (List.range n).map (fun i => g i && !(x[i]?).any missing)) := by
  subst ho
  unfold detectCompleteLoop
  refine (Ret.forN (fun i (r : List Bool) => r = (List.range n).map (fun j =>
    if j < i then g j && !(x[j]?).any missing else g j)) (by simp) ?_).mono ?_
  · rintro i r hi rfl
    have hxi := List.getElem?_eq_getElem (l := x) (i := i) (by omega)
    rw [rd_of_getElem? hxi, ok_bind]
    by_cases hm : missing x[i] = true
    · rw [if_pos hm, wr_ok (by simpa using hi)]
      refine Ret.ok ?_
      apply List.ext_getElem?
      intro j
      rw [getElem?_set' (by simpa using hi)]
      by_cases hj : j < n
      · simp only [List.getElem?_map, List.getElem?_range hj, Option.map_some]
        by_cases he : j = i
        · subst he; rw [if_pos rfl, if_pos (by omega), hxi]; simp [hm]
        · rw [if_neg he]
          by_cases hji : j < i
          · rw [if_pos hji, if_pos (by omega)]
          · rw [if_neg hji, if_neg (by omega)]
      · rw [if_neg (by omega), List.getElem?_eq_none (by simp; omega),
          List.getElem?_eq_none (by simp; omega)]
    · rw [if_neg hm]
      refine Ret.ok ?_
      apply List.map_congr_left
      intro j hj
      by_cases he : j = i
      · subst he; rw [if_neg (by omega), if_pos (by omega), hxi]; simp [hm]
      · by_cases hji : j < i
        · rw [if_pos hji, if_pos (by omega)]
        · rw [if_neg hji, if_neg (by omega)]
  · rintro r rfl
    apply List.map_congr_left
    intro j hj
    rw [if_pos (List.mem_range.1 hj)]

theorem dfDetectComplete_ok (n : Nat) (cols : List Val)
    (h : ∀ p ∈ cols, ∃ t xs, p = .vec t xs ∧ xs.length = n) :
    vecDetectComplete (.df n cols) = .ok ((List.range n).map (noneMissing cols)) := by
  suffices hr : Ret (vecDetectComplete (.df n cols))
      (fun r => r = (List.range n).map (noneMissing cols)) by
    obtain ⟨r, hr, rfl⟩ := hr; exact hr
  unfold vecDetectComplete
  simp only [Val.size]
  refine (Ret.forN (fun c (r : List Bool) => r = (List.range n).map (noneMissing (cols.take c)))
    ?_ ?_).mono ?_
  · rw [List.take_zero, show noneMissing [] = fun _ => true from rfl]
    apply List.ext_getElem?
    intro j
    by_cases hj : j < n
    · simp [hj]
    · rw [List.getElem?_eq_none (by simp; omega), List.getElem?_eq_none (by simp; omega)]
  · rintro c r hc rfl
    obtain ⟨t, xs, hp, hx⟩ := h cols[c] (List.getElem_mem _)
    rw [rd_of_getElem? (List.getElem?_eq_getElem hc), ok_bind]
    have hcol : ∀ out, colDetectComplete cols[c] n out =
        detectCompleteLoop (missingScalar t) xs n out := by
      intro out; rw [hp]; rfl
    rw [hcol]
    refine Ret.mono (detectCompleteLoop_ok (missingScalar t) xs _ n hx _ rfl) ?_
    rintro r rfl
    apply List.map_congr_left
    intro i _
    have ht : cols.take (c + 1) = cols.take c ++ [cols[c]] := by
      rw [List.take_succ, List.getElem?_eq_getElem hc]; rfl
    rw [ht]
    simp only [noneMissing, List.all_append, List.all_cons, List.all_nil, Bool.and_true]
    rw [hp]
    rfl
  · rintro r hr
    rw [List.take_length] at hr
    exact hr

theorem vecDetectComplete_pack (n : Nat) (l : List Val)
    (h : ∀ p ∈ l, ∃ t xs, p = .vec t xs ∧ xs.length = n) :
    vecDetectComplete (packLeaves n l) = .ok ((List.range n).map (noneMissing l)) := by
  match l, h with
  | [], h => exact dfDetectComplete_ok n [] h
  | [p], h =>
    obtain ⟨t, xs, rfl, hx⟩ := h p (by simp)
    show detectCompleteLoop (missingScalar t) xs xs.length (List.replicate xs.length true) = _
    rw [hx]
    obtain ⟨r, hr, rfl⟩ := detectCompleteLoop_ok (missingScalar t) xs (List.replicate n true) n hx
      (fun _ => true) (by simp)
    rw [hr]
    congr 1
    apply List.map_congr_left
    intro i _
    simp [noneMissing, cellMissing]
  | p :: q :: l, h => exact dfDetectComplete_ok n _ h

theorem kept_sorted {β : Type} (keep : β → Bool) (x : List β) :
    (kept keep x).Pairwise (fun a b => a.2 < b.2) := by
  unfold kept
  refine List.Pairwise.filter _ ?_
  rw [← List.pairwise_map (f := Prod.snd) (R := (· < ·)), List.zipIdx_map_snd]
  exact List.pairwise_lt_range'

end Vctrs
