import Verif.Model.Grow
import Verif.Lemmas.Dictionary
import Verif.Props.C04

/-!
# C85: growable vectors

The vectors that `vec_unique()`, `vec_interval_groups()`, `vec_interval_locate_containers()` and
`vec_locate_matches()` build element by element hold exactly the elements pushed, at every number of
reallocations, without an access out of bounds.  `struct growable` counts its capacity in an `int`
that overflows after 2^30 elements, which `vec_unique_loc()` can reach (C85_unique_wrong).
-/

namespace Vctrs

namespace Spec

/-- What a use of a growable vector does to a list: `none` where it is not allowed. -/
def listOp {α : Type} : List α × List α → DynOp α → Option (List α × List α)
  | (l, r), .push a => some (l ++ [a], r)
  | (l, r), .pushBack a => some (l ++ [a], r)
  | (l, r), .poke i a => if i < l.length then some (l.set i a, r) else none
  | (l, r), .get i => l[i]?.map fun a => (l, r ++ [a])

/-- The same for a sequence of uses. -/
def listRun {α : Type} : List α × List α → List (DynOp α) → Option (List α × List α)
  | s, [] => some s
  | s, o :: os => (listOp s o).bind fun t => listRun t os

end Spec

open Spec

variable {α : Type}

/-! ## `struct growable` -/

/-- The vector holds `l`, with a capacity that is `c` doubled at most `k` times. -/
private def GrowInv (c k : Nat) (g : Growable α) (l : List α) : Prop :=
  ∃ j, j ≤ k ∧ g.capacity = c * 2 ^ j ∧ g.x.length = g.capacity ∧ g.n = l.length ∧
    l.length ≤ g.capacity ∧ g.x.take l.length = l.map some

private theorem take_wr {x : List (Option α)} {l : List α} {a : α} (hx : l.length < x.length)
    (h : x.take l.length = l.map some) :
    (x.set l.length (some a)).take (l ++ [a]).length = (l ++ [a]).map some := by
  apply List.ext_getElem?
  intro i
  have h' : ∀ i, i < l.length → x[i]? = (l.map some)[i]? := by
    intro i hi
    rw [← h, List.getElem?_take_of_lt hi]
  by_cases hi : i < l.length
  · rw [List.getElem?_take_of_lt (by simp; omega), List.getElem?_set_ne (by omega), h' i hi,
      List.map_append, List.getElem?_append_left (by simpa using hi)]
  · by_cases hi' : i = l.length
    · subst hi'
      rw [List.getElem?_take_of_lt (by simp), List.getElem?_set_self hx, List.map_append,
        List.getElem?_append_right (by simp)]
      simp
    · rw [List.getElem?_eq_none (by simp; omega), List.getElem?_eq_none (by simp; omega)]

private theorem pow_lt_of {c j k : Nat} (h : c * 2 ^ j < c * 2 ^ k) : j < k := by
  by_contra hn
  have h1 : 2 ^ k ≤ 2 ^ j := Nat.pow_le_pow_right (by omega) (by omega)
  have := Nat.mul_le_mul_left c h1
  omega

private theorem pow_le_mono (c : Nat) {j k : Nat} (h : j ≤ k) : c * 2 ^ j ≤ c * 2 ^ k :=
  Nat.mul_le_mul_left c (Nat.pow_le_pow_right (by omega) h)

private theorem lengthGets_length (na : α) {x : List (Option α)} {n : Nat} (h : x.length ≤ n) :
    (lengthGets na x n).length = n := by
  simp [lengthGets]; omega

private theorem growablePush_ok (na : α) {c k : Nat} (hc : 1 ≤ c) (hk : c * 2 ^ k ≤ intMax)
    {g : Growable α} {l : List α} (h : GrowInv c k g l) (hl : l.length < c * 2 ^ k) (a : α) :
    Ret (growablePush na g a) (fun g' => GrowInv c k g' (l ++ [a])) := by
  obtain ⟨j, hj, h1, h2, h3, h4, h5⟩ := h
  have hp : 1 ≤ 2 ^ j := Nat.one_le_two_pow
  have hcap : 1 ≤ c * 2 ^ j := Nat.mul_pos hc hp
  unfold growablePush
  by_cases hn : g.n = g.capacity
  · have hjk : j < k := pow_lt_of (c := c) (by omega)
    have hd : c * 2 ^ j * 2 = c * 2 ^ (j + 1) := by rw [Nat.pow_succ, Nat.mul_assoc]
    have hle := pow_le_mono c (show j + 1 ≤ k by omega)
    have hch : chkNat (g.capacity * 2) = .ok (c * 2 ^ (j + 1)) := by
      unfold chkNat; rw [if_neg (by omega)]; congr 1; omega
    rw [if_pos hn, hch]
    dsimp only [ok_bind]
    have hlen : (lengthGets na g.x (c * 2 ^ (j + 1))).length = c * 2 ^ (j + 1) :=
      lengthGets_length na (by omega)
    refine Ret.bind_eq (wr_ok (by rw [hlen]; omega)) ?_
    have hch2 : chkNat (g.n + 1) = .ok (g.n + 1) := by
      unfold chkNat; rw [if_neg (by omega)]
    rw [hch2]
    refine Ret.ok ⟨j + 1, by omega, rfl, ?_, by simp [h3], by simp; omega, ?_⟩
    · dsimp only; rw [List.length_set, hlen]
    · dsimp only
      rw [h3]
      refine take_wr (by rw [hlen]; omega) ?_
      rw [← h5]
      unfold lengthGets
      rw [List.take_append_of_le_length (by simp; omega), List.take_take]
      congr 1
      omega
  · rw [if_neg hn]
    dsimp only [ok_bind]
    refine Ret.bind_eq (wr_ok (by omega)) ?_
    have hch2 : chkNat (g.n + 1) = .ok (g.n + 1) := by
      unfold chkNat; rw [if_neg (by omega)]
    rw [hch2]
    refine Ret.ok ⟨j, hj, h1, ?_, by simp [h3], by simp; omega, ?_⟩
    · dsimp only; rw [List.length_set, h2]
    · dsimp only
      rw [h3]
      exact take_wr (by omega) h5

private theorem growablePush_ub (na : α) {c k : Nat} (hk : intMax < c * 2 ^ (k + 1))
    {g : Growable α} {l : List α} (h : GrowInv c k g l) (hl : l.length = c * 2 ^ k) (a : α) :
    growablePush na g a = .error .ub := by
  obtain ⟨j, hj, h1, h2, h3, h4, h5⟩ := h
  have hle := pow_le_mono c hj
  have hn : g.n = g.capacity := by omega
  have hd : c * 2 ^ k * 2 = c * 2 ^ (k + 1) := by rw [Nat.pow_succ, Nat.mul_assoc]
  unfold growablePush
  have hch : chkNat (g.capacity * 2) = .error .ub := by
    unfold chkNat; rw [if_pos (by omega)]
  rw [if_pos hn, hch]
  rfl

private theorem growInv_new (c k : Nat) : GrowInv c k (newGrowable α c) [] :=
  ⟨0, by omega, by simp [newGrowable], by simp [newGrowable], rfl, by simp, by simp⟩

private theorem growInv_values (na : α) {c k : Nat} {g : Growable α} {l : List α}
    (h : GrowInv c k g l) : growableValues na g = .ok l := by
  obtain ⟨j, hj, h1, h2, h3, h4, h5⟩ := h
  unfold growableValues lengthGets
  rw [h3, h5, show l.length - g.x.length = 0 by omega]
  simp [initd_map_some]

private theorem growablePushes_ok (na : α) {c k : Nat} (hc : 1 ≤ c) (hk : c * 2 ^ k ≤ intMax) :
    ∀ (xs l : List α) (g : Growable α), GrowInv c k g l → l.length + xs.length ≤ c * 2 ^ k →
      Ret (growablePushes na g xs) (fun g' => GrowInv c k g' (l ++ xs)) := by
  intro xs
  induction xs with
  | nil => intro l g h _; exact Ret.ok (by simpa using h)
  | cons a as ih =>
    intro l g h hl
    simp only [List.length_cons] at hl
    refine Ret.bind (growablePush_ok na hc hk h (by omega) a) ?_
    intro g' h'
    have := ih (l ++ [a]) g' h' (by simp; omega)
    simpa using this

/-- A growable vector of initial capacity `c` holds every list of at most `c * 2 ^ k` elements that
is pushed to it, as long as `c * 2 ^ k` is an `int`. -/
theorem C85_growable (na : α) (c k : Nat) (hc : 1 ≤ c) (hk : c * 2 ^ k ≤ 2147483647) (xs : List α)
    (hx : xs.length ≤ c * 2 ^ k) :
    ∃ g, growablePushes na (newGrowable α c) xs = .ok g ∧ growableValues na g = .ok xs := by
  obtain ⟨g, h1, h2⟩ := growablePushes_ok na hc hk xs [] _ (growInv_new c k) (by simpa using hx)
  exact ⟨g, h1, growInv_values na (by simpa using h2)⟩

/-- With one element more than the last capacity that is an `int`, the capacity overflows. -/
theorem C85_growable_overflow (na : α) (c k : Nat) (hc : 1 ≤ c) (hk : c * 2 ^ k ≤ 2147483647)
    (hk' : 2147483647 < c * 2 ^ (k + 1)) (xs : List α) (hx : c * 2 ^ k < xs.length) :
    growablePushes na (newGrowable α c) xs = .error .ub := by
  have key : ∀ (xs l : List α) (g : Growable α), GrowInv c k g l → l.length ≤ c * 2 ^ k →
      c * 2 ^ k < l.length + xs.length → growablePushes na g xs = .error .ub := by
    intro xs
    induction xs with
    | nil => intro l g _ h1 h2; simp at h2; omega
    | cons a as ih =>
      intro l g h h1 h2
      simp only [List.length_cons] at h2
      by_cases hl : l.length = c * 2 ^ k
      · exact bind_err_of (growablePush_ub na hk' h hl a)
      · obtain ⟨g', h3, h4⟩ := growablePush_ok na hc hk h (by omega) a
        exact bind_eq_of h3 (ih (l ++ [a]) g' h4 (by simp; omega) (by simp; omega))
  exact key xs [] _ (growInv_new c k) (by simp) (by simpa using hx)

example : growablePushes 0 (newGrowable Nat 1) [4, 5, 6] =
    .ok ⟨[some 4, some 5, some 6, some 0], 3, 4⟩ := by decide +kernel

example : ∃ g, growablePushes (0 : Nat) (newGrowable Nat 256) (List.range 1000) = .ok g ∧
    growableValues 0 g = .ok (List.range 1000) :=
  C85_growable 0 256 2 (by omega) (by omega) _ (by simp)

example : growablePushes (0 : Nat) (newGrowable Nat 256) (List.range 1073741825) = .error .ub :=
  C85_growable_overflow 0 256 22 (by omega) (by omega) (by omega) _ (by simp)

/-! ## `vec_unique_loc()` -/

section

variable {β : Type} {ops : PolyOps β}

private theorem firsts_le (x : List β) {i j : Nat} (h : i ≤ j) :
    (firsts ops x i).length ≤ (firsts ops x j).length := by
  induction j with
  | zero => obtain rfl : i = 0 := by omega
            exact Nat.le_refl _
  | succ j ih =>
    by_cases hj : i = j + 1
    · subst hj; exact Nat.le_refl _
    · have := ih (by omega)
      rw [firsts_succ]
      split <;> simp <;> omega

/-- `vec_unique_loc()` with its growable vector gives the locations of the first occurrences if
there are at most 2^30 of them.  For more, the statement fails (C85_unique_wrong). -/
theorem C85_unique_partial (he : EqvHash ops) (x : List β) (hn : x.length ≤ 2147483647)
    (hd : (nub ops.eq x).length ≤ 1073741824) :
    ∃ loc, uniqueLocG ops x = .ok (loc.map some) ∧ uniqueLoc ops x = .ok loc ∧ loc.Pairwise (· < ·) ∧
      ∀ l, l ∈ loc ↔ ∃ i, l = i + 1 ∧ IsFirst ops.eq x i := by
  obtain ⟨loc, hl, hp, hm⟩ := C04_unique_loc he x hn
  refine ⟨loc, ?_, hl, hp, hm⟩
  rw [uniqueLoc_ok he x hn] at hl
  obtain ⟨d, h1, h2, _⟩ := newDict_loaded (ops := ops) x hn
  rw [← firsts_length] at hd
  suffices h : Ret (uniqueLocG ops x) (fun g => g = loc.map some) by
    obtain ⟨g, hg, rfl⟩ := h; exact hg
  refine Ret.bind_eq h1 ?_
  refine Ret.bind (Ret.forN (fun i (s : Dict β × Growable (Option Nat)) => Loaded ops x s.1 i ∧
    GrowInv 256 22 s.2 ((firsts ops x i).map (fun i => some (i + 1))))
    ⟨h2, by simpa [firsts] using growInv_new 256 22⟩ ?_) ?_
  · rintro i ⟨d, g⟩ hi ⟨hd', hg⟩
    simp only at hd' hg ⊢
    obtain ⟨p, hp, _, hcase⟩ := load_step he hd' (List.getElem?_eq_getElem hi)
    rcases hcase with ⟨hf, h2, _, d', h3, h4, _⟩ | ⟨hnf, h2, idx, a, h3, _⟩
    · have hlt := firsts_le (ops := ops) x (show i + 1 ≤ x.length by omega)
      rw [firsts_succ, if_pos ((firstB_iff x i).2 hf)] at hlt
      obtain ⟨g', h5, h6⟩ := growablePush_ok none (by omega) (by simp [intMax]) hg
        (by simp at hlt ⊢; omega) (some (i + 1))
      refine ⟨(d', g'), by simp [hp, h2, h3, h5], h4, ?_⟩
      rw [firsts_succ, if_pos ((firstB_iff x i).2 hf)]
      simpa using h6
    · refine ⟨(d, g), by simp [hp, h3], h2, ?_⟩
      rw [firsts_succ, if_neg (by rw [firstB_iff]; exact hnf)]
      simpa using hg
  · rintro ⟨d', g⟩ ⟨_, hg⟩
    refine Ret.of_eq (growInv_values none hg) ?_
    cases hl
    simp

/-- Locations of the first occurrences found so far grow by at most one. -/
private theorem firsts_reach (x : List β) (m : Nat) :
    ∀ n, m < (firsts ops x n).length → ∃ k, k < n ∧ (firsts ops x k).length = m ∧
      (firstB ops x k = true) := by
  intro n
  induction n with
  | zero => intro h; simp [firsts] at h
  | succ n ih =>
    intro h
    by_cases hm : m < (firsts ops x n).length
    · obtain ⟨k, h1, h2, h3⟩ := ih hm
      exact ⟨k, by omega, h2, h3⟩
    · rw [firsts_succ] at h
      by_cases hb : firstB ops x n = true
      · rw [if_pos hb] at h
        simp at h
        exact ⟨n, by omega, by omega, hb⟩
      · rw [if_neg hb] at h
        simp at h
        omega

/-- `vec_unique_loc()` of more than 2^30 distinct elements overflows the `int` capacity of its
growable vector, although the dictionary supports vectors of this size. -/
theorem C85_unique_wrong (he : EqvHash ops) (x : List β) (hn : x.length ≤ 2147483647)
    (hd : 1073741824 < (nub ops.eq x).length) : uniqueLocG ops x = .error .ub := by
  obtain ⟨d, h1, h2, _⟩ := newDict_loaded (ops := ops) x hn
  rw [← firsts_length] at hd
  obtain ⟨k, hk1, hk2, hk3⟩ := firsts_reach x 1073741824 x.length hd
  unfold uniqueLocG
  refine bind_eq_of h1 (bind_err_of ?_)
  refine forN_err (k := k) (fun i (s : Dict β × Growable (Option Nat)) => Loaded ops x s.1 i ∧
    GrowInv 256 22 s.2 ((firsts ops x i).map (fun i => some (i + 1)))) hk1
    ⟨h2, by simpa [firsts] using growInv_new 256 22⟩ ?_ ?_
  · rintro i ⟨d, g⟩ hi ⟨hd', hg⟩
    simp only at hd' hg ⊢
    obtain ⟨p, hp, _, hcase⟩ := load_step he hd' (List.getElem?_eq_getElem (by omega : i < x.length))
    rcases hcase with ⟨hf, h2, _, d', h3, h4, _⟩ | ⟨hnf, h2, idx, a, h3, _⟩
    · have hlt := firsts_le (ops := ops) x (show i + 1 ≤ k by omega)
      rw [firsts_succ, if_pos ((firstB_iff x i).2 hf)] at hlt
      obtain ⟨g', h5, h6⟩ := growablePush_ok none (by omega) (by simp [intMax]) hg
        (by simp at hlt ⊢; omega) (some (i + 1))
      refine ⟨(d', g'), by simp [hp, h2, h3, h5], h4, ?_⟩
      rw [firsts_succ, if_pos ((firstB_iff x i).2 hf)]
      simpa using h6
    · refine ⟨(d, g), by simp [hp, h3], h2, ?_⟩
      rw [firsts_succ, if_neg (by rw [firstB_iff]; exact hnf)]
      simpa using hg
  · rintro ⟨d, g⟩ ⟨hd', hg⟩
    simp only at hd' hg ⊢
    obtain ⟨p, hp, _, hcase⟩ := load_step he hd' (List.getElem?_eq_getElem (by omega : k < x.length))
    rcases hcase with ⟨hf, h2, _, d', h3, h4, _⟩ | ⟨hnf, h2, idx, a, h3, _⟩
    · have h5 := growablePush_ub none (by simp [intMax]) hg (by simp [hk2]) (some (k + 1))
      simp [hp, h2, h3, h5]
    · exact absurd ((firstB_iff x k).1 hk3) hnf

/-- A list without equal elements is its own list of first occurrences. -/
private theorem nub_of_pairwise {eq : β → β → Bool} {x : List β}
    (h : x.Pairwise (fun a b => eq a b = false)) : nub eq x = x := by
  induction x with
  | nil => rfl
  | cons a l ih =>
    obtain ⟨h1, h2⟩ := List.pairwise_cons.1 h
    simp only [nub, ih h2]
    congr 1
    exact List.filter_eq_self.2 (fun b hb => by simp [h1 b hb])

end

example : uniqueLocG exOps (List.range 1073741825) = .error .ub := by
  refine C85_unique_wrong exOps_eqv _ (by simp) ?_
  rw [nub_of_pairwise]
  · simp
  · refine List.Pairwise.imp ?_ List.nodup_range
    intro a b h
    simpa [exOps] using h

example : uniqueLocG exOps [4, 2, 4, 7, 2, 9] = .ok [some 1, some 2, some 4, some 6] := by
  decide +kernel

/-! ## Dynamic arrays -/

/-- The array holds `l`. -/
private def DynInv (a : DynArr α) (l : List α) : Prop :=
  a.count = l.length ∧ 1 ≤ a.capacity ∧ l.length ≤ a.capacity ∧ a.data.length = a.capacity ∧
    a.data.take l.length = l.map some

private theorem dynIncrement_ok {a : DynArr α} {l : List α} (h : DynInv a l)
    (hl : l.length < 2251799813685248) :
    Ret (dynIncrement a) (fun r => r.1 = l.length ∧ r.2.count = l.length + 1 ∧
      l.length < r.2.capacity ∧ r.2.data.length = r.2.capacity ∧
      r.2.data.take l.length = l.map some) := by
  obtain ⟨h1, h2, h3, h4, h5⟩ := h
  unfold dynIncrement
  dsimp only
  by_cases hc : a.count + 1 > a.capacity
  · have hm : ssizeMult a.capacity 2 = .ok (a.capacity * 2) := by
      unfold ssizeMult ssizeMax
      rw [if_pos (by omega), if_pos (by omega), if_neg (by omega)]
    rw [if_pos hc, hm]
    have hv : vecResize a.data (a.capacity * 2) = a.data ++ alloc α (a.capacity * 2 - a.data.length) := by
      unfold vecResize
      rw [if_neg (by omega), if_neg (by omega)]
    refine Ret.ok ⟨h1, ?_, ?_, ?_, ?_⟩
    · simp only [dynResize]; omega
    · simp only [dynResize]; omega
    · simp only [dynResize, hv, List.length_append, alloc_length]; omega
    · simp only [dynResize, hv]
      rw [List.take_append_of_le_length (by omega), h5]
  · rw [if_neg hc]
    exact Ret.ok ⟨h1, by simp [h1], by simp; omega, h4, h5⟩

private theorem dynPush_ok {a : DynArr α} {l : List α} (h : DynInv a l)
    (hl : l.length < 2251799813685248) (v : α) :
    Ret (dynPush a v) (fun a' => DynInv a' (l ++ [v])) := by
  unfold dynPush
  refine Ret.bind (dynIncrement_ok h hl) ?_
  rintro ⟨loc, b⟩ ⟨h1, h2, h3, h4, h5⟩
  dsimp only at h1 h2 h3 h4 h5 ⊢
  subst h1
  unfold dynPoke
  refine Ret.bind_eq (wr_ok (by omega)) (Ret.ok ⟨?_, ?_, ?_, ?_, ?_⟩)
  · simp [h2]
  · dsimp only; omega
  · simp; omega
  · simp [h4]
  · exact take_wr (by omega) h5

private theorem dynPushBack_ok {a : DynArr α} {l : List α} (h : DynInv a l)
    (hl : l.length < 2251799813685248) (v : α) :
    Ret (dynPushBack a v) (fun a' => DynInv a' (l ++ [v])) := by
  unfold dynPushBack
  refine Ret.bind (dynIncrement_ok h hl) ?_
  rintro ⟨loc, b⟩ ⟨h1, h2, h3, h4, h5⟩
  dsimp only at h1 h2 h3 h4 h5 ⊢
  have hw : wrI b.data ((b.count : Int) - 1) (some v) = .ok (b.data.set l.length (some v)) := by
    have : ((b.count : Int) - 1).toNat = l.length := by omega
    rw [wrI_ok (by omega) (by omega), this]
  refine Ret.bind_eq hw (Ret.ok ⟨?_, ?_, ?_, ?_, ?_⟩)
  · simp [h2]
  · dsimp only; omega
  · simp; omega
  · simp [h4]
  · exact take_wr (by omega) h5

private theorem dynOp_ok {a : DynArr α} {l r : List α} (h : DynInv a l)
    (hl : l.length < 2251799813685248) (o : DynOp α) {t : List α × List α}
    (ho : listOp (l, r) o = some t) :
    Ret (dynOp (a, r) o) (fun s => DynInv s.1 t.1 ∧ s.2 = t.2) := by
  cases o with
  | push v =>
    simp only [listOp, Option.some.injEq] at ho
    subst ho
    obtain ⟨b, h1, h2⟩ := dynPush_ok h hl v
    exact ⟨(b, r), by simp [dynOp, h1], h2, rfl⟩
  | pushBack v =>
    simp only [listOp, Option.some.injEq] at ho
    subst ho
    obtain ⟨b, h1, h2⟩ := dynPushBack_ok h hl v
    exact ⟨(b, r), by simp [dynOp, h1], h2, rfl⟩
  | poke i v =>
    simp only [listOp] at ho
    split at ho
    · rename_i hi
      cases ho
      obtain ⟨h1, h2, h3, h4, h5⟩ := h
      refine ⟨({ a with data := a.data.set i (some v) }, r), ?_, ⟨?_, h2, ?_, ?_, ?_⟩, rfl⟩
      · simp [dynOp, dynPoke, wr_ok (show i < a.data.length by omega)]
      · simpa using h1
      · simpa using h3
      · simpa using h4
      · simp only [List.length_set]
        rw [List.take_set, h5, List.map_set]
    · cases ho
  | get i =>
    simp only [listOp, Option.map_eq_some_iff] at ho
    obtain ⟨v, hv, rfl⟩ := ho
    have hi : i < l.length := (List.getElem?_eq_some_iff.1 hv).1
    refine ⟨(a, r ++ [v]), ?_, h, rfl⟩
    obtain ⟨h1, h2, h3, h4, h5⟩ := h
    have hg : a.data[i]? = some (some v) := by
      rw [← List.getElem?_take_of_lt hi, h5, List.getElem?_map, hv]; rfl
    simp [dynOp, dynGet, rdU_ok hg]

private theorem dynRun_ok (os : List (DynOp α)) :
    ∀ (a : DynArr α) (l r : List α), DynInv a l → l.length + os.length ≤ 2251799813685248 →
      ∀ t, listRun (l, r) os = some t →
      Ret (dynRun (a, r) os) (fun s => DynInv s.1 t.1 ∧ s.2 = t.2) := by
  induction os with
  | nil =>
    intro a l r h _ t ht
    cases ht
    exact Ret.ok ⟨h, rfl⟩
  | cons o os ih =>
    intro a l r h hl t ht
    simp only [List.length_cons] at hl
    simp only [listRun, Option.bind_eq_some_iff] at ht
    obtain ⟨⟨l', r'⟩, h1, h2⟩ := ht
    refine Ret.bind (dynOp_ok h (by omega) o h1) ?_
    rintro ⟨a', r''⟩ ⟨h3, h4⟩
    dsimp only at h3 h4
    subst h4
    have hlen : l'.length ≤ l.length + 1 := by
      cases o with
      | push v => simp only [listOp, Option.some.injEq, Prod.mk.injEq] at h1; rw [← h1.1]; simp
      | pushBack v => simp only [listOp, Option.some.injEq, Prod.mk.injEq] at h1; rw [← h1.1]; simp
      | poke i v =>
        simp only [listOp] at h1
        split at h1
        · simp only [Option.some.injEq, Prod.mk.injEq] at h1; rw [← h1.1]; simp
        · cases h1
      | get i =>
        simp only [listOp, Option.map_eq_some_iff, Prod.mk.injEq] at h1
        obtain ⟨v, _, h1, _⟩ := h1
        rw [← h1]
        omega
    exact ih a' l' r'' h3 (by omega) t h2

private theorem dynInv_unwrap {a : DynArr α} {l : List α} (h : DynInv a l) :
    dynUnwrap a = .ok l := by
  obtain ⟨h1, h2, h3, h4, h5⟩ := h
  unfold dynUnwrap vecResize
  rw [h1]
  by_cases hl : a.data.length = l.length
  · rw [if_pos hl, ← initd_map_some l, ← h5, ← hl, List.take_length]
  · rw [if_neg hl, if_pos (by omega), h5, initd_map_some]

private theorem dynInv_new {c : Nat} (hc : 1 ≤ c) : DynInv (dynNew α c) ([] : List α) :=
  ⟨rfl, hc, by simp, by simp [dynNew], by simp⟩

/-- A dynamic array created with a capacity of at least 1 behaves as a list under every sequence of
uses that a list allows: what is read and what is unwrapped at the end are the same, and no access
is out of bounds or to memory not written. -/
theorem C85_dyn (c : Nat) (hc : 1 ≤ c) (os : List (DynOp α)) (ho : os.length ≤ 2251799813685248)
    (t : List α × List α) (ht : listRun ([], []) os = some t) :
    ∃ a, dynRun (dynNew α c, []) os = .ok (a, t.2) ∧ dynUnwrap a = .ok t.1 := by
  obtain ⟨⟨a, r⟩, h1, h2, rfl⟩ := dynRun_ok os (dynNew α c) [] [] (dynInv_new hc) (by simpa using ho) t ht
  exact ⟨a, h1, dynInv_unwrap h2⟩

/-- The arrays of src/interval.c, of a capacity computed from the number of intervals, hold exactly
what is pushed to them. -/
theorem C85_interval (size : Nat) (xs : List α) (hx : xs.length ≤ 2251799813685248) :
    ∃ a, dynRun (dynNew α (intervalCapacity size), []) (xs.map .push) = .ok (a, []) ∧
      dynUnwrap a = .ok xs := by
  have key : ∀ (xs l : List α), listRun (l, []) (xs.map .push) = some (l ++ xs, []) := by
    intro xs
    induction xs with
    | nil => intro l; simp [listRun]
    | cons a as ih => intro l; simp [listRun, listOp, ih]
  have := C85_dyn (intervalCapacity size) (by unfold intervalCapacity; omega) (xs.map .push)
    (by simpa using hx) ([] ++ xs, []) (key xs [])
  simpa using this

/-- The arrays of src/match.c start with one element for every needle.  With a capacity that is at
least the number of needles and not zero, they then behave as the list of these elements. -/
theorem C85_match (c n : Nat) (hc : 1 ≤ c) (hn : n ≤ c) (v : Nat → α) (os : List (DynOp α))
    (ho : n + os.length ≤ 2251799813685248) (t : List α × List α)
    (ht : listRun ((List.range n).map v, []) os = some t) :
    ∃ a b, dynFill (dynNew α c) n v = .ok a ∧ dynRun (a, []) os = .ok (b, t.2) ∧
      dynUnwrap b = .ok t.1 := by
  have hf : Ret (dynFill (dynNew α c) n v) (fun a => DynInv a ((List.range n).map v)) := by
    unfold dynFill
    refine Ret.bind (Ret.forN (fun i (s : List (Option α)) => s.length = c ∧
      s.take i = ((List.range i).map v).map some) ⟨by simp [dynNew], by simp⟩ ?_) ?_
    · rintro i s hi ⟨h1, h2⟩
      refine ⟨_, wr_ok (by omega), by simpa using h1, ?_⟩
      have := take_wr (x := s) (l := (List.range i).map v) (a := v i) (by simp; omega) (by simpa using h2)
      simpa [List.range_succ] using this
    · rintro s ⟨h1, h2⟩
      exact Ret.ok ⟨by simp, hc, by simpa [dynNew] using hn, by simpa [dynNew] using h1, by simpa using h2⟩
  obtain ⟨a, h1, h2⟩ := hf
  obtain ⟨⟨b, r⟩, h3, h4, rfl⟩ := dynRun_ok os a _ [] h2 (by simpa using ho) t ht
  exact ⟨a, b, h1, h3, dynInv_unwrap h4⟩

/-- An array created with capacity 0 never grows: the first push writes out of bounds.  The callers
avoid it, by a minimum of 1 or by pushing only when there are needles. -/
theorem C85_dyn_zero (v : α) :
    dynPush (dynNew α 0) v = .error .ub ∧ dynPushBack (dynNew α 0) v = .error .ub := by
  constructor <;> rfl

example : dynRun (dynNew Nat 1, []) [.push 4, .pushBack 5, .poke 0 7, .get 0, .push 6, .get 1] =
    .ok (⟨3, 4, [some 7, some 5, some 6, none]⟩, [7, 5]) ∧
    listRun ([], []) [.push 4, .pushBack 5, .poke 0 7, .get 0, .push 6, .get 1] =
      some ([7, 5, 6], [7, 5]) := by decide +kernel

example : ∃ a, dynRun (dynNew Nat (intervalCapacity 5), []) ([3, 1, 4, 1, 5].map .push) = .ok (a, []) ∧
    a.capacity = 8 ∧ dynUnwrap a = .ok [3, 1, 4, 1, 5] :=
  ⟨⟨5, 8, [some 3, some 1, some 4, some 1, some 5, none, none, none]⟩, by decide +kernel⟩

example : dynFill (dynNew Nat 3) 2 (fun i => i) = .ok ⟨2, 3, [some 0, some 1, none]⟩ ∧
    dynRun (⟨2, 3, [some 0, some 1, none]⟩, []) [.poke 1 9, .pushBack 8, .pushBack 7, .get 1] =
      .ok (⟨4, 6, [some 0, some 9, some 8, some 7, none, none]⟩, [9]) := by decide +kernel

end Vctrs
