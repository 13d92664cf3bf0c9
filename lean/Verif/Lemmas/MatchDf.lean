import Verif.Lemmas.MatchCompact
import Verif.Lemmas.MatchInfo

/-!
# Matching of ranks
-/

namespace Vctrs

open Spec

/-- What is matched: ranks, which ranks are of complete values, and the options. -/
structure RankArgs where
  nc : Nat
  n : Nat
  m : Nat
  XN : Nat → Nat → Int
  XH : Nat → Nat → Int
  K : Nat → Int → Bool
  op : Nat → MOp
  fl : Nat → MFilter
  inc : MIncomplete
  mu : MMultiple

/-- Row `k` of the haystack meets all conditions for needle `r`. -/
def RankHit (A : RankArgs) (r k : Nat) : Prop :=
  ∀ d, d < A.nc → CellHit (A.op d) A.inc (A.K d) (A.XN d r) (A.XH d k)

/-- It is selected by the filter of the last column, too. -/
def RankBest (A : RankArgs) (r k : Nat) : Prop :=
  RankHit A r k ∧ ∀ k', k' < A.m → RankHit A r k' →
    FilterLe (A.fl (A.nc - 1)) (A.XH (A.nc - 1) k) (A.XH (A.nc - 1) k')

/-- A needle is incomplete, and this matters. -/
def RankLacks (A : RankArgs) (r : Nat) : Prop :=
  A.inc.signals = true ∧ ∃ d, d < A.nc ∧ A.K d (A.XN d r) = false

/-- The selected rows. -/
def RankRows (A : RankArgs) (r : Nat) (S : List Nat) : Prop :=
  S.Pairwise (· < ·) ∧ ∀ k, k ∈ S ↔ k < A.m ∧ RankBest A r k

/-- What may be found for a needle. -/
def RankOut (A : RankArgs) (r : Nat) : Outcome → Prop
  | .incomplete => RankLacks A r
  | .unmatched => (RankLacks A r ∧ ∃ d, d < A.nc ∧ A.op d = .eq) ∨
      (¬ RankLacks A r ∧ ∀ k, k < A.m → ¬ RankHit A r k)
  | .rows R => ¬ RankLacks A r ∧ ∃ S, S ≠ [] ∧ RankRows A r S ∧ Chosen A.mu S R

theorem exists_best (f : Bool) : ∀ (R : List Nat), R ≠ [] → ∃ k, IsBest f R k
  | [], h => absurd rfl h
  | [a], _ => ⟨a, List.mem_singleton.2 rfl, fun r hr => by
      rw [List.mem_singleton] at hr
      subst hr
      cases f <;> simp⟩
  | a :: b :: R, _ => by
    obtain ⟨k, h1, h2⟩ := exists_best f (b :: R) (by simp)
    by_cases hak : if f then a ≤ k else k ≤ a
    · refine ⟨a, List.mem_cons_self, fun r hr => ?_⟩
      rcases List.mem_cons.1 hr with rfl | hr
      · cases f <;> simp
      · have := h2 r hr
        cases f <;> simp only [Bool.false_eq_true, if_false, if_true] at this hak ⊢ <;> omega
    · refine ⟨k, List.mem_cons_of_mem _ h1, fun r hr => ?_⟩
      rcases List.mem_cons.1 hr with rfl | hr
      · cases f <;> simp only [Bool.false_eq_true, if_false, if_true] at hak ⊢ <;> omega
      · exact h2 r hr

theorem sorted_unique {S R : List Nat} (h : R.Perm S) (hS : S.Pairwise (· < ·))
    (hR : R.Pairwise (· < ·)) : R = S :=
  List.Perm.eq_of_pairwise (le := (· < ·)) (fun a b _ _ h h' => by omega) hR hS h

theorem rankRows_exists (A : RankArgs) (r : Nat) : ∃ S, RankRows A r S := by
  classical
  refine ⟨(List.range A.m).filter (fun k => decide (RankBest A r k)),
    (range_pairwise_lt A.m).filter _, fun k => ?_⟩
  simp

theorem rankRows_unique {A : RankArgs} {r : Nat} {S S' : List Nat} (h : RankRows A r S)
    (h' : RankRows A r S') : S = S' := by
  refine sorted_unique ?_ h'.1 h.1
  rw [List.perm_ext_iff_of_nodup (h.1.imp fun h => Nat.ne_of_lt h) (h'.1.imp fun h => Nat.ne_of_lt h)]
  intro k
  rw [h.2, h'.2]

/-- The compact matches of a needle and its outcome: as the matches are in the order of the
haystack, and as they are reported. -/
theorem needle_outcome {A : RankArgs} {V : MView} {g : Int → Nat} {i : Int} {r : Nat}
    {E : List (Int × Int)} {eqOnly : Bool}
    (h : NeedleOk V A.inc (decide (A.mu = .any)) true i A.m E)
    (hg : ∀ k : Int, 0 ≤ k → k < A.m → g k < A.m)
    (hinj : ∀ k k' : Int, 0 ≤ k → k < A.m → 0 ≤ k' → k' < A.m → g k = g k' → k = k')
    (hsur : ∀ k, k < A.m → ∃ t : Int, 0 ≤ t ∧ t < A.m ∧ g t = k)
    (hnc : V.nc = A.nc) (hop : ∀ d, V.op d = A.op d)
    (hhit : ∀ k : Int, 0 ≤ k → k < A.m → (RowHit V A.inc 0 i k ↔ RankHit A r (g k)))
    (hbest : ∀ k : Int, 0 ≤ k → k < A.m →
      (BestHit V A.inc 0 0 ((A.m : Int) - 1) i k ↔ RankBest A r (g k)))
    (hlacks : A.inc.signals = true ∧ Lacks V 0 i ↔ RankLacks A r)
    (hasc : eqOnly = true → (∃ x, E = [x]) ∧ ∀ k k' : Int, 0 ≤ k → k < k' → k' < A.m →
      RankHit A r (g k) → RankHit A r (g k') → g k < g k') :
    ∃ raw o, OutIs A.mu A.m g E raw ∧ RankOut A r o ∧
      (raw = o ∨ ∃ R R', raw = .rows R ∧ o = .rows R' ∧ R.Perm R') ∧
      o.found.Pairwise (· < ·) ∧
      (A.inc ≠ .compare ∧ A.inc ≠ .exact ∨ raw ≠ .incomplete) ∧ (eqOnly = true → raw = o) ∧
      (E.length ≤ 1 ∨ ∃ S, RankRows A r S ∧ E.length ≤ S.length) := by
  by_cases hL : RankLacks A r
  · obtain ⟨l1, l2⟩ := hlacks.2 hL
    have hsig : A.inc ≠ .compare ∧ A.inc ≠ .exact := by
      constructor <;> intro h' <;> rw [h'] at l1 <;> cases l1
    rcases h.signal l1 l2 with rfl | rfl
    · refine ⟨.unmatched, .unmatched, .inr (.inl ⟨rfl, rfl⟩), .inl ⟨hL, ?_⟩, .inl rfl,
        List.Pairwise.nil, .inl hsig, fun _ => rfl, .inl (by simp)⟩
      refine Classical.byContradiction fun hno => ?_
      have := h.flagged rfl l1 l2 fun d hd hd' => hno ⟨d, by omega, by rw [← hop]; exact hd'⟩
      simp only [List.cons.injEq, Prod.mk.injEq, and_true] at this
      exact absurd this (by decide)
    · exact ⟨.incomplete, .incomplete, .inl ⟨rfl, rfl⟩, hL, .inl rfl, List.Pairwise.nil,
        .inl hsig, fun _ => rfl, .inl (by simp)⟩
  · have hsing : ∀ k : Nat, [k].Pairwise (· < ·) := fun k => List.pairwise_singleton _ _
    rcases h.hit fun h => hL (hlacks.1 h) with ⟨rfl, hno⟩ | ⟨hany, f, rfl, f1, f2, f3⟩ | ⟨hany, hne, hE, hnd, hmem⟩
    · refine ⟨.unmatched, .unmatched, .inr (.inl ⟨rfl, rfl⟩), .inr ⟨hL, fun k hk hit => ?_⟩,
        .inl rfl, List.Pairwise.nil, .inr (by simp), fun _ => rfl, .inl (by simp)⟩
      obtain ⟨t, t1, t2, rfl⟩ := hsur k hk
      exact hno t t1 t2 ((hhit t t1 t2).2 hit)
    · obtain ⟨S, hS⟩ := rankRows_exists A r
      have hfS : g f ∈ S := (hS.2 _).2 ⟨hg f f1 f2, (hbest f f1 f2).1 f3⟩
      have hmu : A.mu = .any := of_decide_eq_true hany
      refine ⟨.rows [g f], .rows [g f], .inr (.inr ⟨by simp, ?_, [g f], rfl, ?_, ?_, ?_⟩),
        ⟨hL, S, List.ne_nil_of_mem hfS, hS, ?_⟩, .inl rfl, hsing _, .inr (by simp), fun _ => rfl,
        .inl (by simp)⟩
      · intro x hx
        rw [List.mem_singleton] at hx
        subst hx
        dsimp only
        omega
      · rw [hmu]; intro h; cases h
      · rw [hmu]; intro h; cases h
      · intro _ _
        rw [hitRows_one]
        simp
      · rw [hmu]
        exact ⟨g f, hfS, rfl⟩
    · have hmu : A.mu ≠ .any := of_decide_eq_false hany
      have hx : ∀ x ∈ E, 0 ≤ x.1 ∧ 1 ≤ x.2 ∧ x.1 + x.2 ≤ A.m := by
        intro x hx
        obtain ⟨x1, x2⟩ := hE x hx
        have := ((hmem (x.1 + x.2 - 1)).1 (mem_flatLocs.2 ⟨x, hx, by omega, by omega⟩)).2.1
        exact ⟨x1, x2, by omega⟩
      obtain ⟨S, hS⟩ := rankRows_exists A r
      have hrange : ∀ k ∈ flatLocs E, 0 ≤ k ∧ k < A.m := fun k hk => ⟨((hmem k).1 hk).1, ((hmem k).1 hk).2.1⟩
      have hrows : ∀ k, k ∈ hitRows g E ↔ k ∈ S := by
        intro k
        unfold hitRows
        rw [hS.2, List.mem_map]
        constructor
        · rintro ⟨t, t1, rfl⟩
          obtain ⟨t2, t3, t4⟩ := (hmem t).1 t1
          exact ⟨hg t t2 t3, (hbest t t2 t3).1 t4⟩
        · rintro ⟨k1, k2⟩
          obtain ⟨t, t1, t2, rfl⟩ := hsur k k1
          exact ⟨t, (hmem t).2 ⟨t1, t2, (hbest t t1 t2).2 k2⟩, rfl⟩
      have hnodup : (hitRows g E).Nodup := by
        unfold hitRows
        refine List.Nodup.map_on ?_ hnd
        intro t ht t' ht' he
        exact hinj t t' (hrange t ht).1 (hrange t ht).2 (hrange t' ht').1 (hrange t' ht').2 he
      have hperm : (hitRows g E).Perm S :=
        (List.perm_ext_iff_of_nodup hnodup (hS.1.imp fun h => Nat.ne_of_lt h)).2 hrows
      have hpos := hitRows_pos (g := g) hne fun x h => (hx x h).2.1
      have hSne : S ≠ [] := by
        intro h
        rw [h] at hperm
        have := hperm.length_eq
        simp only [List.length_nil] at this
        omega
      have hlenE : E.length ≤ (hitRows g E).length := by
        have : ∀ F : List (Int × Int), (∀ x ∈ F, 1 ≤ x.2) → F.length ≤ (hitRows g F).length := by
          intro F
          induction F with
          | nil => intro _; simp
          | cons x F ih =>
            intro hF
            have h1 := ih fun y hy => hF y (List.mem_cons_of_mem _ hy)
            have h2 := hF x List.mem_cons_self
            rw [show x :: F = [x] ++ F from rfl, hitRows_append, hitRows_one, List.length_append,
              List.length_append, List.length_map, List.length_range]
            simp only [List.length_cons, List.length_nil]
            omega
        exact this E fun x h => (hx x h).2.1
      have hlen : E.length ≤ 1 ∨ ∃ S, RankRows A r S ∧ E.length ≤ S.length :=
        .inr ⟨S, hS, by rw [← hperm.length_eq]; exact hlenE⟩
      have heq : eqOnly = true → hitRows g E = S := by
        intro he
        obtain ⟨⟨x, rfl⟩, hup⟩ := hasc he
        refine sorted_unique hperm hS.1 ?_
        unfold hitRows
        rw [List.pairwise_map]
        have : (flatLocs [x]).Pairwise (· < ·) := by
          unfold flatLocs
          rw [List.flatMap_singleton, List.pairwise_map]
          refine (range_pairwise_lt _).imp ?_
          intro a b hab
          omega
        refine this.imp_of_mem ?_
        intro t t' ht ht' hlt
        have a := (hmem t).1 ht
        have b := (hmem t').1 ht'
        exact hup t t' a.1 hlt b.2.1 ((hbest t a.1 a.2.1).1 a.2.2).1 ((hbest t' b.1 b.2.1).1 b.2.2).1
      have best : ∀ (isFirst : Bool), A.mu = (if isFirst then MMultiple.first else .last) →
          ∃ raw o, OutIs A.mu A.m g E raw ∧ RankOut A r o ∧
          (raw = o ∨ ∃ R R', raw = .rows R ∧ o = .rows R' ∧ R.Perm R') ∧
          o.found.Pairwise (· < ·) ∧
          (A.inc ≠ .compare ∧ A.inc ≠ .exact ∨ raw ≠ .incomplete) ∧ (eqOnly = true → raw = o) ∧
          (E.length ≤ 1 ∨ ∃ S, RankRows A r S ∧ E.length ≤ S.length) := by
        intro isFirst hm
        obtain ⟨k, hk⟩ := exists_best isFirst (hitRows g E) (List.ne_nil_of_length_pos hpos)
        refine ⟨.rows [k], .rows [k], .inr (.inr ⟨hne, hx, [k], rfl, ?_, ?_, ?_⟩),
          ⟨hL, S, hSne, hS, ?_⟩, .inl rfl, hsing k, .inr (by simp), fun _ => rfl, hlen⟩
        · intro h'
          rw [hm] at h'
          cases isFirst
          · cases h'
          · exact ⟨k, rfl, hk⟩
        · intro h'
          rw [hm] at h'
          cases isFirst
          · exact ⟨k, rfl, hk⟩
          · cases h'
        · intro h1 h2
          rw [hm] at h1 h2
          cases isFirst
          · exact absurd rfl h2
          · exact absurd rfl h1
        · rw [hm]
          cases isFirst
          · exact ⟨k, (hrows k).1 hk.1, rfl, fun r hr => by simpa using hk.2 r ((hrows r).2 hr)⟩
          · exact ⟨k, (hrows k).1 hk.1, rfl, fun r hr => by simpa using hk.2 r ((hrows r).2 hr)⟩
      by_cases m1 : A.mu = .first
      · exact best true m1
      by_cases m2 : A.mu = .last
      · exact best false m2
      refine ⟨.rows (hitRows g E), .rows S,
        .inr (.inr ⟨hne, hx, _, rfl, fun h => absurd h m1, fun h => absurd h m2, fun _ _ => rfl⟩),
        ⟨hL, S, hSne, hS, ?_⟩, .inr ⟨_, _, rfl, rfl, hperm⟩, hS.1, .inr (by simp),
        fun h => by rw [heq h], hlen⟩
      cases hc : A.mu with
      | first => exact absurd hc m1
      | last => exact absurd hc m2
      | any => exact absurd hc hmu
      | all => rfl
      | error => rfl
      | warning => rfl

/-- The row at a position of an order. -/
def permAt (p : List Nat) (k : Int) : Nat := p.getD k.toNat 0

theorem permAt_get {p : List Nat} {m : Nat} (h : p.Perm (List.range m)) {k : Int} (h0 : 0 ≤ k)
    (h1 : k < m) : p[k.toNat]? = some (permAt p k) ∧ permAt p k < m := by
  have hl : p.length = m := by rw [h.length_eq, List.length_range]
  have hk : p[k.toNat]? = some (permAt p k) := by
    unfold permAt
    rw [List.getD_eq_getElem?_getD, List.getElem?_eq_getElem (by omega)]
    rfl
  exact ⟨hk, perm_get_lt h hk⟩

theorem permAt_inj {p : List Nat} {m : Nat} (h : p.Perm (List.range m)) {k k' : Int} (h0 : 0 ≤ k)
    (h1 : k < m) (h0' : 0 ≤ k') (h1' : k' < m) (he : permAt p k = permAt p k') : k = k' := by
  have hnd : p.Nodup := h.nodup_iff.2 List.nodup_range
  have a := (permAt_get h h0 h1).1
  have b := (permAt_get h h0' h1').1
  rw [he] at a
  obtain ⟨a1, a2⟩ := List.getElem?_eq_some_iff.1 a
  obtain ⟨b1, b2⟩ := List.getElem?_eq_some_iff.1 b
  have := (hnd.getElem_inj_iff (hi := a1) (hj := b1)).1 (a2.trans b2.symm)
  omega

theorem permAt_sur {p : List Nat} {m : Nat} (h : p.Perm (List.range m)) {i : Nat} (hi : i < m) :
    ∃ t : Int, 0 ≤ t ∧ t < m ∧ permAt p t = i := by
  obtain ⟨t, h1, h2⟩ := perm_locate h hi
  refine ⟨t, by omega, by omega, ?_⟩
  have := (permAt_get h (k := (t : Int)) (by omega) (by omega)).1
  rw [Int.toNat_natCast, h2] at this
  exact (Option.some.inj this).symm

theorem permAt_rd {p : List Nat} {m : Nat} (h : p.Perm (List.range m)) {k : Int} (h0 : 0 ≤ k)
    (h1 : k < m) : rdI (p.map (fun (i : Nat) => (i : Int) + 1)) k = .ok ((permAt p k : Int) + 1) := by
  refine rdI_ok h0 ?_
  rw [List.getElem?_map, (permAt_get h h0 h1).1]
  rfl

theorem ordVals_perm {α : Type} {p : List Nat} {m : Nat} (h : p.Perm (List.range m)) (f : Nat → α) :
    OrdVals ((List.range m).map f) (p.map (fun (i : Nat) => (i : Int) + 1))
      (fun k => f (permAt p k)) 0 ((m : Int) - 1) := by
  intro k h0 h1
  unfold orderedAt
  rw [permAt_rd h h0 (by omega), ok_bind, nat_succ_pred]
  refine rdI_get ?_
  rw [List.getElem?_map, List.getElem?_range (permAt_get h h0 (by omega)).2]
  rfl

/-- The lists of arguments are those of `A`. -/
structure RankIn (A : RankArgs) (xs ys : List (List Int)) (xsComplete ysComplete : List (List Bool))
    (fs : List MFilter) (os : List MOp) (anyFilters : Bool) : Prop where
  pos : 0 < A.nc
  needles : ColsAre xs A.n A.XN
  haystack : ColsAre ys A.m A.XH
  lenN : xs.length = A.nc
  lenH : ys.length = A.nc
  lenOps : os.length = A.nc
  needlesComplete : ∀ c, c < A.nc →
    xsComplete[c]? = some ((List.range A.n).map (fun i => A.K c (A.XN c i)))
  haystackComplete : ∀ c, c < A.nc →
    ysComplete[c]? = some ((List.range A.m).map (fun i => A.K c (A.XH c i)))
  upward : ∀ c, c < A.nc → Upward (A.op c) (A.K c)
  filters : ∀ c, c < A.nc → fs[c]? = some (A.fl c)
  ops : ∀ c, c < A.nc → os[c]? = some (A.op c)
  all : anyFilters = false → ∀ c, c < A.nc → A.fl c = .all
  sizeN : A.n ≤ intMax
  sizeH : A.m ≤ intMax
  cond : anyFilters = true → ∀ c, c + 1 < A.nc → A.op c = .eq
  inc : ∀ v, A.inc = .value v → IsInt v

/-- Few enough matches for their number to be an integer. -/
def FewRows (A : RankArgs) : Prop :=
  (∀ c, c + 1 < A.nc → A.op c = .eq) ∨
  ∃ S : Nat → List Nat, (∀ r, r < A.n → RankRows A r (S r)) ∧
    ((List.range A.n).map (fun r => max 1 (S r).length)).sum ≤ intMax

theorem cellHit_eq {inc : MIncomplete} {K : Int → Bool} {a b : Int} (h : CellHit .eq inc K a b) : b = a := by
  rcases h with ⟨_, h⟩ | ⟨_, h, _⟩ <;> exact h

theorem colsAre_get {cols : List (List Int)} {n : Nat} {X : Nat → Nat → Int} (h : ColsAre cols n X)
    {c : Nat} (hc : c < cols.length) : cols[c]? = some ((List.range n).map (X c)) := by
  have := List.getElem?_eq_getElem hc
  rw [this, (h c _ this).1]

theorem dfLocateMatches_ok {A : RankArgs} {needles haystack : List (List Int)}
    {needlesComplete haystackComplete : List (List Bool)} {filters : List MFilter}
    {ops : List MOp} {anyFilters : Bool} 
    (h : RankIn A needles haystack needlesComplete haystackComplete filters ops anyFilters)
    {fuel : Nat} (hf : A.nc + 1 ≤ fuel) {noMatch remaining : MUnmatched}
    {relationship : MRelationship} (hnv : ∀ v, noMatch = .value v → IsInt v)
    (hfew : A.mu = .first ∨ A.mu = .last → FewRows A) {tl : TL} (h0 : ∀ u, 0 ≤ tl u) :
    ∃ outs : Nat → Outcome, (∀ r, r < A.n → RankOut A r (outs r)) ∧
      RetOr (dfLocateMatches fuel needles haystack needlesComplete haystackComplete A.n A.m A.inc
        noMatch remaining A.mu relationship anyFilters filters ops tl (List.replicate 100001 0))
        (fun r =>
          r.2 = (tl, List.replicate 100001 0) ∧
          r.1.needles = (needlePairs A.inc noMatch outs A.n ++
            remainingPairs remaining outs A.n A.m).map (·.1) ∧
          r.1.haystack = (needlePairs A.inc noMatch outs A.n ++
            remainingPairs remaining outs A.n A.m).map (·.2) ∧
          (r.1.warned = true ↔ Warned A.mu relationship outs A.n) ∧
          ¬ Rejected A.inc noMatch remaining A.mu relationship outs A.n A.m)
        (Fails (Rejected A.inc noMatch remaining A.mu relationship outs A.n A.m)) := by
  obtain ⟨B, hB, hord⟩ := intDf_order h.needles h.sizeN h0 (fuel := fuel) (by rw [h.lenN]; omega)
  obtain ⟨info, p, idf, hinfo, hp⟩ := nestInfo_ok h.haystack h.sizeH (ops := ops) (op := A.op)
    (by rw [h.lenOps, h.lenH]) (by rw [h.lenH]; exact h.ops) h0 (fuel := fuel)
    (by rw [h.lenH]; exact hf)
  rw [h.lenN] at hB
  rw [h.lenH] at hp
  let e : MEnv := ⟨needles, haystack, needlesComplete, haystackComplete,
    B.flatten.map (fun (i : Nat) => (i : Int) + 1), info.o, A.inc, A.mu, anyFilters, filters, ops⟩
  let V : MView := ⟨A.n, A.m, A.nc, fun c i => A.XN c (permAt B.flatten i),
    fun c k => A.XH c (permAt p k), A.K, permAt B.flatten, A.op, A.fl⟩
  have hpN := hB.perm
  have hpH := hp.perm
  have horder : info.o = p.map (fun (i : Nat) => (i : Int) + 1) := hp.order
  have he : EnvOk e V := by
    refine ⟨h.lenN, h.ops, h.filters, fun c hc => ⟨_, colsAre_get h.needles (by rw [h.lenN]; exact hc),
      ordVals_perm hpN (A.XN c)⟩, fun c hc => ⟨_, h.needlesComplete c hc,
      ordVals_perm hpN (fun i => A.K c (A.XN c i))⟩, fun c hc =>
      ⟨_, colsAre_get h.haystack (by rw [h.lenH]; exact hc), ?_⟩, fun c hc =>
      ⟨_, h.haystackComplete c hc, ?_⟩, h.upward, ?_, ?_⟩
    · show OrdVals _ info.o _ _ _
      rw [horder]
      exact ordVals_perm hpH (A.XH c)
    · show OrdVals _ info.o _ _ _
      rw [horder]
      exact ordVals_perm hpH (fun i => A.K c (A.XH c i))
    · intro i hi
      have := permAt_get hpN (k := (i : Int)) (by omega) (by exact_mod_cast hi)
      refine ⟨?_, this.2⟩
      show (B.flatten.map (fun (i : Nat) => (i : Int) + 1))[i]? = _
      rw [Int.toNat_natCast] at this
      rw [List.getElem?_map, this.1]
      rfl
    · exact fun i j i0 i1 j0 j1 hij => permAt_inj hpN i0 i1 j0 j1 hij
  have hN : ∀ i i' : Int, 0 ≤ i → i ≤ i' → i' < V.n → NestLe (fun _ => .eq) V.N V.nc 0 i i' := by
    intro i i' i0 hii i1
    refine nestLe_of_eq (X := A.XN) (g := permAt B.flatten) rfl rfl (nc := A.nc) (fun _ _ => rfl) ?_ A.nc 0 (by omega)
      (fun c hc => absurd hc (Nat.not_lt_zero c))
    rintro ⟨c, c1, c2, c3⟩
    have i1' : i' < A.n := i1
    have a := (permAt_get hpN i0 (by omega)).1
    have b := (permAt_get hpN (k := i') (by omega) i1').1
    by_cases hlt : i = i'
    · subst hlt
      omega
    rcases hB.ordered (by omega : i.toNat < i'.toNat) a b with ⟨d, d1, d2, d3⟩ | ⟨d1, _⟩
    · rcases Nat.lt_trichotomy c d with hcd | hcd | hcd
      · have := d3 c hcd; omega
      · subst hcd; omega
      · have := c3 d hcd; omega
    · have := d1 c c1; omega
  have hget : ∀ k : Int, 0 ≤ k → k < A.m → p[k.toNat]? = some (permAt p k) ∧ permAt p k < A.m :=
    fun k k0 k1 => permAt_get hpH k0 k1
  have hsingle : (∀ c, c + 1 < A.nc → A.op c = .eq) → info.n = 1 := hp.single
  obtain ⟨ms, hms, a, habs, hneedle, hone⟩ := matchAll_ok (e := e) (V := V) he
    (fun c hc => by
      cases hany : anyFilters with
      | false => exact .inl (h.all hany c (by have : c + 1 < A.nc := hc; omega))
      | true => exact .inr (h.cond hany c hc))
    h.pos hN (ids := info.ids) (nCont := info.n) (idf := fun k => (idf (permAt p k) : Int)) hp.pos
    (fun hn1 => by
      show OrdVals _ info.o _ _ _
      rw [horder, hp.ids hn1]
      exact ordVals_perm hpH _)
    (fun k k0 k1 => by
      have := hp.lt _ (hget k k0 k1).2
      omega)
    (fun k k' k0 hkk k1 => by
      have k1' : k' ≤ (A.m : Int) - 1 := k1
      have := hp.mono k.toNat k'.toNat _ _ (by omega) (hget k k0 (by omega)).1
        (hget k' (by omega) (by omega)).1
      show (idf (permAt p k) : Int) ≤ idf (permAt p k')
      omega)
    (fun k k' k0 hkk k1 hid => by
      have k1' : k' < (A.m : Int) := k1
      exact hp.nest k.toNat k'.toNat _ _ (by omega) (hget k k0 (by omega)).1
        (hget k' (by omega) (by omega)).1 (by omega) (permAt p) k k' rfl rfl)
    (fun hany => hsingle (h.cond hany))
    (fun hany => h.all hany _ (by have := h.pos; show A.nc - 1 < A.nc; omega))
  have hnonEqui : info.nonEqui = false → ∀ c, c < A.nc → A.op c = .eq := by
    intro hne c hc
    refine Classical.byContradiction fun hno => ?_
    have := hp.nonEqui.2 ⟨c, hc, hno⟩
    rw [hne] at this
    cases this
  have hlocal : ∀ r : Nat, ∃ x : Outcome × Outcome, r < A.n →
      OutIs A.mu A.m (permAt p) (ents a r) x.1 ∧ RankOut A r x.2 ∧
      (x.1 = x.2 ∨ ∃ R R', x.1 = .rows R ∧ x.2 = .rows R' ∧ R.Perm R') ∧
      x.2.found.Pairwise (· < ·) ∧
      (A.inc ≠ .compare ∧ A.inc ≠ .exact ∨ x.1 ≠ .incomplete) ∧
      (info.nonEqui = false → x.1 = x.2) ∧
      ((ents a r).length ≤ 1 ∨ ∃ S, RankRows A r S ∧ (ents a r).length ≤ S.length) := by
    intro r
    by_cases hr : r < A.n
    · obtain ⟨i, i0, i1, rfl⟩ := permAt_sur hpN hr
      have hhit : ∀ k : Int, 0 ≤ k → k < A.m →
          (RowHit V A.inc 0 i k ↔ RankHit A (permAt B.flatten i) (permAt p k)) :=
        fun k _ _ => ⟨fun h d hd => h d (Nat.zero_le _) hd, fun h d _ hd => h d hd⟩
      obtain ⟨raw, o, q1, q2, q3, q4, q5, q6, q7⟩ := needle_outcome (A := A) (V := V)
        (g := permAt p) (r := permAt B.flatten i) (eqOnly := ! info.nonEqui)
        (hneedle i i0 i1) (fun k k0 k1 => (hget k k0 k1).2)
        (fun k k' k0 k1 k0' k1' => permAt_inj hpH k0 k1 k0' k1') (fun k hk => permAt_sur hpH hk)
        rfl (fun _ => rfl) hhit
        (fun k k0 k1 => by
          constructor
          · rintro ⟨b1, b2⟩
            refine ⟨(hhit k k0 k1).1 b1, fun k' hk' hh => ?_⟩
            obtain ⟨t, t0, t1, rfl⟩ := permAt_sur hpH hk'
            exact b2 t t0 (by omega) ((hhit t t0 t1).2 hh)
          · rintro ⟨b1, b2⟩
            refine ⟨(hhit k k0 k1).2 b1, fun t t0 t1 hh => ?_⟩
            exact b2 _ (hget t t0 (by omega)).2 ((hhit t t0 (by omega)).1 hh))
        ⟨fun ⟨l1, d, _, d1, d2⟩ => ⟨l1, d, d1, d2⟩, fun ⟨l1, d, d1, d2⟩ => ⟨l1, d, Nat.zero_le _, d1, d2⟩⟩
        (fun heq => by
          have hne : info.nonEqui = false := by simpa using heq
          have hops := hnonEqui hne
          refine ⟨⟨_, hone (hsingle fun c hc => hops c (by omega)) _ hr⟩, ?_⟩
          intro k k' k0 hkk k1 b b'
          refine hp.stable hne k.toNat k'.toNat _ _ (by omega) (hget k k0 (by omega)).1
            (hget k' (by omega) k1).1 ?_
          intro c hc
          have e1 := b c hc
          have e2 := b' c hc
          rw [hops c hc] at e1 e2
          rw [cellHit_eq e1, cellHit_eq e2])
      exact ⟨(raw, o), fun _ => ⟨q1, q2, q3, q4, q5, fun hne => q6 (by rw [hne]; rfl), q7⟩⟩
    · exact ⟨(.unmatched, .unmatched), fun h => absurd h hr⟩
  obtain ⟨f, hloc⟩ := Classical.axiomOfChoice hlocal
  refine ⟨fun r => (f r).2, fun r hr => (hloc r hr).2.1, ?_⟩
  unfold dfLocateMatches
  rw [hord, ok_bind]
  dsimp only
  rw [hinfo, ok_bind]
  dsimp only
  refine RetOr.bind_eq hms ?_
  refine expandCompact_ok (e := e) (raw := fun r => (f r).1) (g := permAt p) habs ?_ ?_ ?_
    (fun i hi => (hloc i hi).1) (fun i hi => (hloc i hi).2.2.2.2.1) (fun i hi => (hloc i hi).2.2.1)
    (fun i hi => (hloc i hi).2.2.2.1) (fun hne i hi => (hloc i hi).2.2.2.2.2.1 hne) h.sizeH h.sizeN
    h.inc hnv ?_ h0 (by have := h.pos; omega)
  · intro hany i hi
    exact hone (hsingle (h.cond hany)) i hi
  · intro hmu i hi
    have hE := (hloc i hi).1
    have hE' : ents a i = [a.pr i] := by
      unfold ents
      rw [habs.any hmu]
      rfl
    obtain ⟨j, j0, j1, rfl⟩ := permAt_sur hpN hi
    have hn := hneedle j j0 j1
    have hVP : V.P j = permAt B.flatten j := rfl
    rw [hVP, hE'] at hn
    by_cases hL : A.inc.signals = true ∧ Lacks V 0 j
    · rcases hn.signal hL.1 hL.2 with h' | h' <;> (rw [List.cons.injEq] at h'; rw [h'.1])
    · rcases hn.hit hL with ⟨h', _⟩ | ⟨_, _, h', _⟩ | ⟨h', _⟩
      · rw [List.cons.injEq] at h'; rw [h'.1]
      · rw [List.cons.injEq] at h'; rw [h'.1]
      · exact absurd hmu (of_decide_eq_false h')
  · intro k k0 k1
    refine ⟨?_, (hget k k0 k1).2⟩
    show rdI info.o k = _
    rw [horder]
    exact permAt_rd hpH k0 k1
  · intro hmu
    rw [← (recorded_perm habs.lt).length_eq, byNeedle_length]
    have bound : ∀ (F : Nat → Nat) (k : Nat), (∀ r, r < k → (ents a r).length ≤ F r) →
        needleOff (ents a) k ≤ ((List.range k).map F).sum := by
      intro F k
      induction k with
      | zero => intro _; simp [needleOff]
      | succ k ih =>
        intro hk
        rw [needleOff_succ, List.range_succ, List.map_append, List.sum_append]
        have h1 := ih fun r hr => hk r (by omega)
        have h2 := hk k (by omega)
        simp only [List.map_cons, List.map_nil, List.sum_cons, List.sum_nil]
        omega
    rcases hfew hmu with heq | ⟨S, hS, hsum⟩
    · refine Nat.le_trans (bound (fun _ => 1) A.n fun r hr => ?_) ?_
      · rw [hone (hsingle heq) r hr]
        simp
      · have : ((List.range A.n).map (fun _ => 1)).sum = A.n := by simp
        rw [this]
        exact h.sizeN
    · refine Nat.le_trans (bound (fun r => max 1 (S r).length) A.n fun r hr => ?_) hsum
      rcases (hloc r hr).2.2.2.2.2.2 with h1 | ⟨S', h1, h2⟩
      · omega
      · rw [rankRows_unique h1 (hS r hr)] at h2
        omega

end Vctrs
