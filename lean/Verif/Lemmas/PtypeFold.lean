import Verif.Lemmas.Ptype
import Verif.Lemmas.Size

/-!
# Lemmas on the reduction of arguments to a common type
-/

namespace Vctrs

open Spec

abbrev Sig := Kind × Option (List Int)

/-- Types and shapes of objects. -/
structure SigOk (s : Sig) : Prop where
  none : s.1 = .null ∨ s.1 = .uns → s.2 = none
  norm : shNorm s.2 = s.2
  dims : DimNonempty s.2

theorem shNorm_idem (d : Option (List Int)) : shNorm (shNorm d) = shNorm d := by
  rcases d with _ | _ | ⟨a, x⟩ <;> rfl

theorem sigOk_sig {x : RObj} (h : DimNonempty x.dim) : SigOk (sig x) := by
  refine ⟨?_, shNorm_idem _, dimNonempty_norm h⟩
  intro hk
  show shNorm x.dim = Option.none
  rw [dim_of_kind hk]
  rfl

theorem canon_dim {s : Sig} (h : SigOk s) : (canon s.1 s.2).dim = s.2 := by
  obtain ⟨k, d⟩ := s
  have := h.none
  cases k <;> simp_all [canon, RObj.dim]

theorem kindOf_canon (k : Kind) (d : Option (List Int)) : kindOf (canon k d) = k := by
  cases k <;> try rfl
  exact kindOf_lgl (fun h => h.2.1 rfl)

theorem sig_canon {s : Sig} (h : SigOk s) : sig (canon s.1 s.2) = s := by
  unfold sig
  rw [kindOf_canon, canon_dim h, h.norm]

theorem sigOk_join {a b r : Sig} (ha : SigOk a) (hb : SigOk b) (h : sigJoin a b = some r) :
    SigOk r := by
  obtain ⟨k1, d1⟩ := a
  obtain ⟨k2, d2⟩ := b
  unfold sigJoin at h
  dsimp only at h
  cases hk : kJoin k1 k2 with
  | none => rw [hk] at h; cases h
  | some k =>
    rw [hk] at h
    dsimp only at h
    obtain ⟨d, hd, rfl⟩ := Option.map_eq_some_iff.mp h
    have hd' := hd
    rw [← show shNorm d1 = d1 from ha.norm, ← show shNorm d2 = d2 from hb.norm] at hd'
    obtain ⟨p1, p2⟩ := shJoin_norm hd'
    refine ⟨?_, p2, p1 ha.dims hb.dims⟩
    intro hk'
    have key : ∀ a ∈ allKinds, ∀ b ∈ allKinds, ∀ c ∈ allKinds, kJoin a b = some c →
        (c = .null ∨ c = .uns) → (a = .null ∨ a = .uns) ∧ (b = .null ∨ b = .uns) := by
      decide +kernel
    obtain ⟨q1, q2⟩ := key k1 (mem_allKinds _) k2 (mem_allKinds _) k (mem_allKinds _) hk hk'
    have e1 : d1 = Option.none := ha.none q1
    have e2 : d2 = Option.none := hb.none q2
    subst e1 e2
    cases hd
    rfl

theorem ofSig_ok {s : Option Sig} {r : RObj} (h : ofSig s = .ok r) :
    ∃ t, s = some t ∧ r = canon t.1 t.2 := by
  cases s with
  | none => cases h
  | some t => cases h; exact ⟨t, rfl, rfl⟩

/-- A successful common type, in terms of types and shapes. -/
theorem vecPtype2_sig {x y r : RObj} (hx : DimNonempty x.dim) (hy : DimNonempty y.dim)
    (h : vecPtype2 x y = .ok r) :
    sigJoin (sig x) (sig y) = some (sig r) ∧ DimNonempty r.dim ∧ r = canon (sig r).1 (sig r).2 := by
  rw [vecPtype2_eq hx hy] at h
  obtain ⟨t, ht, rfl⟩ := ofSig_ok h
  have hok := sigOk_join (sigOk_sig hx) (sigOk_sig hy) ht
  rw [sig_canon hok]
  exact ⟨ht, by rw [canon_dim hok]; exact hok.dims, rfl⟩

theorem shJoin_comm_right {a b c : Option (List Int)} (ha : shNorm a = a) (hb : shNorm b = b)
    (hc : shNorm c = c) :
    ((shJoin a b).bind fun r => shJoin r c) = ((shJoin a c).bind fun r => shJoin r b) := by
  have h1 := shJoin_assoc a b c
  have h2 := shJoin_assoc a c b
  rw [ha, hb, hc] at h1 h2
  rw [h1, h2, shJoin_comm b c]

/-- Types of which the order of combination does not matter. -/
def kGood (noLgl : Bool) (k : Kind) : Bool := if noLgl then k != .lgl else k != .cpl

theorem kJoin_good {f : Bool} {a b c : Kind} (ha : kGood f a = true) (hb : kGood f b = true)
    (h : kJoin a b = some c) : kGood f c = true := by
  have key : ∀ f ∈ [true, false], ∀ a ∈ allKinds, ∀ b ∈ allKinds, ∀ c ∈ allKinds,
      kGood f a = true → kGood f b = true → kJoin a b = some c → kGood f c = true := by
    decide +kernel
  exact key f (by cases f <;> simp) a (mem_allKinds _) b (mem_allKinds _) c (mem_allKinds _) ha hb h

theorem kJoin_comm_right {f : Bool} {a b c : Kind} (ha : kGood f a = true) (hb : kGood f b = true)
    (hc : kGood f c = true) :
    ((kJoin a b).bind fun r => kJoin r c) = ((kJoin a c).bind fun r => kJoin r b) := by
  have key : ∀ f ∈ [true, false], ∀ a ∈ allKinds, ∀ b ∈ allKinds, ∀ c ∈ allKinds,
      kGood f a = true → kGood f b = true → kGood f c = true →
      ((kJoin a b).bind fun r => kJoin r c) = ((kJoin a c).bind fun r => kJoin r b) := by
    decide +kernel
  exact key f (by cases f <;> simp) a (mem_allKinds _) b (mem_allKinds _) c (mem_allKinds _) ha hb hc

theorem sigJoin_some {a b r : Sig} :
    sigJoin a b = some r ↔ kJoin a.1 b.1 = some r.1 ∧ shJoin a.2 b.2 = some r.2 := by
  unfold sigJoin
  obtain ⟨k, d⟩ := r
  cases kJoin a.1 b.1 with
  | none => simp
  | some k' =>
    cases shJoin a.2 b.2 with
    | none => simp
    | some d' => simp

theorem sigJoin_bind {a b c r : Sig} :
    ((sigJoin a b).bind fun s => sigJoin s c) = some r ↔
      ((kJoin a.1 b.1).bind fun s => kJoin s c.1) = some r.1 ∧
        ((shJoin a.2 b.2).bind fun s => shJoin s c.2) = some r.2 := by
  simp only [Option.bind_eq_some_iff, sigJoin_some]
  constructor
  · rintro ⟨s, ⟨h1, h2⟩, h3, h4⟩
    exact ⟨⟨_, h1, h3⟩, _, h2, h4⟩
  · rintro ⟨⟨k, h1, h3⟩, d, h2, h4⟩
    exact ⟨(k, d), ⟨h1, h2⟩, h3, h4⟩

theorem sigJoin_comm_right {f : Bool} {a b c : Sig} (ha : kGood f a.1 = true)
    (hb : kGood f b.1 = true) (hc : kGood f c.1 = true) (na : shNorm a.2 = a.2)
    (nb : shNorm b.2 = b.2) (nc : shNorm c.2 = c.2) :
    ((sigJoin a b).bind fun s => sigJoin s c) = ((sigJoin a c).bind fun s => sigJoin s b) := by
  apply Option.ext
  intro r
  rw [sigJoin_bind, sigJoin_bind, kJoin_comm_right ha hb hc, shJoin_comm_right na nb nc]

theorem sigJoin_comm (a b : Sig) : sigJoin a b = sigJoin b a := by
  unfold sigJoin
  rw [kJoin_comm, shJoin_comm]

/-- Folding types and shapes in any order, where logical and complex do not meet. -/
theorem sigFold_perm {f : Bool} {l m : List Sig} (hp : l.Perm m) :
    ∀ a : Sig, SigOk a → kGood f a.1 = true → (∀ s ∈ l, SigOk s ∧ kGood f s.1 = true) →
      l.foldlM sigJoin a = m.foldlM sigJoin a := by
  induction hp with
  | nil => intro a _ _ _; rfl
  | cons x h ih =>
    intro a ha hg hl
    rw [List.foldlM_cons, List.foldlM_cons]
    cases hj : sigJoin a x with
    | none => rfl
    | some b =>
      obtain ⟨x1, x2⟩ := hl x (by simp)
      show List.foldlM sigJoin b _ = List.foldlM sigJoin b _
      exact ih b (sigOk_join ha x1 hj) (kJoin_good hg x2 (sigJoin_some.mp hj).1)
        (fun s hs => hl s (by simp [hs]))
  | swap x y l =>
    intro a ha hg hl
    obtain ⟨x1, x2⟩ := hl x (by simp)
    obtain ⟨y1, y2⟩ := hl y (by simp)
    have h := sigJoin_comm_right hg y2 x2 ha.norm y1.norm x1.norm
    simp only [List.foldlM_cons]
    have e : ∀ u v : Sig, (sigJoin a u >>= fun s => sigJoin s v >>= fun t => l.foldlM sigJoin t) =
        (((sigJoin a u).bind fun s => sigJoin s v).bind fun t => l.foldlM sigJoin t) := by
      intro u v
      cases sigJoin a u <;> rfl
    rw [e, e, h]
  | trans h1 _ ih1 ih2 =>
    intro a ha hg hl
    rw [ih1 a ha hg hl, ih2 a ha hg (fun s hs => hl s (h1.mem_iff.mpr hs))]

/-- A successful fold gives the join of the types and the fold of the shapes. -/
theorem sigFold_join : ∀ {l : List Sig} {a r : Sig}, l.foldlM sigJoin a = some r →
    IsJoinOf (a.1 :: l.map (·.1)) r.1 ∧ (l.map (·.2)).foldlM shJoin a.2 = some r.2
  | [], a, r, h => by
    cases h
    refine ⟨⟨?_, ?_⟩, rfl⟩
    · intro k hk
      simp at hk
      exact Or.inl hk
    · intro d hd
      exact hd _ (by simp)
  | x :: l, a, r, h => by
    rw [List.foldlM_cons] at h
    cases hj : sigJoin a x with
    | none => rw [hj] at h; cases h
    | some b =>
      rw [hj] at h
      obtain ⟨⟨p1, p2⟩, p3⟩ := sigFold_join (l := l) (a := b) h
      obtain ⟨q1, q2⟩ := sigJoin_some.mp hj
      obtain ⟨j1, j2, j3⟩ := kJoin_isJoin q1
      have tr : ∀ {a b c : Kind}, a.Le b → b.Le c → a.Le c := by
        intro a b c
        have key : ∀ a ∈ allKinds, ∀ b ∈ allKinds, ∀ c ∈ allKinds, a.Le b → b.Le c → a.Le c := by
          decide +kernel
        exact key a (mem_allKinds _) b (mem_allKinds _) c (mem_allKinds _)
      refine ⟨⟨?_, ?_⟩, ?_⟩
      · intro k hk
        simp only [List.map_cons, List.mem_cons] at hk
        rcases hk with rfl | rfl | hk
        · exact tr j1 (p1 _ (by simp))
        · exact tr j2 (p1 _ (by simp))
        · exact p1 k (by simp only [List.mem_cons]; exact .inr hk)
      · intro d hd
        refine p2 d ?_
        intro k hk
        simp only [List.mem_cons] at hk
        rcases hk with rfl | hk
        · exact j3 d (hd _ (by simp)) (hd _ (by simp))
        · exact hd k (by simp only [List.map_cons, List.mem_cons]; exact .inr (.inr hk))
      · rw [List.map_cons, List.foldlM_cons, q2]
        exact p3

theorem isJoinOf_unique {ks : List Kind} {a b : Kind} (ha : IsJoinOf ks a) (hb : IsJoinOf ks b) :
    a = b := by
  have key : ∀ a ∈ allKinds, ∀ b ∈ allKinds, a.Le b → b.Le a → a = b := by decide +kernel
  exact key a (mem_allKinds _) b (mem_allKinds _) (ha.2 b hb.1) (hb.2 a ha.1)

/-- Folding shapes in any order. -/
theorem shFold_perm {l m : List (Option (List Int))} (hp : l.Perm m) :
    ∀ a : Option (List Int), shNorm a = a → (∀ s ∈ l, shNorm s = s) →
      l.foldlM shJoin a = m.foldlM shJoin a := by
  induction hp with
  | nil => intro a _ _; rfl
  | cons x h ih =>
    intro a ha hl
    rw [List.foldlM_cons, List.foldlM_cons]
    cases hj : shJoin a x with
    | none => rfl
    | some b =>
      have x1 := hl x (by simp)
      have hj' := hj
      rw [← ha, ← x1] at hj'
      exact ih b (shJoin_norm hj').2 (fun s hs => hl s (by simp [hs]))
  | swap x y l =>
    intro a ha hl
    have h := shJoin_comm_right ha (hl y (by simp)) (hl x (by simp))
    simp only [List.foldlM_cons]
    have e : ∀ u v : Option (List Int),
        (shJoin a u >>= fun s => shJoin s v >>= fun t => l.foldlM shJoin t) =
        (((shJoin a u).bind fun s => shJoin s v).bind fun t => l.foldlM shJoin t) := by
      intro u v
      cases shJoin a u <;> rfl
    rw [e, e, h]
  | trans h1 _ ih1 ih2 =>
    intro a ha hl
    rw [ih1 a ha hl, ih2 a ha (fun s hs => hl s (h1.mem_iff.mpr hs))]

/-- Successful folds in different orders agree. -/
theorem sigFold_agree {l m : List Sig} (hp : l.Perm m) {a r s : Sig} (ha : SigOk a)
    (hl : ∀ s ∈ l, SigOk s) (h1 : l.foldlM sigJoin a = some r) (h2 : m.foldlM sigJoin a = some s) :
    r = s := by
  obtain ⟨p1, p2⟩ := sigFold_join h1
  obtain ⟨q1, q2⟩ := sigFold_join h2
  have hpk : IsJoinOf (a.1 :: l.map (·.1)) s.1 := by
    have hm : ∀ k, k ∈ a.1 :: l.map (·.1) ↔ k ∈ a.1 :: m.map (·.1) := fun k =>
      ((hp.map (·.1)).cons a.1).mem_iff
    exact ⟨fun k hk => q1.1 k ((hm k).mp hk), fun d hd => q1.2 d fun k hk => hd k ((hm k).mpr hk)⟩
  have e1 := isJoinOf_unique p1 hpk
  have e2 := shFold_perm (hp.map (·.2)) a.2 ha.norm (by
    intro d hd
    obtain ⟨s, hs, rfl⟩ := List.mem_map.mp hd
    exact (hl s hs).norm)
  rw [p2, q2] at e2
  exact Prod.ext e1 (Option.some.inj e2)

/-! ### Pairwise -/

theorem kJoin_pair {a b c d : Kind} (h : kJoin a b = some d) (hac : kJoin a c ≠ none)
    (hbc : kJoin b c ≠ none) : kJoin d c ≠ none := by
  have key : ∀ a ∈ allKinds, ∀ b ∈ allKinds, ∀ c ∈ allKinds, ∀ d ∈ allKinds, kJoin a b = some d →
      kJoin a c ≠ none → kJoin b c ≠ none → kJoin d c ≠ none := by decide +kernel
  exact key a (mem_allKinds _) b (mem_allKinds _) c (mem_allKinds _) d (mem_allKinds _) h hac hbc

theorem kJoin_pair' {f : Bool} {a b c d : Kind} (ha : kGood f a = true) (hb : kGood f b = true)
    (hc : kGood f c = true) (h : kJoin a b = some d) (hdc : kJoin d c ≠ none) :
    kJoin a c ≠ none ∧ kJoin b c ≠ none := by
  have key : ∀ f ∈ [true, false], ∀ a ∈ allKinds, ∀ b ∈ allKinds, ∀ c ∈ allKinds, ∀ d ∈ allKinds,
      kGood f a = true → kGood f b = true → kGood f c = true →
      kJoin a b = some d → kJoin d c ≠ none → kJoin a c ≠ none ∧ kJoin b c ≠ none := by
    decide +kernel
  exact key f (by cases f <;> simp) a (mem_allKinds _) b (mem_allKinds _) c (mem_allKinds _) d
    (mem_allKinds _) ha hb hc h hdc

theorem dim2_pair {a b c d : Int} (h : dim2 a b = some d) :
    dim2 d c ≠ none ↔ dim2 a c ≠ none ∧ dim2 b c ≠ none := by
  have h' := dim2_some.mp h
  rw [Ne, Ne, Ne, dim2_none, dim2_none, dim2_none]
  omega

theorem zipLong_cons_none {a b : Int} {x y : List Int} :
    zipLong (a :: x) (b :: y) ≠ none ↔ dim2 a b ≠ none ∧ zipLong x y ≠ none := by
  rw [zipLong]
  cases dim2 a b <;> cases zipLong x y <;> simp

theorem zipLong_pair : ∀ {x y z r : List Int}, zipLong x y = some r →
    (zipLong r z ≠ none ↔ zipLong x z ≠ none ∧ zipLong y z ≠ none)
  | [], y, z, r, h => by
    cases h
    simp [zipLong]
  | a :: x, [], z, r, h => by
    cases h
    simp [zipLong]
  | a :: x, b :: y, [], r, h => by
    simp [zipLong_nil]
  | a :: x, b :: y, c :: z, r, h => by
    rw [zipLong] at h
    cases h1 : dim2 a b with
    | none => rw [h1] at h; cases h
    | some d =>
      rw [h1] at h
      cases h2 : zipLong x y with
      | none => rw [h2] at h; cases h
      | some q =>
        rw [h2] at h
        cases h
        rw [zipLong_cons_none, zipLong_cons_none, zipLong_cons_none, dim2_pair h1, zipLong_pair h2]
        tauto

theorem shJoin_pair {x y z r : Option (List Int)} (hx : DimNonempty x) (hy : DimNonempty y) (hz : DimNonempty z)
    (h : shJoin x y = some r) :
    shJoin r z ≠ none ↔ shJoin x z ≠ none ∧ shJoin y z ≠ none := by
  rcases x with _ | _ | ⟨a, x⟩ <;> rcases y with _ | _ | ⟨b, y⟩ <;> rcases z with _ | _ | ⟨c, z⟩
  all_goals first
    | exact absurd rfl hx
    | exact absurd rfl hy
    | exact absurd rfl hz
    | skip
  all_goals simp only [shJoin, Option.some.injEq, Option.map_eq_some_iff] at h
  all_goals first
    | (subst h; simp [shJoin]; done)
    | (obtain ⟨q, hq, rfl⟩ := h; simp [shJoin]; done)
    | (obtain ⟨q, hq, rfl⟩ := h
       simp only [shJoin, Ne, Option.map_eq_none_iff]
       exact zipLong_pair hq)

theorem sigJoin_ne_none {a b : Sig} :
    sigJoin a b ≠ none ↔ kJoin a.1 b.1 ≠ none ∧ shJoin a.2 b.2 ≠ none := by
  unfold sigJoin
  cases kJoin a.1 b.1 <;> cases shJoin a.2 b.2 <;> simp

/-- If every two types combine, the fold succeeds. -/
theorem sigFold_pair : ∀ {l : List Sig} {a : Sig}, SigOk a → (∀ s ∈ l, SigOk s) →
    (a :: l).Pairwise (fun s t => sigJoin s t ≠ none) → l.foldlM sigJoin a ≠ none
  | [], a, _, _, _ => by simp
  | x :: l, a, ha, hl, h => by
    rw [List.pairwise_cons] at h
    obtain ⟨h1, h2⟩ := h
    rw [List.pairwise_cons] at h2
    obtain ⟨h2, h3⟩ := h2
    have hx := hl x (by simp)
    obtain ⟨b, hb⟩ := Option.ne_none_iff_exists'.mp (h1 x (by simp))
    rw [List.foldlM_cons, hb]
    refine sigFold_pair (l := l) (a := b) (sigOk_join ha hx hb) (fun s hs => hl s (by simp [hs])) ?_
    rw [List.pairwise_cons]
    refine ⟨?_, h3⟩
    intro s hs
    obtain ⟨q1, q2⟩ := sigJoin_some.mp hb
    obtain ⟨u1, u2⟩ := sigJoin_ne_none.mp (h1 s (by simp [hs]))
    obtain ⟨v1, v2⟩ := sigJoin_ne_none.mp (h2 s hs)
    exact sigJoin_ne_none.mpr ⟨kJoin_pair q1 u1 v1,
      (shJoin_pair ha.dims hx.dims (hl s (by simp [hs])).dims q2).mpr ⟨u2, v2⟩⟩

/-- If the fold succeeds, every two types combine, where logical and complex do not meet. -/
theorem sigFold_pair' {f : Bool} : ∀ {l : List Sig} {a : Sig}, SigOk a → kGood f a.1 = true →
    (∀ s ∈ l, SigOk s ∧ kGood f s.1 = true) → l.foldlM sigJoin a ≠ none →
    (a :: l).Pairwise (fun s t => sigJoin s t ≠ none)
  | [], a, _, _, _, _ => by simp
  | x :: l, a, ha, hg, hl, h => by
    obtain ⟨hx, hgx⟩ := hl x (by simp)
    rw [List.foldlM_cons] at h
    cases hb : sigJoin a x with
    | none => rw [hb] at h; exact absurd rfl h
    | some b =>
      rw [hb] at h
      obtain ⟨q1, q2⟩ := sigJoin_some.mp hb
      have ih := sigFold_pair' (l := l) (a := b) (sigOk_join ha hx hb) (kJoin_good hg hgx q1)
        (fun s hs => hl s (by simp [hs])) h
      rw [List.pairwise_cons] at ih
      obtain ⟨i1, i2⟩ := ih
      have each : ∀ s ∈ l, sigJoin a s ≠ none ∧ sigJoin x s ≠ none := by
        intro s hs
        obtain ⟨hs1, hs2⟩ := hl s (by simp [hs])
        obtain ⟨u1, u2⟩ := sigJoin_ne_none.mp (i1 s hs)
        obtain ⟨v1, v2⟩ := kJoin_pair' hg hgx hs2 q1 u1
        obtain ⟨w1, w2⟩ := (shJoin_pair ha.dims hx.dims hs1.dims q2).mp u2
        exact ⟨sigJoin_ne_none.mpr ⟨v1, w1⟩, sigJoin_ne_none.mpr ⟨v2, w2⟩⟩
      rw [List.pairwise_cons, List.pairwise_cons]
      refine ⟨?_, fun s hs => (each s hs).2, i2⟩
      intro s hs
      rcases List.mem_cons.mp hs with rfl | hs
      · rw [hb]; simp
      · exact (each s hs).1

/-! ### The arguments -/

/-- The values in dots, with the splice boxes opened. -/
def flatDots (dots : List (Dot RObj)) : List RObj := dots.flatMap Dot.flat

theorem foldlM_ptype2 : ∀ {xs : List RObj} {a : Sig}, SigOk a → (∀ x ∈ xs, DimNonempty x.dim) →
    xs.foldlM vecPtype2 (canon a.1 a.2) = ofSig ((xs.map sig).foldlM sigJoin a)
  | [], a, _, _ => rfl
  | x :: xs, a, ha, hd => by
    have hx := hd x (by simp)
    rw [List.foldlM_cons, List.map_cons, List.foldlM_cons,
      vecPtype2_eq (by rw [canon_dim ha]; exact ha.dims) hx, sig_canon ha]
    cases hj : sigJoin a (sig x) with
    | none => rfl
    | some b =>
      show List.foldlM vecPtype2 (canon b.1 b.2) xs = _
      exact foldlM_ptype2 (sigOk_join ha (sigOk_sig hx) hj) (fun y hy => hd y (by simp [hy]))

/-- The common type of arguments, in terms of types and shapes. -/
theorem vecPtypeCommon_eq {dots : List (Dot RObj)} (h : ∀ x ∈ flatDots dots, DimNonempty x.dim) :
    vecPtypeCommon .null dots =
      (ofSig (((flatDots dots).map sig).foldlM sigJoin (.null, none)) >>= fun t =>
        .ok (vecPtypeFinalise t)) := by
  unfold vecPtypeCommon
  dsimp only
  rw [reduce_eq]
  have := foldlM_ptype2 (xs := flatDots dots) (a := (.null, none)) ⟨fun _ => rfl, rfl, by
    simp [DimNonempty]⟩ h
  rw [← this]
  rfl

theorem flatDots_perm {d e : List (Dot RObj)} (h : d.Perm e) : (flatDots d).Perm (flatDots e) :=
  h.flatMap_right _

end Vctrs
