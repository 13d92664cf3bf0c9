import Verif.Props.C45

/-!
# C45: laws of the common type of data frames

The common type of data frames inherits associativity from that of columns, and everything can be cast to it.
-/

namespace Vctrs.Spec
open Vctrs

variable {β : Type}

/-- What is asked of columns: the grouping of the arguments of the common type does not matter, prototypes stand for
their vectors, and common types are prototypes. -/
structure TypeLaws (ops : ColOps β) : Prop where
  assoc : ∀ a b c r, (ops.ptype2 a b >>= fun ab => ops.ptype2 ab c) = .ok r ↔
    (ops.ptype2 b c >>= fun bc => ops.ptype2 a bc) = .ok r
  left : ∀ a a' b, ops.ptype a = .ok a' → ops.ptype2 a' b = ops.ptype2 a b
  right : ∀ a b b', ops.ptype b = .ok b' → ops.ptype2 a b' = ops.ptype2 a b
  idem : ∀ a a', ops.ptype a = .ok a' → ops.ptype a' = .ok a'
  common : ∀ a b c, ops.ptype2 a b = .ok c → ops.ptype c = .ok c
  vector : ∀ a b c, ops.ptype2 a b = .ok c → (∃ a', ops.ptype a = .ok a') ∧ ∃ b', ops.ptype b = .ok b'

/-- Columns can be cast to their common type and to their prototype, and prototypes have missing values. -/
structure CastLaws (ops : ColOps β) : Prop where
  common : ∀ a b c, ops.ptype2 a b = .ok c → (∃ r, ops.cast a c = .ok r) ∧ ∃ r, ops.cast b c = .ok r
  self : ∀ a c, ops.ptype a = .ok c → ∃ r, ops.cast a c = .ok r
  init : ∀ b n, ∃ r, ops.init b n = .ok r

end Vctrs.Spec

namespace Vctrs
open Spec
variable {β : Type}

/-- The column of that name, if there is one. -/
def OptCol (d : Df β) (s : Name) : Option β → Prop
  | some c => ColAt d s c
  | none => s ∉ d.names

/-- The common type of two columns that may be absent. -/
def optCommon (ops : ColOps β) : Option β → Option β → C (Option β)
  | none, none => .ok none
  | some a, none => ops.ptype a >>= fun r => .ok (some r)
  | none, some b => ops.ptype b >>= fun r => .ok (some r)
  | some a, some b => ops.ptype2 a b >>= fun r => .ok (some r)

theorem bind_ok_iff {γ δ : Type} {c : C γ} {f : γ → C δ} {r : δ} :
    (c >>= f) = .ok r ↔ ∃ a, c = .ok a ∧ f a = .ok r := by
  cases c with
  | error e => simp [error_bind]
  | ok a => simp [ok_bind]

theorem optCommon_assoc {ops : ColOps β} (L : TypeLaws ops) (x y z r : Option β) :
    (∃ u, optCommon ops x y = .ok u ∧ optCommon ops u z = .ok r) ↔
      ∃ u, optCommon ops y z = .ok u ∧ optCommon ops x u = .ok r := by
  cases x with
  | none =>
    cases y with
    | none =>
      cases z with
      | none => simp [optCommon]
      | some c =>
        simp only [optCommon, bind_ok_iff, Except.ok.injEq]
        constructor
        · rintro ⟨u, rfl, h2⟩
          simp only [bind_ok_iff, Except.ok.injEq] at h2
          obtain ⟨c', h1, rfl⟩ := h2
          exact ⟨some c', ⟨c', h1, rfl⟩, bind_ok_iff.2 ⟨c', L.idem _ _ h1, rfl⟩⟩
        · rintro ⟨u, ⟨c', h1, rfl⟩, h2⟩
          simp only [bind_ok_iff, Except.ok.injEq] at h2
          obtain ⟨c'', h2, rfl⟩ := h2
          rw [L.idem _ _ h1] at h2; cases h2
          exact ⟨none, rfl, bind_ok_iff.2 ⟨_, h1, rfl⟩⟩
    | some b =>
      cases z with
      | none =>
        simp only [optCommon, bind_ok_iff, Except.ok.injEq]
        constructor
        · rintro ⟨u, ⟨b', h1, rfl⟩, h2⟩
          exact ⟨some b', ⟨b', h1, rfl⟩, h2⟩
        · rintro ⟨u, ⟨b', h1, rfl⟩, h2⟩
          exact ⟨some b', ⟨b', h1, rfl⟩, h2⟩
      | some c =>
        simp only [optCommon, bind_ok_iff, Except.ok.injEq]
        constructor
        · rintro ⟨u, ⟨b', h1, rfl⟩, h2⟩
          simp only [bind_ok_iff, Except.ok.injEq] at h2
          obtain ⟨d, h2, rfl⟩ := h2
          rw [L.left _ _ _ h1] at h2
          exact ⟨some d, ⟨d, h2, rfl⟩, bind_ok_iff.2 ⟨d, L.common _ _ _ h2, rfl⟩⟩
        · rintro ⟨u, ⟨d, h1, rfl⟩, h2⟩
          simp only [bind_ok_iff, Except.ok.injEq] at h2
          obtain ⟨d', h2, rfl⟩ := h2
          rw [L.common _ _ _ h1] at h2; cases h2
          obtain ⟨b', hb⟩ := (L.vector _ _ _ h1).1
          exact ⟨some b', ⟨b', hb, rfl⟩, bind_ok_iff.2 ⟨_, by rw [L.left _ _ _ hb]; exact h1, rfl⟩⟩
  | some a =>
    cases y with
    | none =>
      cases z with
      | none =>
        simp only [optCommon, bind_ok_iff, Except.ok.injEq]
        constructor
        · rintro ⟨u, ⟨a', h1, rfl⟩, h2⟩
          simp only [bind_ok_iff, Except.ok.injEq] at h2
          obtain ⟨d, h2, rfl⟩ := h2
          rw [L.idem _ _ h1] at h2; cases h2
          exact ⟨none, rfl, bind_ok_iff.2 ⟨_, h1, rfl⟩⟩
        · rintro ⟨u, rfl, h2⟩
          simp only [bind_ok_iff, Except.ok.injEq] at h2
          obtain ⟨a', h1, rfl⟩ := h2
          exact ⟨some a', ⟨a', h1, rfl⟩, bind_ok_iff.2 ⟨_, L.idem _ _ h1, rfl⟩⟩
      | some c =>
        simp only [optCommon, bind_ok_iff, Except.ok.injEq]
        constructor
        · rintro ⟨u, ⟨a', h1, rfl⟩, h2⟩
          simp only [bind_ok_iff, Except.ok.injEq] at h2
          obtain ⟨d, h2, rfl⟩ := h2
          rw [L.left _ _ _ h1] at h2
          obtain ⟨c', hc⟩ := (L.vector _ _ _ h2).2
          exact ⟨some c', ⟨c', hc, rfl⟩, bind_ok_iff.2 ⟨_, by rw [L.right _ _ _ hc]; exact h2, rfl⟩⟩
        · rintro ⟨u, ⟨c', h1, rfl⟩, h2⟩
          simp only [bind_ok_iff, Except.ok.injEq] at h2
          obtain ⟨d, h2, rfl⟩ := h2
          rw [L.right _ _ _ h1] at h2
          obtain ⟨a', ha⟩ := (L.vector _ _ _ h2).1
          exact ⟨some a', ⟨a', ha, rfl⟩, bind_ok_iff.2 ⟨_, by rw [L.left _ _ _ ha]; exact h2, rfl⟩⟩
    | some b =>
      cases z with
      | none =>
        simp only [optCommon, bind_ok_iff, Except.ok.injEq]
        constructor
        · rintro ⟨u, ⟨d, h1, rfl⟩, h2⟩
          simp only [bind_ok_iff, Except.ok.injEq] at h2
          obtain ⟨d', h2, rfl⟩ := h2
          rw [L.common _ _ _ h1] at h2; cases h2
          obtain ⟨b', hb⟩ := (L.vector _ _ _ h1).2
          exact ⟨some b', ⟨b', hb, rfl⟩, bind_ok_iff.2 ⟨_, by rw [L.right _ _ _ hb]; exact h1, rfl⟩⟩
        · rintro ⟨u, ⟨b', h1, rfl⟩, h2⟩
          simp only [bind_ok_iff, Except.ok.injEq] at h2
          obtain ⟨d, h2, rfl⟩ := h2
          rw [L.right _ _ _ h1] at h2
          exact ⟨some d, ⟨d, h2, rfl⟩, bind_ok_iff.2 ⟨d, L.common _ _ _ h2, rfl⟩⟩
      | some c =>
        simp only [optCommon, bind_ok_iff, Except.ok.injEq]
        constructor
        · rintro ⟨u, ⟨d, h1, rfl⟩, h2⟩
          simp only [bind_ok_iff, Except.ok.injEq] at h2
          obtain ⟨e, h2, rfl⟩ := h2
          obtain ⟨f, h3, h4⟩ := bind_ok_iff.1 ((L.assoc a b c e).1 (bind_ok_iff.2 ⟨d, h1, h2⟩))
          exact ⟨some f, ⟨f, h3, rfl⟩, bind_ok_iff.2 ⟨e, h4, rfl⟩⟩
        · rintro ⟨u, ⟨d, h1, rfl⟩, h2⟩
          simp only [bind_ok_iff, Except.ok.injEq] at h2
          obtain ⟨e, h2, rfl⟩ := h2
          obtain ⟨f, h3, h4⟩ := bind_ok_iff.1 ((L.assoc a b c e).2 (bind_ok_iff.2 ⟨d, h1, h2⟩))
          exact ⟨some f, ⟨f, h3, rfl⟩, bind_ok_iff.2 ⟨e, h4, rfl⟩⟩

theorem optCol_exists {d : Df β} (h : Named d) (s : Name) : ∃ o, OptCol d s o := by
  by_cases hs : s ∈ d.names
  · obtain ⟨c, hc⟩ := colAt_of_mem h.1.symm hs
    exact ⟨some c, hc⟩
  · exact ⟨none, hs⟩

theorem optCol_unique {d : Df β} (h : Tidy d) {s : Name} {o o' : Option β} (h1 : OptCol d s o) (h2 : OptCol d s o') :
    o = o' := by
  cases o <;> cases o'
  · rfl
  · exact absurd (colAt_mem h2) h1
  · exact absurd (colAt_mem h1) h2
  · rw [colAt_unique h h1 h2]

theorem commonCol_opt {ops : ColOps β} {x y : Df β} {s : Name} {r : C β} (h : CommonCol ops x y s r) :
    ∃ ox oy, OptCol x s ox ∧ OptCol y s oy ∧ optCommon ops ox oy = (r >>= fun c => .ok (some c)) := by
  rcases h with ⟨a, b, h1, h2, rfl⟩ | ⟨a, h1, h2, rfl⟩ | ⟨b, h1, h2, rfl⟩
  · exact ⟨some a, some b, h1, h2, rfl⟩
  · exact ⟨some a, none, h1, h2, rfl⟩
  · exact ⟨none, some b, h1, h2, rfl⟩

theorem opt_commonCol {ops : ColOps β} {x y : Df β} {s : Name} {ox oy : Option β} {c : β} (h1 : OptCol x s ox)
    (h2 : OptCol y s oy) (h : optCommon ops ox oy = .ok (some c)) : CommonCol ops x y s (.ok c) := by
  cases ox <;> cases oy <;> simp only [optCommon] at h
  · cases h
  · obtain ⟨r, h3, h4⟩ := bind_ok_iff.1 h
    cases h4; exact .inr (.inr ⟨_, h1, h2, h3⟩)
  · obtain ⟨r, h3, h4⟩ := bind_ok_iff.1 h
    cases h4; exact .inr (.inl ⟨_, h1, h2, h3⟩)
  · obtain ⟨r, h3, h4⟩ := bind_ok_iff.1 h
    cases h4; exact .inl ⟨_, _, h1, h2, h3⟩

theorem mem_unionNames {x y : List Name} {s : Name} : s ∈ unionNames x y ↔ s ∈ x ∨ s ∈ y := by
  simp only [unionNames, List.mem_append, List.mem_filter, decide_eq_true_eq]
  by_cases h : s ∈ x <;> simp [h]

theorem unionNames_assoc (x y z : List Name) : unionNames (unionNames x y) z = unionNames x (unionNames y z) := by
  have h : ∀ s, decide (s ∉ unionNames x y) = (decide (s ∉ x) && decide (s ∉ y)) := by
    intro s
    by_cases h1 : s ∈ x <;> by_cases h2 : s ∈ y <;> simp [mem_unionNames, h1, h2]
  have e : z.filter (fun s => decide (s ∉ unionNames x y)) =
      (z.filter (fun s => decide (s ∉ y))).filter (fun s => decide (s ∉ x)) := by
    rw [List.filter_filter]
    exact List.filter_congr (fun s _ => h s)
  show unionNames x y ++ z.filter (fun s => decide (s ∉ unionNames x y)) = _
  rw [e]
  simp only [unionNames, List.filter_append, List.append_assoc]

theorem unionNames_nodup {x y : List Name} (hx : x.Nodup) (hy : y.Nodup) : (unionNames x y).Nodup := by
  refine List.nodup_append.2 ⟨hx, hy.filter _, ?_⟩
  rintro s hs t ht rfl
  simpa [hs] using (List.mem_filter.1 ht).2

theorem unionNames_length (x y : List Name) : (unionNames x y).length ≤ x.length + y.length := by
  have := List.length_filter_le (fun s => decide (s ∉ x)) y
  simp only [unionNames, List.length_append]; omega

/-- All about the common type of data frames, column by column. -/
theorem dfPtype2_iff (hash : Name → BitVec 32) (ops : ColOps β) {x y z : Df β} (hx : Tidy x) (hy : Tidy y) :
    dfPtype2 hash ops x y = .ok z ↔ z.names = unionNames x.names y.names ∧ z.cols.length = z.names.length ∧
      z.size = 0 ∧ ∀ s ox oy, OptCol x s ox → OptCol y s oy → ∃ oz, OptCol z s oz ∧ optCommon ops ox oy = .ok oz := by
  constructor
  · intro h
    rcases C45_ptype2 hash ops hx.1 hy.1 with ⟨z', h1, h2, h3, h4, h5⟩ | ⟨e, h1, _⟩
    · rw [h] at h1; cases h1
      refine ⟨h2, h3, h4, ?_⟩
      intro s ox oy hox hoy
      by_cases hs : s ∈ z.names
      · obtain ⟨c, hc⟩ := colAt_of_mem h3 hs
        obtain ⟨ox', oy', g1, g2, g3⟩ := commonCol_opt (h5 s c hc)
        rw [optCol_unique hx hox g1, optCol_unique hy hoy g2]
        exact ⟨some c, hc, g3⟩
      · have hs' := hs
        rw [h2] at hs'
        have hs' := fun hh => hs' (mem_unionNames.2 hh)
        cases ox with
        | some a => exact absurd (.inl (colAt_mem hox)) hs'
        | none =>
          cases oy with
          | some b => exact absurd (.inr (colAt_mem hoy)) hs'
          | none => exact ⟨none, hs, rfl⟩
    · rw [h] at h1; cases h1
  · rintro ⟨h1, h2, h3, h4⟩
    have hnd : z.names.Nodup := by rw [h1]; exact unionNames_nodup hx.2 hy.2
    have huniq : ∀ s c, ColAt z s c → CommonCol ops x y s (.ok c) := by
      rintro s c ⟨i, hi, hc⟩
      obtain ⟨ox, hox⟩ := optCol_exists hx.1 s
      obtain ⟨oy, hoy⟩ := optCol_exists hy.1 s
      obtain ⟨oz, g1, g2⟩ := h4 s ox oy hox hoy
      cases oz with
      | none => exact absurd (List.mem_of_getElem? hi) g1
      | some c' =>
        obtain ⟨j, hj, hc'⟩ := g1
        obtain ⟨hi', hi⟩ := List.getElem?_eq_some_iff.1 hi
        obtain ⟨hj', hj⟩ := List.getElem?_eq_some_iff.1 hj
        have : i = j := (List.Nodup.getElem_inj_iff hnd (hi := hi') (hj := hj')).1 (hi.trans hj.symm)
        subst this
        rw [hc] at hc'
        cases hc'
        exact opt_commonCol hox hoy g2
    rcases C45_ptype2 hash ops hx.1 hy.1 with ⟨z', g1, g2, g3, g4, g5⟩ | ⟨e, g1, s, g2⟩
    · rw [g1]
      have hn : z'.names = z.names := by rw [g2, h1]; rfl
      have hcols : z'.cols = z.cols := by
        apply List.ext_getElem?
        intro i
        by_cases hi : i < z.names.length
        · have hi1 : i < z.cols.length := by omega
          have hi2 : i < z'.cols.length := by rw [g3, hn]; exact hi
          have k1 : CommonCol ops x y z.names[i] (.ok z.cols[i]) :=
            huniq _ _ ⟨i, List.getElem?_eq_getElem hi, List.getElem?_eq_getElem hi1⟩
          have k2 : CommonCol ops x y z.names[i] (.ok z'.cols[i]) :=
            g5 _ _ ⟨i, by rw [hn]; exact List.getElem?_eq_getElem hi, List.getElem?_eq_getElem hi2⟩
          have := commonCol_unique hx hy k1 k2
          rw [List.getElem?_eq_getElem hi1, List.getElem?_eq_getElem hi2, Except.ok.inj this]
        · rw [List.getElem?_eq_none (by rw [g3, hn]; omega), List.getElem?_eq_none (by omega)]
      cases z; cases z'
      simp only at hn hcols h3 g4
      subst hn hcols h3 g4
      rfl
    · obtain ⟨c, hc⟩ := colAt_of_mem h2 (s := s) (by rw [h1]; exact commonCol_mem g2)
      have := commonCol_unique hx hy g2 (huniq s c hc)
      cases this

theorem dfPtype2_tidy {hash : Name → BitVec 32} {ops : ColOps β} {x y z : Df β} (hx : Tidy x) (hy : Tidy y)
    (hlen : x.names.length + y.names.length ≤ 2147483647) (h : dfPtype2 hash ops x y = .ok z) : Tidy z := by
  obtain ⟨h1, h2, _⟩ := (dfPtype2_iff hash ops hx hy).1 h
  have := unionNames_length x.names y.names
  exact ⟨⟨h2.symm, by rw [h1]; omega⟩, by rw [h1]; exact unionNames_nodup hx.2 hy.2⟩

/-- It does not matter whether the first two or the last two of three data frames are combined first. -/
theorem C45_assoc (hash : Name → BitVec 32) {ops : ColOps β} (L : TypeLaws ops) {x y z w : Df β} (hx : Tidy x)
    (hy : Tidy y) (hz : Tidy z) (hlen : x.names.length + y.names.length + z.names.length ≤ 2147483647) :
    (∃ u, dfPtype2 hash ops x y = .ok u ∧ dfPtype2 hash ops u z = .ok w) ↔
      ∃ u, dfPtype2 hash ops y z = .ok u ∧ dfPtype2 hash ops x u = .ok w := by
  constructor
  · rintro ⟨u, h1, h2⟩
    have hu := dfPtype2_tidy hx hy (by omega) h1
    obtain ⟨a1, a2, a3, a4⟩ := (dfPtype2_iff hash ops hx hy).1 h1
    obtain ⟨b1, b2, b3, b4⟩ := (dfPtype2_iff hash ops hu hz).1 h2
    have key : ∀ s ox oy oz, OptCol x s ox → OptCol y s oy → OptCol z s oz →
        ∃ ow ov, OptCol w s ow ∧ optCommon ops oy oz = .ok ov ∧ optCommon ops ox ov = .ok ow := by
      intro s ox oy oz hox hoy hoz
      obtain ⟨ou, c1, c2⟩ := a4 s ox oy hox hoy
      obtain ⟨ow, c3, c4⟩ := b4 s ou oz c1 hoz
      obtain ⟨ov, c5, c6⟩ := (optCommon_assoc L ox oy oz ow).1 ⟨ou, c2, c4⟩
      exact ⟨ow, ov, c3, c5, c6⟩
    cases hv : dfPtype2 hash ops y z with
    | error e =>
      obtain ⟨s, e', hs⟩ := (C45_ptype2_fails hash ops hy hz).1 ⟨e, hv⟩
      obtain ⟨oy, oz, hoy, hoz, hc⟩ := commonCol_opt hs
      obtain ⟨ox, hox⟩ := optCol_exists hx.1 s
      obtain ⟨_, _, _, c5, _⟩ := key s ox oy oz hox hoy hoz
      rw [hc] at c5; cases c5
    | ok v =>
      have hvt := dfPtype2_tidy hy hz (by omega) hv
      obtain ⟨d1, d2, d3, d4⟩ := (dfPtype2_iff hash ops hy hz).1 hv
      refine ⟨v, rfl, (dfPtype2_iff hash ops hx hvt).2 ⟨?_, b2, b3, ?_⟩⟩
      · rw [b1, a1, d1, unionNames_assoc]
      · intro s ox ov hox hov
        obtain ⟨oy, hoy⟩ := optCol_exists hy.1 s
        obtain ⟨oz, hoz⟩ := optCol_exists hz.1 s
        obtain ⟨ov', e1, e2⟩ := d4 s oy oz hoy hoz
        obtain ⟨ow, ov'', e3, e4, e5⟩ := key s ox oy oz hox hoy hoz
        rw [e2] at e4; cases e4
        rw [optCol_unique hvt hov e1]
        exact ⟨ow, e3, e5⟩
  · rintro ⟨v, h1, h2⟩
    have hv := dfPtype2_tidy hy hz (by omega) h1
    obtain ⟨a1, a2, a3, a4⟩ := (dfPtype2_iff hash ops hy hz).1 h1
    obtain ⟨b1, b2, b3, b4⟩ := (dfPtype2_iff hash ops hx hv).1 h2
    have key : ∀ s ox oy oz, OptCol x s ox → OptCol y s oy → OptCol z s oz →
        ∃ ow ou, OptCol w s ow ∧ optCommon ops ox oy = .ok ou ∧ optCommon ops ou oz = .ok ow := by
      intro s ox oy oz hox hoy hoz
      obtain ⟨ov, c1, c2⟩ := a4 s oy oz hoy hoz
      obtain ⟨ow, c3, c4⟩ := b4 s ox ov hox c1
      obtain ⟨ou, c5, c6⟩ := (optCommon_assoc L ox oy oz ow).2 ⟨ov, c2, c4⟩
      exact ⟨ow, ou, c3, c5, c6⟩
    cases hu : dfPtype2 hash ops x y with
    | error e =>
      obtain ⟨s, e', hs⟩ := (C45_ptype2_fails hash ops hx hy).1 ⟨e, hu⟩
      obtain ⟨ox, oy, hox, hoy, hc⟩ := commonCol_opt hs
      obtain ⟨oz, hoz⟩ := optCol_exists hz.1 s
      obtain ⟨_, _, _, c5, _⟩ := key s ox oy oz hox hoy hoz
      rw [hc] at c5; cases c5
    | ok u =>
      have hut := dfPtype2_tidy hx hy (by omega) hu
      obtain ⟨d1, d2, d3, d4⟩ := (dfPtype2_iff hash ops hx hy).1 hu
      refine ⟨u, rfl, (dfPtype2_iff hash ops hut hz).2 ⟨?_, b2, b3, ?_⟩⟩
      · rw [b1, a1, d1, unionNames_assoc]
      · intro s ou oz hou hoz
        obtain ⟨ox, hox⟩ := optCol_exists hx.1 s
        obtain ⟨oy, hoy⟩ := optCol_exists hy.1 s
        obtain ⟨ou', e1, e2⟩ := d4 s ox oy hox hoy
        obtain ⟨ow, ou'', e3, e4, e5⟩ := key s ox oy oz hox hoy hoz
        rw [e2] at e4; cases e4
        rw [optCol_unique hut hou e1]
        exact ⟨ow, e3, e5⟩

/-- Both data frames can be cast to their common type, which keeps the number of rows. -/
theorem C45_cast_common (hash : Name → BitVec 32) {ops : ColOps β} (L : CastLaws ops) {x y z : Df β} (hx : Tidy x)
    (hy : Tidy y) (hlen : x.names.length + y.names.length ≤ 2147483647) (h : dfPtype2 hash ops x y = .ok z) :
    (∃ v, dfCast hash ops x z = .ok v ∧ v.names = z.names ∧ v.size = x.size) ∧
      ∃ w, dfCast hash ops y z = .ok w ∧ w.names = z.names ∧ w.size = y.size := by
  have hz := dfPtype2_tidy hx hy hlen h
  obtain ⟨h1, h2, h3, h4⟩ := (dfPtype2_iff hash ops hx hy).1 h
  have hcol : ∀ s c, ColAt z s c → CommonCol ops x y s (.ok c) := by
    intro s c hc
    obtain ⟨ox, hox⟩ := optCol_exists hx.1 s
    obtain ⟨oy, hoy⟩ := optCol_exists hy.1 s
    obtain ⟨oz, g1, g2⟩ := h4 s ox oy hox hoy
    have : oz = some c := optCol_unique hz g1 hc
    subst this
    exact opt_commonCol hox hoy g2
  constructor
  · rcases C45_cast hash ops hx hz (fun s hs => by rw [h1]; exact mem_unionNames.2 (.inl hs)) with
      ⟨v, g1, g2, _, g3, _⟩ | ⟨e, _, s, g2⟩
    · exact ⟨v, g1, g2, g3⟩
    · exfalso
      rcases g2 with ⟨a, c, ha, hc, g2⟩ | ⟨b, _, _, g2⟩
      · rcases hcol s c hc with ⟨a', b, ha', hb, hab⟩ | ⟨a', ha', hb, hab⟩ | ⟨b, hno, _, _⟩
        · rw [colAt_unique hx ha' ha] at hab
          obtain ⟨r, hr⟩ := (L.common _ _ _ hab).1
          rw [g2] at hr; cases hr
        · rw [colAt_unique hx ha' ha] at hab
          obtain ⟨r, hr⟩ := L.self _ _ hab
          rw [g2] at hr; cases hr
        · exact hno (colAt_mem ha)
      · obtain ⟨r, hr⟩ := L.init b x.size
        rw [g2] at hr; cases hr
  · rcases C45_cast hash ops hy hz (fun s hs => by rw [h1]; exact mem_unionNames.2 (.inr hs)) with
      ⟨v, g1, g2, _, g3, _⟩ | ⟨e, _, s, g2⟩
    · exact ⟨v, g1, g2, g3⟩
    · exfalso
      rcases g2 with ⟨b, c, hb, hc, g2⟩ | ⟨b, _, _, g2⟩
      · rcases hcol s c hc with ⟨a, b', ha, hb', hab⟩ | ⟨a, ha, hno, _⟩ | ⟨b', _, hb', hab⟩
        · rw [colAt_unique hy hb' hb] at hab
          obtain ⟨r, hr⟩ := (L.common _ _ _ hab).2
          rw [g2] at hr; cases hr
        · exact hno (colAt_mem hb)
        · rw [colAt_unique hy hb' hb] at hab
          obtain ⟨r, hr⟩ := L.self _ _ hab
          rw [g2] at hr; cases hr
      · obtain ⟨r, hr⟩ := L.init b y.size
        rw [g2] at hr; cases hr

/-- The common type of a data frame with itself has the same columns. -/
theorem C45_self (hash : Name → BitVec 32) (ops : ColOps β) {x : Df β} (hx : Tidy x)
    (hself : ∀ a ∈ x.cols, ops.ptype2 a a = .ok a) :
    dfPtype2 hash ops x x = .ok { x with size := 0 } := by
  refine (dfPtype2_iff hash ops hx hx).2 ⟨?_, hx.1.1.symm, rfl, ?_⟩
  · have : x.names.filter (fun s => decide (s ∉ x.names)) = [] := by
      rw [List.filter_eq_nil_iff]; intro s hs; simp [hs]
    simp [unionNames, this]
  · intro s ox oy hox hoy
    rw [optCol_unique hx hoy hox]
    refine ⟨ox, ?_, ?_⟩
    · cases ox <;> exact hox
    · cases ox with
      | none => rfl
      | some a =>
        obtain ⟨i, _, h2⟩ := hox
        simp only [optCommon, hself a (List.mem_of_getElem? h2), ok_bind]

/-- The columns of the examples obey the laws of types. -/
example : TypeLaws exColOps where
  assoc := by
    rintro (_ | a) (_ | b) (_ | c) r <;> simp [exColOps, ok_bind, error_bind, Nat.max_assoc]
  left := by rintro a a' b h; cases h; rfl
  right := by rintro a b b' h; cases h; rfl
  idem := by rintro a a' h; cases h; rfl
  common := by intro a b c _; rfl
  vector := by intro a b c _; exact ⟨⟨_, rfl⟩, ⟨_, rfl⟩⟩

/-- Columns of any type, cast upwards. -/
def exNatOps : ColOps Nat where
  ptype2 := fun a b => .ok (max a b)
  ptype := fun a => .ok a
  cast := fun a b => if a ≤ b then .ok b else .error .abort
  init := fun b _ => .ok b

example : CastLaws exNatOps where
  common := by
    intro a b c h
    cases h
    exact ⟨⟨max a b, if_pos (by omega)⟩, ⟨max a b, if_pos (by omega)⟩⟩
  self := by intro a c h; cases h; exact ⟨a, if_pos (by omega)⟩
  init := by intro b n; exact ⟨b, rfl⟩

example : dfPtype2 (fun _ => 7#32) exColOps ⟨[some ['a'], some ['b'], some ['c'], some ['d']],
      [some 1, some 6, some 2, some 3], 0⟩ ⟨[some ['e'], some ['b'], some ['a']], [some 4, some 9, some 0], 5⟩ =
    .ok ⟨[some ['a'], some ['b'], some ['c'], some ['d'], some ['e']], [some 1, some 9, some 2, some 3, some 4], 0⟩ ∧
    dfPtype2 (fun _ => 7#32) exNatOps ⟨[some ['a'], some ['b']], [1, 6], 3⟩ ⟨[some ['c'], some ['b']], [2, 7], 4⟩ =
      .ok ⟨[some ['a'], some ['b'], some ['c']], [1, 7, 2], 0⟩ ∧
    dfCast (fun _ => 7#32) exNatOps ⟨[some ['c'], some ['b']], [2, 7], 4⟩
      ⟨[some ['a'], some ['b'], some ['c']], [1, 7, 2], 0⟩ =
      .ok ⟨[some ['a'], some ['b'], some ['c']], [1, 7, 2], 4⟩ := by decide +kernel

end Vctrs
