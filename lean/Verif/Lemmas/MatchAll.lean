import Verif.Lemmas.MatchRecurse

/-!
# The compact matches of all needles
-/

namespace Vctrs

/-- The locations of compact matches. -/
def flatLocs (E : List (Int × Int)) : List Int :=
  E.flatMap (fun x => (List.range x.2.toNat).map (fun (j : Nat) => x.1 + (j : Int)))

theorem mem_flatLocs {E : List (Int × Int)} {k : Int} :
    k ∈ flatLocs E ↔ ∃ x ∈ E, x.1 ≤ k ∧ k < x.1 + x.2 := by
  unfold flatLocs
  rw [List.mem_flatMap]
  constructor
  · rintro ⟨x, hx, hk⟩
    obtain ⟨j, hj, rfl⟩ := List.mem_map.1 hk
    have := List.mem_range.1 hj
    exact ⟨x, hx, by omega, by omega⟩
  · rintro ⟨x, hx, h1, h2⟩
    refine ⟨x, hx, List.mem_map.2 ⟨(k - x.1).toNat, List.mem_range.2 (by omega), by omega⟩⟩

theorem flatLocs_append {E F : List (Int × Int)} : flatLocs (E ++ F) = flatLocs E ++ flatLocs F := by
  unfold flatLocs
  rw [List.flatMap_append]

theorem flatLocs_one_nodup (x : Int × Int) : (flatLocs [x]).Nodup := by
  unfold flatLocs
  rw [List.flatMap_singleton]
  refine List.Pairwise.map _ ?_ List.nodup_range
  intro i j hij h
  omega

/-- The compact matches of a needle among the sorted haystack before `b`; the search has `begun`. -/
structure NeedleOk (V : MView) (inc : MIncomplete) (any begun : Bool) (i b : Int)
    (E : List (Int × Int)) : Prop where
  signal : inc.signals = true → Lacks V 0 i → E = [(naInt, 1)] ∨ E = [(-1, 1)]
  flagged : begun = true → inc.signals = true → Lacks V 0 i →
    (∀ d, d < V.nc → V.op d ≠ .eq) → E = [(-1, 1)]
  hit : ¬ (inc.signals = true ∧ Lacks V 0 i) →
    (E = [(naInt, 1)] ∧ ∀ k, 0 ≤ k → k < b → ¬ RowHit V inc 0 i k) ∨
    (any = true ∧ ∃ f, E = [(f, 1)] ∧ 0 ≤ f ∧ f < b ∧ BestHit V inc 0 0 (b - 1) i f) ∨
    (any = false ∧ E ≠ [] ∧ (∀ x ∈ E, 0 ≤ x.1 ∧ 1 ≤ x.2) ∧ (flatLocs E).Nodup ∧
      ∀ k, k ∈ flatLocs E ↔ 0 ≤ k ∧ k < b ∧ BestHit V inc 0 0 (b - 1) i k)

theorem needleOk_start {V : MView} {inc : MIncomplete} {any : Bool} {i : Int} :
    NeedleOk V inc any false i 0 [(naInt, 1)] :=
  ⟨fun _ _ => .inl rfl, (fun h => by cases h), fun _ => .inl ⟨rfl, fun k h1 h2 => by omega⟩⟩

theorem bestHit_all {V : MView} {inc : MIncomplete} {c : Nat} {lo hi i k : Int}
    (h : V.fl (V.nc - 1) = .all) : BestHit V inc c lo hi i k ↔ RowHit V inc c i k := by
  constructor
  · exact fun h => h.1
  · intro h'
    refine ⟨h', fun k' _ _ _ => ?_⟩
    rw [h]
    trivial

theorem NeedleOk.step {V : MView} {inc : MIncomplete} {any begun : Bool} {i b b' : Int}
    {E : List (Int × Int)} {t : Touch} (h : NeedleOk V inc any begun i b E) (h0 : 0 ≤ b)
    (hb : b ≤ b') (ht : TouchOk V inc 0 b (b' - 1) i t) (hbegun : begun = true ∨ E = [(naInt, 1)])
    (hf : b = 0 ∨ V.fl (V.nc - 1) = .all) :
    NeedleOk V inc any true i b' (applyTouch any t E) := by
  have na : naInt ≠ -1 := by decide
  refine ⟨?_, ?_, ?_⟩
  · intro h1 h2
    rcases ht.signal h1 h2 with rfl | rfl
    · rw [applyTouch_none]
      exact h.signal h1 h2
    · rcases h.signal h1 h2 with rfl | rfl
      · exact .inr rfl
      · exact .inr rfl
  · intro _ h1 h2 h3
    rw [ht.flagged h1 h2 fun d _ hd => h3 d hd]
    rcases h.signal h1 h2 with rfl | rfl <;> rfl
  · intro hns
    have low : ∀ k, 0 ≤ k → k < b → (BestHit V inc 0 0 (b - 1) i k ↔ BestHit V inc 0 0 (b' - 1) i k) := by
      intro k h1 h2
      rcases hf with rfl | hf
      · omega
      · rw [bestHit_all hf, bestHit_all hf]
    have high : ∀ k, b ≤ k → k < b' →
        (BestHit V inc 0 b (b' - 1) i k ↔ BestHit V inc 0 0 (b' - 1) i k) := by
      intro k h1 h2
      rcases hf with rfl | hf
      · rfl
      · rw [bestHit_all hf, bestHit_all hf]
    rcases ht.hit hns with ⟨rfl, hn⟩ | ⟨l, u, rfl, l1, l2, l3, l4⟩
    · rw [applyTouch_none]
      have nob : ∀ k, b ≤ k → k < b' → ¬ BestHit V inc 0 0 (b' - 1) i k :=
        fun k h1 h2 hB => hn k h1 (by omega) hB.1
      rcases h.hit hns with ⟨e, h1⟩ | ⟨e, f, h1, h2, h3, h4⟩ | ⟨e, h1, h2, h3, h4⟩
      · refine .inl ⟨e, fun k hk hk' => ?_⟩
        rcases (show k < b ∨ b ≤ k by omega) with hb' | hb'
        · exact h1 k hk hb'
        · exact hn k hb' (by omega)
      · exact .inr (.inl ⟨e, f, h1, h2, by omega, (low f h2 h3).1 h4⟩)
      · refine .inr (.inr ⟨e, h1, h2, h3, fun k => ?_⟩)
        rw [h4]
        constructor
        · rintro ⟨a1, a2, a3⟩
          exact ⟨a1, by omega, (low k a1 a2).1 a3⟩
        · rintro ⟨a1, a2, a3⟩
          rcases (show k < b ∨ b ≤ k by omega) with hb' | hb'
          · exact ⟨a1, hb', (low k a1 hb').2 a3⟩
          · exact absurd a3 (nob k hb' a2)
    · have hu : ∀ k, b ≤ k → k < b' → (BestHit V inc 0 0 (b' - 1) i k ↔ l ≤ k ∧ k ≤ u) := by
        intro k h1 h2
        rw [← high k h1 h2]
        exact l4 k h1 (by omega)
      have one : flatLocs [(l, u - l + 1)] ≠ [] := by
        intro h'
        have : l ∈ flatLocs [(l, u - l + 1)] :=
          mem_flatLocs.2 ⟨_, List.mem_singleton.2 rfl, by dsimp only; omega, by dsimp only; omega⟩
        rw [h'] at this
        cases this
      have mem1 : ∀ k, k ∈ flatLocs [(l, u - l + 1)] ↔ l ≤ k ∧ k ≤ u := by
        intro k
        rw [mem_flatLocs]
        constructor
        · rintro ⟨x, hx, h1, h2⟩
          rw [List.mem_singleton.1 hx] at h1 h2
          dsimp only at h1 h2
          omega
        · rintro ⟨h1, h2⟩
          exact ⟨_, List.mem_singleton.2 rfl, by dsimp only; omega, by dsimp only; omega⟩
      rcases h.hit hns with ⟨rfl, h1⟩ | ⟨rfl, f, rfl, h2, h3, h4⟩ | ⟨rfl, h1, h2, h3, h4⟩
      · rw [applyTouch_hit, if_pos rfl]
        cases any with
        | true => exact .inr (.inl ⟨rfl, l, rfl, by omega, by omega, (hu l l2 (by omega)).2 ⟨by omega, l1⟩⟩)
        | false =>
          refine .inr (.inr ⟨rfl, by simp, ?_, flatLocs_one_nodup _, fun k => ?_⟩)
          · intro x hx
            rw [List.mem_singleton.1 hx, if_neg (by simp)]
            dsimp only
            omega
          · rw [if_neg (by simp), mem1]
            constructor
            · rintro ⟨a1, a2⟩
              exact ⟨by omega, by omega, (hu k (by omega) (by omega)).2 ⟨a1, a2⟩⟩
            · rintro ⟨a1, a2, a3⟩
              rcases (show k < b ∨ b ≤ k by omega) with hb' | hb'
              · exact absurd ((low k a1 hb').2 a3).1 (h1 k a1 hb')
              · exact (hu k hb' a2).1 a3
      · rw [applyTouch_hit, if_neg (by dsimp only; unfold naInt; omega), if_pos rfl]
        exact .inr (.inl ⟨rfl, f, rfl, h2, by omega, (low f h2 h3).1 h4⟩)
      · obtain ⟨x, r, rfl⟩ := List.exists_cons_of_ne_nil h1
        have hx := h2 x List.mem_cons_self
        rw [applyTouch_hit, if_neg (by unfold naInt; omega), if_neg (by simp)]
        refine .inr (.inr ⟨rfl, by simp, ?_, ?_, fun k => ?_⟩)
        · intro y hy
          rcases List.mem_append.1 hy with hy | hy
          · exact h2 y hy
          · rw [List.mem_singleton.1 hy]
            dsimp only
            omega
        · rw [flatLocs_append, List.nodup_append]
          refine ⟨h3, flatLocs_one_nodup _, ?_⟩
          intro p hp q hq e
          subst e
          have a := ((h4 p).1 hp).2.1
          have b := (mem1 p).1 hq
          omega
        · rw [flatLocs_append, List.mem_append, h4, mem1]
          constructor
          · rintro (⟨a1, a2, a3⟩ | ⟨a1, a2⟩)
            · exact ⟨a1, by omega, (low k a1 a2).1 a3⟩
            · exact ⟨by omega, by omega, (hu k (by omega) (by omega)).2 ⟨a1, a2⟩⟩
          · rintro ⟨a1, a2, a3⟩
            rcases (show k < b ∨ b ≤ k by omega) with hb' | hb'
            · exact .inl ⟨a1, hb', (low k a1 hb').2 a3⟩
            · exact .inr ((hu k hb' a2).1 a3)

theorem abs_new (e : MEnv) (n : Nat) :
    Abs e n (MState.new e.multiple n) ⟨fun _ => (naInt, 1), []⟩ := by
  have hn : ∀ v : Int, List.replicate n v = (List.range n).map (fun _ => v) ++ [] := by
    intro v
    rw [List.append_nil, List.map_const', List.length_range]
  have n0 : ∀ P : Prop, (0 : Int) ≤ naInt → P := fun P h => absurd h (by decide)
  unfold MState.new
  split
  · next h =>
    exact ⟨hn _, fun h' => absurd h h', fun h' => absurd h h', fun _ => rfl, by simp [alloc],
      fun _ h' => absurd h h', fun _ h => absurd h List.not_mem_nil⟩
  · next h =>
    exact ⟨hn _, fun _ => hn _, fun _ => by simp, fun _ => rfl, by simp [alloc],
      fun _ _ i _ h0 => n0 _ h0, fun _ h => absurd h List.not_mem_nil⟩

theorem matchAll_ok {e : MEnv} {V : MView} (he : EnvOk e V)
    (hfl : ∀ c, c + 1 < V.nc → V.fl c = .all ∨ V.op c = .eq) (hnc : 0 < V.nc)
    (hN : ∀ i i' : Int, 0 ≤ i → i ≤ i' → i' < V.n → NestLe (fun _ => .eq) V.N V.nc 0 i i')
    {ids : List Int} {nCont : Nat} {idf : Int → Int} (hn1 : 1 ≤ nCont)
    (hids : nCont ≠ 1 → OrdVals ids e.oHaystack idf 0 (V.m - 1))
    (hidb : ∀ k : Int, 0 ≤ k → k < V.m → 0 ≤ idf k ∧ idf k < nCont)
    (hmono : MonoOn idf 0 (V.m - 1))
    (hH : ∀ k k' : Int, 0 ≤ k → k ≤ k' → k' < V.m → idf k = idf k' → NestLe V.op V.H V.nc 0 k k')
    (hsingle : e.anyFilters = true → nCont = 1)
    (hall : e.anyFilters = false → V.fl (V.nc - 1) = .all) :
    Ret (matchAll e ids nCont V.n V.m) (fun s => ∃ a, Abs e V.n s a ∧
      (∀ i : Int, 0 ≤ i → i < V.n →
        NeedleOk V e.incomplete (decide (e.multiple = .any)) true i V.m (ents a (V.P i))) ∧
      (nCont = 1 → ∀ j, j < V.n → ents a j = [a.pr j])) := by
  have ents0 : ∀ j, ents ⟨fun _ => (naInt, 1), []⟩ j = [(naInt, 1)] := fun _ => rfl
  have abs0 := abs_new e V.n
  have fuel : 0 < V.n → (V.nc - 0 - 1) * (V.n + 1) + ((V.n : Int) - 1 - 0 + 1).toNat ≤ matchFuel e V.n := by
    intro _
    unfold matchFuel
    rw [he.cols]
    obtain ⟨d, hd⟩ : ∃ d, V.nc = d + 1 := ⟨V.nc - 1, by omega⟩
    rw [hd, Nat.add_mul, show d + 1 - 0 - 1 = d by omega]
    omega
  have hNs : ∀ i i' : Int, 0 ≤ i → i ≤ i' → i' ≤ (V.n : Int) - 1 →
      NestLe (fun _ => .eq) V.N (V.nc - 0) 0 i i' := fun i i' h1 h2 h3 => hN i i' h1 h2 (by omega)
  unfold matchAll
  dsimp only
  by_cases hn : V.n > 0
  · rw [if_pos hn]
    by_cases h1 : nCont = 1
    · rw [if_pos h1]
      refine (matchRecurse_ok he hfl _ 0 0 ((V.n : Int) - 1) 0 ((V.m : Int) - 1) _ _ hnc
        (Int.le_refl _) (by omega) (by omega) (Int.le_refl _) (by omega) (by omega) hNs ?_ abs0
        (fun _ _ _ => rfl) (fuel hn)).mono ?_
      · intro k k' a b c
        have x := hidb k a (by omega)
        have y := hidb k' (by omega) (by omega)
        exact hH k k' a b (by omega) (by omega)
      · rintro s ⟨a, ha, hE⟩
        refine ⟨a, ha, fun i hi hi' => ?_, fun _ j hj => ?_⟩
        · obtain ⟨t, ht, e'⟩ := hE.here i ⟨hi, by omega⟩
          rw [e', ents0]
          exact needleOk_start.step (Int.le_refl _) (by omega) ht (.inr rfl) (.inl rfl)
        · have single : ∃ x, ents a j = [x] := by
            by_cases hx : ∃ k, Between 0 ((V.n : Int) - 1) k ∧ V.P k = j
            · obtain ⟨k, hk, rfl⟩ := hx
              obtain ⟨t, _, e'⟩ := hE.here k hk
              rw [e', ents0]
              cases t with
              | none => exact ⟨_, rfl⟩
              | inc => exact ⟨_, rfl⟩
              | hit l u => exact ⟨_, rfl⟩
            · rw [hE.other j hj fun k hk e' => hx ⟨k, hk, e'⟩]
              exact ⟨_, rfl⟩
          obtain ⟨x, hx⟩ := single
          unfold ents at hx ⊢
          injection hx with h2 h3
          rw [h3]
    · rw [if_neg h1]
      have hnf : e.anyFilters = false := by
        cases hf : e.anyFilters
        · rfl
        · exact absurd (hsingle hf) h1
      have hord := hids h1
      refine Ret.bind (P := fun r => ∃ a, Abs e V.n r.2 a ∧ (∀ i : Int, 0 ≤ i → i < V.n →
        NeedleOk V e.incomplete (decide (e.multiple = .any)) true i V.m (ents a (V.P i)))) ?_ ?_
      · refine (Ret.forN (fun c (r : Int × MState) => 0 ≤ r.1 ∧ r.1 ≤ V.m ∧
          (∀ k : Int, 0 ≤ k → k < V.m → (idf k < c ↔ k < r.1)) ∧ ∃ a, Abs e V.n r.2 a ∧
          (∀ i : Int, 0 ≤ i → i < V.n → NeedleOk V e.incomplete (decide (e.multiple = .any)) (decide (0 < c)) i
            r.1 (ents a (V.P i)) ∧ (c = 0 → ents a (V.P i) = [(naInt, 1)])))
          ⟨Int.le_refl _, by dsimp only; omega, ?_, _, abs0, fun i _ _ => ⟨needleOk_start, fun _ => rfl⟩⟩
          ?_).mono ?_
        · intro k hk hk'
          have := hidb k hk hk'
          dsimp only
          omega
        · rintro c ⟨b, s⟩ hc ⟨hb0, hbm, hbi, a, ha, hNe⟩
          dsimp only at hb0 hbm hbi ha hNe
          unfold matchContainer
          dsimp only
          refine Ret.bind (locateMatch_ok (hord.sub hb0 (by omega)) (hmono.sub hb0 (by omega))
            (by omega)) ?_
          rintro ⟨l, u⟩ ⟨l1, l2, l3, l4⟩
          dsimp only at l1 l2 l3 l4 ⊢
          have hl : l = b := by
            refine Decidable.byContradiction fun hne => ?_
            have hlt : b < l := by omega
            have hbm' : b < V.m := by omega
            have := ((l4 b (Int.le_refl _) (by omega)).1).2 hlt
            have := (hbi b hb0 hbm').1 this
            omega
          subst hl
          refine Ret.bind (matchRecurse_ok he hfl _ 0 0 ((V.n : Int) - 1) l u s a hnc
            (Int.le_refl _) (by omega) (by omega) hb0 (by omega) l3 hNs ?_ ha
            (fun hf => by rw [hnf] at hf; cases hf) (fuel hn)) ?_
          · intro k k' h2 h3 h4
            refine hH k k' (by omega) h3 (by omega) ?_
            have x := l4 k h2 (by omega)
            have y := l4 k' (by omega) (by omega)
            omega
          · rintro s' ⟨a', ha', hE⟩
            refine Ret.ok ⟨by dsimp only; omega, by dsimp only; omega, ?_, a', ha', fun i hi hi' => ⟨?_, ?_⟩⟩
            · intro k hk hk'
              dsimp only
              rcases (show k < l ∨ l ≤ k by omega) with hlt | hge
              · have := (hbi k hk hk').2 hlt
                omega
              · have := l4 k hge (by omega)
                omega
            · obtain ⟨t, ht, e'⟩ := hE.here i ⟨hi, by omega⟩
              obtain ⟨n1, n2⟩ := hNe i hi hi'
              rw [e', show decide (0 < c + 1) = true by simp]
              refine n1.step hb0 (by dsimp only; omega) ?_ ?_ (.inr (hall hnf))
              · dsimp only
                rw [show u + 1 - 1 = u by omega]
                exact ht
              · by_cases h0 : c = 0
                · exact .inr (n2 h0)
                · exact .inl (by simpa using Nat.pos_of_ne_zero h0)
            · intro h'
              omega
        · rintro ⟨b, s⟩ ⟨h2, h3, h4, a, ha, hNe⟩
          dsimp only at h2 h3 h4
          have hb : b = V.m := by
            refine Decidable.byContradiction fun hne => ?_
            have := (h4 b h2 (by omega)).1 (hidb b h2 (by omega)).2
            omega
          refine ⟨a, ha, fun i hi hi' => ?_⟩
          have := (hNe i hi hi').1
          rw [hb, show decide (0 < nCont) = true from decide_eq_true hn1] at this
          exact this
      · rintro r ⟨a, ha, hE⟩
        exact Ret.ok ⟨a, ha, hE, fun hf => absurd hf h1⟩
  · rw [if_neg hn]
    exact Ret.ok ⟨_, abs0, fun i h1 h2 => by omega, fun _ _ _ => rfl⟩

end Vctrs
