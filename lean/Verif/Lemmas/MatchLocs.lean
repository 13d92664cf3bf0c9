import Verif.Lemmas.MatchAll
import Verif.Lemmas.MatchNest

/-!
# The compact matches in order of the needles
-/

namespace Vctrs

open Spec

/-- The compact matches of all needles as they were recorded. -/
def recorded (a : AState) (n : Nat) : List (Nat × Int × Int) :=
  (List.range n).map (fun i => (i, a.pr i)) ++ a.ex

/-- The compact matches of all needles, needle by needle. -/
def byNeedle (a : AState) (n : Nat) : List (Nat × Int × Int) :=
  (List.range n).flatMap (fun i => (ents a i).map (fun x => (i, x)))

theorem filter_range_eq {n i : Nat} (hi : i < n) (pr : Nat → Int × Int) :
    (List.range n).filter ((fun x : Nat × Int × Int => x.1 == i) ∘ fun j => (j, pr j)) = [i] := by
  have h : ((fun x : Nat × Int × Int => x.1 == i) ∘ fun j => (j, pr j)) = (fun j => j == i) := rfl
  rw [h]
  have : (List.range n).filter (fun j => j == i) = List.replicate ((List.range n).count i) i :=
    List.filter_beq i
  rw [this, List.count_eq_one_of_mem List.nodup_range (List.mem_range.2 hi)]
  rfl

theorem recorded_filter {a : AState} {n i : Nat} (hi : i < n) :
    (recorded a n).filter (fun x => x.1 == i) = (ents a i).map (fun x => (i, x)) := by
  unfold recorded ents
  rw [List.filter_append, List.filter_map, filter_range_eq hi]
  simp only [List.map_cons, List.map_nil, List.singleton_append, List.cons.injEq, true_and,
    List.map_map]
  refine (List.map_id' _).symm.trans ?_
  apply List.map_congr_left
  rintro ⟨j, x⟩ hx
  have := (List.mem_filter.1 hx).2
  simp only [beq_iff_eq] at this
  subst this
  rfl

theorem range_filter_flatMap_perm {N n : Nat} {key : Nat → Nat} (h : ∀ k, k < N → key k < n) :
    ((List.range n).flatMap (fun i => (List.range N).filter (fun k => key k == i))).Perm
      (List.range N) := by
  rw [List.perm_ext_iff_of_nodup ?_ List.nodup_range]
  · intro k
    simp only [List.mem_flatMap, List.mem_range, List.mem_filter, beq_iff_eq]
    constructor
    · rintro ⟨_, _, h1, _⟩
      exact h1
    · intro h1
      exact ⟨key k, h k h1, h1, rfl⟩
  · rw [List.nodup_flatMap]
    refine ⟨fun i _ => List.nodup_range.filter _, ?_⟩
    refine List.nodup_range.imp ?_
    intro i j hij k h1 h2
    simp only [List.mem_filter, beq_iff_eq] at h1 h2
    omega

theorem range_pairwise_lt (n : Nat) : (List.range n).Pairwise (· < ·) := List.pairwise_lt_range

theorem stable_unique {X : Nat → Int} {key : Nat → Nat} {N n : Nat} {B : List (List Nat)}
    (hB : TieGroups (fun i j => X i < X j) N B) (hX : ∀ k, k < N → X k = (key k : Int))
    (h : ∀ k, k < N → key k < n) :
    B.flatten = (List.range n).flatMap (fun i => (List.range N).filter (fun k => key k == i)) := by
  obtain ⟨p, e, hp, hpw⟩ := hB.stable
  have e' : B.flatten = p := by
    have := congrArg (List.map (fun (a : Int) => (a - 1).toNat)) e
    simp only [List.map_map] at this
    have id' : ((fun (a : Int) => (a - 1).toNat) ∘ fun (i : Nat) => (i : Int) + 1) = id := by
      funext i
      simp
    rw [id', List.map_id, List.map_id] at this
    exact this
  rw [e']
  have hlt : ∀ k, k ∈ p → k < N := fun k hk => List.mem_range.1 (hp.mem_iff.1 hk)
  have hq := range_filter_flatMap_perm (N := N) (n := n) h
  refine List.Perm.eq_of_pairwise (le := fun i j => key i < key j ∨ (key i = key j ∧ i < j)) ?_ ?_ ?_
    (hp.trans hq.symm)
  · intro i j _ _ h1 h2
    omega
  · refine hpw.imp_of_mem ?_
    intro i j hi hj h1
    dsimp only at h1
    rw [hX i (hlt i hi), hX j (hlt j hj)] at h1
    omega
  · rw [List.pairwise_flatMap]
    constructor
    · intro i _
      refine ((range_pairwise_lt N).filter _).imp_of_mem ?_
      intro k l hk hl hkl
      simp only [List.mem_filter, beq_iff_eq] at hk hl
      omega
    · refine (range_pairwise_lt n).imp ?_
      intro i j hij k hk l hl
      simp only [List.mem_filter, beq_iff_eq] at hk hl
      omega

theorem recorded_key_lt {a : AState} {n : Nat} (hlt : ∀ x ∈ a.ex, x.1 < n) :
    ∀ x ∈ recorded a n, x.1 < n := by
  intro x hx
  rcases List.mem_append.1 hx with hx | hx
  · obtain ⟨i, hi, rfl⟩ := List.mem_map.1 hx
    exact List.mem_range.1 hi
  · exact hlt x hx

theorem list_as_map {α : Type} (l : List α) (d : α) :
    l = (List.range l.length).map (fun k => l.getD k d) := by
  apply List.ext_getElem?
  intro k
  by_cases hk : k < l.length
  · simp [hk]
  · simp [hk]

/-- The order of the locations of the needles visits the compact matches needle by needle. -/
theorem locs_order {a : AState} {n : Nat} (hlt : ∀ x ∈ a.ex, x.1 < n)
    (hN : (recorded a n).length ≤ intMax) {tl : TL} (h0 : ∀ u, 0 ≤ tl u) (fuel : Nat) :
    ∃ p : List Nat, vecOrder fuel (.vec (.atom .int) ((recorded a n).map (fun x => (x.1 : Int))))
        chrsAsc chrsSmallest true tl (List.replicate 100001 0) =
        .ok (p.map (fun (i : Nat) => (i : Int) + 1), tl, List.replicate 100001 0) ∧
      p.map (fun k => (recorded a n)[k]?) = (byNeedle a n).map some := by
  have hkey := recorded_key_lt hlt
  have hfl : ∀ i, i < n → (recorded a n).filter (fun x => x.1 == i) = (ents a i).map (fun x => (i, x)) :=
    fun i hi => recorded_filter hi
  have hn : n ≤ (recorded a n).length := by unfold recorded; simp
  generalize recorded a n = U at *
  let G : Nat → Nat × Int × Int := fun k => U.getD k (0, 0, 0)
  have hU : U = (List.range U.length).map G := list_as_map U _
  have hG : ∀ k, k < U.length → U[k]? = some (G k) := by
    intro k hk
    simp [G, hk]
  have hGlt : ∀ k, k < U.length → (G k).1 < n := fun k hk => hkey _ (List.mem_of_getElem? (hG k hk))
  obtain ⟨B, hB, ho⟩ := intVec_order (v := U.map (fun x => (x.1 : Int))) (n := U.length)
    (X := fun k => ((G k).1 : Int)) (by
      conv => lhs; rw [hU]
      rw [List.map_map]
      rfl) (by
      intro v hv
      obtain ⟨x, hx, rfl⟩ := List.mem_map.1 hv
      have := hkey x hx
      unfold IsInt naInt
      unfold intMax at hN ⊢
      omega) hN h0 fuel
  refine ⟨B.flatten, ho, ?_⟩
  have e := stable_unique (key := fun k => (G k).1) (n := n) hB (fun _ _ => rfl) hGlt
  have hm : B.flatten.map (fun k => U[k]?) = (B.flatten.map G).map some := by
    rw [List.map_map]
    apply List.map_congr_left
    intro k hk
    exact hG k (List.mem_range.1 (hB.perm.mem_iff.1 hk))
  rw [hm, e, List.map_flatMap]
  unfold byNeedle
  congr 1
  rw [List.flatMap_def, List.flatMap_def]
  congr 1
  apply List.map_congr_left
  intro i hi
  rw [← hfl i (List.mem_range.1 hi)]
  conv => rhs; rw [hU]
  rw [List.filter_map]
  rfl

end Vctrs
