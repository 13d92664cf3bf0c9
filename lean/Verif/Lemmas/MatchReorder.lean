import Verif.Lemmas.MatchRemain
import Verif.Lemmas.MatchOrder

/-!
# The matches of a needle in order of appearance
-/

namespace Vctrs

open Spec

/-- Pairs by needle, then by value. -/
def PairLe (a b : Int × Int) : Prop := a.1 < b.1 ∨ (a.1 = b.1 ∧ a.2 ≤ b.2)

theorem pairLe_antisymm {a b : Int × Int} (h : PairLe a b) (h' : PairLe b a) : a = b := by
  unfold PairLe at h h'
  apply Prod.ext <;> omega

theorem expandReorder_ok {P Q : List (Int × Int)} (hQ : Q.Perm P) (hs : Q.Pairwise PairLe)
    (hint : ∀ x ∈ P, IsInt x.1 ∧ IsInt x.2) (hn : P.length ≤ intMax) {tl : TL}
    (h0 : ∀ u, 0 ≤ tl u) {fuel : Nat} (hf : 2 ≤ fuel) :
    expandReorder fuel (P.map (·.1)) (P.map (·.2)) tl (List.replicate 100001 0) =
      .ok (Q.map (·.2), tl, List.replicate 100001 0) := by
  let G : Nat → Int × Int := fun k => P.getD k (0, 0)
  let X : Nat → Nat → Int := fun c k => if c = 0 then (G k).1 else (G k).2
  have hP : P = (List.range P.length).map G := list_as_map P _
  have hcols : ColsAre [P.map (·.1), P.map (·.2)] P.length X := by
    intro c v hv
    rcases c with _ | _ | c
    · simp only [List.getElem?_cons_zero, Option.some.injEq] at hv
      subst hv
      refine ⟨?_, ?_⟩
      · conv => lhs; rw [hP]
        rw [List.map_map]
        rfl
      · intro a ha
        obtain ⟨x, hx, rfl⟩ := List.mem_map.1 ha
        exact (hint x hx).1
    · simp only [List.getElem?_cons_succ, List.getElem?_cons_zero, Option.some.injEq] at hv
      subst hv
      refine ⟨?_, ?_⟩
      · conv => lhs; rw [hP]
        rw [List.map_map]
        rfl
      · intro a ha
        obtain ⟨x, hx, rfl⟩ := List.mem_map.1 ha
        exact (hint x hx).2
    · simp at hv
  obtain ⟨B, hB, ho⟩ := intDf_order hcols hn h0 (fuel := fuel) hf
  have hL : B.flatten.map G = Q := by
    refine List.Perm.eq_of_pairwise (le := PairLe) (fun a b _ _ h h' => pairLe_antisymm h h') ?_ hs ?_
    · rw [List.pairwise_map]
      obtain ⟨p, e, hp, hpw⟩ := hB.stable
      have e' : B.flatten = p := by
        have := congrArg (List.map (fun (a : Int) => (a - 1).toNat)) e
        simp only [List.map_map] at this
        have id' : ((fun (a : Int) => (a - 1).toNat) ∘ fun (i : Nat) => (i : Int) + 1) = id := by
          funext i
          simp
        rw [id', List.map_id, List.map_id] at this
        exact this
      rw [e']
      refine hpw.imp ?_
      intro i j h
      have key : ∀ i j, ColLt X 2 i j ↔ (G i).1 < (G j).1 ∨ ((G i).1 = (G j).1 ∧ (G i).2 < (G j).2) := by
        intro i j
        constructor
        · rintro ⟨c, c1, c2, c3⟩
          rcases c with _ | _ | c
          · exact .inl c2
          · exact .inr ⟨c3 0 (by omega), c2⟩
          · omega
        · rintro (h | ⟨h1, h2⟩)
          · exact ⟨0, by omega, h, fun c hc => by omega⟩
          · refine ⟨1, by omega, h2, fun c hc => ?_⟩
            have : c = 0 := by omega
            subst this
            exact h1
      rw [List.length_cons, List.length_cons, List.length_nil, key, key] at h
      unfold PairLe
      omega
    · refine List.Perm.trans ?_ hQ.symm
      conv => rhs; rw [hP]
      exact hB.perm.map G
  have hlen : B.flatten.length = P.length := by
    rw [hB.perm.length_eq, List.length_range]
  unfold expandReorder
  rw [List.length_map, ho, ok_bind]
  dsimp only
  rw [List.length_map]
  refine bind_eq_of (a := Q.map (·.2)) ?_ rfl
  obtain ⟨out, h1, h2, h3⟩ := Ret.forN (f := fun i (out : List Int) => (do
    let k ← rd (B.flatten.map (fun (i : Nat) => (i : Int) + 1)) i
    wr out i (← rdI (P.map (·.2)) (k - 1)) : C (List Int))) (n := P.length)
    (s := B.flatten.map (fun (i : Nat) => (i : Int) + 1))
    (fun i out => out.length = P.length ∧ ∀ j, j < i → out[j]? = (Q.map (·.2))[j]?)
    ⟨by rw [List.length_map, hlen], fun j hj => by omega⟩ (by
      rintro i out hi ⟨h1, h2⟩
      have hk : B.flatten[i]? = some (B.flatten[i]'(by omega)) := List.getElem?_eq_getElem (by omega)
      generalize (B.flatten[i]'(by omega)) = k at hk
      have hkm : k < P.length := List.mem_range.1 (hB.perm.mem_iff.1 (List.mem_of_getElem? hk))
      rw [rd_of_getElem? (a := (k : Int) + 1) (by rw [List.getElem?_map, hk]; rfl), ok_bind,
        nat_succ_pred, rdI_get (a := (G k).2) (by
          rw [List.getElem?_map]
          conv => lhs; rw [hP]
          rw [List.getElem?_map, List.getElem?_range hkm]
          rfl), ok_bind, wr_ok (by omega)]
      refine Ret.ok ⟨by rw [List.length_set, h1], fun j hj => ?_⟩
      rw [getElem?_set' (by omega)]
      by_cases hij : j = i
      · subst hij
        rw [if_pos rfl, ← hL, List.map_map, List.getElem?_map, hk]
        rfl
      · rw [if_neg hij]
        exact h2 j (by omega))
  rw [h1]
  congr 1
  apply List.ext_getElem?
  intro j
  by_cases hj : j < P.length
  · exact h3 j hj
  · rw [List.getElem?_eq_none (by omega), List.getElem?_eq_none (by
      rw [List.length_map, hQ.length_eq]; omega)]

end Vctrs
