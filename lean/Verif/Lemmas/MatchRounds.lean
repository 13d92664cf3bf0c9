import Verif.Lemmas.MatchExpand
import Verif.Lemmas.MatchAll

/-!
# The expansion of the compact matches of one needle
-/

namespace Vctrs

open Spec

/-- One round of the expansion, once the compact match `x` of needle `i` was read. -/
def roundBody (e : XEnv) (N t : Nat) (i : Int) (x : Int × Int) (s : XState) : C XState :=
  if x.1 = signalIncomplete then expandIncomplete e x.2 i s
  else if x.1 = naInt then expandNoMatch e x.2 i s
  else do
    if ← expandFiltered e x.1 i then do
      let s ← expandCheckNeedles e x.2 i s
      match e.multiple with
      | .first => expandFirstLast e true N t x.1 x.2 i s
      | .last => expandFirstLast e false N t x.1 x.2 i s
      | _ => forN x.2.toNat (expandMatch e x.1 i) s
    else .ok s

/-- The best of some rows: the first or the last. -/
def IsBest (first : Bool) (rows : List Nat) (k : Nat) : Prop :=
  k ∈ rows ∧ ∀ r ∈ rows, if first then k ≤ r else r ≤ k

/-- The rows of compact matches. -/
def hitRows (g : Int → Nat) (E : List (Int × Int)) : List Nat := (flatLocs E).map g

/-- What the compact matches of a needle say. -/
def OutIs (mu : MMultiple) (m : Nat) (g : Int → Nat) (E : List (Int × Int)) (o : Outcome) : Prop :=
  (E = [(-1, 1)] ∧ o = .incomplete) ∨ (E = [(naInt, 1)] ∧ o = .unmatched) ∨
  (E ≠ [] ∧ (∀ x ∈ E, 0 ≤ x.1 ∧ 1 ≤ x.2 ∧ x.1 + x.2 ≤ m) ∧ ∃ R, o = .rows R ∧
    (mu = .first → ∃ k, R = [k] ∧ IsBest true (hitRows g E) k) ∧
    (mu = .last → ∃ k, R = [k] ∧ IsBest false (hitRows g E) k) ∧
    (mu ≠ .first → mu ≠ .last → R = hitRows g E))

/-- What is written for a needle. -/
def pairsAt (incomplete : MIncomplete) (noMatch : MUnmatched) (i : Nat) (o : Outcome) :
    List (Int × Int) :=
  (o.values incomplete noMatch).map (fun v => ((i : Int) + 1, v))

/-- The errors of a needle. -/
def NeedleFails (e : XEnv) (done : List Nat) (o : Outcome) : Prop :=
  (e.incomplete = .error ∧ o = .incomplete) ∨ (e.noMatch = .error ∧ o = .unmatched) ∨
  ((e.multiple = .error ∨ e.relationship = .oneToOne ∨ e.relationship = .manyToOne) ∧
    1 < o.found.length) ∨
  ((e.relationship = .oneToOne ∨ e.relationship = .oneToMany) ∧ ¬ (done ++ o.found).Nodup)

/-- The needle before. -/
def PrevOk (i : Nat) (p : Int) : Prop := p = naInt ∨ ∃ j : Nat, j < i ∧ p = j

theorem PrevOk.ne {i : Nat} {p : Int} (h : PrevOk i p) : (i : Int) ≠ p := by
  rcases h with rfl | ⟨j, hj, rfl⟩
  · unfold naInt; omega
  · omega

theorem PrevOk.next {i : Nat} {p : Int} (h : PrevOk i p ∨ p = i) : PrevOk (i + 1) p := by
  rcases h with (rfl | ⟨j, hj, rfl⟩) | rfl
  · exact .inl rfl
  · exact .inr ⟨j, by omega, rfl⟩
  · exact .inr ⟨i, by omega, rfl⟩

theorem hitRows_append {g : Int → Nat} {E F : List (Int × Int)} :
    hitRows g (E ++ F) = hitRows g E ++ hitRows g F := by
  unfold hitRows
  rw [flatLocs_append, List.map_append]

theorem hitRows_one {g : Int → Nat} {x : Int × Int} :
    hitRows g [x] = (List.range x.2.toNat).map (fun (q : Nat) => g (x.1 + (q : Int))) := by
  unfold hitRows flatLocs
  rw [List.flatMap_singleton, List.map_map]
  rfl

theorem take_succ_of_get {α : Type} {l : List α} {j : Nat} {x : α} (h : l[j]? = some x) :
    l.take (j + 1) = l.take j ++ [x] := by
  rw [List.take_add_one, h]
  rfl

theorem hitRows_pos {g : Int → Nat} {E : List (Int × Int)} (h : E ≠ [])
    (hE : ∀ x ∈ E, 1 ≤ x.2) : 0 < (hitRows g E).length := by
  cases E with
  | nil => exact absurd rfl h
  | cons x r =>
    have := hE x List.mem_cons_self
    rw [show x :: r = [x] ++ r from rfl, hitRows_append, hitRows_one]
    simp only [List.length_append, List.length_map, List.length_range]
    omega

theorem roundBody_hit {e : XEnv} {N t : Nat} {i : Int} {x : Int × Int} {s : XState} (hx : 0 ≤ x.1)
    (hf : expandFiltered e x.1 i = .ok true) :
    roundBody e N t i x s = (do
      let s ← expandCheckNeedles e x.2 i s
      match e.multiple with
      | .first => expandFirstLast e true N t x.1 x.2 i s
      | .last => expandFirstLast e false N t x.1 x.2 i s
      | _ => forN x.2.toNat (expandMatch e x.1 i) s) := by
  unfold roundBody
  rw [if_neg (by unfold signalIncomplete; omega), if_neg (by unfold naInt; omega), hf, ok_bind,
    if_pos rfl]

theorem nodup_mono {done a b : List Nat} (h : a <+: b) (hn : ¬ (done ++ a).Nodup) :
    ¬ (done ++ b).Nodup :=
  fun h' => hn (h'.sublist ((List.Sublist.refl done).append h.sublist))

theorem pairs_snoc (i : Nat) (pre : List (Int × Int)) (R : List Nat) (r : Nat) :
    pre ++ R.map (fun (r : Nat) => ((i : Int) + 1, (r : Int) + 1)) ++ [((i : Int) + 1, (r : Int) + 1)] =
      pre ++ (R ++ [r]).map (fun (r : Nat) => ((i : Int) + 1, (r : Int) + 1)) := by
  simp

/-- The rows of one compact match. -/
theorem matches_ok {e : XEnv} {cap m : Nat} {pre : List (Int × Int)} {done R : List Nat}
    {many : Bool} {s : XState} {i : Nat} {g : Int → Nat} {x : Int × Int}
    (h : XInv e cap m (pre ++ R.map (fun (r : Nat) => ((i : Int) + 1, (r : Int) + 1))) (done ++ R)
      many s)
    (ho : ∀ k : Int, 0 ≤ k → k < m → rdI e.oHaystack k = .ok ((g k : Int) + 1) ∧ g k < m)
    (hx : 0 ≤ x.1 ∧ x.1 + x.2 ≤ m)
    (hc : pre.length + (R ++ hitRows g [x]).length ≤ cap) :
    RetOr (forN x.2.toNat (expandMatch e x.1 i) s) (fun s' =>
        XInv e cap m (pre ++ (R ++ hitRows g [x]).map (fun (r : Nat) => ((i : Int) + 1, (r : Int) + 1)))
          (done ++ (R ++ hitRows g [x])) many s' ∧ s'.previous = s.previous ∧ s'.overall = s.overall)
      (Fails ((e.relationship = .oneToOne ∨ e.relationship = .oneToMany) ∧
        ¬ (done ++ (R ++ hitRows g [x])).Nodup)) := by
  rw [hitRows_one] at hc ⊢
  have new : ∀ q, (List.range (q + 1)).map (fun (q : Nat) => g (x.1 + (q : Int))) =
      (List.range q).map (fun (q : Nat) => g (x.1 + (q : Int))) ++ [g (x.1 + (q : Int))] := by
    intro q
    rw [List.range_succ, List.map_append]
    rfl
  refine RetOr.forN (fun q s' => XInv e cap m (pre ++ (R ++ (List.range q).map
      (fun (q : Nat) => g (x.1 + (q : Int)))).map (fun (r : Nat) => ((i : Int) + 1, (r : Int) + 1)))
      (done ++ (R ++ (List.range q).map (fun (q : Nat) => g (x.1 + (q : Int))))) many s' ∧
      s'.previous = s.previous ∧ s'.overall = s.overall) ?_ ?_
  · simp only [List.range_zero, List.map_nil, List.append_nil]
    exact ⟨h, trivial, trivial⟩
  · rintro q s' hq ⟨h1, h2, h3⟩
    obtain ⟨o1, o2⟩ := ho (x.1 + q) (by omega) (by omega)
    refine ((expandMatch_ok h1 ?_ o2 o1).weaken ?_).mono ?_
    · simp only [List.length_append, List.length_map, List.length_range] at hc ⊢
      omega
    · rintro ⟨a, b⟩
      refine ⟨a, nodup_mono (a := R ++ (List.range (q + 1)).map (fun (q : Nat) => g (x.1 + (q : Int)))) ?_ ?_⟩
      · rw [List.prefix_append_right_inj]
        refine List.IsPrefix.map _ ?_
        exact ⟨(List.range' (q + 1) (x.2.toNat - (q + 1))), by
          rw [List.range_eq_range', List.range_eq_range', show x.2.toNat = (q + 1) + (x.2.toNat - (q + 1)) by omega]
          simp [← List.range'_append]⟩
      · rw [new, ← List.append_assoc, ← List.append_assoc]
        rw [← List.append_assoc] at b
        exact b
    · rintro s'' ⟨a, b, c⟩
      refine ⟨?_, b.trans h2, c.trans h3⟩
      rw [new, ← List.append_assoc R, ← pairs_snoc, ← List.append_assoc done]
      exact a

/-- All compact matches of a needle, without `multiple = "first"` or `"last"`. -/
theorem needleAll_ok {e : XEnv} {cap m N off : Nat} {pre : List (Int × Int)} {done : List Nat}
    {many : Bool} {s : XState} {i : Nat} {g : Int → Nat} {E : List (Int × Int)}
    (hm1 : e.multiple ≠ .first) (hm2 : e.multiple ≠ .last)
    (h : XInv e cap m pre done many s)
    (hp : PrevOk i s.previous) (hov : s.overall = naInt)
    (ho : ∀ k : Int, 0 ≤ k → k < m → rdI e.oHaystack k = .ok ((g k : Int) + 1) ∧ g k < m)
    (hE : ∀ x ∈ E, 0 ≤ x.1 ∧ 1 ≤ x.2 ∧ x.1 + x.2 ≤ m)
    (hread : ∀ (j : Nat) (x : Int × Int) (s : XState), E[j]? = some x →
      expandRound e N (off + j) s = roundBody e N (off + j) i x s ∧ expandFiltered e x.1 i = .ok true)
    (hc : pre.length + (hitRows g E).length ≤ cap) :
    RetOr (forFrom (expandRound e N) off E.length s) (fun s' =>
        XInv e cap m (pre ++ (hitRows g E).map (fun (r : Nat) => ((i : Int) + 1, (r : Int) + 1)))
          (done ++ hitRows g E)
          (many || (checksNeedles e.multiple && decide (1 < (hitRows g E).length))) s' ∧
        PrevOk (i + 1) s'.previous ∧ s'.overall = naInt)
      (Fails (((e.multiple = .error ∨ e.relationship = .oneToOne ∨ e.relationship = .manyToOne) ∧
          1 < (hitRows g E).length) ∨
        ((e.relationship = .oneToOne ∨ e.relationship = .oneToMany) ∧
          ¬ (done ++ hitRows g E).Nodup))) := by
  let rows : Nat → List Nat := fun j => hitRows g (E.take j)
  have hrow1 : ∀ j x, E[j]? = some x → rows (j + 1) = rows j ++ hitRows g [x] := by
    intro j x hx
    show hitRows g (E.take (j + 1)) = _
    rw [take_succ_of_get hx, hitRows_append]
  have hpre : ∀ j, rows j <+: hitRows g E := by
    intro j
    refine ⟨hitRows g (E.drop j), ?_⟩
    show hitRows g (E.take j) ++ _ = _
    rw [← hitRows_append, List.take_append_drop]
  have hpos : ∀ j, 0 < j → j ≤ E.length → 0 < (rows j).length := by
    intro j h1 h2
    refine hitRows_pos ?_ fun x hx => (hE x (List.mem_of_mem_take hx)).2.1
    intro h'
    have := congrArg List.length h'
    rw [List.length_take, List.length_nil] at this
    omega
  refine (RetOr.forFrom (fun t s' => ∃ j, t = off + j ∧
    XInv e cap m (pre ++ (rows j).map (fun (r : Nat) => ((i : Int) + 1, (r : Int) + 1)))
      (done ++ rows j) (many || (checksNeedles e.multiple && decide (1 < (rows j).length))) s' ∧
    s'.overall = naInt ∧ (j = 0 → PrevOk i s'.previous) ∧
    (checksNeedles e.multiple = true → 0 < j →
      (many || (checksNeedles e.multiple && decide (1 < (rows j).length))) = true ∨
      s'.previous = i) ∧ (PrevOk i s'.previous ∨ s'.previous = i)) _ _ s ?_ ?_).mono ?_
  · refine ⟨0, rfl, ?_, hov, fun _ => hp, fun _ h => absurd h (Nat.lt_irrefl _), .inl hp⟩
    show XInv e cap m (pre ++ (hitRows g (E.take 0)).map _) (done ++ hitRows g (E.take 0)) (many ||
      (_ && decide (1 < (hitRows g (E.take 0)).length))) s
    have h0 : hitRows g (E.take 0) = [] := rfl
    rw [h0, List.map_nil, List.append_nil, List.append_nil, decide_eq_false (by simp), Bool.and_false,
      Bool.or_false]
    exact h
  · rintro t s' ht1 ht2 ⟨j, rfl, h1, h2, h3, h4, h5⟩
    have hj : j < E.length := by omega
    have hx : E[j]? = some E[j] := List.getElem?_eq_getElem hj
    obtain ⟨r1, r2⟩ := hread j E[j] s' hx
    have hxE := hE _ (List.getElem_mem hj)
    have hlen : (rows (j + 1)).length = (rows j).length + E[j].2.toNat := by
      rw [hrow1 j _ hx, hitRows_one]
      simp
    have hle := (hpre (j + 1)).length_le
    have bigger : E[j].2 > 1 ∨ (i : Int) = s'.previous → 1 < (rows (j + 1)).length := by
      rintro (h | h)
      · omega
      · rcases Nat.eq_zero_or_pos j with e0 | e0
        · exact absurd h (h3 e0).ne
        · have := hpos j e0 (by omega)
          omega
    have many' : ((many || (checksNeedles e.multiple && decide (1 < (rows j).length))) ||
        (checksNeedles e.multiple && decide (E[j].2 > 1 ∨ (i : Int) = s'.previous))) =
        (many || (checksNeedles e.multiple && decide (1 < (rows (j + 1)).length))) := by
      cases hch : checksNeedles e.multiple with
      | false => simp
      | true =>
        rw [hch] at h4
        simp only [Bool.true_and] at h4 ⊢
        cases many with
        | true => simp
        | false =>
          simp only [Bool.false_or] at h4 ⊢
          rw [← Bool.decide_or]
          apply decide_eq_decide.2
          constructor
          · rintro (h | h)
            · omega
            · exact bigger h
          · intro h
            rcases Nat.eq_zero_or_pos j with e0 | e0
            · have hz : (rows j).length = 0 := by rw [e0]; rfl
              exact .inr (.inl (by omega))
            · rcases h4 trivial e0 with h' | h'
              · exact .inl (of_decide_eq_true h')
              · exact .inr (.inr h'.symm)
    rw [r1, roundBody_hit hxE.1 r2]
    refine RetOr.bind ((expandCheckNeedles_ok h1).weaken ?_) ?_
    · rintro ⟨a, _, b⟩
      exact .inl ⟨a, by have := bigger b; omega⟩
    · rintro s2 ⟨a1, a2, a3, a4, a5⟩
      rw [many'] at a1
      have body : (match e.multiple with
          | .first => expandFirstLast e true N (off + j) E[j].1 E[j].2 i s2
          | .last => expandFirstLast e false N (off + j) E[j].1 E[j].2 i s2
          | _ => forN E[j].2.toNat (expandMatch e E[j].1 i) s2) =
          forN E[j].2.toNat (expandMatch e E[j].1 i) s2 := by
        cases hmu : e.multiple with
        | first => exact absurd hmu hm1
        | last => exact absurd hmu hm2
        | _ => rfl
      rw [body]
      have hcap : pre.length + (rows j ++ hitRows g [E[j]]).length ≤ cap := by
        rw [← hrow1 j _ hx]
        omega
      refine ((matches_ok a1 ho ⟨hxE.1, hxE.2.2⟩ hcap).weaken ?_).mono ?_
      · rintro ⟨a, b⟩
        rw [← hrow1 j _ hx] at b
        exact .inr ⟨a, nodup_mono (hpre _) b⟩
      · rintro s3 ⟨b1, b2, b3⟩
        rw [← hrow1 j _ hx] at b1
        refine ⟨j + 1, rfl, b1, b3.trans (a2.trans h2), fun h => (by omega), fun hch _ => ?_, ?_⟩
        · rw [b2]
          rcases a4 hch with h | h | h
          · left
            rw [← many', h]
            simp
          · left
            rw [hch, decide_eq_true (bigger (.inl h))]
            simp
          · exact .inr h
        · rw [b2]
          rcases a5 with h | h
          · rw [h]
            exact h5
          · exact .inr h
  · rintro s' ⟨j, hj, h1, h2, h3, h4, h5⟩
    have : j = E.length := by omega
    subst this
    have hr : rows E.length = hitRows g E := by
      show hitRows g (E.take E.length) = _
      rw [List.take_length]
    rw [hr] at h1
    exact ⟨h1, PrevOk.next h5, h2⟩

/-- The first or the last of the rows of a compact match. -/
theorem overall_ok {e : XEnv} {m : Nat} {isFirst : Bool} {R : List Nat} {g : Int → Nat}
    {x : Int × Int} {overall : Int}
    (ho : ∀ k : Int, 0 ≤ k → k < m → rdI e.oHaystack k = .ok ((g k : Int) + 1) ∧ g k < m)
    (hx : 0 ≤ x.1 ∧ 1 ≤ x.2 ∧ x.1 + x.2 ≤ m)
    (hov : (R = [] ∧ overall = naInt) ∨ ∃ k : Nat, overall = k ∧ IsBest isFirst R k) :
    Ret (do
      let overall ← (if overall = naInt then do
          let k ← rdI e.oHaystack x.1
          .ok (k - 1)
        else .ok overall : C Int)
      forN x.2.toNat (expandOverall e isFirst x.1) overall)
      (fun v => ∃ k : Nat, v = k ∧ IsBest isFirst (R ++ hitRows g [x]) k) := by
  rw [hitRows_one]
  obtain ⟨k0, s1, s2, s3⟩ : ∃ k0 : Nat, (if overall = naInt then do
          let k ← rdI e.oHaystack x.1
          .ok (k - 1)
        else .ok overall : C Int) = .ok (k0 : Int) ∧
      k0 ∈ R ++ [g x.1] ∧ ∀ r ∈ R, if isFirst then k0 ≤ r else r ≤ k0 := by
    rcases hov with ⟨rfl, rfl⟩ | ⟨k, rfl, h1, h2⟩
    · rw [if_pos rfl, (ho x.1 hx.1 (by omega)).1, ok_bind, nat_succ_pred]
      exact ⟨_, rfl, by simp, fun r h => (by simp at h)⟩
    · rw [if_neg (by unfold naInt; omega)]
      exact ⟨k, rfl, List.mem_append_left _ h1, h2⟩
  rw [s1, ok_bind]
  refine (Ret.forN (fun q v => ∃ k : Nat, v = (k : Int) ∧
    k ∈ R ++ (List.range (max q 1)).map (fun (q : Nat) => g (x.1 + (q : Int))) ∧
    ∀ r ∈ R ++ (List.range q).map (fun (q : Nat) => g (x.1 + (q : Int))),
      if isFirst then k ≤ r else r ≤ k) ?_ ?_).mono ?_
  · refine ⟨k0, rfl, ?_, ?_⟩
    · simpa using s2
    · simpa using s3
  · rintro q v hq ⟨k, rfl, h1, h2⟩
    unfold expandOverall
    rw [(ho (x.1 + q) (by omega) (by omega)).1, ok_bind]
    dsimp only
    rw [nat_succ_pred]
    have new : (List.range (q + 1)).map (fun (q : Nat) => g (x.1 + (q : Int))) =
        (List.range q).map (fun (q : Nat) => g (x.1 + (q : Int))) ++ [g (x.1 + (q : Int))] := by
      rw [List.range_succ, List.map_append]
      rfl
    have hmx : max (q + 1) 1 = q + 1 := by omega
    have keep : k ∈ R ++ (List.range (q + 1)).map (fun (q : Nat) => g (x.1 + (q : Int))) := by
      rw [List.mem_append] at h1 ⊢
      rcases h1 with h1 | h1
      · exact .inl h1
      · right
        rw [List.mem_map] at h1 ⊢
        obtain ⟨p, p1, p2⟩ := h1
        rw [List.mem_range] at p1
        exact ⟨p, List.mem_range.2 (by omega), p2⟩
    have here : g (x.1 + (q : Int)) ∈ R ++ (List.range (q + 1)).map (fun (q : Nat) => g (x.1 + (q : Int))) := by
      rw [new]
      simp
    have all : ∀ k' : Nat, (if isFirst then k' ≤ k ∧ k' ≤ g (x.1 + (q : Int)) else k ≤ k' ∧ g (x.1 + (q : Int)) ≤ k') →
        ∀ r ∈ R ++ (List.range (q + 1)).map (fun (q : Nat) => g (x.1 + (q : Int))),
          if isFirst then k' ≤ r else r ≤ k' := by
      intro k' hk r hr
      rw [new, ← List.append_assoc, List.mem_append] at hr
      rcases hr with hr | hr
      · have := h2 r hr
        cases isFirst <;> simp only [Bool.false_eq_true, if_false, if_true] at hk this ⊢ <;> omega
      · rw [List.mem_singleton] at hr
        subst hr
        cases isFirst <;> simp only [Bool.false_eq_true, if_false, if_true] at hk ⊢ <;> omega
    rw [hmx]
    cases isFirst with
    | true =>
      rw [if_pos rfl]
      by_cases hlt : (k : Int) > (g (x.1 + (q : Int)) : Int)
      · rw [if_pos hlt]
        exact Ret.ok ⟨_, rfl, here, all _ (by simp only [if_true]; omega)⟩
      · rw [if_neg hlt]
        exact Ret.ok ⟨_, rfl, keep, all _ (by simp only [if_true]; omega)⟩
    | false =>
      rw [if_neg (by simp)]
      by_cases hlt : (k : Int) < (g (x.1 + (q : Int)) : Int)
      · rw [if_pos hlt]
        exact Ret.ok ⟨_, rfl, here, all _ (by simp only [Bool.false_eq_true, if_false]; omega)⟩
      · rw [if_neg hlt]
        exact Ret.ok ⟨_, rfl, keep, all _ (by simp only [Bool.false_eq_true, if_false]; omega)⟩
  · rintro v ⟨k, rfl, h1, h2⟩
    have : max x.2.toNat 1 = x.2.toNat := by omega
    rw [this] at h1
    exact ⟨k, rfl, h1, h2⟩

/-- One compact match, with `multiple = "first"` or `"last"`. -/
theorem firstLast_ok {e : XEnv} {cap m N t : Nat} {pre : List (Int × Int)} {done R : List Nat}
    {many : Bool} {s : XState} {i : Nat} {g : Int → Nat} {x : Int × Int} {isFirst last : Bool}
    (hm : e.multiple = .first ∨ e.multiple = .last) (hskip : e.skip = false)
    (h : XInv e cap m pre done many s)
    (hov : (R = [] ∧ s.overall = naInt) ∨ ∃ k : Nat, s.overall = k ∧ IsBest isFirst R k)
    (ho : ∀ k : Int, 0 ≤ k → k < m → rdI e.oHaystack k = .ok ((g k : Int) + 1) ∧ g k < m)
    (hx : 0 ≤ x.1 ∧ 1 ≤ x.2 ∧ x.1 + x.2 ≤ m) (hR : ∀ r ∈ R, r < m)
    (hend : (if t = N - 1 then .ok true
      else do
        let k ← rd e.oLocs (t + 1)
        let next ← rdI e.locs (k - 1)
        .ok (decide ((i : Int) ≠ next)) : C Bool) = .ok last)
    (hc : pre.length < cap) :
    RetOr (expandFirstLast e isFirst N t x.1 x.2 i s) (fun s' =>
        ∃ k : Nat, IsBest isFirst (R ++ hitRows g [x]) k ∧ s'.previous = s.previous ∧
          if last then XInv e cap m (pre ++ [((i : Int) + 1, (k : Int) + 1)]) (done ++ [k]) many s' ∧
            s'.overall = naInt
          else XInv e cap m pre done many s' ∧ s'.overall = k)
      (Fails ((e.relationship = .oneToOne ∨ e.relationship = .oneToMany) ∧ last = true ∧
        ∃ k : Nat, IsBest isFirst (R ++ hitRows g [x]) k ∧ ¬ (done ++ [k]).Nodup)) := by
  unfold expandFirstLast
  rw [if_neg (by rw [hskip]; simp)]
  obtain ⟨v, v1, k, rfl, v2⟩ := overall_ok (isFirst := isFirst) ho hx hov
  rw [← bind_assoc, v1, ok_bind]
  dsimp only
  rw [hend, ok_bind]
  cases last with
  | false =>
    rw [if_neg (by simp)]
    exact RetOr.ok ⟨k, v2, rfl, ⟨⟨h.out.n, h.out.h, h.out.loc⟩, ⟨h.track.retain, h.track.det,
      h.track.check, h.track.track, h.track.any, h.track.rel⟩, h.anyNeedles, h.checkNeedles, h.fine,
      h.warned⟩, rfl⟩
  | true =>
    rw [if_pos rfl]
    have hk : k < m := by
      have := v2.1
      rw [List.mem_append] at this
      rcases this with h' | h'
      · exact hR _ h'
      · rw [hitRows_one, List.mem_map] at h'
        obtain ⟨q, q1, rfl⟩ := h'
        rw [List.mem_range] at q1
        exact (ho _ (by omega) (by omega)).2
    have h' : XInv e cap m pre done many { s with overall := (k : Int) } :=
      ⟨⟨h.out.n, h.out.h, h.out.loc⟩, ⟨h.track.retain, h.track.det,
      h.track.check, h.track.track, h.track.any, h.track.rel⟩, h.anyNeedles, h.checkNeedles, h.fine,
      h.warned⟩
    refine ((emit_track_ok h' hc (warns := false) ?_ hk ((i : Int) + 1) ((k : Int) + 1)
      (fun s => { s with locOut := s.locOut + 1, overall := naInt })
      (fun s => ⟨rfl, rfl, rfl, rfl, rfl, rfl, rfl, rfl, rfl, rfl, rfl⟩)).weaken ?_).mono ?_
    · rintro - hre
      rw [hre]
      rcases hm with hm | hm <;> rw [hm] <;> rfl
    · rintro ⟨a, b⟩
      exact ⟨a, rfl, k, v2, b⟩
    · rintro s' ⟨h1, h2, s0, h3, rfl⟩
      exact ⟨k, v2, h2, h1, rfl⟩

theorem isBest_unique {f : Bool} {R : List Nat} {k k' : Nat} (h : IsBest f R k) (h' : IsBest f R k') :
    k = k' := by
  have a := h.2 _ h'.1
  have b := h'.2 _ h.1
  cases f <;> simp only [Bool.false_eq_true, if_false, if_true] at a b <;> omega

/-- All compact matches of a needle, with `multiple = "first"` or `"last"`. -/
theorem needleBest_ok {e : XEnv} {cap m N off : Nat} {pre : List (Int × Int)} {done : List Nat}
    {many : Bool} {s : XState} {i : Nat} {g : Int → Nat} {E : List (Int × Int)} {isFirst : Bool}
    (hm : e.multiple = if isFirst then .first else .last) (hskip : e.skip = false)
    (h : XInv e cap m pre done many s)
    (hp : PrevOk i s.previous) (hov : s.overall = naInt)
    (ho : ∀ k : Int, 0 ≤ k → k < m → rdI e.oHaystack k = .ok ((g k : Int) + 1) ∧ g k < m)
    (hE0 : E ≠ [])
    (hE : ∀ x ∈ E, 0 ≤ x.1 ∧ 1 ≤ x.2 ∧ x.1 + x.2 ≤ m)
    (hread : ∀ (j : Nat) (x : Int × Int) (s : XState), E[j]? = some x →
      expandRound e N (off + j) s = roundBody e N (off + j) i x s ∧ expandFiltered e x.1 i = .ok true)
    (hend : ∀ j, j < E.length → (if off + j = N - 1 then .ok true
      else do
        let k ← rd e.oLocs (off + j + 1)
        let next ← rdI e.locs (k - 1)
        .ok (decide ((i : Int) ≠ next)) : C Bool) = .ok (decide (j + 1 = E.length)))
    {k : Nat} (hk : IsBest isFirst (hitRows g E) k)
    (hc : pre.length < cap) :
    RetOr (forFrom (expandRound e N) off E.length s) (fun s' =>
        XInv e cap m (pre ++ [((i : Int) + 1, (k : Int) + 1)]) (done ++ [k]) many s' ∧
        PrevOk (i + 1) s'.previous ∧ s'.overall = naInt)
      (Fails ((e.relationship = .oneToOne ∨ e.relationship = .oneToMany) ∧
          ¬ (done ++ [k]).Nodup)) := by
  have hch : checksNeedles e.multiple = false := by
    rw [hm]
    cases isFirst <;> rfl
  have hm' : e.multiple = .first ∨ e.multiple = .last := by
    rw [hm]
    cases isFirst
    · exact .inr rfl
    · exact .inl rfl
  have hlen : 0 < E.length := List.length_pos_of_ne_nil hE0
  have hrow1 : ∀ j x, E[j]? = some x → hitRows g (E.take (j + 1)) = hitRows g (E.take j) ++ hitRows g [x] := by
    intro j x hx
    rw [take_succ_of_get hx, hitRows_append]
  refine (RetOr.forFrom (fun t s' => ∃ j, t = off + j ∧ s'.previous = s.previous ∧
    (j < E.length → XInv e cap m pre done many s' ∧
      ((hitRows g (E.take j) = [] ∧ s'.overall = naInt) ∨
        ∃ k : Nat, s'.overall = k ∧ IsBest isFirst (hitRows g (E.take j)) k)) ∧
    (j = E.length → XInv e cap m (pre ++ [((i : Int) + 1, (k : Int) + 1)]) (done ++ [k]) many s' ∧
      s'.overall = naInt)) _ _ s ?_ ?_).mono ?_
  · exact ⟨0, rfl, rfl, fun _ => ⟨h, .inl ⟨rfl, hov⟩⟩, fun h => by omega⟩
  · rintro t s' ht1 ht2 ⟨j, rfl, h1, h2, h3⟩
    have hj : j < E.length := by omega
    obtain ⟨h4, h5⟩ := h2 hj
    have hx : E[j]? = some E[j] := List.getElem?_eq_getElem hj
    obtain ⟨r1, r2⟩ := hread j E[j] s' hx
    have hxE := hE _ (List.getElem_mem hj)
    have hck : expandCheckNeedles e E[j].2 i s' = .ok s' := by
      unfold expandCheckNeedles
      rw [if_neg (by rw [h4.checkNeedles, hch]; simp)]
    have body : (match e.multiple with
          | .first => expandFirstLast e true N (off + j) E[j].1 E[j].2 i s'
          | .last => expandFirstLast e false N (off + j) E[j].1 E[j].2 i s'
          | _ => forN E[j].2.toNat (expandMatch e E[j].1 i) s') =
          expandFirstLast e isFirst N (off + j) E[j].1 E[j].2 i s' := by
      rw [hm]
      cases isFirst <;> rfl
    rw [r1, roundBody_hit hxE.1 r2, hck, ok_bind, body]
    have hR : ∀ r ∈ hitRows g (E.take j), r < m := by
      intro r hr
      unfold hitRows at hr
      rw [List.mem_map] at hr
      obtain ⟨q, q1, rfl⟩ := hr
      obtain ⟨y, y1, y2, y3⟩ := mem_flatLocs.1 q1
      have := hE y (List.mem_of_mem_take y1)
      exact (ho q (by omega) (by omega)).2
    have full : ∀ k', decide (j + 1 = E.length) = true →
        IsBest isFirst (hitRows g (E.take j) ++ hitRows g [E[j]]) k' → k' = k := by
      intro k' hd hb
      rw [← hrow1 j _ hx, of_decide_eq_true hd, List.take_length] at hb
      exact isBest_unique hb hk
    refine ((firstLast_ok hm' hskip h4 h5 ho hxE hR (hend j hj) hc).weaken ?_).mono ?_
    · rintro ⟨a, b, k', c, d⟩
      rw [full k' b c] at d
      exact ⟨a, d⟩
    · rintro s'' ⟨k', c, d, f⟩
      refine ⟨j + 1, rfl, d.trans h1, fun hlt => ?_, fun heq => ?_⟩
      · rw [if_neg (by simp; omega)] at f
        refine ⟨f.1, .inr ⟨k', f.2, ?_⟩⟩
        rw [hrow1 j _ hx]
        exact c
      · rw [if_pos (by simp [heq]), full k' (by simp [heq]) c] at f
        exact f
  · rintro s' ⟨j, hj, h1, h2, h3⟩
    obtain ⟨a, b⟩ := h3 (by omega)
    exact ⟨a, PrevOk.next (.inl (h1 ▸ hp)), b⟩

theorem values_incomplete (inc : MIncomplete) (nm : MUnmatched) :
    (Outcome.incomplete.values inc nm).length ≤ 1 := by
  cases inc <;> simp [Outcome.values]

theorem values_unmatched (inc : MIncomplete) (nm : MUnmatched) :
    (Outcome.unmatched.values inc nm).length ≤ 1 := by
  cases nm <;> simp [Outcome.values]

/-- All compact matches of a needle. -/
theorem needle_ok {e : XEnv} {cap m N off : Nat} {pre : List (Int × Int)} {done : List Nat}
    {many : Bool} {s : XState} {i : Nat} {g : Int → Nat} {E : List (Int × Int)} {o : Outcome}
    (hskip : e.skip = true → e.multiple = .any)
    (hinc : e.incomplete ≠ .compare ∧ e.incomplete ≠ .exact ∨ o ≠ .incomplete)
    (h : XInv e cap m pre done many s)
    (hp : PrevOk i s.previous) (hov : s.overall = naInt)
    (ho : ∀ k : Int, 0 ≤ k → k < m → rdI e.oHaystack k = .ok ((g k : Int) + 1) ∧ g k < m)
    (hE : OutIs e.multiple m g E o)
    (hread : ∀ (j : Nat) (x : Int × Int) (s : XState), E[j]? = some x →
      expandRound e N (off + j) s = roundBody e N (off + j) i x s ∧
        (0 ≤ x.1 → expandFiltered e x.1 i = .ok true))
    (hend : e.skip = false → ∀ j, j < E.length → (if off + j = N - 1 then .ok true
      else do
        let k ← rd e.oLocs (off + j + 1)
        let next ← rdI e.locs (k - 1)
        .ok (decide ((i : Int) ≠ next)) : C Bool) = .ok (decide (j + 1 = E.length)))
    (hc : pre.length + max 1 o.found.length ≤ cap) :
    RetOr (forFrom (expandRound e N) off E.length s) (fun s' =>
        XInv e cap m (pre ++ pairsAt e.incomplete e.noMatch i o) (done ++ o.found)
          (many || (checksNeedles e.multiple && decide (1 < o.found.length))) s' ∧
        PrevOk (i + 1) s'.previous ∧ s'.overall = naInt ∧
        ¬ (e.incomplete = .error ∧ o = .incomplete) ∧ ¬ (e.noMatch = .error ∧ o = .unmatched))
      (Fails (NeedleFails e done o)) := by
  rcases hE with ⟨rfl, rfl⟩ | ⟨rfl, rfl⟩ | ⟨h0, hE, R, rfl, h1, h2, h3⟩
  · have r := (hread 0 (-1, 1) s rfl).1
    rw [Nat.add_zero] at r
    rw [show [((-1 : Int), (1 : Int))].length = 1 from rfl, forFrom, r]
    show RetOr (roundBody e N off i (-1, 1) s >>= fun s => forFrom (expandRound e N) (off + 1) 0 s) _ _
    have z : ∀ s', forFrom (expandRound e N) (off + 1) 0 s' = .ok s' := fun _ => rfl
    unfold roundBody
    rw [if_pos (by decide)]
    unfold expandIncomplete
    rw [if_neg (by simp)]
    simp only [Outcome.found, List.append_nil, List.length_nil, Nat.not_lt_zero, decide_false, Bool.and_false, Bool.or_false] at hc ⊢
    unfold pairsAt Outcome.values
    cases hi : e.incomplete with
    | compare => rcases hinc with h' | h'; exact absurd hi h'.1; exact absurd rfl h'
    | exact => rcases hinc with h' | h'; exact absurd hi h'.2; exact absurd rfl h'
    | error => exact .inr ⟨.abort, rfl, rfl, .inl ⟨hi, rfl⟩⟩
    | drop =>
      dsimp only
      rw [ok_bind, z, List.map_nil, List.append_nil]
      exact RetOr.ok ⟨h, PrevOk.next (.inl hp), hov, by simp, by simp⟩
    | value v =>
      dsimp only
      obtain ⟨s', e1, e2, e3, e4⟩ := expandOut_ok h (by omega) ((i : Int) + 1) v
      rw [e1, ok_bind, z]
      exact RetOr.ok ⟨e2, PrevOk.next (.inl (e3 ▸ hp)), e4.trans hov, by simp, by simp⟩
  · have r := (hread 0 (naInt, 1) s rfl).1
    rw [Nat.add_zero] at r
    rw [show [(naInt, (1 : Int))].length = 1 from rfl, forFrom, r]
    show RetOr (roundBody e N off i (naInt, 1) s >>= fun s => forFrom (expandRound e N) (off + 1) 0 s) _ _
    have z : ∀ s', forFrom (expandRound e N) (off + 1) 0 s' = .ok s' := fun _ => rfl
    unfold roundBody
    rw [if_neg (by decide), if_pos (by rfl)]
    unfold expandNoMatch
    rw [if_neg (by simp)]
    simp only [Outcome.found, List.append_nil, List.length_nil, Nat.not_lt_zero, decide_false, Bool.and_false, Bool.or_false] at hc ⊢
    unfold pairsAt Outcome.values
    cases hi : e.noMatch with
    | error => exact .inr ⟨.abort, rfl, rfl, .inr (.inl ⟨hi, rfl⟩)⟩
    | drop =>
      dsimp only
      rw [ok_bind, z, List.map_nil, List.append_nil]
      exact RetOr.ok ⟨h, PrevOk.next (.inl hp), hov, by simp, by simp⟩
    | value v =>
      dsimp only
      obtain ⟨s', e1, e2, e3, e4⟩ := expandOut_ok h (by omega) ((i : Int) + 1) v
      rw [e1, ok_bind, z]
      exact RetOr.ok ⟨e2, PrevOk.next (.inl (e3 ▸ hp)), e4.trans hov, by simp, by simp⟩
  · have hread' : ∀ (j : Nat) (x : Int × Int) (s : XState), E[j]? = some x →
      expandRound e N (off + j) s = roundBody e N (off + j) i x s ∧ expandFiltered e x.1 i = .ok true :=
      fun j x s hx => ⟨(hread j x s hx).1, (hread j x s hx).2 (hE x (List.mem_of_getElem? hx)).1⟩
    simp only [Outcome.found] at hc ⊢
    have best : ∀ isFirst : Bool, e.multiple = (if isFirst then MMultiple.first else .last) →
        (∃ k, R = [k] ∧ IsBest isFirst (hitRows g E) k) →
        RetOr (forFrom (expandRound e N) off E.length s) (fun s' =>
        XInv e cap m (pre ++ pairsAt e.incomplete e.noMatch i (.rows R)) (done ++ R)
          (many || (checksNeedles e.multiple && decide (1 < R.length))) s' ∧
        PrevOk (i + 1) s'.previous ∧ s'.overall = naInt ∧
        ¬ (e.incomplete = .error ∧ Outcome.rows R = .incomplete) ∧
        ¬ (e.noMatch = .error ∧ Outcome.rows R = .unmatched))
      (Fails (NeedleFails e done (.rows R))) := by
      rintro isFirst hm ⟨k, rfl, hk⟩
      have hs : e.skip = false := by
        cases hs : e.skip with
        | false => rfl
        | true =>
          rw [hskip hs] at hm
          cases isFirst <;> cases hm
      refine ((needleBest_ok hm hs h hp hov ho h0 hE hread' (hend hs) hk (by omega)).weaken ?_).mono ?_
      · rintro ⟨a, b⟩
        exact .inr (.inr (.inr ⟨a, b⟩))
      · rintro s' ⟨a, b, c⟩
        refine ⟨?_, b, c, by simp, by simp⟩
        rw [decide_eq_false (by simp), Bool.and_false, Bool.or_false]
        exact a
    by_cases m1 : e.multiple = .first
    · exact best true m1 (h1 m1)
    by_cases m2 : e.multiple = .last
    · exact best false m2 (h2 m2)
    have hR := h3 m1 m2
    subst hR
    refine ((needleAll_ok m1 m2 h hp hov ho hE hread' (by omega)).weaken ?_).mono ?_
    · rintro (⟨a, b⟩ | ⟨a, b⟩)
      · exact .inr (.inr (.inl ⟨a, b⟩))
      · exact .inr (.inr (.inr ⟨a, b⟩))
    · rintro s' ⟨a, b, c⟩
      refine ⟨?_, b, c, by simp, by simp⟩
      have : pairsAt e.incomplete e.noMatch i (.rows (hitRows g E)) =
          (hitRows g E).map (fun (r : Nat) => ((i : Int) + 1, (r : Int) + 1)) := by
        unfold pairsAt Outcome.values
        rw [List.map_map]
        rfl
      rw [this]
      exact a

end Vctrs
