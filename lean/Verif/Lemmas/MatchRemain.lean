import Verif.Lemmas.MatchLoop

/-!
# The rows of the haystack that are not found
-/

namespace Vctrs

open Spec

/-- The rows before `i` that are not among `done`. -/
def leftOver (done : List Nat) (i : Nat) : List Nat :=
  (List.range i).filter (fun r => decide (r ∉ done))

/-- Their pairs. -/
def leftPairs (remaining : MUnmatched) (done : List Nat) (m : Nat) : List (Int × Int) :=
  match remaining with
  | .value v => (leftOver done m).map (fun (r : Nat) => (v, (r : Int) + 1))
  | _ => []

theorem leftOver_succ (done : List Nat) (i : Nat) :
    leftOver done (i + 1) = leftOver done i ++ if i ∈ done then [] else [i] := by
  unfold leftOver
  rw [List.range_succ, List.filter_append]
  by_cases h : i ∈ done <;> simp [h]

theorem leftOver_length_mono {done : List Nat} {i j : Nat} (h : i ≤ j) :
    (leftOver done i).length ≤ (leftOver done j).length := by
  induction h with
  | refl => exact Nat.le_refl _
  | step _ ih => rw [leftOver_succ, List.length_append]; omega

theorem rd_done {done : List Nat} {m i : Nat} (hi : i < m) :
    rd ((List.range m).map (fun r => decide (r ∈ done))) i = .ok (decide (i ∈ done)) := by
  apply rd_of_getElem?
  rw [List.getElem?_map, List.getElem?_range hi]
  rfl

theorem expandRemaining_ok {remaining : MUnmatched} {detected : List Bool} {m : Nat}
    {done : List Nat} {P : List (Int × Int)}
    (hdet : remaining ≠ .drop → detected = (List.range m).map (fun r => decide (r ∈ done))) :
    RetOr (expandRemaining remaining detected (P.map (·.1)) (P.map (·.2))) (fun r =>
        r = ((P ++ leftPairs remaining done m).map (·.1), (P ++ leftPairs remaining done m).map (·.2)) ∧
        ¬ (remaining = .error ∧ ∃ r, r < m ∧ r ∉ done))
      (Fails (remaining = .error ∧ ∃ r, r < m ∧ r ∉ done)) := by
  unfold expandRemaining leftPairs
  cases remaining with
  | drop =>
    dsimp only
    rw [List.append_nil]
    exact RetOr.ok ⟨rfl, fun h => by cases h.1⟩
  | error =>
    dsimp only
    rw [hdet (by simp), List.append_nil, List.length_map, List.length_range]
    refine RetOr.bind (P := fun _ => ∀ r, r < m → r ∈ done) ?_ ?_
    · refine RetOr.forN (fun i _ => ∀ r, r < i → r ∈ done) (fun r hr => by omega) ?_
      intro i _ hi h
      rw [rd_done hi, ok_bind]
      by_cases hd : i ∈ done
      · rw [if_pos (by simpa using hd)]
        refine RetOr.ok fun r hr => ?_
        rcases Nat.lt_or_ge r i with h' | h'
        · exact h r h'
        · have : r = i := by omega
          exact this ▸ hd
      · rw [if_neg (by simpa using hd)]
        exact RetOr.abort ⟨rfl, i, hi, hd⟩
    · intro _ h
      exact RetOr.ok ⟨rfl, fun ⟨_, r, hr, h'⟩ => h' (h r hr)⟩
  | value v =>
    dsimp only
    rw [hdet (by simp), List.length_map, List.length_range]
    have hcount : forN m (fun i n => do
        if ← rd ((List.range m).map (fun r => decide (r ∈ done))) i then .ok n else .ok (n + 1)) 0 =
        (.ok (leftOver done m).length : C Nat) := by
      obtain ⟨c, h1, h2⟩ := Ret.forN (f := fun i n => (do
        if ← rd ((List.range m).map (fun r => decide (r ∈ done))) i then .ok n else .ok (n + 1) : C Nat))
        (n := m) (s := 0) (fun i c => c = (leftOver done i).length) rfl (by
          rintro i c hi rfl
          rw [rd_done hi, ok_bind, leftOver_succ]
          by_cases hd : i ∈ done
          · rw [if_pos (by simpa using hd), if_pos hd]
            exact Ret.ok (by simp)
          · rw [if_neg (by simpa using hd), if_neg hd]
            exact Ret.ok (by simp))
      rw [h1, h2]
    rw [hcount, ok_bind]
    have nerr : ¬ (MUnmatched.value v = .error ∧ ∃ r, r < m ∧ r ∉ done) := fun h => by cases h.1
    by_cases hpos : (leftOver done m).length > 0
    · rw [if_pos hpos]
      have hns : forFrom (fun i ns => wr ns i (some v)) (P.map (·.1)).length (leftOver done m).length
          ((P.map (·.1)).map some ++ alloc Int (leftOver done m).length) =
          .ok ((P.map (·.1) ++ List.replicate (leftOver done m).length v).map some) := by
        obtain ⟨w, h1, q, h2, h3⟩ := Ret.forFrom (f := fun i ns => wr ns i (some v))
          (fun t ns => ∃ q, t = (P.map (·.1)).length + q ∧
            ns = (P.map (·.1) ++ List.replicate q v).map some ++ alloc Int ((leftOver done m).length - q))
          (r := (leftOver done m).length) (i := (P.map (·.1)).length)
          (s := (P.map (·.1)).map some ++ alloc Int (leftOver done m).length)
          ⟨0, rfl, by simp⟩ (by
            rintro t ns ht1 ht2 ⟨q, rfl, rfl⟩
            have := wr_append (p := (P.map (·.1) ++ List.replicate q v).map some)
              (r := alloc Int ((leftOver done m).length - q)) (v := some v)
              (by unfold alloc; rw [List.length_replicate]; omega)
            rw [List.length_map, List.length_append, List.length_replicate] at this
            rw [this]
            refine Ret.ok ⟨q + 1, by omega, ?_⟩
            unfold alloc
            rw [List.tail_replicate, List.replicate_succ']
            simp [Nat.sub_sub])
        rw [h1, h3]
        have : q = (leftOver done m).length := by omega
        rw [this, Nat.sub_self]
        simp [alloc]
      have hhs : Ret (forN m (fun i (s : List (Option Int) × Nat) => do
          if ← rd ((List.range m).map (fun r => decide (r ∈ done))) i then .ok s
          else do
            let h ← wr s.1 s.2 (some ((i : Int) + 1))
            .ok (h, s.2 + 1)) ((P.map (·.2)).map some ++ alloc Int (leftOver done m).length,
              (P.map (·.2)).length)) (fun r => r.1 = (P.map (·.2) ++
              (leftOver done m).map (fun (r : Nat) => (r : Int) + 1)).map some) := by
        refine (Ret.forN (fun i (s : List (Option Int) × Nat) =>
          s.1 = (P.map (·.2) ++ (leftOver done i).map (fun (r : Nat) => (r : Int) + 1)).map some ++
            alloc Int ((leftOver done m).length - (leftOver done i).length) ∧
          s.2 = (P.map (·.2)).length + (leftOver done i).length) ⟨?_, ?_⟩ ?_).mono ?_
        · simp [leftOver]
        · rfl
        · rintro i ⟨l, c⟩ hi ⟨h1, h2⟩
          dsimp only at h1 h2
          subst h1 h2
          rw [rd_done hi, ok_bind]
          have hmono := leftOver_length_mono (done := done) (show i + 1 ≤ m by omega)
          rw [leftOver_succ] at hmono ⊢
          by_cases hd : i ∈ done
          · rw [if_pos (by simpa using hd), if_pos hd, List.append_nil]
            exact Ret.ok ⟨rfl, rfl⟩
          · rw [if_neg (by simpa using hd), if_neg hd]
            rw [if_neg hd, List.length_append, List.length_singleton] at hmono
            have := wr_append (p := (P.map (·.2) ++ (leftOver done i).map
              (fun (r : Nat) => (r : Int) + 1)).map some)
              (r := alloc Int ((leftOver done m).length - (leftOver done i).length))
              (v := some ((i : Int) + 1)) (by unfold alloc; rw [List.length_replicate]; omega)
            have hl : ((P.map (·.2) ++ (leftOver done i).map (fun (r : Nat) => (r : Int) + 1)).map
                some).length = (P.map (·.2)).length + (leftOver done i).length := by simp
            rw [hl] at this
            dsimp only
            rw [this, ok_bind]
            refine Ret.ok ⟨?_, ?_⟩
            · unfold alloc
              simp [Nat.sub_sub]
            · dsimp only
              rw [List.length_append, List.length_singleton]
              omega
        · rintro ⟨l, c⟩ ⟨h1, _⟩
          dsimp only at h1 ⊢
          rw [h1, Nat.sub_self]
          simp [alloc]
      obtain ⟨hs, hs1, hs2⟩ := hhs
      rw [hns, ok_bind, hs1, ok_bind, initd_map_some, ok_bind, hs2, initd_map_some, ok_bind]
      refine RetOr.ok ⟨?_, nerr⟩
      congr 1
      · rw [List.map_append, List.map_map]
        congr 1
        rw [← List.map_const', ]
        rfl
      · rw [List.map_append, List.map_map]
        rfl
    · rw [if_neg hpos]
      have : leftOver done m = [] := List.eq_nil_of_length_eq_zero (by omega)
      rw [this, List.map_nil, List.append_nil]
      exact RetOr.ok ⟨rfl, nerr⟩

end Vctrs
