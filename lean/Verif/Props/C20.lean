import Verif.Lemmas.Subscript
import Verif.Props.C19

/-!
# C20: negative subscripts select exactly the complement
-/

namespace Vctrs

/-- The element cannot appear in a subscript of negative locations. -/
def BadNegative (n : Nat) (opts : LocOpts) (e : Int) : Prop :=
  0 < e ∨ (e = naInt ∧ opts.missing ≠ .remove) ∨ (e = 0 ∧ opts.zero = .error) ∨
  (e ≠ naInt ∧ e < -(n : Int) ∧ opts.oob ≠ .remove)

theorem badNegative_iff {n : Nat} {opts : LocOpts} {e : Int} : BadNegative n opts e ↔ InvErr n opts e := by
  unfold BadNegative InvErr
  constructor
  · rintro (h | h | h | ⟨h, h', h''⟩)
    · exact Or.inr (Or.inr (Or.inl h))
    · exact Or.inl h
    · exact Or.inr (Or.inl h)
    · exact Or.inr (Or.inr (Or.inr ⟨h, by omega, h''⟩))
  · rintro (h | h | h | ⟨h, h', h''⟩)
    · exact Or.inr (Or.inl h)
    · exact Or.inr (Or.inr (Or.inl h))
    · exact Or.inl h
    · exact Or.inr (Or.inr (Or.inr ⟨h, by omega, h''⟩))

/-- **C20** (complement): with a negative location and no offending element, the result is increasing
and holds exactly the positions of `1..n` whose negative is not in the subscript. -/
theorem C20_complement {l : List Int} {n : Nat} (hn : n ≤ intMax) (names : Option (List RStr)) {opts : LocOpts}
    (h1 : Inverts opts l) (h2 : ∀ e ∈ l, ¬ BadNegative n opts e) :
    ∃ out, vecAsLocation (.int l) n names opts = .ok out ∧ out.Pairwise (· < ·) ∧
      ∀ p, p ∈ out ↔ 1 ≤ p ∧ p ≤ (n : Int) ∧ -p ∉ l := by
  obtain ⟨hneg, e, he, hna, hlt⟩ := h1
  refine ⟨_, intAsLocation_inv_ok hn (fun e he h => h2 e he (badNegative_iff.2 h)) ⟨e, he, hna, hlt, hneg⟩, ?_, ?_⟩
  · rw [List.pairwise_map]
    refine List.Pairwise.filter _ (List.pairwise_lt_range.imp ?_)
    intro a b h; omega
  · intro p
    simp only [List.mem_map, List.mem_filter, List.mem_range, decide_eq_true_eq]
    constructor
    · rintro ⟨q, ⟨h3, h4⟩, rfl⟩
      exact ⟨by omega, by omega, h4⟩
    · rintro ⟨h3, h4, h5⟩
      refine ⟨(p - 1).toNat, ⟨by omega, ?_⟩, by omega⟩
      rwa [show (((p - 1).toNat : Nat) : Int) + 1 = p by omega]

example : vecAsLocation (.int [-2, 0, -2, -4]) 5 none {} = .ok [1, 3, 5] := by decide
example : ∃ out, vecAsLocation (.int [-2, 0, -2, -4]) 5 none {} = .ok out ∧ (3 : Int) ∈ out := by
  obtain ⟨out, h1, _, h2⟩ := C20_complement (l := [-2, 0, -2, -4]) (n := 5) (opts := {}) (by decide) none
    ⟨rfl, -2, by simp, by decide, by decide⟩ (by simp [BadNegative, naInt])
  exact ⟨out, h1, (h2 3).2 (by decide)⟩

/-- **C20** (repetitions and zeros do not matter): only which locations are mentioned matters. -/
theorem C20_set {l l' : List Int} {n : Nat} (hn : n ≤ intMax) (names : Option (List RStr)) {opts : LocOpts}
    (h1 : Inverts opts l) (h2 : ∀ e ∈ l, ¬ BadNegative n opts e) (h1' : Inverts opts l')
    (h2' : ∀ e ∈ l', ¬ BadNegative n opts e) (h : ∀ e : Int, e ≠ 0 → (e ∈ l ↔ e ∈ l')) :
    vecAsLocation (.int l) n names opts = vecAsLocation (.int l') n names opts := by
  obtain ⟨hneg, e, he, hna, hlt⟩ := h1
  obtain ⟨_, e', he', hna', hlt'⟩ := h1'
  simp only [vecAsLocation]
  rw [intAsLocation_inv_ok hn (fun e he h => h2 e he (badNegative_iff.2 h)) ⟨e, he, hna, hlt, hneg⟩,
    intAsLocation_inv_ok hn (fun e he h => h2' e he (badNegative_iff.2 h)) ⟨e', he', hna', hlt', hneg⟩]
  congr 2
  refine List.filter_congr (fun p _ => ?_)
  rw [decide_eq_decide, h _ (by omega)]

example : vecAsLocation (.int [-2, 0, -2]) 3 none {} = vecAsLocation (.int [-2]) 3 none {} :=
  C20_set (by decide) none ⟨rfl, -2, by simp, by decide, by decide⟩ (by simp [BadNegative, naInt])
    ⟨rfl, -2, by simp, by decide, by decide⟩ (by simp [BadNegative, naInt])
    (by intro e he; simp [he])

/-- **C20** (errors): mixing with a positive location, a missing one (unless removed), a zero under
`zero = "error"` or an out-of-bounds negative location (unless removed) is an error. -/
theorem C20_error {l : List Int} {n : Nat} (hn : n ≤ intMax) (names : Option (List RStr)) {opts : LocOpts}
    (h1 : Inverts opts l) (h2 : ∃ e ∈ l, BadNegative n opts e) :
    vecAsLocation (.int l) n names opts = .error .abort := by
  obtain ⟨hneg, e, he, hna, hlt⟩ := h1
  obtain ⟨e', he', h⟩ := h2
  exact intAsLocation_inv_err hn ⟨e', he', badNegative_iff.1 h⟩ ⟨e, he, hna, hlt, hneg⟩

example : vecAsLocation (.int [2, -1]) 3 none {} = .error .abort :=
  C20_error (by decide) none ⟨rfl, -1, by simp, by decide, by decide⟩ ⟨2, by simp, by simp [BadNegative]⟩

end Vctrs
