import Verif.Lemmas.Subscript
import Verif.Spec

/-!
# C19: integer subscripts are checked and kept in order
-/

namespace Vctrs

/-- Under the options, the element makes a subscript without inversion an error. -/
def BadLoc (n : Nat) (opts : LocOpts) (e : Int) : Prop :=
  (e = naInt ∧ opts.missing = .error) ∨ (e = 0 ∧ opts.zero = .error) ∨
  (e ≠ naInt ∧ e < 0 ∧ opts.negative = .error) ∨
  (e ≠ naInt ∧ e < 0 ∧ opts.negative = .ignore ∧ (n : Int) < -e ∧ opts.oob ≠ .remove) ∨
  ((n : Int) < e ∧ opts.oob = .error)

/-- Under the options, the element is dropped. -/
def DropLoc (n : Nat) (opts : LocOpts) (e : Int) : Prop :=
  (e = naInt ∧ opts.missing = .remove) ∨ (e = 0 ∧ opts.zero = .remove) ∨
  (e ≠ naInt ∧ ((n : Int) < e ∨ (n : Int) < -e) ∧ opts.oob = .remove)

instance (n : Nat) (opts : LocOpts) (e : Int) : Decidable (DropLoc n opts e) := by
  unfold DropLoc; infer_instance

/-- The subscript has an element that asks for inversion. -/
def Inverts (opts : LocOpts) (l : List Int) : Prop :=
  opts.negative = .invert ∧ ∃ e ∈ l, e ≠ naInt ∧ e < 0

theorem badLoc_iff {n : Nat} {opts : LocOpts} {e : Int} : BadLoc n opts e ↔ ElemErr n opts e := by
  unfold BadLoc ElemErr
  constructor
  · rintro (h | h | ⟨h1, h2, h3⟩ | ⟨h1, h2, h3, h4, h5⟩ | h)
    · exact Or.inl h
    · exact Or.inr (Or.inl h)
    · exact Or.inr (Or.inr (Or.inl ⟨h1, h2, Or.inl h3⟩))
    · exact Or.inr (Or.inr (Or.inl ⟨h1, h2, Or.inr ⟨h3, h4, h5⟩⟩))
    · exact Or.inr (Or.inr (Or.inr h))
  · rintro (h | h | ⟨h1, h2, h3 | ⟨h3, h4, h5⟩⟩ | h)
    · exact Or.inl h
    · exact Or.inr (Or.inl h)
    · exact Or.inr (Or.inr (Or.inl ⟨h1, h2, h3⟩))
    · exact Or.inr (Or.inr (Or.inr (Or.inl ⟨h1, h2, h3, h4, h5⟩)))
    · exact Or.inr (Or.inr (Or.inr (Or.inr h)))

theorem not_inverts {opts : LocOpts} {l : List Int} (h : ¬ Inverts opts l) : ∀ e ∈ l, ¬ ElemInv opts e :=
  fun e he hi => h ⟨hi.2.2, e, he, hi.1, hi.2.1⟩

theorem isOob_iff {n : Nat} {e : Int} : isOob n e = true ↔ e ≠ naInt ∧ ((n : Int) < e ∨ (n : Int) < -e) := by
  unfold isOob
  simp only [Bool.and_eq_true, decide_eq_true_eq]
  constructor
  · rintro ⟨h, h'⟩; exact ⟨h, by omega⟩
  · rintro ⟨h, h'⟩; exact ⟨h, by omega⟩

theorem keepLoc_iff {n : Nat} {opts : LocOpts} {e : Int} : keepLoc n opts e = decide (¬ DropLoc n opts e) := by
  rw [Bool.eq_iff_iff]
  unfold keepLoc DropLoc
  have := isOob_iff (n := n) (e := e)
  simp only [Bool.and_eq_true, Bool.not_eq_true', decide_eq_true_eq, decide_eq_false_iff_not,
    Bool.and_eq_false_iff, ← Bool.not_eq_true, this]
  tauto

/-- **C19** (in bounds): a subscript of positive locations within bounds is returned as it is, missing
locations propagating. -/
theorem C19_in_bounds {l : List Int} {n : Nat} (names : Option (List RStr)) {opts : LocOpts}
    (hna : opts.missing = .propagate ∨ naInt ∉ l) (h : ∀ e ∈ l, e = naInt ∨ (1 ≤ e ∧ e ≤ (n : Int))) :
    vecAsLocation (.int l) n names opts = .ok l := by
  have hoob : ∀ e ∈ l, isOob n e = false := by
    intro e he
    rw [← Bool.not_eq_true, isOob_iff]
    rintro ⟨h1, h2⟩
    rcases h e he with h | h
    · exact h1 h
    · omega
  have hkeep : l.filter (keepLoc n opts) = l := by
    refine List.filter_eq_self.2 (fun e he => ?_)
    unfold keepLoc
    rw [hoob e he]
    rcases h e he with h' | h'
    · subst h'
      rcases hna with hna | hna
      · simp [hna]; exact Or.inl (by decide)
      · exact absurd he hna
    · have : e ≠ naInt := by simp only [naInt]; omega
      have : e ≠ 0 := by omega
      simp [*]
  conv_rhs => rw [← hkeep]
  refine intAsLocation_ok ?_ ?_ ?_ (fun _ _ _ => hoob)
  · rintro e he (⟨h1, h2⟩ | ⟨h1, h2⟩ | ⟨h1, h2, h3⟩ | ⟨h1, h2⟩)
    · rcases hna with h | h
      · rw [h] at h2; cases h2
      · exact h (h1 ▸ he)
    · rcases h e he with h | h
      · rw [h1] at h; exact absurd h (by decide)
      · omega
    · rcases h e he with h | h
      · exact h1 h
      · omega
    · rcases h e he with h | h
      · rw [h] at h1; simp only [naInt] at h1; omega
      · omega
  · rintro e he ⟨h1, h2, _⟩
    rcases h e he with h | h
    · exact h1 h
    · omega
  · intro _
    have : extLocs n l = [] := by
      unfold extLocs
      refine List.filter_eq_nil_iff.2 (fun e he => ?_)
      have : ¬ (n : Int) < e := by
        rcases h e he with h | h
        · rw [h, naInt]; omega
        · omega
      simpa using this
    rw [this]; simp [seg]

example : vecAsLocation (.int [3, 1, naInt, 3]) 3 none {} = .ok [3, 1, naInt, 3] :=
  C19_in_bounds none (Or.inl rfl) (by decide)

/-- **C19** (all options but extension): without inversion and without an offending element, the
result is the subscript less the elements the options drop.  Full statement: also when missing
locations are kept while out-of-bounds ones are removed, which the code gets wrong, see
`C19_remove_missing`. -/
theorem C19_kept_partial {l : List Int} {n : Nat} (names : Option (List RStr)) {opts : LocOpts}
    (h1 : ∀ e ∈ l, ¬ BadLoc n opts e) (h2 : ¬ Inverts opts l) (h3 : opts.oob ≠ .extend)
    (h4 : opts.oob = .remove → opts.missing = .propagate → naInt ∈ l →
      ∀ e ∈ l, e = naInt ∨ (-(n : Int) ≤ e ∧ e ≤ (n : Int))) :
    vecAsLocation (.int l) n names opts = .ok (l.filter (fun e => decide (¬ DropLoc n opts e))) := by
  have : (fun e => decide (¬ DropLoc n opts e)) = keepLoc n opts := by
    funext e; exact keepLoc_iff.symm
  rw [this]
  refine intAsLocation_ok (fun e he h => h1 e he (badLoc_iff.2 h)) (not_inverts h2)
    (fun h => absurd h h3) (fun ha hb hc e he => ?_)
  rw [← Bool.not_eq_true, isOob_iff]
  rintro ⟨h5, h6⟩
  rcases h4 ha hb hc e he with h | h
  · exact h5 h
  · omega

example : vecAsLocation (.int [5, 0, 2, 9, 1]) 5 none { oob := .remove } = .ok [5, 2, 1] := by
  refine C19_kept_partial none ?_ ?_ (by decide) ?_ <;> simp [BadLoc, Inverts, naInt]

/-- **C19** (errors): without inversion, one offending element is enough. -/
theorem C19_error {l : List Int} {n : Nat} (names : Option (List RStr)) {opts : LocOpts}
    (h1 : ∃ e ∈ l, BadLoc n opts e) (h2 : ¬ Inverts opts l) :
    vecAsLocation (.int l) n names opts = .error .abort := by
  obtain ⟨e, he, h⟩ := h1
  exact intAsLocation_err ⟨e, he, badLoc_iff.1 h⟩ (not_inverts h2)

example : vecAsLocation (.int [1, 4]) 3 none {} = .error .abort :=
  C19_error none ⟨4, by simp, by simp [BadLoc]⟩ (by simp [Inverts, naInt])

/-- **C19** (range): with zeros removed, negatives not ignored and no extension, whatever integer
subscript is given, the locations returned are missing or within `1..n`. -/
theorem C19_range {l out : List Int} {n : Nat} (hn : n ≤ intMax) (names : Option (List RStr)) {opts : LocOpts}
    (h1 : opts.zero = .remove) (h2 : opts.negative ≠ .ignore) (h3 : opts.oob ≠ .extend)
    (h : vecAsLocation (.int l) n names opts = .ok out) :
    ∀ e ∈ out, e = naInt ∨ (1 ≤ e ∧ e ≤ (n : Int)) := by
  classical
  simp only [vecAsLocation] at h
  by_cases hinv : ∃ e ∈ l, ElemInv opts e
  · by_cases herr : ∃ e ∈ l, InvErr n opts e
    · rw [intAsLocation_inv_err hn herr hinv] at h; cases h
    · rw [intAsLocation_inv_ok hn (fun e he hi => herr ⟨e, he, hi⟩) hinv] at h
      injection h with h
      subst h
      intro e he
      obtain ⟨p, hp, rfl⟩ := List.mem_map.1 he
      have := List.mem_range.1 (List.mem_filter.1 hp).1
      right; omega
  · have hinv' : ∀ e ∈ l, ¬ ElemInv opts e := fun e he hi => hinv ⟨e, he, hi⟩
    by_cases herr : ∃ e ∈ l, ElemErr n opts e
    · rw [intAsLocation_err herr hinv'] at h; cases h
    · have herr' : ∀ e ∈ l, ¬ ElemErr n opts e := fun e he hi => herr ⟨e, he, hi⟩
      by_cases hub : opts.oob = .remove ∧ opts.missing = .propagate ∧ naInt ∈ l ∧ ∃ e ∈ l, isOob n e = true
      · rw [intAsLocation_ub herr' hinv' hub.1 hub.2.1 hub.2.2.1 hub.2.2.2] at h; cases h
      · rw [intAsLocation_ok herr' hinv' (fun h => absurd h h3) (fun ha hb hc e he => by
          rw [← Bool.not_eq_true]
          exact fun ho => hub ⟨ha, hb, hc, e, he, ho⟩)] at h
        injection h with h
        subst h
        intro e he
        obtain ⟨he, hk⟩ := List.mem_filter.1 he
        rw [keepLoc_iff, decide_eq_true_eq] at hk
        by_contra hcon
        have hna : e ≠ naInt := fun h => hcon (Or.inl h)
        have hr : ¬ (1 ≤ e ∧ e ≤ (n : Int)) := fun h => hcon (Or.inr h)
        have h0 : e ≠ 0 := fun h => hk (Or.inr (Or.inl ⟨h, h1⟩))
        by_cases hneg : e < 0
        · cases hn' : opts.negative with
          | invert => exact hinv' e he ⟨hna, hneg, hn'⟩
          | error => exact herr' e he (Or.inr (Or.inr (Or.inl ⟨hna, hneg, Or.inl hn'⟩)))
          | ignore => exact h2 hn'
        · have hgt : (n : Int) < e := by omega
          cases ho : opts.oob with
          | error => exact herr' e he (Or.inr (Or.inr (Or.inr ⟨hgt, ho⟩)))
          | remove => exact hk (Or.inr (Or.inr ⟨hna, Or.inl hgt, ho⟩))
          | extend => exact h3 ho

example : ∃ out, vecAsLocation (.int [3, 0, 1]) 3 none {} = .ok out ∧ out = [3, 1] := ⟨_, by decide, rfl⟩

/-- **C19** (negation): removing out-of-bounds locations while keeping missing ones computes
`abs(NA_INTEGER)`, which is undefined behaviour, on every such subscript. -/
theorem C19_remove_missing {l : List Int} {n : Nat} (names : Option (List RStr)) {opts : LocOpts}
    (h1 : ∀ e ∈ l, ¬ BadLoc n opts e) (h2 : ¬ Inverts opts l) (h3 : opts.oob = .remove)
    (h4 : opts.missing = .propagate) (h5 : naInt ∈ l) (h6 : ∃ e ∈ l, (n : Int) < e) :
    vecAsLocation (.int l) n names opts = .error .ub := by
  obtain ⟨e, he, h⟩ := h6
  exact intAsLocation_ub (fun e he h => h1 e he (badLoc_iff.2 h)) (not_inverts h2) h3 h4 h5
    ⟨e, he, isOob_of_lt h⟩

example : vecAsLocation (.int [naInt, 5]) 3 none { oob := .remove } = .error .ub := by
  refine C19_remove_missing none ?_ ?_ rfl rfl ?_ ?_ <;> simp [BadLoc, Inverts, naInt]

end Vctrs
