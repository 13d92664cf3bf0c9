import Verif.Model.Names
import Verif.Spec
import Verif.Props.C05
import Verif.Lemmas.Rep

/-! # Lemmas on names repair -/

namespace Vctrs

open Spec

/-! ## Suffixes -/

theorem suffixScan_acc (r : List Char) : ∀ (e : Option Nat) (k : Nat) (b : Bool), k ≤ 3 →
    ∃ o, suffixScan r none k b = .ok o ∧ suffixScan r e k b = .ok (o <|> e) := by
  induction r with
  | nil => intro e k b _; exact ⟨none, by simp [suffixScan], by simp [suffixScan]⟩
  | cons c r ih =>
    intro e k b hk
    cases b with
    | true =>
      simp only [suffixScan]
      split
      · exact ih e 1 false (by omega)
      · split
        · exact ih e k true hk
        · exact ⟨none, rfl, by simp⟩
    | false =>
      match k, hk with
      | 0, _ =>
        simp only [suffixScan]
        split
        · exact ih e 0 true (by omega)
        · exact ⟨none, rfl, by simp⟩
      | 1, _ =>
        simp only [suffixScan]
        split
        · exact ih e 2 false (by omega)
        · exact ⟨none, rfl, by simp⟩
      | 2, _ =>
        simp only [suffixScan]
        split
        · exact ih e 3 false (by omega)
        · exact ⟨none, rfl, by simp⟩
      | 3, _ =>
        simp only [suffixScan]
        split
        · obtain ⟨o, h1, h2⟩ := ih (some (r.length + 1)) 0 true (by omega)
          refine ⟨_, h2, ?_⟩
          rw [h2]
          cases o <;> simp
        · exact ⟨_, rfl, by simp⟩

theorem suffixScan_digits (d r : List Char) (hd : ∀ c ∈ d, c.isDigit = true) (e : Option Nat)
    (k : Nat) : suffixScan (d ++ r) e k true = suffixScan r e k true := by
  induction d with
  | nil => rfl
  | cons c d ih =>
    have hc : c.isDigit = true := hd c (by simp)
    have hne : c ≠ '.' := by rintro rfl; simp [Char.isDigit] at hc
    rw [List.cons_append, suffixScan, if_neg hne, if_pos hc]
    exact ih (fun x hx => hd x (by simp [hx]))

theorem suffixPos_suffixed {b s : List Char} (h : Suffixed b s) :
    ∃ o, suffixPos b = .ok o ∧ suffixPos s = .ok (o <|> some b.length) := by
  obtain ⟨hb, d, hd0, hd, rfl⟩ := h
  obtain ⟨rb, c, hbr⟩ : ∃ rb c, b.reverse = c :: rb := by
    cases hr : b.reverse with
    | nil => simp at hr; exact absurd hr hb
    | cons c rb => exact ⟨rb, c, rfl⟩
  have hlen : b.length = rb.length + 1 := by
    rw [← List.length_reverse, hbr]; simp
  obtain ⟨rd, x, hdr⟩ : ∃ rd x, d.reverse = x :: rd := by
    cases hr : d.reverse with
    | nil => simp at hr; exact absurd hr hd0
    | cons c rb => exact ⟨rb, c, rfl⟩
  have hx : x.isDigit = true := hd x (by rw [← List.mem_reverse, hdr]; simp)
  have hrd : ∀ c ∈ rd, c.isDigit = true := fun y hy =>
    hd y (by rw [← List.mem_reverse, hdr]; simp [hy])
  have hs : suffixPos (b ++ ['.', '.', '.'] ++ d) =
      suffixScan (c :: rb) none 3 false := by
    rw [suffixPos]
    rw [List.reverse_append, List.reverse_append, hdr, hbr, List.cons_append, suffixScan, if_pos hx, suffixScan_digits rd _ hrd]
    simp [suffixScan]
  rw [hs, suffixPos, hbr]
  simp only [suffixScan]
  by_cases hc : c.isDigit = true
  · rw [if_pos hc, if_pos hc, hlen]
    exact suffixScan_acc rb (some (rb.length + 1)) 0 true (by omega)
  · rw [if_neg hc, if_neg hc, hlen]
    exact ⟨none, rfl, by simp⟩

theorem suffixed_of_scan (d : List Char) (x : Char) (r : List Char)
    (hd : ∀ c ∈ d, c.isDigit = true) (p : Nat) (hr : suffixScan r none 0 true = .ok (some p))
    (hx : ∀ c t, r = c :: t → c.isDigit = false) (hxd : x.isDigit = true) :
    ∃ b, b ≠ [] ∧ r = ['.', '.', '.'] ++ b := by
  cases r with
  | nil => simp [suffixScan] at hr
  | cons c r =>
    have hc := hx c r rfl
    rw [suffixScan] at hr
    split at hr
    · rename_i h1
      subst h1
      cases r with
      | nil => simp [suffixScan] at hr
      | cons c r =>
        rw [suffixScan] at hr
        split at hr
        · rename_i h2
          subst h2
          cases r with
          | nil => simp [suffixScan] at hr
          | cons c r =>
            rw [suffixScan] at hr
            split at hr
            · rename_i h3
              subst h3
              cases r with
              | nil => simp [suffixScan] at hr
              | cons c r => exact ⟨c :: r, by simp, rfl⟩
            · simp at hr
        · simp at hr
    · simp [hc] at hr

theorem suffixPos_some {s : List Char} {p : Nat} (h : suffixPos s = .ok (some p)) :
    ∃ b, Suffixed b s := by
  rw [suffixPos] at h
  have hsplit := List.takeWhile_append_dropWhile (p := Char.isDigit) (l := s.reverse)
  have hd : ∀ c ∈ s.reverse.takeWhile Char.isDigit, c.isDigit = true := by
    intro c hc; exact List.all_eq_true.1 List.all_takeWhile c hc
  have hdw : ∀ c t, s.reverse.dropWhile Char.isDigit = c :: t → c.isDigit = false := by
    intro c t hct
    have := List.head?_dropWhile_not (p := Char.isDigit) (l := s.reverse)
    rw [hct] at this
    simpa using this
  generalize s.reverse.takeWhile Char.isDigit = d at hsplit hd
  generalize s.reverse.dropWhile Char.isDigit = r at hsplit hdw
  cases d with
  | nil =>
    simp only [List.nil_append] at hsplit
    rw [← hsplit] at h
    cases r with
    | nil => simp [suffixScan] at h
    | cons c r => simp [suffixScan, hdw c r rfl] at h
  | cons x d =>
    rw [← hsplit, List.cons_append, suffixScan, if_pos (hd x (by simp)),
      suffixScan_digits d r (fun c hc => hd c (by simp [hc]))] at h
    obtain ⟨b, hb, rfl⟩ := suffixed_of_scan d x r (fun c hc => hd c (by simp [hc])) p h hdw
      (hd x (by simp))
    refine ⟨b.reverse, by simpa using hb, (x :: d).reverse, by simp, ?_, ?_⟩
    · intro c hc; exact hd c (by simpa using List.mem_reverse.1 hc)
    · have := congrArg List.reverse hsplit
      simp only [List.reverse_reverse] at this
      rw [← this]
      simp

theorem suffixPos_none {s : List Char} (h : ∀ b, ¬ Suffixed b s) : suffixPos s = .ok none := by
  obtain ⟨o, h1, _⟩ := suffixScan_acc s.reverse none 0 false (by omega)
  cases o with
  | none => exact h1
  | some p =>
    obtain ⟨b, hb⟩ := suffixPos_some (s := s) (p := p) h1
    exact absurd hb (h b)

theorem Spec.Suffixed.length_lt {b s : List Char} (h : Suffixed b s) : b.length < s.length := by
  obtain ⟨_, d, _, _, rfl⟩ := h
  simp

theorem stripsTo_exists (s : List Char) : ∃ b, StripsTo s b := by
  by_cases h : ∃ b, Suffixed b s
  · obtain ⟨b, hb⟩ := h
    have := Spec.Suffixed.length_lt hb
    obtain ⟨t, ht⟩ := stripsTo_exists b
    exact ⟨t, .step hb ht⟩
  · exact ⟨s, .done (fun b hb => h ⟨b, hb⟩)⟩
termination_by s.length

theorem Spec.StripsTo.pos {s b : List Char} (h : StripsTo s b) :
    (b = s ∧ suffixPos s = .ok none) ∨
      ((∃ r, s = b ++ ['.', '.', '.'] ++ r) ∧ suffixPos s = .ok (some b.length)) := by
  induction h with
  | done h => exact .inl ⟨rfl, suffixPos_none h⟩
  | @step s b t h _ ih =>
    obtain ⟨o, h1, h2⟩ := suffixPos_suffixed h
    right
    obtain ⟨_, d, _, _, hs⟩ := h
    rcases ih with ⟨rfl, h3⟩ | ⟨⟨r, hr⟩, h3⟩
    · rw [h1] at h3
      simp at h3
      subst h3
      exact ⟨⟨d, hs⟩, by simpa using h2⟩
    · rw [h1] at h3
      simp at h3
      subst h3
      exact ⟨⟨r ++ ['.', '.', '.'] ++ d, by rw [hs, hr]; simp⟩, by simpa using h2⟩

theorem Spec.StripsTo.not_suffixed {s b : List Char} (h : StripsTo s b) : ∀ c, ¬ Suffixed c b := by
  induction h with
  | done h => exact h
  | step _ _ ih => exact ih

theorem Spec.StripsTo.ne_nil {s b : List Char} (h : StripsTo s b) (hs : s ≠ []) : b ≠ [] := by
  induction h with
  | done h => exact hs
  | step h _ ih => exact ih h.1

theorem Spec.StripsTo.unique {s b c : List Char} (h : StripsTo s b) (h' : StripsTo s c) : b = c := by
  rcases h.pos with ⟨rfl, h1⟩ | ⟨⟨r, hr⟩, h1⟩ <;> rcases h'.pos with ⟨rfl, h2⟩ | ⟨⟨r', hr'⟩, h2⟩
  · rfl
  · rw [h1] at h2; simp at h2
  · rw [h1] at h2; simp at h2
  · rw [h1] at h2
    simp at h2
    rw [hr] at hr'
    simp only [List.append_assoc] at hr'
    exact (List.append_inj hr' h2).1

/-! ## Names replaced altogether -/

theorem isSpace_iff (c : Char) :
    isSpace c = true ↔ c ∈ [' ', '\t', '\n', '\x0b', '\x0c', '\r'] := by
  simp [isSpace, or_assoc]

theorem ofDigitChars_pos (d : List Char) (hd : ∀ c ∈ d, c.isDigit = true) : ∀ k : Nat,
    Nat.ofDigitChars 10 d k ≠ 0 ↔ (k ≠ 0 ∨ ∃ c ∈ d, c ≠ '0') := by
  induction d with
  | nil => intro k; simp [Nat.ofDigitChars]
  | cons c d ih =>
    intro k
    have hstep : Nat.ofDigitChars 10 (c :: d) k
        = Nat.ofDigitChars 10 d (10 * k + (c.toNat - '0'.toNat)) := by
      simp [Nat.ofDigitChars]
    rw [hstep, ih (fun x hx => hd x (by simp [hx]))]
    have hc : c.isDigit = true := hd c (by simp)
    have hc0 : c.toNat - '0'.toNat = 0 ↔ c = '0' := by
      simp only [Char.isDigit, Bool.and_eq_true, decide_eq_true_eq] at hc
      have h1 : '0'.toNat ≤ c.toNat := hc.1
      constructor
      · intro h
        have : c.toNat = '0'.toNat := by omega
        exact Char.toNat_inj.1 this
      · rintro rfl; rfl
    by_cases hz : c = '0'
    · have := hc0.2 hz
      subst hz
      simp
    · have : ¬ c.toNat - '0'.toNat = 0 := fun h => hz (hc0.1 h)
      simp only [List.mem_cons, exists_eq_or_imp]
      constructor
      · rintro _; exact .inr (.inl hz)
      · intro _; exact .inl (by omega)

theorem leadingInt_ne (s : List Char) : leadingInt s ≠ 0 ↔ ∃ d r : List Char,
    (∀ c ∈ d, c.isDigit = true) ∧ (∃ c ∈ d, c ≠ '0') ∧ s = d ++ r := by
  rw [leadingInt, ofDigitChars_pos _ (fun c hc => List.all_eq_true.1 List.all_takeWhile c hc)]
  simp only [ne_eq, not_true_eq_false, false_or]
  constructor
  · rintro ⟨c, hc, h⟩
    exact ⟨_, _, fun c hc => List.all_eq_true.1 List.all_takeWhile c hc, ⟨c, hc, h⟩,
      (List.takeWhile_append_dropWhile (p := Char.isDigit) (l := s)).symm⟩
  · rintro ⟨d, r, hd, ⟨c, hc, h⟩, rfl⟩
    refine ⟨c, ?_, h⟩
    rw [List.takeWhile_append_of_pos hd]
    simp [hc]

theorem dropWhile_space (w t : List Char) (hw : ∀ c ∈ w, isSpace c = true)
    (ht : ∀ c r, t = c :: r → isSpace c = false) : (w ++ t).dropWhile isSpace = t := by
  rw [List.dropWhile_append_of_pos hw]
  cases t with
  | nil => rfl
  | cons c r => rw [List.dropWhile_cons, ht c r rfl]; simp

theorem strtol_ne (s : List Char) : strtol s ≠ 0 ↔ ∃ w g d r : List Char,
    (∀ c ∈ w, c ∈ [' ', '\t', '\n', '\x0b', '\x0c', '\r']) ∧ (g = [] ∨ g = ['+'] ∨ g = ['-']) ∧
    (∀ c ∈ d, c.isDigit = true) ∧ (∃ c ∈ d, c ≠ '0') ∧ s = w ++ g ++ d ++ r := by
  have hmin : ∀ k : Nat, min (k : Int) (2 ^ 63 - 1) ≠ 0 ↔ k ≠ 0 := by intro k; omega
  have hmax : ∀ k : Nat, max (-(k : Int)) (-(2 ^ 63)) ≠ 0 ↔ k ≠ 0 := by intro k; omega
  constructor
  · intro h
    have hsplit := List.takeWhile_append_dropWhile (p := isSpace) (l := s)
    have hw : ∀ c ∈ s.takeWhile isSpace, c ∈ [' ', '\t', '\n', '\x0b', '\x0c', '\r'] :=
      fun c hc => (isSpace_iff c).1 (List.all_eq_true.1 List.all_takeWhile c hc)
    rw [strtol] at h
    split at h
    · rename_i t ht
      rw [hmax, leadingInt_ne] at h
      obtain ⟨d, r, h1, h2, h3⟩ := h
      refine ⟨_, ['-'], d, r, hw, by simp, h1, h2, ?_⟩
      rw [ht, h3] at hsplit
      exact hsplit.symm.trans (by simp)
    · rename_i t ht
      rw [hmin, leadingInt_ne] at h
      obtain ⟨d, r, h1, h2, h3⟩ := h
      refine ⟨_, ['+'], d, r, hw, by simp, h1, h2, ?_⟩
      rw [ht, h3] at hsplit
      exact hsplit.symm.trans (by simp)
    · rw [hmin, leadingInt_ne] at h
      obtain ⟨d, r, h1, h2, h3⟩ := h
      refine ⟨_, [], d, r, hw, by simp, h1, h2, ?_⟩
      rw [h3] at hsplit
      exact hsplit.symm.trans (by simp)
  · rintro ⟨w, g, d, r, hw, hg, hd, ⟨x, hx, hx0⟩, rfl⟩
    have hw' : ∀ c ∈ w, isSpace c = true := fun c hc => (isSpace_iff c).2 (hw c hc)
    have hne : leadingInt (d ++ r) ≠ 0 := (leadingInt_ne _).2 ⟨d, r, hd, ⟨x, hx, hx0⟩, rfl⟩
    rcases hg with rfl | rfl | rfl
    · have hdr : ∃ y d', d = y :: d' := by
        cases d with
        | nil => simp at hx
        | cons y d' => exact ⟨y, d', rfl⟩
      obtain ⟨y, d', rfl⟩ := hdr
      have hy : y.isDigit = true := hd y (by simp)
      have hys : isSpace y = false := by
        cases h : isSpace y with
        | false => rfl
        | true =>
          rw [isSpace_iff] at h
          simp only [List.mem_cons, List.not_mem_nil, or_false] at h
          rcases h with rfl | rfl | rfl | rfl | rfl | rfl <;> simp [Char.isDigit] at hy
      rw [strtol, List.append_nil, List.append_assoc, dropWhile_space w _ hw']
      · split
        · rename_i heq
          simp at heq
          rw [heq.1] at hy; simp [Char.isDigit] at hy
        · rename_i heq
          simp at heq
          rw [heq.1] at hy; simp [Char.isDigit] at hy
        · exact (hmin _).2 hne
      · intro c r h
        simp at h
        rw [← h.1, hys]
    · rw [strtol, List.append_assoc, List.append_assoc, dropWhile_space w _ hw']
      · exact (hmin _).2 hne
      · intro c r h
        simp at h
        rw [← h.1]; rfl
    · rw [strtol, List.append_assoc, List.append_assoc, dropWhile_space w _ hw']
      · exact (hmax _).2 hne
      · intro c r h
        simp at h
        rw [← h.1]; rfl

theorem tail_ne_dot {w g d r : List Char}
    (hw : ∀ c ∈ w, c ∈ [' ', '\t', '\n', '\x0b', '\x0c', '\r']) (hg : g = [] ∨ g = ['+'] ∨ g = ['-'])
    (hd : ∀ c ∈ d, c.isDigit = true) : ∀ c ∈ w ++ g ++ d, c ≠ '.' := by
  rintro c hc rfl
  simp only [List.mem_append] at hc
  rcases hc with (hc | hc) | hc
  · have := hw _ hc; simp at this
  · rcases hg with rfl | rfl | rfl <;> simp at hc
  · have := hd _ hc; simp [Char.isDigit] at this

theorem isDotDotInt_iff (s : List Char) : isDotDotInt s = true ↔ DotsNumber s := by
  constructor
  · intro h
    rw [isDotDotInt.eq_def] at h
    split at h
    · rename_i c0 c1 c2 t
      split at h
      · simp at h
      · rename_i h01
        simp only [ne_eq, Bool.or_eq_true, decide_eq_true_eq, not_or, not_not] at h01
        obtain ⟨rfl, rfl⟩ := h01
        split at h
        · rename_i h2
          subst h2
          obtain ⟨w, g, d, r, h1, h2, h3, h4, rfl⟩ := (strtol_ne t).1 (by simpa using h)
          exact ⟨['.', '.', '.'], w, g, d, r, by simp, h1, h2, h3, h4, by simp⟩
        · obtain ⟨w, g, d, r, h1, h2, h3, h4, h5⟩ := (strtol_ne _).1 (by simpa using h)
          refine ⟨['.', '.'], w, g, d, r, by simp, h1, h2, h3, h4, ?_⟩
          rw [h5]; simp
    · simp at h
  · rintro ⟨p, w, g, d, r, hp, hw, hg, hd, hx, rfl⟩
    have hno := tail_ne_dot (r := r) hw hg hd
    have hval : strtol (w ++ g ++ d ++ r) ≠ 0 := (strtol_ne _).2 ⟨w, g, d, r, hw, hg, hd, hx, rfl⟩
    have hne : ∃ y t, w ++ g ++ d = y :: t := by
      cases h : w ++ g ++ d with
      | nil => simp at h; obtain ⟨x, hx, _⟩ := hx; simp [h] at hx
      | cons y t => exact ⟨y, t, rfl⟩
    obtain ⟨y, t, hyt⟩ := hne
    have hy : y ≠ '.' := hno y (by rw [hyt]; simp)
    rw [hyt] at hval
    rcases hp with rfl | rfl
    · have : ['.', '.'] ++ w ++ g ++ d ++ r = '.' :: '.' :: y :: (t ++ r) := by
        have : ['.', '.'] ++ w ++ g ++ d ++ r = ['.', '.'] ++ (w ++ g ++ d) ++ r := by simp
        rw [this, hyt]; simp
      rw [this, isDotDotInt]
      simp only [ne_eq, not_true_eq_false, decide_false, Bool.or_self, Bool.false_eq_true,
        if_false, if_neg hy]
      simpa using hval
    · have : ['.', '.', '.'] ++ w ++ g ++ d ++ r = '.' :: '.' :: '.' :: (y :: t ++ r) := by
        have : ['.', '.', '.'] ++ w ++ g ++ d ++ r = ['.', '.', '.'] ++ (w ++ g ++ d) ++ r := by simp
        rw [this, hyt]; simp
      rw [this, isDotDotInt]
      simp only [ne_eq, not_true_eq_false, decide_false, Bool.or_self, Bool.false_eq_true,
        if_false, if_true]
      simpa using hval

theorem needsSuffix_iff (s : List Char) : needsSuffix (some s) = true ↔ BadName s := by
  have h : needsSuffix (some s) = (decide (s = ['.', '.', '.']) || decide (s = []) || isDotDotInt s) :=
    rfl
  rw [h, Bool.or_eq_true, Bool.or_eq_true, decide_eq_true_iff, decide_eq_true_iff, isDotDotInt_iff,
    BadName]
  constructor
  · rintro ((h | h) | h)
    · exact .inr (.inl h)
    · exact .inl h
    · exact .inr (.inr h)
  · rintro (h | h | h)
    · exact .inl (.inr h)
    · exact .inl (.inl h)
    · exact .inr h

theorem Spec.DotsNumber.append {s : List Char} (h : DotsNumber s) (t : List Char) :
    DotsNumber (s ++ t) := by
  obtain ⟨p, w, g, d, r, hp, hw, hg, hd, hx, rfl⟩ := h
  exact ⟨p, w, g, d, r ++ t, hp, hw, hg, hd, hx, by simp⟩

/-- A name which is not of the form `..1` does not become so by appending a suffix. -/
theorem dotsNumber_of_append {b t : List Char} (hb : b ≠ [])
    (h : DotsNumber (b ++ ['.', '.', '.'] ++ t)) : DotsNumber b := by
  obtain ⟨p, w, g, d, r, hp, hw, hg, hd, hx, heq⟩ := h
  have hno := tail_ne_dot (r := r) hw hg hd
  have hpl : p.length = 2 ∨ p.length = 3 := by rcases hp with rfl | rfl <;> simp
  have hb1 : 1 ≤ b.length := List.length_pos_iff.2 hb
  have hdot : ∀ k, b.length ≤ k → k < b.length + 3 →
      (b ++ ['.', '.', '.'] ++ t)[k]? = some '.' := by
    intro k h1 h2
    rw [List.append_assoc, List.getElem?_append_right h1]
    rcases (by omega : k - b.length = 0 ∨ k - b.length = 1 ∨ k - b.length = 2) with h | h | h <;>
      rw [h] <;> rfl
  have hq : ∀ k, p.length ≤ k → k < (p ++ (w ++ g ++ d)).length →
      (b ++ ['.', '.', '.'] ++ t)[k]? ≠ some '.' := by
    intro k h1 h2 h3
    have e : p ++ w ++ g ++ d ++ r = p ++ (w ++ g ++ d) ++ r := by simp
    rw [heq, e, List.getElem?_append_left h2, List.getElem?_append_right h1] at h3
    exact hno _ (List.mem_of_getElem? h3) rfl
  have hd1 : 1 ≤ d.length := by
    obtain ⟨x, hx, _⟩ := hx
    exact List.length_pos_of_mem hx
  have hlen : (p ++ (w ++ g ++ d)).length = p.length + w.length + g.length + d.length := by
    simp; omega
  have hle : (p ++ (w ++ g ++ d)).length ≤ b.length := by
    rcases Nat.lt_or_ge b.length (p ++ (w ++ g ++ d)).length with hlt | hge
    · exfalso
      rcases Nat.lt_or_ge b.length p.length with h1 | h1
      · exact hq p.length (by omega) (by omega) (hdot _ (by omega) (by omega))
      · exact hq b.length h1 hlt (hdot _ (by omega) (by omega))
    · exact hge
  have e : p ++ w ++ g ++ d ++ r = p ++ (w ++ g ++ d) ++ r := by simp
  have h1 : p ++ (w ++ g ++ d) <+: b ++ ['.', '.', '.'] ++ t := by
    rw [heq, e]; exact List.prefix_append _ _
  have h2 : b <+: b ++ ['.', '.', '.'] ++ t := by
    rw [List.append_assoc]; exact List.prefix_append _ _
  obtain ⟨u, hu⟩ := List.prefix_of_prefix_length_le h1 h2 hle
  exact ⟨p, w, g, d, u, hp, hw, hg, hd, hx, by rw [← hu]; simp⟩

/-! ## Base names -/

theorem baseName_exists (n : Name) : ∃ b, BaseName n b := by
  cases n with
  | none => exact ⟨[], rfl⟩
  | some s =>
    by_cases h : BadName s
    · exact ⟨[], .inl ⟨h, rfl⟩⟩
    · obtain ⟨b, hb⟩ := stripsTo_exists s
      exact ⟨b, .inr ⟨h, hb⟩⟩

theorem Spec.BaseName.unique {n : Name} {b c : List Char} (h : BaseName n b) (h' : BaseName n c) :
    b = c := by
  cases n with
  | none => exact Eq.trans h (Eq.symm h')
  | some s =>
    rcases h with ⟨h1, h2⟩ | ⟨h1, h2⟩ <;> rcases h' with ⟨h3, h4⟩ | ⟨h3, h4⟩
    · rw [h2, h4]
    · exact absurd h1 h3
    · exact absurd h3 h1
    · exact h2.unique h4

/-- The base name. -/
noncomputable def baseOf (n : Name) : List Char := Classical.choose (baseName_exists n)

theorem baseOf_spec (n : Name) : BaseName n (baseOf n) := Classical.choose_spec (baseName_exists n)

theorem baseName_iff {n : Name} {b : List Char} : BaseName n b ↔ baseOf n = b :=
  ⟨fun h => (baseOf_spec n).unique h, fun h => h ▸ baseOf_spec n⟩

theorem stripName_ok (n : Name) : stripName n = .ok (some (baseOf n)) := by
  have h := baseOf_spec n
  generalize baseOf n = b at h
  cases n with
  | none => cases h; rfl
  | some s =>
    rcases h with ⟨h1, rfl⟩ | ⟨h1, h2⟩
    · rw [stripName, if_pos ((needsSuffix_iff s).2 h1)]
    · rw [stripName, if_neg (fun h => h1 ((needsSuffix_iff s).1 h))]
      rcases h2.pos with ⟨rfl, h3⟩ | ⟨⟨r, hr⟩, h3⟩
      · simp only [cString]
        rw [h3]; rfl
      · simp only [cString]
        rw [h3]
        simp [hr]

theorem toDigits_len (k : Nat) (hk : k ≤ 2147483647) : (Nat.toDigits 10 k).length ≤ 10 := by
  rw [Nat.length_toDigits_le_iff (by omega) (by omega)]
  omega

theorem appendSuffix_ok (b : List Char) (i : Nat) (hb : b.length ≤ 2147483619)
    (hi : i < 2147483647) :
    appendSuffix (some b) i = .ok (some (b ++ dots ++ Nat.toDigits 10 (i + 1))) := by
  have h := toDigits_len (i + 1) (by omega)
  have h1 : chkNat ((cString (some b)).length + 28) = .ok (b.length + 28) := by
    show chkNat (b.length + 28) = _
    rw [chkNat, if_neg (by simp only [intMax]; omega)]
  have h2 : chkNat (i + 1) = .ok (i + 1) := by
    rw [chkNat, if_neg (by simp only [intMax]; omega)]
  have h3 : ¬ ((dots ++ Nat.toDigits 10 (i + 1)).length ≥ b.length + 28 - (cString (some b)).length) := by
    have h4 : dots.length = 3 := rfl
    have h5 : (cString (some b)).length = b.length := rfl
    rw [List.length_append]
    omega
  simp only [appendSuffix]
  rw [h1, ok_bind, h2, ok_bind, if_neg h3]
  simp [cString]

/-- A loop updating a vector in place. -/
theorem forN_inplace {β : Type} (F : Nat → List β → C (List β)) (f : Nat → β → β) (x : List β)
    (hF : ∀ i v a, v.length = x.length → x[i]? = some a → v[i]? = some a →
      F i v = .ok (v.set i (f i a))) :
    ∃ out, forN x.length F x = .ok out ∧ out.length = x.length ∧
      ∀ i : Nat, out[i]? = x[i]?.map (f i) := by
  have h : Ret (forN x.length F x) (fun out => out.length = x.length ∧
      (∀ i : Nat, i < x.length → out[i]? = x[i]?.map (f i))) := by
    refine (Ret.forN (fun i (v : List β) => v.length = x.length ∧
      (∀ j : Nat, j < i → v[j]? = x[j]?.map (f j)) ∧ (∀ j : Nat, i ≤ j → v[j]? = x[j]?))
      ⟨rfl, by intro j hj; omega, by intros; rfl⟩ ?_).mono ?_
    · rintro i v hi ⟨h1, h2, h3⟩
      have hx : x[i]? = some x[i] := List.getElem?_eq_getElem hi
      have hv := h3 i (le_refl i)
      rw [hx] at hv
      refine Ret.of_eq (hF i v x[i] h1 hx hv) ⟨by simp [h1], ?_, ?_⟩
      · intro j hj
        rw [getElem?_set' (by omega)]
        split
        · rename_i h; subst h; rw [hx]; rfl
        · exact h2 j (by omega)
      · intro j hj
        rw [getElem?_set' (by omega), if_neg (by omega)]
        exact h3 j (by omega)
    · rintro v ⟨h1, h2, _⟩
      exact ⟨h1, h2⟩
  obtain ⟨out, h1, h2, h3⟩ := h
  refine ⟨out, h1, h2, fun i => ?_⟩
  rcases Nat.lt_or_ge i x.length with hi | hi
  · exact h3 i hi
  · rw [List.getElem?_eq_none (by omega), List.getElem?_eq_none hi]; rfl

theorem nameOps_eqv (h : Name → BitVec 32) : EqvHash (nameOps h) where
  refl := by intro a; simp [nameOps]
  symm := by intro a b; simp [nameOps]; exact Eq.symm
  trans := by intro a b c; simp [nameOps]; exact Eq.trans
  hash_eq := by intro a b; simp [nameOps]; intro h; rw [h]

theorem asUniqueNamesImpl_ok (h : Name → BitVec 32) (names : List Name)
    (hn : names.length ≤ 2147483647) (hl : ∀ n ∈ names, (baseOf n).length ≤ 2147483619) :
    ∃ out, asUniqueNamesImpl h names = .ok out ∧ UniqueRepair names out := by
  obtain ⟨v, hv, hvl, hve⟩ := forN_inplace (fun i (v : List Name) => do
      let s ← rd v i
      let s ← stripName s
      wr v i s) (fun _ n => some (baseOf n)) names (by
    intro i v a h1 _ h3
    have hi := (List.getElem?_eq_some_iff.1 h3).1
    simp only [rd_of_getElem? h3, ok_bind, stripName_ok]
    exact wr_ok hi)
  obtain ⟨dups, hd, hdl, hde⟩ := duplicatedDetect_ok (nameOps_eqv h) v (by simp only [intMax]; omega)
  have hve' : ∀ i : Nat, v[i]? = names[i]?.map (fun n => some (baseOf n)) := hve
  obtain ⟨out, ho, hol, hoe⟩ := forN_inplace (fun i (v : List Name) => do
      let s ← rd v i
      let d ← rd dups i
      if s ≠ some [] && !d then .ok v
      else do
        let s ← appendSuffix s i
        wr v i s) (fun i s =>
          if s ≠ some [] && dups[i]? = some false then s
          else some (cString s ++ dots ++ Nat.toDigits 10 (i + 1))) v (by
    intro i w a h1 h2 h3
    have hi := (List.getElem?_eq_some_iff.1 h3).1
    obtain ⟨d, hdi, _⟩ := hde i (by omega)
    simp only [rd_of_getElem? h3, ok_bind, rd_of_getElem? hdi]
    have ha : ∃ b, a = some b ∧ b.length ≤ 2147483619 := by
      have hi' : i < names.length := by omega
      rw [hve' i, List.getElem?_eq_getElem hi'] at h2
      simp at h2
      exact ⟨_, h2.symm, hl _ (List.getElem_mem _)⟩
    obtain ⟨b, rfl, hb⟩ := ha
    rw [hdi]
    by_cases hc : some b ≠ some [] ∧ d = false
    · obtain ⟨hc1, rfl⟩ := hc
      have e1 : (decide (some b ≠ some []) && !false) = true := by simp [hc1]
      have e2 : (decide (some b ≠ some []) && decide (some false = some false)) = true := by simp [hc1]
      rw [if_pos e1, if_pos e2]
      congr 1
      refine List.ext_getElem? fun j => ?_
      rw [getElem?_set' hi]
      split
      · rename_i h; subst h; exact h3
      · rfl
    · have e1 : ¬ ((decide (some b ≠ some []) && !d) = true) := by
        intro h; apply hc; cases d <;> simp_all
      have e2 : ¬ ((decide (some b ≠ some []) && decide (some d = some false)) = true) := by
        intro h; apply hc; cases d <;> simp_all
      rw [if_neg e1, if_neg e2, appendSuffix_ok b i hb (by omega)]
      simp only [ok_bind]
      exact wr_ok hi)
  have hvi : ∀ (i : Nat) name, names[i]? = some name → v[i]? = some (some (baseOf name)) := by
    intro i name hi; rw [hve' i, hi]; rfl
  refine ⟨out, ?_, ?_⟩
  · unfold asUniqueNamesImpl
    rw [hv]
    simp only [ok_bind]
    rw [hd]
    simp only [ok_bind]
    rw [← hvl]
    exact ho
  · constructor
    · rw [hol, hvl]
    · intro i name b hi hb hb0 hu
      have hb := baseName_iff.1 hb
      have hvi' := hvi i name hi
      have hil := (List.getElem?_eq_some_iff.1 hi).1
      obtain ⟨d, hdi, hdd⟩ := hde i (by omega)
      have : d = false := by
        cases d with
        | false => rfl
        | true =>
          obtain ⟨j, y, z, hj, hy, hz, hyz⟩ := hdd.1 rfl
          exfalso
          have hjl := (List.getElem?_eq_some_iff.1 hz).1
          have hjn : names[j]? = some names[j] := List.getElem?_eq_getElem (by omega)
          refine hu j _ hj hjn (baseName_iff.2 ?_)
          rw [hvi j _ hjn] at hz
          rw [hvi'] at hy
          simp only [nameOps, decide_eq_true_eq] at hyz
          simp only [Option.some.injEq] at hy hz
          rw [← hy, ← hz] at hyz
          simp only [Option.some.injEq] at hyz
          rw [← hyz, hb]
      subst this
      rw [hoe i, hvi', hdi, hb]
      simp [hb0]
    · intro i j name name' b hi hb hj hb' hor
      have hb := baseName_iff.1 hb
      have hb' := baseName_iff.1 hb'
      have hvi' := hvi i name hi
      have hil := (List.getElem?_eq_some_iff.1 hi).1
      obtain ⟨d, hdi, hdd⟩ := hde i (by omega)
      rw [hoe i, hvi', hdi, hb]
      have hc : ¬ ((decide (some b ≠ some []) && decide (some d = some false)) = true) := by
        rcases hor with rfl | hor
        · simp
        · have : d = true := hdd.2 ⟨j, _, _, hor, hvi', hvi j _ hj, by simp [nameOps, hb, hb']⟩
          subst this
          simp
      simp only [Option.map_some]
      rw [if_neg hc]
      simp [cString, dots, Nat.toString_eq_ofList_toDigits]

/-! ## The specification of unique names -/

/-- Each element of the result in one of the two forms. -/
theorem Spec.UniqueRepair.get {names out : List Name} (h : UniqueRepair names out) {i : Nat}
    {n : Name} (hi : names[i]? = some n) :
    (baseOf n ≠ [] ∧ out[i]? = some (some (baseOf n)) ∧
      ∀ (j : Nat) m, j ≠ i → names[j]? = some m → baseOf m ≠ baseOf n) ∨
    (out[i]? = some (some (baseOf n ++ dots ++ Nat.toDigits 10 (i + 1))) ∧
      (baseOf n = [] ∨ ∃ (j : Nat) (m : Name), j ≠ i ∧ names[j]? = some m ∧ baseOf m = baseOf n)) := by
  by_cases h0 : baseOf n = []
  · refine .inr ⟨?_, .inl h0⟩
    rw [h.number i i n n _ hi (baseOf_spec n) hi (baseOf_spec n) (.inl h0)]
    simp [dots, Nat.toString_eq_ofList_toDigits]
  · by_cases hex : ∃ (j : Nat) (m : Name), j ≠ i ∧ names[j]? = some m ∧ baseOf m = baseOf n
    · refine .inr ⟨?_, .inr hex⟩
      obtain ⟨j, m, hj, hm, hb⟩ := hex
      rw [h.number i j n m _ hi (baseOf_spec n) hm (baseName_iff.2 hb) (.inr hj)]
      simp [dots, Nat.toString_eq_ofList_toDigits]
    · refine .inl ⟨h0, ?_, ?_⟩
      · exact h.keep i n _ hi (baseOf_spec n) h0 (fun j m hj hm hb => hex ⟨j, m, hj, hm, baseName_iff.1 hb⟩)
      · intro j m hj hm hb; exact hex ⟨j, m, hj, hm, hb⟩

theorem Spec.UniqueRepair.unique {names out out' : List Name} (h : UniqueRepair names out)
    (h' : UniqueRepair names out') : out = out' := by
  refine List.ext_getElem? fun i => ?_
  rcases Nat.lt_or_ge i names.length with hi | hi
  · have hn : names[i]? = some names[i] := List.getElem?_eq_getElem hi
    rcases h.get hn with ⟨h1, h2, h3⟩ | ⟨h1, h2⟩ <;> rcases h'.get hn with ⟨g1, g2, g3⟩ | ⟨g1, g2⟩
    · rw [h2, g2]
    · rcases g2 with g2 | ⟨j, m, hj, hm, hb⟩
      · exact absurd g2 h1
      · exact absurd hb (h3 j m hj hm)
    · rcases h2 with h2 | ⟨j, m, hj, hm, hb⟩
      · exact absurd h2 g1
      · exact absurd hb (g3 j m hj hm)
    · rw [h1, g1]
  · rw [List.getElem?_eq_none (by rw [h.size]; omega), List.getElem?_eq_none (by rw [h'.size]; omega)]

theorem uniqueRepair_congr {names names' out : List Name} (h : UniqueRepair names out)
    (hb : names.map baseOf = names'.map baseOf) : UniqueRepair names' out := by
  have hlen : names.length = names'.length := by simpa using congrArg List.length hb
  have hget : ∀ (i : Nat) m, names'[i]? = some m → ∃ n, names[i]? = some n ∧ baseOf n = baseOf m := by
    intro i m hm
    have h1 : (names'.map baseOf)[i]? = some (baseOf m) := by simp [hm]
    rw [← hb] at h1
    simpa using h1
  refine ⟨by rw [h.size, hlen], ?_, ?_⟩
  · intro i n b hn hbn hb0 hu
    obtain ⟨m, hm, hmb⟩ := hget i n hn
    refine h.keep i m b hm (baseName_iff.2 (hmb.trans (baseName_iff.1 hbn))) hb0 ?_
    intro j m' hj hm' hb'
    have hj' : j < names'.length := by rw [← hlen]; exact (List.getElem?_eq_some_iff.1 hm').1
    obtain ⟨m'', h1, h2⟩ := hget j _ (List.getElem?_eq_getElem hj')
    rw [hm'] at h1
    simp at h1
    subst h1
    exact hu j _ hj (List.getElem?_eq_getElem hj') (baseName_iff.2 (h2.symm.trans (baseName_iff.1 hb')))
  · intro i j n n' b hn hbn hn' hbn' hor
    obtain ⟨m, hm, hmb⟩ := hget i n hn
    obtain ⟨m', hm', hmb'⟩ := hget j n' hn'
    exact h.number i j m m' b hm (baseName_iff.2 (hmb.trans (baseName_iff.1 hbn))) hm'
      (baseName_iff.2 (hmb'.trans (baseName_iff.1 hbn'))) hor

theorem toDigits_digit {k : Nat} : ∀ c ∈ Nat.toDigits 10 k, c.isDigit = true :=
  fun _ hc => Nat.isDigit_of_mem_toDigits (by omega) (by omega) hc

theorem toDigits_nonzero {k : Nat} (hk : k ≠ 0) : ∃ c ∈ Nat.toDigits 10 k, c ≠ '0' := by
  have h := (ofDigitChars_pos (Nat.toDigits 10 k) toDigits_digit 0).1
  rw [Nat.ofDigitChars_ten_toDigits] at h
  rcases h hk with h | h
  · exact absurd rfl h
  · exact h

theorem suffix_inj {b b' : List Char} {i j : Nat}
    (h : b ++ dots ++ Nat.toDigits 10 i = b' ++ dots ++ Nat.toDigits 10 j) : i = j ∧ b = b' := by
  have key : ∀ (b : List Char) (k : Nat),
      (b ++ dots ++ Nat.toDigits 10 k).reverse.takeWhile Char.isDigit = (Nat.toDigits 10 k).reverse := by
    intro b k
    rw [List.reverse_append, List.reverse_append, List.takeWhile_append_of_pos]
    · simp [dots, Char.isDigit]
    · intro c hc; exact toDigits_digit c (by simpa using hc)
  have h1 := key b i
  rw [h, key b' j] at h1
  have h2 : Nat.toDigits 10 j = Nat.toDigits 10 i := by simpa using h1
  have h3 := congrArg (fun d => Nat.ofDigitChars 10 d 0) h2
  simp only [Nat.ofDigitChars_ten_toDigits] at h3
  subst h3
  exact ⟨rfl, by simpa using h⟩

/-- Properties of base names. -/
theorem base_props (n : Name) (h : baseOf n ≠ []) : (∀ c, ¬ Suffixed c (baseOf n)) ∧
    ¬ DotsNumber (baseOf n) := by
  have hs := baseOf_spec n
  generalize baseOf n = b at h hs
  cases n with
  | none => exact absurd hs h
  | some s =>
    rcases hs with ⟨_, hs⟩ | ⟨h1, h2⟩
    · exact absurd hs h
    · refine ⟨h2.not_suffixed, fun hd => h1 (.inr (.inr ?_))⟩
      rcases h2.pos with ⟨rfl, _⟩ | ⟨⟨r, hr⟩, _⟩
      · exact hd
      · rw [hr, List.append_assoc]; exact hd.append _

theorem suffixed_digits {b : List Char} (hb : b ≠ []) (k : Nat) :
    Suffixed b (b ++ dots ++ Nat.toDigits 10 k) :=
  ⟨hb, _, Nat.toDigits_ne_nil, toDigits_digit, rfl⟩

theorem dotsNumber_digits {k : Nat} (hk : k ≠ 0) : DotsNumber (dots ++ Nat.toDigits 10 k) :=
  ⟨dots, [], [], _, [], .inr rfl, by simp, by simp, toDigits_digit, toDigits_nonzero hk, by simp⟩

theorem Spec.UniqueRepair.valid {names out : List Name} (h : UniqueRepair names out) :
    ∀ n ∈ out, ∃ s, n = some s ∧ s ≠ [] := by
  intro n hn
  obtain ⟨i, hi, rfl⟩ := List.mem_iff_getElem.1 hn
  have hi' : i < names.length := by rw [← h.size]; exact hi
  have ho : out[i]? = some out[i] := List.getElem?_eq_getElem hi
  rcases h.get (List.getElem?_eq_getElem hi') with ⟨h1, h2, _⟩ | ⟨h1, _⟩
  · rw [ho] at h2; simp at h2; exact ⟨_, h2, h1⟩
  · rw [ho] at h1; simp at h1; exact ⟨_, h1, by simp [dots]⟩

theorem Spec.UniqueRepair.inj {names out : List Name} (h : UniqueRepair names out) {i j : Nat}
    {n : Name} (hi : out[i]? = some n) (hj : out[j]? = some n) : i = j := by
  have hil : i < names.length := by rw [← h.size]; exact (List.getElem?_eq_some_iff.1 hi).1
  have hjl : j < names.length := by rw [← h.size]; exact (List.getElem?_eq_some_iff.1 hj).1
  have key : ∀ (i j : Nat) (hi : i < names.length) (hj : j < names.length),
      baseOf names[i] ≠ [] → baseOf names[i] ≠ baseOf names[j] ++ dots ++ Nat.toDigits 10 (j + 1) := by
    intro i j hi hj h0 he
    obtain ⟨h1, h2⟩ := base_props _ h0
    by_cases hb : baseOf names[j] = []
    · rw [he, hb] at h2
      exact h2 (dotsNumber_digits (by omega))
    · exact h1 _ (he ▸ suffixed_digits hb _)
  rcases h.get (List.getElem?_eq_getElem hil) with ⟨h1, h2, h3⟩ | ⟨h1, _⟩ <;>
  rcases h.get (List.getElem?_eq_getElem hjl) with ⟨g1, g2, g3⟩ | ⟨g1, _⟩
  · by_contra hne
    refine h3 j _ (fun h => hne h.symm) (List.getElem?_eq_getElem hjl) ?_
    rw [hi] at h2; rw [hj] at g2
    rw [h2] at g2
    simpa using g2.symm
  · rw [hi] at h2; rw [hj] at g1
    rw [h2] at g1
    simp only [Option.some.injEq] at g1
    exact absurd g1 (key i j hil hjl h1)
  · rw [hi] at h1; rw [hj] at g2
    rw [h1] at g2
    simp only [Option.some.injEq] at g2
    exact absurd g2.symm (key j i hjl hil g1)
  · rw [hi] at h1; rw [hj] at g1
    rw [h1] at g1
    simp only [Option.some.injEq] at g1
    have := (suffix_inj g1).1
    omega

/-- The base name of a repaired name. -/
theorem Spec.UniqueRepair.base {names out : List Name} (h : UniqueRepair names out) {i : Nat}
    {n m : Name} (hi : names[i]? = some n) (ho : out[i]? = some m) :
    baseOf m = if m = some dots then [] else baseOf n := by
  rcases h.get hi with ⟨h1, h2, _⟩ | ⟨h1, _⟩
  · rw [ho] at h2
    simp only [Option.some.injEq] at h2
    subst h2
    split
    · rename_i hd
      exact baseName_iff.1 (.inl ⟨.inr (.inl (Option.some.inj hd)), rfl⟩)
    · rename_i hd
      obtain ⟨g1, g2⟩ := base_props n h1
      refine baseName_iff.1 (.inr ⟨?_, .done g1⟩)
      rintro (h | h | h)
      · exact h1 h
      · exact hd (by rw [h]; rfl)
      · exact g2 h
  · rw [ho] at h1
    simp only [Option.some.injEq] at h1
    subst h1
    have hpos : 0 < (Nat.toDigits 10 (i + 1)).length := Nat.length_toDigits_pos
    have hne : (some (baseOf n ++ dots ++ Nat.toDigits 10 (i + 1)) : Name) ≠ some dots := by
      intro h
      have := congrArg List.length (Option.some.inj h)
      simp only [List.length_append] at this
      omega
    rw [if_neg hne]
    by_cases hb : baseOf n = []
    · rw [hb]
      exact baseName_iff.1 (.inl ⟨.inr (.inr (dotsNumber_digits (by omega))), rfl⟩)
    · obtain ⟨g1, g2⟩ := base_props n hb
      refine baseName_iff.1 (.inr ⟨?_, .step (suffixed_digits hb _) (.done g1)⟩)
      rintro (h | h | h)
      · simp [dots] at h
      · exact hne (by rw [h]; rfl)
      · exact g2 (dotsNumber_of_append hb h)

theorem Spec.UniqueRepair.idem {names out : List Name} (h : UniqueRepair names out)
    (hd : some dots ∉ out) : UniqueRepair out out := by
  refine uniqueRepair_congr h ?_
  refine List.ext_getElem? fun i => ?_
  rcases Nat.lt_or_ge i names.length with hi | hi
  · have hi' : i < out.length := by rw [h.size]; exact hi
    have h1 : names[i]? = some names[i] := List.getElem?_eq_getElem hi
    have h2 : out[i]? = some out[i] := List.getElem?_eq_getElem hi'
    have := h.base h1 h2
    rw [if_neg (fun he => hd (by rw [← he]; exact List.getElem_mem _))] at this
    rw [List.getElem?_map, List.getElem?_map, h1, h2]
    simp [this]
  · rw [List.getElem?_eq_none (by simpa using hi), List.getElem?_eq_none (by simpa [h.size] using hi)]

/-- A name `...` in the result is replaced by the next repair. -/
theorem Spec.UniqueRepair.not_idem {names out : List Name} (h : UniqueRepair names out)
    (hd : some dots ∈ out) : ¬ UniqueRepair out out := by
  intro h'
  obtain ⟨i, hi, he⟩ := List.mem_iff_getElem.1 hd
  have h2 : out[i]? = some (some dots) := by rw [List.getElem?_eq_getElem hi, he]
  have hb : baseOf (some dots) = [] := baseName_iff.1 (.inl ⟨.inr (.inl rfl), rfl⟩)
  rcases h'.get h2 with ⟨h1, _, _⟩ | ⟨h1, _⟩
  · exact h1 hb
  · rw [h2, hb] at h1
    have := congrArg List.length (Option.some.inj (Option.some.inj h1))
    have hpos : 0 < (Nat.toDigits 10 (i + 1)).length := Nat.length_toDigits_pos
    simp only [List.length_append] at this
    simp at this

/-- After two repairs no name `...` is left. -/
theorem Spec.UniqueRepair.twice {names out out2 : List Name} (h : UniqueRepair names out)
    (h' : UniqueRepair out out2) : some dots ∉ out2 := by
  intro hd
  obtain ⟨i, hi, he⟩ := List.mem_iff_getElem.1 hd
  have h2 : out2[i]? = some (some dots) := by rw [List.getElem?_eq_getElem hi, he]
  have hio : i < out.length := by rw [← h'.size]; exact hi
  have hin : i < names.length := by rw [← h.size]; exact hio
  have ho : out[i]? = some out[i] := List.getElem?_eq_getElem hio
  have hn : names[i]? = some names[i] := List.getElem?_eq_getElem hin
  have hb := h.base hn ho
  rcases h'.get ho with ⟨h1, h3, h4⟩ | ⟨h1, _⟩
  · rw [h2] at h3
    have h3 : dots = baseOf out[i] := Option.some.inj (Option.some.inj h3)
    split at hb
    · exact h1 hb
    · rename_i hne
      rcases h.get hn with ⟨g1, g2, _⟩ | ⟨g1, g2⟩
      · rw [ho, ← hb, ← h3] at g2
        exact hne (Option.some.inj g2)
      · rcases g2 with g2 | ⟨j, m, hj, hm, hmb⟩
        · rw [g2] at hb; exact h1 hb
        · have hjo : j < out.length := by rw [h.size]; exact (List.getElem?_eq_some_iff.1 hm).1
          have hoj : out[j]? = some out[j] := List.getElem?_eq_getElem hjo
          have hbj := h.base hm hoj
          refine h4 j _ hj hoj ?_
          rw [hbj, hb, hmb]
          rw [if_neg]
          intro hdj
          rcases h.get hm with ⟨g1, g2, g3⟩ | ⟨g1, _⟩
          · exact g3 i _ (fun h => hj h.symm) hn hmb.symm
          · rw [hoj, hdj] at g1
            have := congrArg List.length (Option.some.inj (Option.some.inj g1))
            have hpos : 0 < (Nat.toDigits 10 (j + 1)).length := Nat.length_toDigits_pos
            simp only [List.length_append] at this
            omega
  · rw [h2] at h1
    have := congrArg List.length (Option.some.inj (Option.some.inj h1))
    have hpos : 0 < (Nat.toDigits 10 (i + 1)).length := Nat.length_toDigits_pos
    simp only [List.length_append] at this
    omega

/-! ## The checks -/

theorem scan_any {β : Type} (l : List β) (F : Nat → Bool → C (Ctl Bool)) (p : β → Bool) (b0 : Bool)
    (hF : ∀ (i : Nat) a b, l[i]? = some a →
      F i b = .ok (if p a then .brk (!b0) else .next b0)) :
    forBrk l.length F b0 = .ok (if l.any p then !b0 else b0) := by
  have h : Ret (forBrk l.length F b0) (fun b => b = if l.any p then !b0 else b0) := by
    refine Ret.forBrk (fun i b => b = b0 ∧ ∀ (j : Nat) a, j < i → l[j]? = some a → p a = false) _
      ⟨rfl, by intro j a hj; omega⟩ ?_ ?_
    · rintro i b hi ⟨rfl, hI⟩
      have ha : l[i]? = some l[i] := List.getElem?_eq_getElem hi
      refine Ret.of_eq (hF i _ b ha) ?_
      by_cases hp : p l[i] = true
      · rw [if_pos hp]
        simp only
        rw [if_pos]
        rw [List.any_eq_true]
        exact ⟨_, List.getElem_mem _, hp⟩
      · rw [if_neg hp]
        refine ⟨rfl, ?_⟩
        intro j a hj hja
        rcases Nat.lt_or_eq_of_le (Nat.le_of_lt_succ hj) with h | h
        · exact hI j a h hja
        · subst h
          rw [ha] at hja
          simp only [Option.some.injEq] at hja
          subst hja
          simpa using hp
    · rintro b ⟨rfl, hI⟩
      rw [if_neg]
      rw [List.any_eq_true]
      rintro ⟨a, ha, hp⟩
      obtain ⟨i, hi, rfl⟩ := List.mem_iff_getElem.1 ha
      rw [hI i _ hi (List.getElem?_eq_getElem hi)] at hp
      simp at hp
  obtain ⟨b, hb, rfl⟩ := h
  exact hb

theorem isUniqueNames_ok (h : Name → BitVec 32) (names : List Name)
    (hn : names.length ≤ 2147483647) : ∃ b, isUniqueNames h names = .ok b ∧
      (b = true ↔ (∀ (i j : Nat) n, names[i]? = some n → names[j]? = some n → i = j) ∧
        ∀ n ∈ names, needsSuffix n = false) := by
  obtain ⟨d, hd, hdi⟩ := C05_duplicate_any (nameOps_eqv h) names hn
  unfold isUniqueNames
  rw [hd]
  simp only [ok_bind]
  have hdi' : d = false ↔ ∀ (i j : Nat) n, names[i]? = some n → names[j]? = some n → i = j := by
    constructor
    · rintro rfl i j n hi hj
      by_contra hne
      have : false = true := hdi.2 (by
        rcases Nat.lt_or_ge i j with hlt | hge
        · exact ⟨i, j, n, n, hlt, hi, hj, by simp [nameOps]⟩
        · exact ⟨j, i, n, n, by omega, hj, hi, by simp [nameOps]⟩)
      simp at this
    · intro h
      cases d with
      | false => rfl
      | true =>
        obtain ⟨i, j, y, z, hij, hy, hz, hyz⟩ := hdi.1 rfl
        simp only [nameOps, decide_eq_true_eq] at hyz
        subst hyz
        have := h i j _ hy hz
        omega
  cases d with
  | true =>
    refine ⟨false, rfl, ?_⟩
    simp only [Bool.false_eq_true, false_iff]
    rintro ⟨h1, _⟩
    have := hdi'.2 h1
    simp at this
  | false =>
    simp only [Bool.false_eq_true, if_false]
    rw [scan_any names _ needsSuffix true (by
      intro i a b ha
      simp only [rd_of_getElem? ha, ok_bind, Bool.not_true])]
    refine ⟨_, rfl, ?_⟩
    have := hdi'.1 rfl
    by_cases hany : names.any needsSuffix = true
    · rw [if_pos hany]
      simp only [Bool.not_true, Bool.false_eq_true, false_iff]
      rintro ⟨_, h2⟩
      obtain ⟨n, hn, hns⟩ := List.any_eq_true.1 hany
      rw [h2 n hn] at hns
      simp at hns
    · rw [if_neg hany]
      simp only [true_iff]
      refine ⟨this, fun n hn => ?_⟩
      rw [List.any_eq_true] at hany
      simpa using fun h => hany ⟨n, hn, h⟩

theorem suffixPos_total (s : List Char) : ∃ o, suffixPos s = .ok o := by
  obtain ⟨o, h1, _⟩ := suffixScan_acc s.reverse none 0 false (by omega)
  exact ⟨o, h1⟩

theorem anyHasSuffix_ok (names : List Name) : ∃ b, anyHasSuffix names = .ok b ∧
    (b = false ↔ ∀ n ∈ names, suffixPos (cString n) = .ok none) := by
  unfold anyHasSuffix
  rw [scan_any names _ (fun n => match suffixPos (cString n) with
    | .ok (some _) => true
    | _ => false) false (by
      intro i a b ha
      simp only [rd_of_getElem? ha, ok_bind]
      obtain ⟨o, ho⟩ := suffixPos_total (cString a)
      rw [ho]
      cases o <;> simp)]
  refine ⟨_, rfl, ?_⟩
  simp only [Bool.not_false, ite_eq_right_iff]
  simp only [Bool.true_eq_false, imp_false, List.any_eq_true, not_exists, not_and]
  refine forall_congr' fun n => imp_congr_right fun _ => ?_
  obtain ⟨o, ho⟩ := suffixPos_total (cString n)
  rw [ho]
  cases o <;> simp

/-- Names which are valid and unique, and have no suffixes, are their own repair. -/
theorem uniqueRepair_self (names : List Name)
    (hu : ∀ (i j : Nat) n, names[i]? = some n → names[j]? = some n → i = j)
    (hv : ∀ n ∈ names, needsSuffix n = false)
    (hs : ∀ n ∈ names, suffixPos (cString n) = .ok none) : UniqueRepair names names := by
  have hb : ∀ n ∈ names, ∃ s, n = some s ∧ baseOf n = s ∧ s ≠ [] := by
    intro n hn
    have h1 := hv n hn
    have h2 := hs n hn
    cases n with
    | none => simp [needsSuffix] at h1
    | some s =>
      have hbad : ¬ BadName s := fun h => by
        rw [(needsSuffix_iff s).2 h] at h1; simp at h1
      refine ⟨s, rfl, baseName_iff.1 (.inr ⟨hbad, .done ?_⟩), fun h => hbad (.inl h)⟩
      intro c hc
      obtain ⟨o, _, h3⟩ := suffixPos_suffixed hc
      simp only [cString] at h2
      rw [h2] at h3
      cases o <;> simp at h3
  refine ⟨rfl, ?_, ?_⟩
  · intro i n b hi hbn _ _
    obtain ⟨s, rfl, h2, _⟩ := hb n (List.mem_of_getElem? hi)
    rw [hi, ← baseName_iff.1 hbn, h2]
  · intro i j n n' b hi hbn hj hbn' hor
    obtain ⟨s, rfl, h2, h3⟩ := hb n (List.mem_of_getElem? hi)
    obtain ⟨s', rfl, h2', h3'⟩ := hb n' (List.mem_of_getElem? hj)
    have e1 := baseName_iff.1 hbn
    have e2 := baseName_iff.1 hbn'
    rw [h2] at e1
    rw [h2'] at e2
    subst e1 e2
    rcases hor with h | h
    · exact absurd h h3
    · exact absurd (hu j i _ hj hi) h

theorem vecAsUniqueNames_ok (h : Name → BitVec 32) (names : List Name)
    (hn : names.length ≤ 2147483647) (hl : ∀ n ∈ names, (baseOf n).length ≤ 2147483619) :
    ∃ out, vecAsUniqueNames h names = .ok out ∧ UniqueRepair names out := by
  obtain ⟨u, hu, hui⟩ := isUniqueNames_ok h names hn
  unfold vecAsUniqueNames
  rw [hu]
  simp only [ok_bind]
  cases u with
  | false => simp only [Bool.false_eq_true, if_false]; exact asUniqueNamesImpl_ok h names hn hl
  | true =>
    simp only [if_true]
    obtain ⟨a, ha, hai⟩ := anyHasSuffix_ok names
    rw [ha]
    simp only [ok_bind]
    cases a with
    | true => simp only [if_true]; exact asUniqueNamesImpl_ok h names hn hl
    | false =>
      simp only [Bool.false_eq_true, if_false]
      exact ⟨names, rfl, uniqueRepair_self names (hui.1 rfl).1 (hui.1 rfl).2 (hai.1 rfl)⟩

theorem baseOf_length (n : Name) (k : Nat) (h : ∀ s, n = some s → s.length ≤ k) :
    (baseOf n).length ≤ k := by
  have hs := baseOf_spec n
  generalize baseOf n = b at hs
  cases n with
  | none => cases hs; simp
  | some s =>
    have := h s rfl
    rcases hs with ⟨_, rfl⟩ | ⟨_, h2⟩
    · simp
    · rcases h2.pos with ⟨rfl, _⟩ | ⟨⟨r, rfl⟩, _⟩
      · exact this
      · simp at this; omega

/-! ## Minimal names and sequences of names -/

/-- `NA` becomes `""`. -/
theorem asMinimalNames_ok (names : List Name) :
    ∃ out, asMinimalNames names = .ok out ∧ out.length = names.length ∧
      (∀ (i : Nat) s, names[i]? = some (some s) → out[i]? = some (some s)) ∧
      ∀ i : Nat, names[i]? = some none → out[i]? = some (some []) := by
  suffices h : Ret (asMinimalNames names) (fun out => out.length = names.length ∧
      (∀ (i : Nat) s, names[i]? = some (some s) → out[i]? = some (some s)) ∧
      ∀ i : Nat, names[i]? = some none → out[i]? = some (some [])) from h
  refine Ret.bind (Ret.forBrk (fun i k => k = i ∧ ∀ j : Nat, j < i → names[j]? ≠ some none)
    (fun k => k ≤ names.length ∧ ∀ j : Nat, j < k → names[j]? ≠ some none)
    ⟨rfl, by intro j hj; omega⟩ ?_ ?_) ?_
  · rintro i k hi ⟨rfl, hI⟩
    have ha : names[k]? = some names[k] := List.getElem?_eq_getElem hi
    simp only [rd_of_getElem? ha, ok_bind]
    refine Ret.ok ?_
    by_cases hn : names[k] = none
    · rw [if_pos hn]; exact ⟨by omega, hI⟩
    · rw [if_neg hn]
      refine ⟨rfl, fun j hj => ?_⟩
      rcases Nat.lt_or_eq_of_le (Nat.le_of_lt_succ hj) with h | h
      · exact hI j h
      · subst h; rw [ha]; simpa using hn
  · rintro k ⟨rfl, hI⟩
    exact ⟨le_refl _, hI⟩
  · rintro k ⟨hk, hI⟩
    by_cases he : k = names.length
    · rw [if_pos he]
      refine Ret.ok ⟨rfl, fun i s h => h, fun i h => ?_⟩
      exact absurd h (hI i (by have := (List.getElem?_eq_some_iff.1 h).1; omega))
    · rw [if_neg he]
      refine (Ret.forFrom (fun j (v : List Name) => v.length = names.length ∧
        (∀ (i : Nat) s, names[i]? = some (some s) → v[i]? = some (some s)) ∧
        (∀ i : Nat, i < j → names[i]? = some none → v[i]? = some (some [])))
        ⟨rfl, fun i s h => h, fun i hi h => absurd h (hI i hi)⟩ ?_).mono ?_
      · rintro j v h1 h2 ⟨h3, h4, h5⟩
        have hj : j < names.length := by omega
        have ha : names[j]? = some names[j] := List.getElem?_eq_getElem hj
        simp only [rd_of_getElem? ha, ok_bind]
        by_cases hn : names[j] = none
        · rw [if_pos hn]
          refine Ret.of_eq (wr_ok (by omega)) ⟨by simpa using h3, ?_, ?_⟩
          · intro i s hi
            rw [getElem?_set' (by omega), if_neg]
            · exact h4 i s hi
            · rintro rfl; rw [ha, hn] at hi; simp at hi
          · intro i hi hin
            rw [getElem?_set' (by omega)]
            split
            · rfl
            · exact h5 i (by omega) hin
        · rw [if_neg hn]
          refine Ret.ok ⟨h3, h4, fun i hi hin => ?_⟩
          rcases Nat.lt_or_eq_of_le (Nat.le_of_lt_succ hi) with h | h
          · exact h5 i h hin
          · subst h; rw [ha] at hin; simp at hin; exact absurd hin hn
      · rintro v ⟨h1, h2, h3⟩
        refine ⟨h1, h2, fun i hi => h3 i ?_ hi⟩
        have := (List.getElem?_eq_some_iff.1 hi).1
        omega

theorem chrIota_ok (n len : Nat) (pre : List Char) (hn : n ≤ 2147483647)
    (hlen : pre.length + 11 ≤ len) : chrIota n len pre =
      .ok (some ((List.range n).map (fun i => some (pre ++ Nat.toDigits 10 (i + 1))))) := by
  suffices h : Ret (chrIota n len pre) (fun r => r = some ((List.range n).map
      (fun i => some (pre ++ Nat.toDigits 10 (i + 1))))) by
    obtain ⟨r, hr, rfl⟩ := h; exact hr
  unfold chrIota
  rw [if_neg (by omega)]
  refine Ret.bind (Ret.forBrk (fun i s => ∃ v, s = some v ∧
    Wrote ((List.range i).map (fun i => some (pre ++ Nat.toDigits 10 (i + 1)))) n v)
    (fun s => ∃ v, s = some v ∧
      Wrote ((List.range n).map (fun i => some (pre ++ Nat.toDigits 10 (i + 1)))) n v)
    ⟨_, rfl, by simpa using Wrote.start n⟩ ?_ ?_) ?_
  · rintro i s hi ⟨v, rfl, hv⟩
    have hk : chkNat (i + 1) = .ok (i + 1) := by
      rw [chkNat, if_neg (by simp only [intMax]; omega)]
    have hl := toDigits_len (i + 1) (by omega)
    obtain ⟨h1, h2⟩ := hv.step (some (pre ++ Nat.toDigits 10 (i + 1))) (k := i) (by simp) hi
    simp only [iotaStep]
    rw [hk, ok_bind, if_neg (by omega), h1, ok_bind]
    refine Ret.ok ⟨_, rfl, ?_⟩
    rw [List.range_succ, List.map_append]
    exact h2
  · rintro s h; exact h
  · rintro s ⟨v, rfl, hv⟩
    refine Ret.bind_eq (hv.done (by simp)) ?_
    exact Ret.ok rfl

theorem namesIota_ok (n : Nat) (hn : n ≤ 2147483647) : namesIota n =
    .ok ((List.range n).map (fun i => some (dots ++ Nat.toDigits 10 (i + 1)))) := by
  unfold namesIota
  rw [chrIota_ok n 28 dots hn (by simp [dots])]
  rfl

end Vctrs
