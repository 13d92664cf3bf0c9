import Verif.SpecRepair
import Verif.Props.C23
import Verif.Props.C24

/-! # C74: strategies of name repair

Which arguments name a strategy, what functions of the user may return, and which names pass the
check of uniqueness. -/

namespace Vctrs

open Spec

theorem newOpts_chr {s : String} {rest : List Name} {t : RepairType} {b : Bool} (h : Strategy s t b)
    (quiet : Bool) : newNameRepairOpts (.chr (some s.toList :: rest)) quiet = .ok ⟨t, quiet || b⟩ := by
  cases h <;> cases quiet <;> rfl

/-- An argument is accepted exactly if it is a function, a formula which is one, or a character
vector starting with the name of a strategy, and gives the options it stands for; all other
arguments are errors. -/
theorem C74_options (arg : RepairArg) (quiet : Bool) (opts : RepairOpts) :
    newNameRepairOpts arg quiet = .ok opts ↔ Denotes arg quiet opts := by
  constructor
  · intro h
    cases arg with
    | other => cases h
    | closure f => cases h; exact .closure
    | call c =>
      cases c with
      | error e => cases h
      | ok f => cases h; exact .call
    | chr l =>
      cases l with
      | nil => cases h
      | cons c rest =>
        have hr : rd (c :: rest) 0 = .ok c := rfl
        simp only [newNameRepairOpts, List.length_cons, Nat.add_eq_zero_iff, Nat.one_ne_zero,
          and_false, if_false] at h
        rw [hr, ok_bind] at h
        have key : ∀ {s : String} {t : RepairType} {b : Bool}, c = some s.toList → Strategy s t b →
            (⟨t, quiet || b⟩ : RepairOpts) = opts → Denotes (.chr (c :: rest)) quiet opts := by
          rintro s t b rfl hs rfl
          exact .chr hs
        split at h
        · cases h; exact key (by assumption) .none (by simp)
        split at h
        · cases h; exact key (by assumption) .minimal (by simp)
        split at h
        · cases h; exact key (by assumption) .unique (by simp)
        split at h
        · cases h; exact key (by assumption) .universal (by simp)
        split at h
        · cases h; exact key (by assumption) .checkUnique (by simp)
        split at h
        · cases h; exact key (by assumption) .uniqueQuiet (by simp)
        split at h
        · cases h; exact key (by assumption) .universalQuiet (by simp)
        cases h
  · rintro (h | _ | _)
    · exact newOpts_chr h _
    · rfl
    · rfl

theorem chrHasNa_ok (l : List Name) : chrHasNa l = .ok (l.any (fun s => s = none)) := by
  have := scan_any l (fun i _ => do
    let s ← rd l i
    .ok (if s = none then .brk true else .next false)) (fun s => s = none) false (by
      intro i a b ha
      rw [rd_of_getElem? ha, ok_bind]
      simp)
  unfold chrHasNa
  rw [this]
  cases l.any (fun s => decide (s = none)) <;> rfl

theorem validateMinimalImpl_iff (names : NamesObj) (n : Int) :
    validateMinimalImpl names n = .ok () ↔
      ∃ l, names = .chr l ∧ (n < 0 ∨ (l.length : Int) = n) ∧ none ∉ l := by
  cases names with
  | null => simp [validateMinimalImpl]
  | other => simp [validateMinimalImpl]
  | chr l =>
    simp only [validateMinimalImpl, NamesObj.chr.injEq, exists_eq_left']
    rw [chrHasNa_ok, ok_bind]
    split
    · rename_i h
      constructor
      · intro h'; cases h'
      · rintro ⟨h', _⟩; omega
    · rename_i h
      split
      · rename_i ha
        constructor
        · intro h'; cases h'
        · rintro ⟨_, h'⟩
          simp at ha
          exact absurd ha h'
      · rename_i ha
        simp at ha
        exact ⟨fun _ => ⟨by omega, ha⟩, fun _ => rfl⟩

theorem validateMinimalImpl_abort {names : NamesObj} {n : Int}
    (h : validateMinimalImpl names n ≠ .ok ()) : validateMinimalImpl names n = .error .abort := by
  cases names with
  | null => rfl
  | other => rfl
  | chr l =>
    revert h
    simp only [validateMinimalImpl]
    rw [chrHasNa_ok, ok_bind]
    split
    · intro _; rfl
    · split
      · intro _; rfl
      · intro h; exact absurd rfl h

/-- Names are validated as minimal exactly if they are a character vector without missing values,
of the given size if one is given. -/
theorem C74_minimal (names : NamesObj) (n : Option Int) :
    validateMinimalNames names (n.map (fun k => [k])) = .ok names ∨
      validateMinimalNames names (n.map (fun k => [k])) = .error .abort := by
  have h : ∀ k : Int, (validateMinimalImpl names k >>= fun _ => (.ok names : C NamesObj)) = .ok names ∨
      (validateMinimalImpl names k >>= fun _ => (.ok names : C NamesObj)) = .error .abort := by
    intro k
    by_cases h : validateMinimalImpl names k = .ok ()
    · rw [h]; exact .inl rfl
    · rw [validateMinimalImpl_abort h]; exact .inr rfl
  cases n with
  | none => exact h (-1)
  | some k => exact h k

/-- The names accepted as minimal; a negative size, such as a missing one, is not checked. -/
theorem C74_minimal_iff (names : NamesObj) (n : Option Int) :
    validateMinimalNames names (n.map (fun k => [k])) = .ok names ↔
      ∃ l, names = .chr l ∧ none ∉ l ∧ ∀ k, n = some k → 0 ≤ k → (l.length : Int) = k := by
  have h : ∀ k : Int, (validateMinimalImpl names k >>= fun _ => (.ok names : C NamesObj)) = .ok names ↔
      ∃ l, names = .chr l ∧ (k < 0 ∨ (l.length : Int) = k) ∧ none ∉ l := by
    intro k
    rw [← validateMinimalImpl_iff]
    by_cases h : validateMinimalImpl names k = .ok ()
    · rw [h]; exact ⟨fun _ => rfl, fun _ => rfl⟩
    · rw [validateMinimalImpl_abort h]
      constructor <;> intro h' <;> cases h'
  cases n with
  | none =>
    refine (h (-1)).trans ?_
    refine exists_congr fun l => ?_
    constructor
    · rintro ⟨a, _, b⟩; exact ⟨a, b, by intro k hk; cases hk⟩
    · rintro ⟨a, b, _⟩; exact ⟨a, .inl (by decide), b⟩
  | some k =>
    refine (h k).trans ?_
    refine exists_congr fun l => ?_
    constructor
    · rintro ⟨a, hk, b⟩; exact ⟨a, b, by intro k' hk' h0; cases hk'; omega⟩
    · rintro ⟨a, b, hk⟩
      refine ⟨a, ?_, b⟩
      have := hk k rfl
      omega

/-- Custom repair passes the minimal names to the function and returns what it returned exactly if
that is a character vector of the same size without missing values; anything else is an error, and
errors of the function are passed on. -/
theorem C74_custom (h : Name → BitVec 32) (universal : Bool → RepFn) (names : List Name) (f : RepFn)
    (quiet : Bool) : ∃ m, Minimal names m ∧
      (∀ out, vecAsNamesOpts h universal names ⟨.custom f, quiet⟩ = .ok out ↔
        f m = .ok out ∧ ∃ l, out = .chr l ∧ l.length = names.length ∧ none ∉ l) ∧
      (∀ e, f m = .error e → vecAsNamesOpts h universal names ⟨.custom f, quiet⟩ = .error e) ∧
      (∀ r, f m = .ok r → (¬ ∃ l, r = .chr l ∧ l.length = names.length ∧ none ∉ l) →
        vecAsNamesOpts h universal names ⟨.custom f, quiet⟩ = .error .abort) := by
  obtain ⟨m, h1, h2⟩ := asMinimalNames_ok names
  have hv : ∀ r, validateMinimalImpl r (m.length : Int) = .ok () ↔
      ∃ l, r = .chr l ∧ l.length = names.length ∧ none ∉ l := by
    intro r
    rw [validateMinimalImpl_iff]
    refine exists_congr fun l => and_congr_right fun _ => and_congr_left fun _ => ?_
    have := h2.1
    omega
  have he : vecAsNamesOpts h universal names ⟨.custom f, quiet⟩ =
      (f m >>= fun out => validateMinimalImpl out (m.length : Int) >>= fun _ => .ok out) := by
    simp only [vecAsNamesOpts, vecAsCustomNames]
    rw [h1]; rfl
  refine ⟨m, h2, ?_, ?_, ?_⟩
  · intro out
    rw [he]
    cases hf : f m with
    | error e => simp [error_bind]
    | ok r =>
      rw [ok_bind]
      by_cases hr : validateMinimalImpl r (m.length : Int) = .ok ()
      · rw [hr, ok_bind]
        constructor
        · intro h'; cases h'; exact ⟨rfl, (hv _).1 hr⟩
        · rintro ⟨h', _⟩; exact h'
      · rw [validateMinimalImpl_abort hr]
        constructor
        · intro h'; cases h'
        · rintro ⟨h', h''⟩
          cases h'
          exact absurd ((hv _).2 h'') hr
  · intro e hf
    rw [he, hf]; rfl
  · intro r hf hn
    rw [he, hf, ok_bind, validateMinimalImpl_abort (fun h' => hn ((hv r).1 h'))]
    rfl

theorem isDotDot_iff (s : List Char) : isDotDot s = true ↔ DotDot s := by
  unfold DotDot
  constructor
  · intro h
    unfold isDotDot at h
    split at h
    · exact .inl rfl
    · rename_i c d _
      simp only [Bool.and_eq_true, decide_eq_true_eq, List.all_eq_true] at h
      exact .inr ⟨c, d, h.1.1, h.1.2, h.2, rfl⟩
    · cases h
  · rintro (rfl | ⟨c, d, h1, h2, h3, rfl⟩)
    · rfl
    · unfold isDotDot
      split
      · rfl
      · rename_i heq
        injection heq with _ heq; injection heq with _ heq; injection heq with e1 e2
        subst e1; subst e2
        simp only [Bool.and_eq_true, decide_eq_true_eq, List.all_eq_true]
        exact ⟨⟨h1, h2⟩, h3⟩
      · rename_i hh
        exact absurd rfl (hh c d)

theorem nodup_iff_inj {β : Type} (l : List β) :
    l.Nodup ↔ ∀ (i j : Nat) n, l[i]? = some n → l[j]? = some n → i = j := by
  rw [List.nodup_iff_getElem?_ne_getElem?]
  constructor
  · intro H i j n hi hj
    rcases Nat.lt_trichotomy i j with hlt | heq | hgt
    · exact absurd (hi.trans hj.symm) (H i j hlt (List.getElem?_eq_some_iff.1 hj).1)
    · exact heq
    · exact absurd (hj.trans hi.symm) (H j i hgt (List.getElem?_eq_some_iff.1 hi).1)
  · intro H i j hij hj he
    have := H i j l[j] (by rw [he]; exact List.getElem?_eq_getElem hj) (List.getElem?_eq_getElem hj)
    omega

/-- The check of uniqueness returns the names unchanged exactly if they are distinct and none is
missing, empty, `...` or `..1`; it fails on all other names. -/
theorem C74_check_unique (h : Name → BitVec 32) (universal : Bool → RepFn) (names : List Name)
    (quiet : Bool) :
    (UniqueNames names → vecAsNamesOpts h universal names ⟨.checkUnique, quiet⟩ = .ok (.chr names)) ∧
    (¬ UniqueNames names → vecAsNamesOpts h universal names ⟨.checkUnique, quiet⟩ = .error .abort) := by
  simp only [vecAsNamesOpts, validateUnique]
  have hm := C74_minimal_iff (.chr names) none
  have ha := C74_minimal (.chr names) none
  simp only [Option.map_none] at hm ha
  by_cases hna : none ∈ names
  · have : ¬ UniqueNames names := by
      intro hu
      obtain ⟨s, hs, _⟩ := hu.valid _ hna
      cases hs
    refine ⟨fun hu => absurd hu this, fun _ => ?_⟩
    rcases ha with ha | ha
    · obtain ⟨l, hl, hl', _⟩ := hm.1 ha
      cases hl
      exact absurd hna hl'
    · rw [ha]; rfl
  · rw [hm.2 ⟨names, rfl, hna, by intro k hk; cases hk⟩, ok_bind]
    split
    · rename_i h1
      simp only [List.any_eq_true, decide_eq_true_eq] at h1
      obtain ⟨n, hn, rfl⟩ := h1
      refine ⟨fun hu => ?_, fun _ => rfl⟩
      obtain ⟨s, hs, h0, _⟩ := hu.valid _ hn
      cases hs; exact absurd rfl h0
    rename_i h1
    split
    · rename_i h2
      rw [List.any_eq_true] at h2
      obtain ⟨n, hn, hd⟩ := h2
      refine ⟨fun hu => ?_, fun _ => rfl⟩
      obtain ⟨s, rfl, _, hdd⟩ := hu.valid _ hn
      exact absurd ((isDotDot_iff s).1 hd) hdd
    rename_i h2
    split
    · rename_i h3
      exact ⟨fun hu => absurd ((nodup_iff_inj names).2 hu.distinct) h3, fun _ => rfl⟩
    · rename_i h3
      refine ⟨fun _ => rfl, fun hu => absurd ⟨(nodup_iff_inj names).1 (by
        by_contra hc; exact h3 hc), ?_⟩ hu⟩
      intro n hn
      cases n with
      | none => exact absurd hn hna
      | some s =>
        refine ⟨s, rfl, ?_, ?_⟩
        · rintro rfl
          exact h1 (List.any_eq_true.2 ⟨_, hn, by simp⟩)
        · intro hd
          exact h2 (List.any_eq_true.2 ⟨_, hn, (isDotDot_iff s).2 hd⟩)

theorem dotDot_number {s : List Char} (h : DotDot s) (hs : s ≠ ['.', '.', '.']) : DotsNumber s := by
  rcases h with h | ⟨c, d, h1, h2, h3, rfl⟩
  · exact absurd h hs
  · refine ⟨['.', '.'], [], [], c :: d, [], .inl rfl, by simp, by simp, ?_, ⟨c, by simp, h2⟩, by simp⟩
    intro x hx
    rcases List.mem_cons.1 hx with rfl | hx
    · exact h1
    · exact h3 x hx

theorem not_dotDot_suffixed (b t : List Char) (ht : t ≠ []) :
    ¬ DotDot (b ++ ['.', '.', '.'] ++ t) := by
  rintro (h | ⟨c, d, h1, h2, h3, h⟩)
  · have := congrArg List.length h
    have h0 : t.length ≠ 0 := fun h0 => ht (List.length_eq_zero_iff.1 h0)
    simp only [List.length_append, List.length_cons, List.length_nil] at this
    omega
  · have hc : List.count '.' (c :: d) = 0 := by
      rw [List.count_eq_zero]
      intro hm
      rcases List.mem_cons.1 hm with rfl | hm
      · exact absurd h1 (by decide)
      · exact absurd (h3 _ hm) (by decide)
    have h4 : List.count '.' (['.', '.'] ++ (c :: d)) = 2 := by
      rw [List.count_append, hc]; decide
    have h5 : 3 ≤ List.count '.' (b ++ ['.', '.', '.'] ++ t) := by
      rw [List.count_append, List.count_append]
      have : List.count '.' ['.', '.', '.'] = 3 := by decide
      omega
    have h6 := congrArg (List.count '.') h
    have : '.' :: '.' :: c :: d = ['.', '.'] ++ (c :: d) := rfl
    rw [this, h4] at h6
    omega

/-- One would expect the names repaired by `"unique"` to pass the check of `"check_unique"`.  They
do exactly if the repair produces no name `...` (missing: the other results, which the check
rejects, see `C74_unique_rejected`). -/
theorem C74_unique_checks_partial (h : Name → BitVec 32) (universal : Bool → RepFn)
    (names : List Name) (hn : names.length ≤ 2147483647)
    (hl : ∀ s, some s ∈ names → s.length ≤ 2147483619) :
    ∃ out, (∀ quiet, vecAsNamesOpts h universal names ⟨.unique, quiet⟩ = .ok (.chr out)) ∧
      ∀ quiet, (vecAsNamesOpts h universal out ⟨.checkUnique, quiet⟩ = .ok (.chr out) ↔
        some ['.', '.', '.'] ∉ out) := by
  obtain ⟨out, h1, h2⟩ := vecAsUniqueNames_ok h names hn
    (fun n hn => baseOf_length n _ (fun s hs => hl s (hs ▸ hn)))
  refine ⟨out, fun _ => by simp only [vecAsNamesOpts]; rw [h1]; rfl, fun quiet => ?_⟩
  obtain ⟨c1, c2⟩ := C74_check_unique h universal out quiet
  constructor
  · intro hc hd
    by_cases hu : UniqueNames out
    · obtain ⟨s, hs, _, hdd⟩ := hu.valid _ hd
      cases hs
      exact hdd (.inl rfl)
    · rw [c2 hu] at hc; cases hc
  · intro hd
    refine c1 ⟨fun i j n hi hj => h2.inj hi hj, fun n hm => ?_⟩
    obtain ⟨s, rfl, h0⟩ := h2.valid n hm
    refine ⟨s, rfl, h0, fun hdd => ?_⟩
    have hs : s ≠ ['.', '.', '.'] := by rintro rfl; exact hd hm
    obtain ⟨i, hi, he⟩ := List.mem_iff_getElem.1 hm
    have hi' : i < names.length := by rw [← h2.size]; exact hi
    have ho : out[i]? = some (some s) := by rw [List.getElem?_eq_getElem hi, he]
    rcases h2.get (List.getElem?_eq_getElem hi') with ⟨g1, g2, _⟩ | ⟨g1, _⟩
    · rw [ho] at g2
      simp only [Option.some.injEq] at g2
      exact (base_props _ g1).2 (g2 ▸ dotDot_number hdd hs)
    · rw [ho] at g1
      simp only [Option.some.injEq] at g1
      have hpos : 0 < (Nat.toDigits 10 (i + 1)).length := Nat.length_toDigits_pos
      exact not_dotDot_suffixed _ _ (List.ne_nil_of_length_pos hpos) (g1 ▸ hdd)

/-- Names none of which loses a suffix following three dots pass the check once repaired. -/
theorem C74_unique_checks (h : Name → BitVec 32) (universal : Bool → RepFn)
    (names : List Name) (hn : names.length ≤ 2147483647)
    (hl : ∀ s, some s ∈ names → s.length ≤ 2147483619)
    (hd : ∀ s, some s ∈ names → ¬ StripsTo s ['.', '.', '.']) :
    ∃ out, ∀ quiet, vecAsNamesOpts h universal names ⟨.unique, quiet⟩ = .ok (.chr out) ∧
      vecAsNamesOpts h universal out ⟨.checkUnique, quiet⟩ = .ok (.chr out) := by
  obtain ⟨out, h1, h2⟩ := C74_unique_checks_partial h universal names hn hl
  refine ⟨out, fun quiet => ⟨h1 quiet, (h2 quiet).2 ?_⟩⟩
  obtain ⟨o1, a1, a2⟩ := C24_idempotent h names hn hl hd
  obtain ⟨o2, b1, b2⟩ := C24_idempotent_partial h names hn hl
  have e1 := h1 quiet
  simp only [vecAsNamesOpts] at e1
  simp only [vecAsNames] at a1 b1 a2 b2
  rw [a1] at e1 b1
  cases b1
  cases e1
  exact b2.1 a2

/-- The names repaired by `"unique"` may fail the check of `"check_unique"`. -/
theorem C74_unique_rejected : ∃ names out : List Name, ∀ h universal quiet,
    vecAsNamesOpts h universal names ⟨.unique, quiet⟩ = .ok (.chr out) ∧
    vecAsNamesOpts h universal out ⟨.checkUnique, quiet⟩ = .error .abort := by
  obtain ⟨names, out, ho⟩ : ∃ names out : List Name, ∀ h : Name → BitVec 32,
      vecAsNames h names .unique = .ok out ∧ ¬ UniqueNames out := by
    refine ⟨[some ['.', '.', '.', '.', '.', '.', '1']], [some ['.', '.', '.']], fun h => ⟨?_, ?_⟩⟩
    · have hlen : ∀ s : List Char, some s ∈ [some ['.', '.', '.', '.', '.', '.', '1']] →
          s.length ≤ 2147483619 := by
        intro s hs
        simp only [List.mem_cons, List.not_mem_nil, or_false, Option.some.injEq] at hs
        subst hs; decide
      obtain ⟨o1, a1, a2⟩ := C23_rule h [some ['.', '.', '.', '.', '.', '.', '1']] (by decide) hlen
      obtain ⟨o2, b1, b2⟩ := C23_rule (fun _ => 0) [some ['.', '.', '.', '.', '.', '.', '1']]
        (by decide) hlen
      have h3 : vecAsNames (fun _ => 0) [some ['.', '.', '.', '.', '.', '.', '1']] .unique
          = .ok [some ['.', '.', '.']] := by decide +kernel
      rw [h3] at b1
      cases b1
      rw [a1, a2.unique b2]
    · intro hu
      obtain ⟨s, hs, _, hd⟩ := hu.valid (some ['.', '.', '.']) (by simp)
      cases hs
      exact hd (.inl rfl)
  refine ⟨names, out, fun h universal quiet => ⟨?_, (C74_check_unique h universal out quiet).2 (ho h).2⟩⟩
  have := (ho h).1
  simp only [vecAsNames] at this
  simp only [vecAsNamesOpts]
  rw [this]; rfl

/-- A validated argument is accepted again and stands for the same strategy. -/
theorem C74_validated (arg : RepairArg) (quiet : Bool) (opts : RepairOpts)
    (h : Denotes arg quiet opts) :
    ∃ arg' opts', validateNameRepairArg arg = .ok arg' ∧ Denotes arg' quiet opts' ∧
      opts'.type = opts.type ∧ validateNameRepairArg arg' = .ok arg' := by
  cases h with
  | call => exact ⟨_, _, rfl, .closure, rfl, rfl⟩
  | closure => exact ⟨_, _, rfl, .closure, rfl, rfl⟩
  | @chr s rest t silent _ hs =>
    cases rest with
    | nil =>
      refine ⟨.chr [some s.toList], _, ?_, .chr hs, rfl, ?_⟩ <;>
      · simp only [validateNameRepairArg]
        rw [newOpts_chr hs, ok_bind]
        cases hs <;> rfl
    | cons r rest =>
      have key : ∀ s' b', Strategy s' t b' → repairTypeString t = s'.toList → (∀ f, t ≠ .custom f) →
          ∃ arg' opts', validateNameRepairArg (.chr (some s.toList :: r :: rest)) = .ok arg' ∧
            Denotes arg' quiet opts' ∧ opts'.type = t ∧ validateNameRepairArg arg' = .ok arg' := by
        intro s' b' hs' ht hc
        refine ⟨.chr [some s'.toList], _, ?_, .chr hs', rfl, ?_⟩
        · simp only [validateNameRepairArg]
          rw [newOpts_chr hs, ok_bind]
          cases t <;> first | exact absurd rfl (hc _) | (rw [← ht]; rfl)
        · simp only [validateNameRepairArg]
          rw [newOpts_chr hs', ok_bind]
          cases t <;> first | exact absurd rfl (hc _) | rfl
      cases hs
      · exact key _ _ .none rfl (by intro f hf; cases hf)
      · exact key _ _ .minimal rfl (by intro f hf; cases hf)
      · exact key _ _ .unique rfl (by intro f hf; cases hf)
      · exact key _ _ .universal rfl (by intro f hf; cases hf)
      · exact key _ _ .checkUnique rfl (by intro f hf; cases hf)
      · exact key _ _ .unique rfl (by intro f hf; cases hf)
      · exact key _ _ .universal rfl (by intro f hf; cases hf)

/-- A validated argument of one string, or a function, also keeps its quietness (missing: several
strings the first of which is a quiet strategy, see `C74_quiet_lost`). -/
theorem C74_validated_quiet_partial (arg : RepairArg) (quiet : Bool) (opts : RepairOpts)
    (h : Denotes arg quiet opts) (h1 : ∀ l, arg = .chr l → l.length = 1) :
    ∃ arg', validateNameRepairArg arg = .ok arg' ∧ Denotes arg' quiet opts := by
  cases h with
  | call => exact ⟨_, rfl, .closure⟩
  | closure => exact ⟨_, rfl, .closure⟩
  | @chr s rest t silent _ hs =>
    have := h1 _ rfl
    cases rest with
    | cons r rest => simp at this
    | nil =>
      refine ⟨.chr [some s.toList], ?_, .chr hs⟩
      simp only [validateNameRepairArg]
      rw [newOpts_chr hs, ok_bind]
      cases hs <;> rfl

/-- Validating a vector of strings which starts with a quiet strategy makes it a noisy one. -/
theorem C74_quiet_lost : ∃ arg arg' : RepairArg, Denotes arg false ⟨.unique, true⟩ ∧
    validateNameRepairArg arg = .ok arg' ∧ newNameRepairOpts arg' false = .ok ⟨.unique, false⟩ := by
  refine ⟨.chr [some "unique_quiet".toList, some "unique".toList], .chr [some "unique".toList],
    .chr .uniqueQuiet, ?_, ?_⟩ <;> rfl

/-- The call from R needs a single `TRUE` or `FALSE`, a valid argument, and then applies the
strategy it stands for. -/
theorem C74_entry (h : Name → BitVec 32) (universal : Bool → RepFn) (names : List Name)
    (repair : RepairArg) (quiet : Option (List (Option Bool))) :
    (∀ q opts, quiet = some [some q] → Denotes repair q opts →
      ffiVecAsNames h universal names repair quiet = vecAsNamesOpts h universal names opts) ∧
    ((∀ q, quiet ≠ some [some q]) → ffiVecAsNames h universal names repair quiet = .error .abort) ∧
    (∀ q, quiet = some [some q] → (∀ opts, ¬ Denotes repair q opts) →
      ∃ e, ffiVecAsNames h universal names repair quiet = .error e) := by
  refine ⟨?_, ?_, ?_⟩
  · rintro q opts rfl hd
    simp only [ffiVecAsNames]
    rw [(C74_options _ _ _).2 hd, ok_bind]
  · intro hq
    unfold ffiVecAsNames
    split
    · exact absurd rfl (hq _)
    · rfl
  · rintro q rfl hd
    simp only [ffiVecAsNames]
    cases ho : newNameRepairOpts repair q with
    | error e => exact ⟨e, rfl⟩
    | ok opts => exact absurd ((C74_options _ _ _).1 ho) (hd opts)

/-- Data for the examples: a function adding a name, and one replacing all names. -/
def exLonger : RepFn := fun l => .ok (.chr (some ['x'] :: l))
def exUpper : RepFn := fun l => .ok (.chr (l.map (fun n => n.map (fun s => s.map Char.toUpper))))

example : vecAsNamesOpts (fun _ => 0) (fun _ => exUpper) [some ['a'], none] ⟨.custom exUpper, true⟩
    = .ok (.chr [some ['A'], some []]) := by decide +kernel
example : vecAsNamesOpts (fun _ => 0) (fun _ => exUpper) [some ['a'], none] ⟨.custom exLonger, true⟩
    = .error .abort := by decide +kernel
example : vecAsNamesOpts (fun _ => 0) (fun _ => exUpper) [some ['a']] ⟨.custom (fun _ => .ok .null), true⟩
    = .error .abort := by decide +kernel
example : vecAsNamesOpts (fun _ => 0) (fun _ => exUpper) [some ['a']]
    ⟨.custom (fun _ => .ok (.chr [none])), true⟩ = .error .abort := by decide +kernel
example : UniqueNames [some ['a'], some "...1".toList, some "..0".toList] := by
  refine ⟨(nodup_iff_inj _).1 (by decide), ?_⟩
  intro n hn
  simp only [List.mem_cons, List.not_mem_nil, or_false] at hn
  rcases hn with rfl | rfl | rfl <;>
    refine ⟨_, rfl, by decide, fun h => ?_⟩ <;> have := (isDotDot_iff _).2 h <;> revert this <;> decide
example : vecAsNamesOpts (fun _ => 0) (fun _ => exUpper) [some ['a'], some "..12".toList]
    ⟨.checkUnique, true⟩ = .error .abort := by decide +kernel
example : vecAsNamesOpts (fun _ => 0) (fun _ => exUpper) [some ['a'], some ['b'], some ['a']]
    ⟨.checkUnique, true⟩ = .error .abort := by decide +kernel
example : validateMinimalNames (.chr [some ['a']]) (some [2]) = .error .abort := by decide +kernel
example : validateMinimalNames (.chr [some ['a']]) (some [naInt]) = .ok (.chr [some ['a']]) := by
  decide +kernel
example : Denotes (.chr [some "universal_quiet".toList, none]) false ⟨.universal, true⟩ :=
  .chr .universalQuiet
example : ∀ opts, ¬ Denotes (.chr [none]) false opts := by
  intro opts h
  exact absurd ((C74_options _ _ _).2 h) (by intro h; cases h)
example : ffiVecAsNames (fun _ => 0) (fun _ => exUpper) [some ['a']] (.chr [some "check_unique".toList])
    (some [some true]) = .ok (.chr [some ['a']]) := by decide +kernel

end Vctrs
