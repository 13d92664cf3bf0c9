import Verif.Lemmas.Names

/-! # C24: idempotence of unique name repair

Repairing twice is the same as repairing once except when the first repair strips a suffix from a
name like `......1` and so produces the invalid name `...`. -/

namespace Vctrs

open Spec

theorem repair_base_length {names out : List Name} (h : UniqueRepair names out)
    (hl : ∀ n ∈ names, (baseOf n).length ≤ 2147483619) :
    ∀ n ∈ out, (baseOf n).length ≤ 2147483619 := by
  intro n hn
  obtain ⟨i, hi, rfl⟩ := List.mem_iff_getElem.1 hn
  have hi' : i < names.length := by rw [← h.size]; exact hi
  rw [h.base (List.getElem?_eq_getElem hi') (List.getElem?_eq_getElem hi)]
  split
  · simp
  · exact hl _ (List.getElem_mem _)

/-- C24 would be `vecAsUniqueNames h out = .ok out` for every result `out` of a repair.  It holds
exactly if the first repair produces no name `...` (missing: the other results, for which it is
false by `C24_not_idempotent`). -/
theorem C24_idempotent_partial (h : Name → BitVec 32) (names : List Name)
    (hn : names.length ≤ 2147483647) (hl : ∀ s, some s ∈ names → s.length ≤ 2147483619) :
    ∃ out, vecAsNames h names .unique = .ok out ∧
      (vecAsNames h out .unique = .ok out ↔ some ['.', '.', '.'] ∉ out) := by
  have hl' := fun n (hn : n ∈ names) => baseOf_length n _ (fun s hs => hl s (hs ▸ hn))
  obtain ⟨out, h1, h2⟩ := vecAsUniqueNames_ok h names hn hl'
  obtain ⟨out2, h3, h4⟩ := vecAsUniqueNames_ok h out (by rw [h2.size]; exact hn)
    (repair_base_length h2 hl')
  refine ⟨out, h1, ?_⟩
  simp only [vecAsNames]
  rw [h3]
  constructor
  · intro he hd
    simp at he
    subst he
    exact h2.not_idem hd h4
  · intro hd
    rw [(h2.idem hd).unique h4]

/-- A second repair is always final. -/
theorem C24_twice (h : Name → BitVec 32) (names : List Name)
    (hn : names.length ≤ 2147483647) (hl : ∀ s, some s ∈ names → s.length ≤ 2147483619) :
    ∃ out out2, vecAsNames h names .unique = .ok out ∧ vecAsNames h out .unique = .ok out2 ∧
      vecAsNames h out2 .unique = .ok out2 := by
  have hl' := fun n (hn : n ∈ names) => baseOf_length n _ (fun s hs => hl s (hs ▸ hn))
  obtain ⟨out, h1, h2⟩ := vecAsUniqueNames_ok h names hn hl'
  have hl2 := repair_base_length h2 hl'
  obtain ⟨out2, h3, h4⟩ := vecAsUniqueNames_ok h out (by rw [h2.size]; exact hn) hl2
  obtain ⟨out3, h5, h6⟩ := vecAsUniqueNames_ok h out2 (by rw [h4.size, h2.size]; exact hn)
    (repair_base_length h4 hl2)
  refine ⟨out, out2, h1, h3, ?_⟩
  simp only [vecAsNames]
  rw [h5, (h4.idem (h2.twice h4)).unique h6]

/-- Repair is idempotent on names no one of which loses a suffix following three dots. -/
theorem C24_idempotent (h : Name → BitVec 32) (names : List Name)
    (hn : names.length ≤ 2147483647) (hl : ∀ s, some s ∈ names → s.length ≤ 2147483619)
    (hd : ∀ s, some s ∈ names → ¬ StripsTo s ['.', '.', '.']) :
    ∃ out, vecAsNames h names .unique = .ok out ∧ vecAsNames h out .unique = .ok out := by
  obtain ⟨out, h1, h2⟩ := C24_idempotent_partial h names hn hl
  obtain ⟨out', h3, h4⟩ := vecAsUniqueNames_ok h names hn
    (fun n (hn : n ∈ names) => baseOf_length n _ (fun s hs => hl s (hs ▸ hn)))
  have : out' = out := by
    simp only [vecAsNames] at h1
    rw [h1] at h3
    cases h3; rfl
  subst this
  refine ⟨out', h1, h2.2 fun hm => ?_⟩
  obtain ⟨i, hi, he⟩ := List.mem_iff_getElem.1 hm
  have hi' : i < names.length := by rw [← h4.size]; exact hi
  have ho : out'[i]? = some (some ['.', '.', '.']) := by rw [List.getElem?_eq_getElem hi, he]
  rcases h4.get (List.getElem?_eq_getElem hi') with ⟨g1, g2, _⟩ | ⟨g1, _⟩
  · rw [ho] at g2
    simp only [Option.some.injEq] at g2
    have hs := baseOf_spec names[i]
    rw [← g2] at hs
    cases hni : names[i] with
    | none => rw [hni] at hs; cases hs
    | some s =>
      rw [hni] at hs
      rcases hs with ⟨_, hs⟩ | ⟨_, hs⟩
      · simp at hs
      · exact hd s (hni ▸ List.getElem_mem _) hs
  · rw [ho] at g1
    have := congrArg List.length (Option.some.inj (Option.some.inj g1))
    have hpos : 0 < (Nat.toDigits 10 (i + 1)).length := Nat.length_toDigits_pos
    simp only [List.length_append, List.length_cons, List.length_nil, dots] at this
    omega

/-- Unique repair is not idempotent: `......1` becomes `...`, which becomes `...1`. -/
theorem C24_not_idempotent : ∃ names out : List Name, ∀ h : Name → BitVec 32,
    vecAsNames h names .unique = .ok out ∧ vecAsNames h out .unique ≠ .ok out := by
  have hlen : ∀ s : List Char, some s ∈ [some ['.', '.', '.', '.', '.', '.', '1']] →
      s.length ≤ 2147483619 := by
    intro s hs
    simp only [List.mem_cons, List.not_mem_nil, or_false, Option.some.injEq] at hs
    subst hs; decide
  have h0 : UniqueRepair [some ['.', '.', '.', '.', '.', '.', '1']] [some ['.', '.', '.']] := by
    obtain ⟨out, h1, h2⟩ := vecAsUniqueNames_ok (fun _ => 0) [some ['.', '.', '.', '.', '.', '.', '1']]
      (by decide) (fun n hn => baseOf_length n _ (fun s hs => hlen s (hs ▸ hn)))
    have h3 : vecAsUniqueNames (fun _ => 0) [some ['.', '.', '.', '.', '.', '.', '1']]
        = .ok [some ['.', '.', '.']] := by decide +kernel
    rw [h1] at h3
    cases h3
    exact h2
  refine ⟨[some ['.', '.', '.', '.', '.', '.', '1']], [some ['.', '.', '.']], fun h => ?_⟩
  obtain ⟨out, h1, h2⟩ := C24_idempotent_partial h _ (by decide) hlen
  obtain ⟨out', h3, h4⟩ := vecAsUniqueNames_ok h [some ['.', '.', '.', '.', '.', '.', '1']]
    (by decide) (fun n hn => baseOf_length n _ (fun s hs => hlen s (hs ▸ hn)))
  have e1 := h4.unique h0
  subst e1
  have e2 : out = [some ['.', '.', '.']] := by
    simp only [vecAsNames] at h1
    rw [h1] at h3
    cases h3; rfl
  subst e2
  exact ⟨h1, fun he => h2.1 he (by simp)⟩

example : vecAsNames (fun _ => 0) [some "......1".toList, some "a".toList] .unique
    = .ok [some "...".toList, some "a".toList] := by decide +kernel
example : vecAsNames (fun _ => 0) [some "...".toList, some "a".toList] .unique
    = .ok [some "...1".toList, some "a".toList] := by decide +kernel
example : vecAsNames (fun _ => 0) [some "......1".toList, some "......5".toList] .unique
    = .ok [some "......1".toList, some "......2".toList] := by decide +kernel
example : ∃ out, vecAsNames (fun _ => 0) [some ['a'], none, some ['a']] .unique = .ok out ∧
    vecAsNames (fun _ => 0) out .unique = .ok out :=
  C24_idempotent _ _ (by decide) (by
    intro s hs
    simp only [List.mem_cons, List.not_mem_nil, or_false, Option.some.injEq] at hs
    rcases hs with rfl | hs | rfl <;> first | decide | simp at hs) (by
    intro s hs h
    simp only [List.mem_cons, List.not_mem_nil, or_false, Option.some.injEq] at hs
    have : s = ['a'] := by rcases hs with rfl | hs | rfl <;> first | rfl | simp at hs
    subst this
    rcases h.pos with ⟨h1, _⟩ | ⟨⟨r, hr⟩, _⟩
    · simp at h1
    · simp at hr)

end Vctrs
