import Verif.Lemmas.Names

/-! # C23: unique name repair -/

namespace Vctrs

open Spec

/-- Unique repair returns as many names as given, all distinct, none missing, none empty. -/
theorem C23_unique (h : Name → BitVec 32) (names : List Name) (hn : names.length ≤ 2147483647)
    (hl : ∀ s, some s ∈ names → s.length ≤ 2147483619) :
    ∃ out, vecAsNames h names .unique = .ok out ∧ out.length = names.length ∧ out.Nodup ∧
      none ∉ out ∧ some [] ∉ out := by
  obtain ⟨out, h1, h2⟩ := vecAsUniqueNames_ok h names hn
    (fun n hn => baseOf_length n _ (fun s hs => hl s (hs ▸ hn)))
  refine ⟨out, h1, h2.size, ?_, ?_, ?_⟩
  · rw [List.nodup_iff_getElem?_ne_getElem?]
    intro i j hij hj he
    have := h2.inj (i := i) (j := j) (n := out[j]) (by
      rw [he]; exact List.getElem?_eq_getElem hj) (List.getElem?_eq_getElem hj)
    omega
  · intro hm
    obtain ⟨s, hs, _⟩ := h2.valid _ hm
    simp at hs
  · intro hm
    obtain ⟨s, hs, h0⟩ := h2.valid _ hm
    simp at hs
    exact h0 hs

/-- The names produced: the base name where it is not empty and occurs once, the base name
followed by `...<position>` elsewhere. -/
theorem C23_rule (h : Name → BitVec 32) (names : List Name) (hn : names.length ≤ 2147483647)
    (hl : ∀ s, some s ∈ names → s.length ≤ 2147483619) :
    ∃ out, vecAsNames h names .unique = .ok out ∧ UniqueRepair names out :=
  vecAsUniqueNames_ok h names hn (fun n hn => baseOf_length n _ (fun s hs => hl s (hs ▸ hn)))

/-- Distinct names which are not missing, empty, `...`, `..1` or suffixed are returned unchanged. -/
theorem C23_unchanged (h : Name → BitVec 32) (names : List (List Char))
    (hn : names.length ≤ 2147483647) (hd : names.Nodup) (hb : ∀ s ∈ names, ¬ BadName s)
    (hs : ∀ s ∈ names, ∀ b, ¬ Suffixed b s) :
    vecAsNames h (names.map some) .unique = .ok (names.map some) := by
  obtain ⟨u, hu, hui⟩ := isUniqueNames_ok h (names.map some) (by simpa using hn)
  obtain ⟨a, ha, hai⟩ := anyHasSuffix_ok (names.map some)
  have h1 : u = true := by
    rw [hui]
    constructor
    · intro i j n hi hj
      rw [List.getElem?_map] at hi hj
      rw [Option.map_eq_some_iff] at hi hj
      obtain ⟨s, hi, rfl⟩ := hi
      obtain ⟨s', hj, hss⟩ := hj
      simp at hss
      subst hss
      have hi' := (List.getElem?_eq_some_iff.1 hi).1
      have hj' := (List.getElem?_eq_some_iff.1 hj).1
      exact (List.getElem?_inj hi' hd).1 (hi.trans hj.symm)
    · intro n hn
      obtain ⟨s, hs, rfl⟩ := List.mem_map.1 hn
      cases hh : needsSuffix (some s) with
      | false => rfl
      | true => exact absurd ((needsSuffix_iff s).1 hh) (hb s hs)
  have h2 : a = false := by
    rw [hai]
    intro n hn
    obtain ⟨s, hs', rfl⟩ := List.mem_map.1 hn
    exact suffixPos_none (hs s hs')
  subst h1 h2
  simp only [vecAsNames, vecAsUniqueNames]
  rw [hu, ha]
  rfl

/-- A vector without names gets the names `...1`, `...2`, ... -/
theorem C23_null (h : Name → BitVec 32) (n : Nat) (hn : n ≤ 2147483647) :
    vecUniqueNames h none n = .ok ((List.range n).map (fun i =>
      some (['.', '.', '.'] ++ (toString (i + 1)).toList))) := by
  rw [vecUniqueNames, namesIota_ok n hn]
  simp [dots, Nat.toString_eq_ofList_toDigits]

/-- Minimal repair replaces missing names by empty ones and keeps all other names. -/
theorem C23_minimal (h : Name → BitVec 32) (names : List Name) :
    ∃ out, vecAsNames h names .minimal = .ok out ∧ out.length = names.length ∧
      (∀ (i : Nat) s, names[i]? = some (some s) → out[i]? = some (some s)) ∧
      ∀ i : Nat, names[i]? = some none → out[i]? = some (some []) :=
  asMinimalNames_ok names

/-- Names are reported as unique iff they are distinct and none is missing, empty, `...` or `..1`. -/
theorem C23_is_unique (h : Name → BitVec 32) (names : List Name) (hn : names.length ≤ 2147483647) :
    ∃ b, isUniqueNames h names = .ok b ∧ (b = true ↔
      names.Nodup ∧ ∀ n ∈ names, ∃ s, n = some s ∧ ¬ BadName s) := by
  obtain ⟨b, h1, h2⟩ := isUniqueNames_ok h names hn
  refine ⟨b, h1, h2.trans (and_congr ?_ ?_)⟩
  · rw [List.nodup_iff_getElem?_ne_getElem?]
    constructor
    · intro H i j hij hj he
      have := H i j names[j] (by rw [he]; exact List.getElem?_eq_getElem hj)
        (List.getElem?_eq_getElem hj)
      omega
    · intro H i j n hi hj
      rcases Nat.lt_trichotomy i j with hlt | heq | hgt
      · exact absurd (hi.trans hj.symm) (H i j hlt (List.getElem?_eq_some_iff.1 hj).1)
      · exact heq
      · exact absurd (hj.trans hi.symm) (H j i hgt (List.getElem?_eq_some_iff.1 hi).1)
  · refine forall_congr' fun n => imp_congr_right fun _ => ?_
    cases n with
    | none => simp [needsSuffix]
    | some s =>
      rw [← Bool.not_eq_true, needsSuffix_iff]
      simp

/-- Data for the examples. -/
def exNames : List Name :=
  [some "a".toList, none, some "a".toList, some "...7".toList, some "b...2...10".toList,
    some "".toList, some "..12x".toList, some "c.".toList]

example : vecAsNames (fun _ => 0) exNames .unique = .ok
    [some "a...1".toList, some "...2".toList, some "a...3".toList, some "...4".toList,
      some "b".toList, some "...6".toList, some "...7".toList, some "c.".toList] := by decide +kernel
example : ∃ out, vecAsNames (fun _ => 0) exNames .unique = .ok out ∧ out.length = exNames.length ∧
    out.Nodup ∧ none ∉ out ∧ some [] ∉ out :=
  C23_unique _ exNames (by decide +kernel) (by
    have : ∀ n ∈ exNames, ∀ s, n = some s → s.length ≤ 2147483619 := by
      intro n hn s hs
      subst hs
      simp only [exNames, List.mem_cons, List.not_mem_nil, or_false, Option.some.injEq] at hn
      rcases hn with rfl | hn | rfl | rfl | rfl | rfl | rfl | rfl <;> first | decide +kernel | simp at hn
    exact fun s hs => this _ hs s rfl)
example : UniqueRepair [some "a...1".toList] [some "a".toList] := by
  obtain ⟨out, h1, h2⟩ := C23_rule (fun _ => 0) [some "a...1".toList] (by decide) (by
    intro s hs
    simp only [List.mem_cons, List.not_mem_nil, or_false, Option.some.injEq] at hs
    subst hs; decide +kernel)
  have h3 : vecAsNames (fun _ => 0) [some "a...1".toList] .unique = .ok [some "a".toList] := by
    decide +kernel
  rw [h1] at h3
  cases h3
  exact h2
example : vecAsNames (fun _ => 0) [some ['x'], some ['y', '1']] .unique = .ok [some ['x'], some ['y', '1']] :=
  C23_unchanged (fun _ => 0) [['x'], ['y', '1']] (by decide) (by decide) (by
    intro s hs hb
    rw [← needsSuffix_iff] at hb
    simp only [List.mem_cons, List.not_mem_nil, or_false] at hs
    rcases hs with rfl | rfl <;> revert hb <;> decide +kernel) (by
    rintro s hs b ⟨hb, d, hd, _, rfl⟩
    simp only [List.mem_cons, List.not_mem_nil, or_false] at hs
    have hl : ∀ l : List Char, b ++ ['.', '.', '.'] ++ d = l → 3 < l.length := by
      rintro l rfl
      have := List.length_pos_iff.2 hd
      simp; omega
    rcases hs with h | h <;> · have := hl _ h; simp at this)
example : vecUniqueNames (fun _ => 0) none 2 = .ok [some "...1".toList, some "...2".toList] := by
  rw [C23_null _ 2 (by decide)]; decide +kernel
example : vecAsNames (fun _ => 0) [some ['a'], none] .minimal = .ok [some ['a'], some []] := by
  decide +kernel
example : isUniqueNames (fun _ => 0) [some ['a'], some ['.', '.', '5']] = .ok false := by decide +kernel

end Vctrs
