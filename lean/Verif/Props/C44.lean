import Verif.Lemmas.Factor

/-!
# C44: common types and casts of factors

Spec: SpecFactor.lean (`Reads f strings`: the factor's elements are these strings).  The hash of a
string is any function.
-/

namespace Vctrs
open Spec

/-- **C44**: the common type of two factors has the levels of the first, followed by those of the
second that the first lacks, whether or not the levels are the same object. -/
theorem C44_union (hash : Name → BitVec 32) (same : Bool) {x y : Factor} (hx : x.levels.Nodup)
    (hy : y.levels.Nodup) (hs : same = true → x.levels = y.levels)
    (hn : x.levels.length + y.levels.length ≤ 2147483647) :
    fctPtype2 hash same x y = .ok ⟨[], x.levels ++ y.levels.filter (fun s => decide (s ∉ x.levels))⟩ := by
  unfold fctPtype2
  cases same with
  | true =>
    rw [if_pos rfl, ← hs rfl, List.filter_eq_nil_iff.2 (by simp), List.append_nil]
  | false =>
    rw [if_neg (by simp), levelsUnion_ok hash hx hy hn, ok_bind]

example : fctPtype2 (fun _ => 7#32) false ⟨[1], [some ['b'], some ['a']]⟩ ⟨[], [some ['c'], some ['a'], none]⟩ =
    .ok ⟨[], [some ['b'], some ['a'], some ['c'], none]⟩ := by decide +kernel

/-- **C44**: no level occurs twice in the common type, and its levels are those of either factor. -/
theorem C44_union_levels (hash : Name → BitVec 32) (same : Bool) {x y : Factor} (hx : x.levels.Nodup)
    (hy : y.levels.Nodup) (hs : same = true → x.levels = y.levels)
    (hn : x.levels.length + y.levels.length ≤ 2147483647) :
    ∃ z, fctPtype2 hash same x y = .ok z ∧ z.codes = [] ∧ z.levels.Nodup ∧ x.levels <+: z.levels ∧
      ∀ s, s ∈ z.levels ↔ s ∈ x.levels ∨ s ∈ y.levels := by
  refine ⟨_, C44_union hash same hx hy hs hn, rfl, ?_, List.prefix_append _ _, ?_⟩
  · refine List.nodup_append.2 ⟨hx, hy.filter _, ?_⟩
    rintro a ha b hb rfl
    simpa [ha] using (List.mem_filter.1 hb).2
  · intro s
    rw [List.mem_append, List.mem_filter]
    by_cases h : s ∈ x.levels <;> simp [h]

/-- **C44**: ordered factors have a common type exactly when their levels are the same in the same
order, and are cast exactly then; the cast changes nothing. -/
theorem C44_ordered (x y : Factor) :
    (x.levels = y.levels → ordPtype2 x y = .ok ⟨[], x.levels⟩ ∧ ordAsOrdered x y.levels = .ok x) ∧
    (x.levels ≠ y.levels → ordPtype2 x y = .error .abort ∧ ordAsOrdered x y.levels = .error .abort) := by
  unfold ordPtype2 ordAsOrdered
  exact ⟨fun h => by rw [if_pos h, if_pos h]; exact ⟨rfl, rfl⟩, fun h => by rw [if_neg h, if_neg h]; exact ⟨rfl, rfl⟩⟩

example : ordPtype2 ⟨[1], [some ['a'], some ['b']]⟩ ⟨[], [some ['b'], some ['a']]⟩ = .error .abort := by decide +kernel

/-- **C44**: `vec_cast()` of a factor to a factor with levels keeps every string, and fails exactly
when a string of an element is not among the levels. -/
theorem C44_cast (hash : Name → BitVec 32) (same : Bool) {x : Factor} {tl : List Name} (hw : WellFormed x)
    (ht : tl.Nodup) (h0 : tl ≠ []) (hn : tl.length ≤ 2147483647) (hs : same = true → x.levels = tl) :
    (¬ Drops x tl → ∃ y, fctCast hash same x tl = .ok y ∧ y.levels = tl ∧
      ∀ strings, Reads x strings → Reads y strings) ∧
    (Drops x tl → fctCast hash same x tl = .error .abort) := by
  unfold fctCast
  cases same with
  | true =>
    have e : fctAsFactorImpl hash true x tl = .ok (some x) := by unfold fctAsFactorImpl; rw [if_pos rfl]
    rw [e, ok_bind]
    refine ⟨fun _ => ⟨x, rfl, hs rfl, fun _ h => h⟩, ?_⟩
    rintro ⟨c, s, _, hna, hl, hm⟩
    rcases hl with ⟨h, _⟩ | ⟨k, _, hk⟩
    · exact absurd h hna
    · rw [hs rfl] at hk; exact absurd (List.mem_of_getElem? hk) hm
  | false =>
    obtain ⟨h1, h2⟩ := fctAsFactorImpl_ok hash hw h0 hn
    by_cases hall : ∀ s ∈ x.levels, s ∈ tl
    · obtain ⟨r, hr, y, rfl, hy, hS⟩ := h1 hall
      rw [hr, ok_bind]
      refine ⟨fun _ => ⟨y, rfl, hy, fun _ h => hS.reads h⟩, ?_⟩
      rintro ⟨c, s, _, hna, hl, hm⟩
      rcases hl with ⟨h, _⟩ | ⟨k, _, hk⟩
      · exact absurd h hna
      · exact absurd (hall s (List.mem_of_getElem? hk)) hm
    · rw [h2 (by simpa using hall), ok_bind]
      obtain ⟨g1, g2⟩ := rFctCast_ok hw ht
      exact ⟨fun hd => by obtain ⟨y, hy, h⟩ := g1 hd; exact ⟨y, hy, h⟩, g2⟩

/-- The level `"c"` is not used: only the method written in R can do the cast. -/
example : fctAsFactorImpl (fun _ => 7#32) false ⟨[2, naInt, 1], [some ['b'], some ['a'], some ['c']]⟩
      [some ['a'], some ['d'], some ['b'], none] = .ok none ∧
    fctCast (fun _ => 7#32) false ⟨[2, naInt, 1], [some ['b'], some ['a'], some ['c']]⟩
      [some ['a'], some ['d'], some ['b'], none] =
      .ok ⟨[1, 4, 3], [some ['a'], some ['d'], some ['b'], none]⟩ := by decide +kernel
example : WellFormed ⟨[2, naInt, 1], [some ['b'], some ['a'], some ['c']]⟩ := by
  refine ⟨by decide, by decide, ?_⟩
  decide
example : Drops ⟨[3], [some ['b'], some ['a'], some ['c']]⟩ [some ['a'], some ['b']] :=
  ⟨3, some ['c'], by simp, by decide, Or.inr ⟨2, by simp, by simp⟩, by decide⟩

/-- **C44**: the cast in C reports a loss exactly when a level of `x` is absent, used or not. -/
theorem C44_cast_native (hash : Name → BitVec 32) {x : Factor} {tl : List Name} (hw : WellFormed x)
    (h0 : tl ≠ []) (hn : tl.length ≤ 2147483647) :
    ((∀ s ∈ x.levels, s ∈ tl) → ∃ y, fctAsFactorImpl hash false x tl = .ok (some y) ∧ y.levels = tl ∧
      ∀ strings, Reads x strings → Reads y strings) ∧
    ((∃ s ∈ x.levels, s ∉ tl) → fctAsFactorImpl hash false x tl = .ok none) := by
  obtain ⟨h1, h2⟩ := fctAsFactorImpl_ok hash hw h0 hn
  refine ⟨fun h => ?_, h2⟩
  obtain ⟨r, hr, y, rfl, hy, hS⟩ := h1 h
  exact ⟨y, hr, hy, fun _ h => hS.reads h⟩

example : fctAsFactorImpl (fun _ => 7#32) false ⟨[2, naInt, 1], [some ['b'], some ['a']]⟩
    [some ['a'], some ['d'], some ['b']] = .ok (some ⟨[1, naInt, 3], [some ['a'], some ['d'], some ['b']]⟩) := by
  decide +kernel

/-- **C44**: a factor without levels is a template: the cast changes nothing. -/
theorem C44_cast_template (hash : Name → BitVec 32) (same : Bool) (x : Factor) :
    fctCast hash same x [] = .ok x := by
  cases same <;> rfl

/-- **C44**: a factor becomes the strings it stands for. -/
theorem C44_as_character {x : Factor} (hw : WellFormed x) :
    ∃ strings, fctAsCharacter x = .ok strings ∧ Reads x strings ∧ ∀ t, Reads x t → t = strings := by
  obtain ⟨strings, h1, h2⟩ := fctAsCharacter_ok hw
  refine ⟨strings, h1, h2, fun t ht => ?_⟩
  have hlen : t.length = strings.length := ht.1.symm.trans h2.1
  refine List.ext_getElem hlen (fun i hi hi' => ?_)
  have hc : i < x.codes.length := by rw [ht.1]; exact hi
  exact hasLabel_unique (ht.2 i _ _ (List.getElem?_eq_getElem hc) (List.getElem?_eq_getElem hi))
    (h2.2 i _ _ (List.getElem?_eq_getElem hc) (List.getElem?_eq_getElem hi'))

example : fctAsCharacter ⟨[2, naInt, 1], [some ['b'], some ['a']]⟩ = .ok [some ['a'], none, some ['b']] := by
  decide +kernel

/-- **C44**: strings become a factor that stands for them; it fails exactly when a string that is not
missing is not among the levels. -/
theorem C44_chr (hash : Name → BitVec 32) (x : List Name) {tl : List Name} (h0 : tl ≠ [])
    (hn : tl.length ≤ 2147483647) :
    ((∀ s ∈ x, s ≠ none → s ∈ tl) → ∃ f, chrCast hash x tl = .ok f ∧ f.levels = tl ∧ Reads f x) ∧
    ((∃ s ∈ x, s ≠ none ∧ s ∉ tl) → chrCast hash x tl = .error .abort) := by
  have h0' : tl.length ≠ 0 := by simpa using h0
  obtain ⟨h1, h2⟩ := chrAsFactorImpl_ok hash x tl hn
  unfold chrCast chrAsFactor
  rw [if_neg h0']
  refine ⟨fun h => ?_, fun h => ?_⟩
  · obtain ⟨r, hr, f, rfl, hf, hR⟩ := h1 h
    rw [hr, ok_bind]
    exact ⟨f, rfl, hf, hR⟩
  · rw [h2 h, ok_bind]

example : chrCast (fun _ => 7#32) [some ['a'], none, some ['b']] [some ['b'], some ['a']] =
    .ok ⟨[2, naInt, 1], [some ['b'], some ['a']]⟩ := by decide +kernel
example : chrCast (fun _ => 7#32) [some ['a'], some ['c']] [some ['b'], some ['a']] = .error .abort := by
  decide +kernel

/-- **C44**: without levels in the target the levels are the distinct strings in order of first
appearance, the missing string left out. -/
theorem C44_chr_template (hash : Name → BitVec 32) (x : List Name) (hn : x.length ≤ 2147483647) :
    ∃ f, chrCast hash x [] = .ok f ∧
      f.levels = (nub (fun a b : Name => decide (a = b)) x).filter (fun s => decide (s ≠ none)) ∧ Reads f x := by
  obtain ⟨f, h1, h2, h3⟩ := chrAsFactorFromSelf_ok hash x hn
  refine ⟨f, ?_, h2, h3⟩
  unfold chrCast chrAsFactor
  rw [if_pos List.length_nil, h1]
  rfl

example : chrCast (fun _ => 7#32) [some ['b'], none, some ['a'], some ['b'], none] [] =
    .ok ⟨[1, naInt, 2, 1, naInt], [some ['b'], some ['a']]⟩ := by decide +kernel

/-- **C44**: a factor without missing level survives the way through strings. -/
theorem C44_round_trip (hash : Name → BitVec 32) {x : Factor} (hw : WellFormed x) (h0 : x.levels ≠ [])
    (hna : none ∉ x.levels) :
    ∃ strings, fctAsCharacter x = .ok strings ∧ chrCast hash strings x.levels = .ok x := by
  obtain ⟨strings, h1, h2⟩ := fctAsCharacter_ok hw
  refine ⟨strings, h1, ?_⟩
  have hin : ∀ s ∈ strings, s ≠ none → s ∈ x.levels := by
    intro s hs hne
    obtain ⟨i, hi, rfl⟩ := List.getElem_of_mem hs
    have hc : i < x.codes.length := by rw [h2.1]; exact hi
    rcases h2.2 i _ _ (List.getElem?_eq_getElem hc) (List.getElem?_eq_getElem hi) with ⟨_, h⟩ | ⟨k, _, hk⟩
    · exact absurd h hne
    · exact List.mem_of_getElem? hk
  obtain ⟨f, hf, hl, hR⟩ := (C44_chr hash strings h0 hw.2.1).1 hin
  rw [hf]
  have hcodes : f.codes = x.codes := by
    refine List.ext_getElem (hR.1.trans h2.1.symm) (fun i hi hi' => ?_)
    have hs : i < strings.length := by rw [← hR.1]; exact hi
    have a := hR.2 i _ _ (List.getElem?_eq_getElem hi) (List.getElem?_eq_getElem hs)
    have b := h2.2 i _ _ (List.getElem?_eq_getElem hi') (List.getElem?_eq_getElem hs)
    rw [hl] at a
    rcases a with ⟨a1, a2⟩ | ⟨k, a1, a2⟩ <;> rcases b with ⟨b1, b2⟩ | ⟨k', b1, b2⟩
    · rw [a1, b1]
    · rw [a2] at b2; exact absurd (List.mem_of_getElem? b2) hna
    · rw [b2] at a2; exact absurd (List.mem_of_getElem? a2) hna
    · obtain ⟨hk, a2⟩ := List.getElem?_eq_some_iff.1 a2
      obtain ⟨hk', b2⟩ := List.getElem?_eq_some_iff.1 b2
      have : k = k' := (List.Nodup.getElem_inj_iff hw.1 (hi := hk) (hj := hk')).1 (a2.trans b2.symm)
      rw [a1, b1, this]
  obtain ⟨fc, fl⟩ := f
  obtain ⟨xc, xl⟩ := x
  simp only at hcodes hl
  rw [hcodes, hl]

example : fctAsCharacter ⟨[2, naInt, 1], [some ['b'], some ['a']]⟩ >>= (fun s => chrCast (fun _ => 7#32) s
    [some ['b'], some ['a']]) = .ok ⟨[2, naInt, 1], [some ['b'], some ['a']]⟩ := by decide +kernel

end Vctrs
