import Verif.Lemmas.Translate

/-!
# C72: Normalising encodings

`vec_normalize_encoding()`, src/translate.c: strings of elements and attributes at any depth are translated, shared
objects are never written to, and nothing is copied if nothing has to be translated.
-/

namespace Vctrs

open Spec

variable {S : Type}

/-- The result looks like `x` with every string normalised, at every depth and including the attributes; every object
of the session is as before except possibly `x` itself, and that only if nothing refers to it.  An error can only be
that of a string in `x` that cannot be translated. -/
theorem C72_normalize (E : TEnc S) {h : THeap S} {x fuel : Nat} (hs : Sound h) (hd : Deep fuel h x) :
    (∃ h' x', objNormalize E fuel h x = .ok (h', x') ∧ (∀ d, Same (NormRel E) d h x h' x') ∧ Untouched h h' x ∧
      Sound h' ∧ (x' = x ∨ h[x']? = none)) ∨
    ∃ e s, objNormalize E fuel h x = .error e ∧ StrIn h x s ∧ E.isNorm s = false ∧ E.norm s = .error e := by
  rcases objNormalize_ok E (StrIn h x) fuel h x hs (DeepP.of_reach .self hd) with ⟨⟨h', x'⟩, h1, h2⟩ | ⟨e, h1, s, h2⟩
  · exact Or.inl ⟨h', x', h1, h2.same, h2.untouched, h2.sound, h2.addr⟩
  · exact Or.inr ⟨e, s, h1, h2⟩

/-- If every string of `x` can be translated there is no error. -/
theorem C72_no_error (E : TEnc S) {h : THeap S} {x fuel : Nat} (hs : Sound h) (hd : Deep fuel h x)
    (hn : ∀ s, StrIn h x s → E.isNorm s = false → ∃ t, E.norm s = .ok t) :
    ∃ h' x', objNormalize E fuel h x = .ok (h', x') ∧ ∀ d, Same (NormRel E) d h x h' x' := by
  rcases C72_normalize E hs hd with ⟨h', x', h1, h2, _⟩ | ⟨e, s, _, h2, h3, h4⟩
  · exact ⟨h', x', h1, h2⟩
  · obtain ⟨t, ht⟩ := hn s h2 h3
    rw [h4] at ht
    cases ht

/-- An object that something refers to, and everything else in the session, is never written to. -/
theorem C72_shared (E : TEnc S) {h h' : THeap S} {x x' fuel : Nat} {o : TObj S} (hs : Sound h) (hd : Deep fuel h x)
    (ho : h[x]? = some o) (hr : o.refd = true) (hx : objNormalize E fuel h x = .ok (h', x')) :
    ∀ (b : Nat) ob, h[b]? = some ob → h'[b]? = some ob := by
  rcases C72_normalize E hs hd with ⟨h2, x2, h1, _, h3, _⟩ | ⟨e, s, h1, _⟩
  · rw [h1] at hx
    cases hx
    intro b ob hb
    refine h3 b ob hb ?_
    by_cases hbx : b = x
    · subst hbx
      rw [ho] at hb
      cases hb
      exact Or.inr hr
    · exact Or.inl hbx
  · rw [h1] at hx
    cases hx

/-- If every string of `x` is normalised, `x` itself is returned and nothing is copied. -/
theorem C72_same_object (E : TEnc S) {h : THeap S} {x fuel : Nat} (hd : Deep fuel h x)
    (hn : ∀ s, StrIn h x s → E.isNorm s = true) : objNormalize E fuel h x = .ok (h, x) :=
  objNormalize_id ((DeepP.of_reach .self hd).imp hn)

/-- Normalising twice is normalising once. -/
theorem C72_idempotent (E : TEnc S) (hE : ∀ s t, E.norm s = .ok t → E.isNorm t = true) {h h' : THeap S}
    {x x' fuel : Nat} (hs : Sound h) (hd : Deep fuel h x) (hx : objNormalize E fuel h x = .ok (h', x')) :
    objNormalize E fuel h' x' = .ok (h', x') := by
  rcases C72_normalize E hs hd with ⟨h2, x2, h1, h3, _⟩ | ⟨e, s, h1, _⟩
  · rw [h1] at hx
    cases hx
    exact objNormalize_id (DeepP.of_same hE hd (h3 fuel))
  · rw [h1] at hx
    cases hx

/-! Examples: strings are numbers, those below 100 are normalised, those below 200 are translated by subtracting 100,
others cannot be translated.  A list with the same vector twice (shared), whose names are to be translated. -/

/-- The encoding of the examples. -/
private def exE : TEnc Nat :=
  { isNorm := fun s => s < 100, norm := fun s => if s < 200 then .ok (s - 100) else .error .abort }

/-- The session of the examples: the list at 0, its names at 1, its element at 2, and a plain number at 3. -/
private def exHeap : THeap Nat :=
  [⟨.list [2, 2, 3], [("names", 1)], false⟩, ⟨.chr [1, 105], [], true⟩, ⟨.chr [107, 8], [], true⟩, ⟨.other, [], true⟩]

private theorem exHeap_sound : Sound exHeap := by
  intro a o ha c hc
  have hall : ∀ o ∈ exHeap, ∀ c ∈ kids o, (exHeap[c]?.any (fun o => o.refd)) = true := by decide
  have := hall o (List.mem_of_getElem? ha) c hc
  cases h : exHeap[c]? with
  | none => rw [h] at this; cases this
  | some o' => rw [h] at this; exact ⟨o', rfl, by simpa using this⟩

private theorem exHeap_deep : Deep 2 exHeap 0 := by
  refine ⟨_, rfl, ?_⟩
  intro c hc
  have : c = 2 ∨ c = 3 ∨ c = 1 := by
    simp [kids] at hc
    omega
  rcases this with rfl | rfl | rfl <;> exact ⟨_, rfl, fun c hc => by simp [kids] at hc⟩

-- The list is written in place, its shared element and its names are copied.
example : ∃ h' x', objNormalize exE 2 exHeap 0 = .ok (h', x') ∧ x' = 0 ∧ h'.length = 7 ∧
    h'[0]?.map (fun o => (kids o, o.refd)) = some ([4, 5, 3, 6], false) ∧
    (h'[4]?.map (fun o => match o.kind with | .chr l => l | _ => [])) = some [7, 8] ∧
    (h'[6]?.map (fun o => match o.kind with | .chr l => l | _ => [])) = some [1, 5] ∧
    (h'[2]?.map (fun o => match o.kind with | .chr l => l | _ => [])) = some [107, 8] := by
  refine ⟨_, _, rfl, ?_, ?_, ?_, ?_, ?_, ?_⟩ <;> decide +kernel
example := C72_normalize exE exHeap_sound exHeap_deep
example := C72_no_error exE exHeap_sound exHeap_deep
example : ∀ s, StrIn exHeap 2 s → exE.isNorm s = false → ∃ t, exE.norm s = .ok t := by
  rintro s ⟨b, o, l, _, ho, hl, hs⟩ _
  have hall : ∀ o ∈ exHeap, ∀ l, o.kind = .chr l → ∀ s ∈ l, s < 200 := by
    intro o ho l hl s hs
    simp only [exHeap, List.mem_cons, List.not_mem_nil, or_false] at ho
    rcases ho with rfl | rfl | rfl | rfl
    · cases hl
    · cases hl; revert s; decide
    · cases hl; revert s; decide
    · cases hl
  exact ⟨s - 100, if_pos (hall o (List.mem_of_getElem? ho) l hl s hs)⟩
-- A shared vector.
example : ∃ h', objNormalize exE 1 exHeap 2 = .ok (h', 4) := ⟨_, rfl⟩
example : Deep 1 exHeap 2 := ⟨_, rfl, fun c hc => by simp [kids] at hc⟩
-- A string that cannot be translated.
example : objNormalize exE 1 [⟨.chr [1, 250], [], true⟩] 0 = .error .abort := rfl
-- Nothing to do.
example : objNormalize exE 1 [⟨.chr [1, 50], [], true⟩] 0 = .ok ([⟨.chr [1, 50], [], true⟩], 0) := rfl
example : ∀ s t, exE.norm s = .ok t → exE.isNorm t = true := by
  intro s t h
  unfold exE at h ⊢
  dsimp only at h ⊢
  split at h
  · cases h
    simp
    omega
  · cases h

end Vctrs
