import Verif.Model.OuterNames
import Verif.Lemmas.Rbind

/-!
# C66: outer names are pasted to inner names within the buffer
-/

namespace Vctrs

namespace Spec

/-- The text of a name; a missing one reads "NA". -/
def text : Name → List Char
  | none => "NA".toList
  | some s => s

/-- `out` are the names with `pre` before them. -/
def Pasted (pre : List Char) (names out : List Name) : Prop :=
  List.Forall₂ (fun n o => o = some (pre ++ text n)) names out

/-- The names of `n` elements called `outer`, whose own names are `names`: none if there is no outer name, or if
it is empty; otherwise the outer name, numbered from 1 if there is not one element, or followed by `..` and the
inner names. -/
def OuterPasted (names : Option (List Name)) (outer : Option Name) (n : Nat) (out : Option (List Name)) : Prop :=
  ((∀ o, outer = some o → NoName o) ∧ out = names) ∨
  ∃ o, o ≠ [] ∧ outer = some (some o) ∧
    ((NoInner names ∧ n = 1 ∧ out = some [some o]) ∨
     (NoInner names ∧ n ≠ 1 ∧ ∃ l, out = some l ∧ l.length = n ∧
       ∀ i, i < n → l[i]? = some (some (o ++ Nat.toDigits 10 (i + 1)))) ∨
     (¬ NoInner names ∧ ∃ l r, names = some l ∧ out = some r ∧ Pasted (o ++ "..".toList) l r))

end Spec

open Spec

theorem text_eq (n : Name) : text n = cString n := by
  cases n <;> rfl

theorem chrMaxLen_ok {x : List Name} (h : ∀ s ∈ x, (cString s).length ≤ 2147483647) :
    Ret (chrMaxLen x) (fun m => (∀ s ∈ x, (cString s).length ≤ m) ∧ (m = 0 ∨ ∃ s ∈ x, m = (cString s).length)) := by
  unfold chrMaxLen
  refine (Ret.forN (fun (i : Nat) (m : Nat) => (∀ s ∈ x.take i, (cString s).length ≤ m) ∧
    (m = 0 ∨ ∃ s ∈ x, m = (cString s).length)) ⟨by simp, Or.inl rfl⟩ ?_).mono ?_
  · intro i m hi hm
    have hg := List.getElem?_eq_getElem hi
    refine Ret.bind_eq (rd_ok hi) ?_
    refine Ret.bind_eq (chkNat_ok (h _ (List.getElem_mem hi))) ?_
    refine Ret.ok ⟨?_, ?_⟩
    · intro s hs
      rw [take_succ_of hg, List.mem_append, List.mem_singleton] at hs
      rcases hs with hs | rfl
      · have := hm.1 s hs
        split <;> omega
      · split <;> omega
    · split
      · exact Or.inr ⟨_, List.getElem_mem hi, rfl⟩
      · exact hm.2
  · intro m hm
    rw [List.take_length] at hm
    exact hm

theorem chkNat_bad {n : Nat} (h : 2147483647 < n) : chkNat n = .error .ub := by
  unfold chkNat
  rw [if_pos (show n > intMax from h)]

theorem chrMaxLen_bad {x : List Name} {s : Name} (hs : s ∈ x) (h : 2147483647 < (cString s).length) :
    chrMaxLen x = .error .ub := by
  obtain ⟨a, l, b, rfl, hl, ha⟩ : ∃ (a : List Name) (l : Name) (b : List Name), x = a ++ l :: b ∧
      2147483647 < (cString l).length ∧ ∀ n ∈ a, (cString n).length ≤ 2147483647 := by
    induction x with
    | nil => cases hs
    | cons c x ih =>
      by_cases hc : (cString c).length ≤ 2147483647
      · rcases List.mem_cons.1 hs with rfl | hs
        · omega
        · obtain ⟨a, l, b, rfl, h1, h2⟩ := ih hs
          exact ⟨c :: a, l, b, rfl, h1, fun n hn => by
            rcases List.mem_cons.1 hn with rfl | hn
            · exact hc
            · exact h2 n hn⟩
      · exact ⟨[], c, x, rfl, by omega, nofun⟩
  unfold chrMaxLen
  refine forN_err (n := (a ++ l :: b).length) (k := a.length) (e := .ub) (s := (0 : Nat))
    (fun (_ : Nat) (_ : Nat) => True) (by rw [List.length_append, List.length_cons]; omega) trivial ?_ ?_
  · intro i m hi _
    have hg : (a ++ l :: b)[i]? = some a[i] := by rw [List.getElem?_append_left hi, List.getElem?_eq_getElem hi]
    refine Ret.bind_eq (rd_of_getElem? hg) ?_
    exact Ret.bind_eq (chkNat_ok (ha _ (List.getElem_mem hi))) (Ret.ok trivial)
  · intro m _
    rw [rd_of_getElem? (show (a ++ l :: b)[a.length]? = some l by simp), ok_bind, chkNat_bad hl]
    rfl

theorem copyTo_ok {buf : List (Option Char)} {pos : Nat} {s : List Char} (h : pos + s.length ≤ buf.length) :
    copyTo buf pos s = .ok (buf.take pos ++ s.map some ++ buf.drop (pos + s.length)) := by
  suffices hr : Ret (copyTo buf pos s) (fun b => b = buf.take pos ++ s.map some ++ buf.drop (pos + s.length)) by
    obtain ⟨b, h1, rfl⟩ := hr
    exact h1
  unfold copyTo
  refine (Ret.forN (fun (i : Nat) (b : List (Option Char)) =>
    b = buf.take pos ++ (s.take i).map some ++ buf.drop (pos + i)) (by simp) ?_).mono ?_
  · intro i b hi hb
    refine Ret.bind_eq (rd_ok hi) ?_
    refine Ret.of_eq (wr_ok ?_) ?_
    · rw [hb]; simp; omega
    · rw [hb]
      have hl : (buf.take pos ++ (s.take i).map some).length = pos + i := by simp; omega
      rw [List.set_append_right _ _ (by omega), hl, Nat.sub_self, List.drop_eq_getElem_cons (by omega), List.set_cons_zero,
        take_succ_of (List.getElem?_eq_getElem hi), List.map_append, ← List.append_assoc]
      show _ ++ ([s[i]].map some ++ _) = _
      rw [← List.append_assoc, Nat.add_assoc]
  · intro b hb
    rw [hb, List.take_length]

theorem bufString_ok {l : List Char} {r : List (Option Char)} (h : nul ∉ l) :
    bufString (l.map some ++ some nul :: r) = .ok l := by
  induction l with
  | nil => simp [bufString]
  | cons a l ih =>
    rw [List.mem_cons, not_or] at h
    show (if a = nul then _ else _) = _
    rw [if_neg (fun e => h.1 e.symm)]
    have := ih h.2
    show (do let s ← bufString (l.map some ++ some nul :: r); .ok (a :: s) : C (List Char)) = _
    rw [this, ok_bind]

/-- One name. -/
theorem pasteTurn_ok {p : List Char} {rest : List (Option Char)} {names : List Name} {i : Nat} {n : Name}
    (hn : names[i]? = some n) (hr : (cString n).length < rest.length) (h1 : nul ∉ p) (h2 : nul ∉ cString n) :
    Ret (pasteTurn p.length i (p.map some ++ rest, names)) (fun s =>
      (∃ rest', s.1 = p.map some ++ rest' ∧ rest'.length = rest.length) ∧ s.2 = names.set i (some (p ++ cString n))) := by
  unfold pasteTurn
  refine Ret.bind_eq (rd_of_getElem? hn) ?_
  dsimp only
  refine Ret.bind_eq (copyTo_ok (by simp; omega)) ?_
  have e : (p.map some ++ rest).take p.length ++ (cString n).map some ++ (p.map some ++ rest).drop (p.length + (cString n).length)
      = (p ++ cString n).map some ++ rest.drop (cString n).length := by
    rw [List.take_append_of_le_length (by simp), List.take_of_length_le (by simp), List.drop_append]
    simp
  rw [e]
  refine Ret.bind_eq (wr_ok (by simp; omega)) ?_
  rw [List.set_append_right _ _ (by simp), List.length_map, List.length_append, Nat.sub_self,
    List.drop_eq_getElem_cons hr, List.set_cons_zero]
  refine Ret.bind_eq (bufString_ok (by rw [List.mem_append]; exact not_or.2 ⟨h1, h2⟩)) ?_
  refine Ret.bind_eq (wr_ok (List.getElem?_eq_some_iff.1 hn).1) ?_
  refine Ret.ok ⟨⟨_, by rw [List.map_append, List.append_assoc], ?_⟩, rfl⟩
  simp; omega

/-- **C66** (pasting): with strings without NUL bytes, as R's are, and lengths that fit `int`, no byte outside the
buffer is written and every name has the prefix and the separator before it, whatever the buffer held. -/
theorem C66_paste {static : List (Option Char)} {names : List Name} {pre sep : List Char} (hs : static.length = 4096)
    (hp : nul ∉ pre) (hsep : nul ∉ sep) (hn : ∀ s, some s ∈ names → nul ∉ s)
    (hlen : ∀ n ∈ names, pre.length + (text n).length + sep.length + 1 ≤ 2147483647)
    (hlen0 : pre.length + sep.length + 1 ≤ 2147483647) :
    ∃ out, chrPastePrefix static names pre sep = .ok out ∧ Pasted (pre ++ sep) names out := by
  suffices h : Ret (chrPastePrefix static names pre sep) (Pasted (pre ++ sep) names) from h
  have hnn : ∀ n ∈ names, nul ∉ cString n := by
    intro n hm
    cases n with
    | none => decide
    | some s => exact hn s hm
  unfold chrPastePrefix
  refine Ret.bind_eq (chkNat_ok (by show _ ≤ 2147483647; omega)) ?_
  refine Ret.bind (chrMaxLen_ok (fun s hs => by have := hlen s hs; rw [text_eq] at this; omega)) ?_
  intro m hm
  have hml : pre.length + m + sep.length + 1 ≤ 2147483647 := by
    rcases hm.2 with h | ⟨s, h1, h2⟩
    · omega
    · have := hlen s h1
      rw [text_eq] at this
      omega
  refine Ret.bind_eq (chkNat_ok (by show _ ≤ 2147483647; omega)) ?_
  refine Ret.bind_eq (chkNat_ok (by show _ ≤ 2147483647; omega)) ?_
  refine Ret.bind_eq (chkNat_ok (by show _ ≤ 2147483647; omega)) ?_
  refine Ret.bind_eq (chkNat_ok (by show _ ≤ 2147483647; omega)) ?_
  dsimp only
  have hbl : pre.length + m + sep.length + 1 ≤
      (if pre.length + m + sep.length + 1 > 4096 then alloc Char (pre.length + m + sep.length + 1) else static).length := by
    split
    · simp [alloc]
    · omega
  generalize (if pre.length + m + sep.length + 1 > 4096 then alloc Char (pre.length + m + sep.length + 1) else static) = buf at hbl
  refine Ret.bind_eq (wr_ok (by omega)) ?_
  refine Ret.bind_eq (copyTo_ok (by rw [List.length_set]; omega)) ?_
  refine Ret.bind_eq (copyTo_ok (by simp; omega)) ?_
  generalize hb : (buf.set (pre.length + m + sep.length + 1 - 1) (some nul)) = b
  have hbl' : pre.length + m + sep.length + 1 ≤ b.length := by rw [← hb, List.length_set]; exact hbl
  have e : (b.take 0 ++ pre.map some ++ b.drop (0 + pre.length)).take pre.length ++ sep.map some ++
      (b.take 0 ++ pre.map some ++ b.drop (0 + pre.length)).drop (pre.length + sep.length) =
      (pre ++ sep).map some ++ b.drop (pre.length + sep.length) := by
    rw [List.take_zero, List.nil_append, List.take_append_of_le_length (by simp), List.take_of_length_le (by simp),
      List.drop_append]
    simp
  rw [e, ← List.length_append]
  refine Ret.bind (Ret.forN (fun (i : Nat) (s : List (Option Char) × List Name) =>
    (∃ rest, s.1 = (pre ++ sep).map some ++ rest ∧ m < rest.length) ∧
      s.2 = (names.take i).map (fun n => some (pre ++ sep ++ cString n)) ++ names.drop i)
    ⟨⟨_, rfl, by rw [List.length_drop, List.length_append]; omega⟩, by simp⟩ ?_) ?_
  · rintro i ⟨b, ns⟩ hi ⟨⟨rest, h1, h2⟩, h3⟩
    dsimp only at h1 h3
    subst h1
    have hg : ns[i]? = some names[i] := by
      rw [h3, List.getElem?_append_right (by simp), List.length_map, List.length_take, Nat.min_eq_left (by omega), Nat.sub_self,
        List.getElem?_drop]
      simp [hi]
    have hmem := List.getElem_mem hi
    have := hm.1 _ hmem
    refine (pasteTurn_ok hg (by omega) (by rw [List.mem_append]; exact not_or.2 ⟨hp, hsep⟩) (hnn _ hmem)).mono ?_
    rintro ⟨b', ns'⟩ ⟨⟨rest', k1, k2⟩, k3⟩
    refine ⟨⟨rest', k1, by omega⟩, ?_⟩
    dsimp only at k3 ⊢
    rw [k3, h3, List.set_append_right _ _ (by simp), List.length_map, List.length_take, Nat.min_eq_left (by omega), Nat.sub_self,
      List.drop_eq_getElem_cons hi, List.set_cons_zero, take_succ_of (List.getElem?_eq_getElem hi), List.map_append]
    rw [List.append_assoc (List.map _ _)]
    rfl
  · rintro ⟨b, ns⟩ ⟨_, h3⟩
    dsimp only at h3
    refine Ret.ok ?_
    rw [h3, List.take_length, List.drop_length, List.append_nil]
    unfold Pasted
    rw [List.forall₂_map_right_iff]
    exact List.forall₂_same.2 (fun n _ => by rw [text_eq])

/-- **C66** (pasting): otherwise the lengths overflow `int`. -/
theorem C66_paste_overflow {static : List (Option Char)} {names : List Name} {pre sep : List Char}
    (hlen : (∃ n ∈ names, 2147483647 < pre.length + (text n).length + sep.length + 1) ∨
      2147483647 < pre.length + sep.length + 1) :
    chrPastePrefix static names pre sep = .error .ub := by
  unfold chrPastePrefix
  by_cases h1 : pre.length ≤ 2147483647
  · rw [chkNat_ok (show _ ≤ intMax from h1), ok_bind]
    by_cases h2 : ∀ s ∈ names, (cString s).length ≤ 2147483647
    · obtain ⟨m, hm, hm1, hm2⟩ := chrMaxLen_ok h2
      have : 2147483647 < pre.length + m + sep.length + 1 := by
        rcases hlen with ⟨n, k1, k2⟩ | h
        · have := hm1 n k1
          rw [text_eq] at k2
          omega
        · omega
      rw [hm, ok_bind]
      by_cases h3 : sep.length ≤ 2147483647
      · rw [chkNat_ok (show _ ≤ intMax from h3), ok_bind]
        by_cases h4 : pre.length + m ≤ 2147483647
        · rw [chkNat_ok (show _ ≤ intMax from h4), ok_bind]
          by_cases h5 : pre.length + m + sep.length ≤ 2147483647
          · rw [chkNat_ok (show _ ≤ intMax from h5), ok_bind, chkNat_bad this]; rfl
          · rw [chkNat_bad (by omega)]; rfl
        · rw [chkNat_bad (by omega)]; rfl
      · rw [chkNat_bad (by omega)]; rfl
    · have : chrMaxLen names = .error .ub := by
        push Not at h2
        obtain ⟨s, k1, k2⟩ := h2
        exact chrMaxLen_bad k1 k2
      rw [this]; rfl
  · rw [chkNat_bad (by omega)]; rfl

/-- **C66**: the names of the elements of an input. -/
theorem C66_outer {static : List (Option Char)} {names : Option (List Name)} {outer : Option Name} {n : Nat}
    (hs : static.length = 4096) (hn : n ≤ 2147483647) (ho : ∀ o, outer = some (some o) → nul ∉ o ∧ o.length ≤ 2147483622)
    (hnn : ∀ l, names = some l → ∀ s, some s ∈ l → nul ∉ s)
    (hlen : ∀ o l, outer = some (some o) → names = some l → ∀ s ∈ l, o.length + (text s).length + 3 ≤ 2147483647) :
    ∃ out, outerNames static names outer n = .ok out ∧ OuterPasted names outer n out := by
  match outer with
  | none => exact ⟨names, rfl, Or.inl ⟨nofun, rfl⟩⟩
  | some none => exact ⟨names, rfl, Or.inl ⟨fun o h => by cases h; exact Or.inl rfl, rfl⟩⟩
  | some (some []) => exact ⟨names, rfl, Or.inl ⟨fun o h => by cases h; exact Or.inr rfl, rfl⟩⟩
  | some (some (c :: o)) =>
    obtain ⟨b, h1, h2⟩ := isEmptyNames_ok names
    obtain ⟨k1, k2⟩ := ho _ rfl
    unfold outerNames
    dsimp only
    rw [h1, ok_bind]
    cases b with
    | true =>
      have hni := h2.1 rfl
      rw [if_pos rfl]
      by_cases h3 : n = 1
      · rw [if_pos h3]
        exact ⟨_, rfl, Or.inr ⟨_, by simp, rfl, Or.inl ⟨hni, h3, rfl⟩⟩⟩
      · rw [if_neg h3]
        unfold seqChr
        rw [chkNat_ok (show _ ≤ 2147483647 by omega), ok_bind, chrIota_ok n _ _ hn (by omega)]
        refine ⟨_, rfl, Or.inr ⟨_, by simp, rfl, Or.inr (Or.inl ⟨hni, h3, _, rfl, by simp, ?_⟩)⟩⟩
        intro i hi
        simp [hi]
    | false =>
      have hni : ¬ NoInner names := fun h => by cases h2.2 h
      rw [if_neg (by simp)]
      cases names with
      | none => exact absurd (fun l h => by cases h) hni
      | some l =>
        obtain ⟨out, h3, h4⟩ := C66_paste (names := l) (sep := ['.', '.']) hs k1 (by decide) (hnn l rfl)
          (fun s hs => by have := hlen _ l rfl rfl s hs; simp only [List.length_cons, List.length_nil] at this ⊢; omega)
          (by simp only [List.length_cons, List.length_nil] at k2 ⊢; omega)
        dsimp only
        rw [h3]
        exact ⟨_, rfl, Or.inr ⟨_, by simp, rfl, Or.inr (Or.inr ⟨hni, l, out, rfl, rfl, h4⟩)⟩⟩

/-! ## Examples -/

/-- A buffer left by an earlier call. -/
def exStaticBuf : List (Option Char) := List.replicate 4096 (some 'x')

example : outerNames exStaticBuf (some [some ['a'], none, some []]) (some (some ['f', 'o', 'o'])) 3 =
    .ok (some [some "foo..a".toList, some "foo..NA".toList, some "foo..".toList]) := by decide +kernel

example : outerNames exStaticBuf (some [some [], none]) (some (some ['f'])) 2 = .ok (some [some ['f', '1'], some ['f', '2']]) ∧
    outerNames exStaticBuf none (some (some ['f'])) 1 = .ok (some [some ['f']]) ∧
    outerNames exStaticBuf (some [some ['a']]) (some none) 1 = .ok (some [some ['a']]) := by
  refine ⟨?_, ?_, ?_⟩ <;> decide +kernel

/-! The longest string for the static buffer, and one more byte. -/

example (s : List Char) (hk : s.length = 4092 ∨ s.length = 4093) (hs : nul ∉ s) :
    ∃ out, chrPastePrefix exStaticBuf [some s, some []] ['f'] ['.', '.'] = .ok out ∧ Pasted ['f', '.', '.'] [some s, some []] out := by
  refine C66_paste (List.length_replicate ..) (by decide) (by decide) ?_ ?_ (by decide)
  · intro t ht
    simp only [List.mem_cons, Option.some.injEq, List.not_mem_nil, or_false] at ht
    rcases ht with rfl | rfl
    · exact hs
    · simp
  · intro n hn
    simp only [List.mem_cons, List.not_mem_nil, or_false] at hn
    rcases hn with rfl | rfl
    · simp only [text, List.length_cons, List.length_nil]; omega
    · decide

example (s : List Char) (hs : s.length = 2147483645) : chrPastePrefix exStaticBuf [some s] ['f'] ['.', '.'] = .error .ub :=
  C66_paste_overflow (Or.inl ⟨some s, List.mem_singleton.2 rfl, by
    simp only [text, List.length_cons, List.length_nil]; omega⟩)

end Vctrs
