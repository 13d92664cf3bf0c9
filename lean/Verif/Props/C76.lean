import Verif.Model.ArgTag
import Verif.Lemmas.Array

/-! # C76: tags of arguments in error messages -/

namespace Vctrs

namespace Spec

/-- The element `i` has the name `s`. -/
def HasNameAt (names : Option (List Name)) (i : Nat) (s : List Char) : Prop :=
  ∃ l, names = some l ∧ l[i]? = some (some s) ∧ s ≠ []

/-- The element `i` has no name, a missing or an empty one. -/
def NoNameAt (names : Option (List Name)) (i : Nat) : Prop :=
  names = none ∨ ∃ l, names = some l ∧ (l[i]? = some none ∨ l[i]? = some (some []))

/-- The text of an element of something (`child`) or of the dots: its name or its position. -/
inductive PositionText : Bool → Option (List Name) → Nat → Nat → String → Prop
  | childName {names : Option (List Name)} {i k : Nat} {s : List Char} : HasNameAt names k s →
      PositionText true names i k ("$" ++ String.ofList s)
  | childPos {names : Option (List Name)} {i k : Nat} : NoNameAt names k →
      PositionText true names i k ("[[" ++ toString (i + 1) ++ "]]")
  | dotsName {names : Option (List Name)} {i k : Nat} {s : List Char} : HasNameAt names k s →
      PositionText false names i k (String.ofList s)
  | dotsPos {names : Option (List Name)} {i k : Nat} : NoNameAt names k →
      PositionText false names i k (".." ++ toString (i + 1))

/-- The text of a node whose parent has a text of its own (`child`) or not. -/
inductive NodeText (child : Bool) : ArgNode → List Char → Prop
  | wrapper {s : List Char} : NodeText child (.wrapper s) s
  | lazyStr {s : List Char} : NodeText child (.lazy (.ok (.str s))) s
  | lazyNull : NodeText child (.lazy (.ok .null)) []
  | subscript {names : Option (List Name)} {n i : Nat} {s : String} : i < n →
      PositionText child names i i s → NodeText child (.subscript names n i) s.toList
  | counter {names : Option (List Name)} {i k : Nat} {s : String} : PositionText child names i k s →
      NodeText child (.counter names i k) s.toList

/-- The text of a node, and that of all its parents before it. -/
inductive TagOf : List ArgNode → List Char → List Char → Prop
  | root {node : ArgNode} {t : List Char} : NodeText false node t → TagOf [node] t t
  | child {node p : ArgNode} {ps : List ArgNode} {t t' whole : List Char} : TagOf (p :: ps) t whole →
      NodeText (decide (t ≠ [])) node t' → TagOf (node :: p :: ps) t' (whole ++ t')

/-- The error of a node: evaluation fails or gives no string, a position past the end, too few
names. -/
inductive NodeErr : ArgNode → Err → Prop
  | eval {e : Err} : NodeErr (.lazy (.error e)) e
  | type : NodeErr (.lazy (.ok .other)) .abort
  | past {names : Option (List Name)} {n i : Nat} : n ≤ i → NodeErr (.subscript names n i) .internal
  | short {l : List Name} {n i : Nat} : i < n → l.length ≤ i →
      NodeErr (.subscript (some l) n i) .internal
  | shortC {l : List Name} {i k : Nat} : l.length ≤ k → NodeErr (.counter (some l) i k) .internal

/-- The error of a tag: that of its outermost node with one; `whole` is the text before it. -/
inductive TagErr : List ArgNode → List Char → Err → Prop
  | root {node : ArgNode} {e : Err} : NodeErr node e → TagErr [node] [] e
  | here {node p : ArgNode} {ps : List ArgNode} {t whole : List Char} {e : Err} :
      TagOf (p :: ps) t whole → NodeErr node e → TagErr (node :: p :: ps) whole e
  | parent {node p : ArgNode} {ps : List ArgNode} {whole : List Char} {e : Err} :
      TagErr (p :: ps) whole e → TagErr (node :: p :: ps) whole e

end Spec

open Spec

theorem hasNameAt_yes {names : Option (List Name)} {i : Nat} {s : List Char} (h : HasNameAt names i s) :
    hasNameAt names i = .ok true ∧ nameBytes names i = .ok s := by
  obtain ⟨l, rfl, h1, h2⟩ := h
  have hi := (List.getElem?_eq_some_iff.1 h1).1
  simp only [hasNameAt, nameBytes]
  rw [if_neg (by omega), rd_of_getElem? h1, ok_bind, ok_bind]
  simp [h2, cString]

theorem hasNameAt_no {names : Option (List Name)} {i : Nat} (h : NoNameAt names i) :
    hasNameAt names i = .ok false := by
  rcases h with rfl | ⟨l, rfl, h⟩
  · rfl
  · simp only [hasNameAt]
    rcases h with h | h <;>
    · have hi := (List.getElem?_eq_some_iff.1 h).1
      rw [if_neg (by omega), rd_of_getElem? h, ok_bind]
      simp

theorem toDigits_toString (k : Nat) : (toString k).toList = Nat.toDigits 10 k := by
  simp [Nat.toString_eq_ofList_toDigits]

theorem positionText_ok {child : Bool} {names : Option (List Name)} {i k : Nat} {s : String}
    (h : PositionText child names i k s) : positionText child names i k = .ok s.toList := by
  cases h with
  | childName h =>
    simp only [positionText, if_true]
    rw [(hasNameAt_yes h).1, (hasNameAt_yes h).2, ok_bind]
    simp
  | childPos h =>
    simp only [positionText, if_true]
    rw [hasNameAt_no h, ok_bind]
    simp only [Bool.false_eq_true, if_false, String.toList_append, toDigits_toString]
    rfl
  | dotsName h =>
    simp only [positionText, Bool.false_eq_true, if_false]
    rw [(hasNameAt_yes h).1, (hasNameAt_yes h).2, ok_bind]
    simp
  | dotsPos h =>
    simp only [positionText, Bool.false_eq_true, if_false]
    rw [hasNameAt_no h, ok_bind]
    simp only [Bool.false_eq_true, if_false, String.toList_append, toDigits_toString]
    rfl

/-- `s` was written to `buf` at `pos`. -/
structure WrittenAt (buf : ByteBuf) (pos : Nat) (s : List Char) (out : ByteBuf) : Prop where
  size : out.length = buf.length
  before : ∀ k, k < pos → out[k]? = buf[k]?
  here : ∀ (k : Nat) c, s[k]? = some c → out[pos + k]? = some (some c)

theorem writeBytes_ok {buf : ByteBuf} {pos : Nat} {s : List Char} (h : pos + s.length ≤ buf.length) :
    Ret (writeBytes buf pos s) (WrittenAt buf pos s) := by
  have : Ret (writeBytes buf pos s) (fun out => out.length = buf.length ∧
      (∀ k, k < pos → out[k]? = buf[k]?) ∧
      ∀ (k : Nat) c, k < s.length → s[k]? = some c → out[pos + k]? = some (some c)) := by
    refine Ret.forN (fun n out => out.length = buf.length ∧ (∀ k, k < pos → out[k]? = buf[k]?) ∧
      ∀ (k : Nat) c, k < n → s[k]? = some c → out[pos + k]? = some (some c)) ⟨rfl, fun _ _ => rfl, by
        intro k c hk; omega⟩ ?_
    rintro n out hn ⟨h1, h2, h3⟩
    refine Ret.bind_eq (rd_ok hn) (Ret.of_eq (wr_ok (by omega)) ⟨by simpa using h1, ?_, ?_⟩)
    · intro k hk
      rw [List.getElem?_set_ne (by omega)]
      exact h2 k hk
    · intro k c hk hc
      by_cases he : k = n
      · subst he
        rw [List.getElem?_set_self (by omega)]
        rw [List.getElem?_eq_getElem hn] at hc
        simpa using hc
      · rw [List.getElem?_set_ne (by omega)]
        exact h3 k c (by omega) hc
  exact this.mono (fun out ⟨h1, h2, h3⟩ => ⟨h1, h2, fun k c hc =>
    h3 k c (List.getElem?_eq_some_iff.1 hc).1 hc⟩)

/-- What a filling function does with the text `t`. -/
structure FilledArg (t : List Char) (buf : ByteBuf) (pos : Nat) (rem : Int) (r : Int × ByteBuf) : Prop where
  big : rem ≤ t.length → r.1 = -1
  fits : (t.length : Int) < rem → r.1 = t.length ∧ WrittenAt buf pos (t ++ ['\x00']) r.2

theorem strArgFill_ok {t : List Char} {buf : ByteBuf} {pos : Nat} {rem : Int} (hr : 1 ≤ rem)
    (hb : pos + rem ≤ buf.length) : Ret (strArgFill t buf pos rem) (FilledArg t buf pos rem) := by
  unfold strArgFill
  dsimp only
  by_cases h : (t.length : Int) ≥ rem
  · rw [if_pos h]
    exact Ret.ok ⟨fun _ => rfl, fun h' => by omega⟩
  · rw [if_neg h]
    refine Ret.bind (writeBytes_ok (by omega)) fun b hw => ?_
    have hl : pos + t.length < b.length := by rw [hw.size]; omega
    refine Ret.bind_eq (wr_ok hl) (Ret.ok ⟨fun h' => by omega, fun _ => ⟨rfl, ?_⟩⟩)
    refine ⟨by simpa using hw.size, ?_, ?_⟩
    · intro k hk
      rw [List.getElem?_set_ne (by omega)]
      exact hw.before k hk
    · intro k c hc
      by_cases hk : k < t.length
      · rw [List.getElem?_append_left hk] at hc
        rw [List.getElem?_set_ne (by omega)]
        exact hw.here k c hc
      · have hk' : k = t.length := by
          have := (List.getElem?_eq_some_iff.1 hc).1
          simp at this
          omega
        subst hk'
        simp at hc
        subst hc
        rw [List.getElem?_set_self hl]

theorem snprintf_ok {t : List Char} {buf : ByteBuf} {pos : Nat} {rem : Int} (hr : 1 ≤ rem)
    (ht : t.length ≤ intMax) (hb : pos + rem ≤ buf.length) :
    Ret (snprintf buf pos rem t >>= fun r => checkLen r rem) (FilledArg t buf pos rem) := by
  unfold snprintf
  rw [if_neg (by omega), if_neg (by omega), if_neg (by omega)]
  rw [bind_assoc]
  refine Ret.bind (writeBytes_ok ?_) fun b hw => ?_
  · simp only [List.length_append, List.length_take, List.length_cons, List.length_nil]
    omega
  · show Ret (checkLen (_, b) rem) _
    unfold checkLen
    dsimp only
    by_cases h : (t.length : Int) ≥ rem
    · rw [if_pos h]
      exact Ret.ok ⟨fun _ => rfl, fun h' => by omega⟩
    · rw [if_neg h]
      refine Ret.ok ⟨fun h' => by omega, fun _ => ⟨rfl, ?_⟩⟩
      rw [List.take_of_length_le (by omega)] at hw
      exact hw

theorem fillArg_ok {arg : List ArgNode} {t whole : List Char} (h : TagOf arg t whole)
    (hl : whole.length ≤ intMax) : ∀ {buf : ByteBuf} {pos : Nat} {rem : Int}, 1 ≤ rem →
      pos + rem ≤ buf.length → Ret (fillArg arg buf pos rem) (FilledArg t buf pos rem) := by
  have key : ∀ {node : ArgNode} {ps : List ArgNode} {t : List Char} {child : Bool},
      (if ps.isEmpty then .ok false else do
          let r ← fillArg ps (alloc Char 1) 0 1
          .ok (!decide (r.1 = 0)) : C Bool) = .ok child → NodeText child node t → t.length ≤ intMax →
      ∀ {buf : ByteBuf} {pos : Nat} {rem : Int}, 1 ≤ rem →
      pos + rem ≤ buf.length → Ret (fillArg (node :: ps) buf pos rem) (FilledArg t buf pos rem) := by
    intro node ps t child hc hn ht buf pos rem hr hb
    cases hn with
    | wrapper => exact strArgFill_ok hr hb
    | lazyStr => exact strArgFill_ok hr hb
    | lazyNull => exact strArgFill_ok hr hb
    | subscript hi hp =>
      simp only [fillArg]
      rw [if_neg (by omega), hc, ok_bind, positionText_ok hp, ok_bind]
      exact snprintf_ok hr ht hb
    | counter hp =>
      simp only [fillArg]
      rw [hc, ok_bind, positionText_ok hp, ok_bind]
      exact snprintf_ok hr ht hb
  induction h with
  | root hn =>
    intro buf pos rem hr hb
    exact key (ps := []) rfl hn hl hr hb
  | @child node p ps t t' whole hp hn ih =>
    rw [List.length_append] at hl
    intro buf pos rem hr hb
    refine key ?_ hn (by omega) hr hb
    obtain ⟨r, h1, h2⟩ := ih (by omega) (buf := alloc Char 1) (pos := 0) (rem := 1) (by omega) (by
      simp [alloc])
    have he : (p :: ps).isEmpty = false := rfl
    rw [he, h1, ok_bind]
    simp only [Bool.false_eq_true, if_false]
    congr 1
    cases t with
    | nil =>
      have := (h2.fits (by simp)).1
      rw [this]
      rfl
    | cons c t =>
      have := h2.big (by simp)
      rw [this]
      rfl

/-- What filling the whole tag does. -/
structure FilledTag (whole : List Char) (buf : ByteBuf) (r : Int × ByteBuf) : Prop where
  big : buf.length ≤ whole.length → r.1 < 0
  fits : whole.length < buf.length → r.1 = whole.length ∧ r.2.length = buf.length ∧
    ∀ (k : Nat) c, (whole ++ ['\x00'])[k]? = some c → r.2[k]? = some (some c)

theorem fillArgBuffer_ok {arg : List ArgNode} {t whole : List Char} (h : TagOf arg t whole)
    (hl : whole.length ≤ intMax) {buf : ByteBuf} (hb : 1 ≤ buf.length) :
    Ret (fillArgBuffer arg buf 0 buf.length) (FilledTag whole buf) := by
  induction h with
  | @root node t hn =>
    simp only [fillArgBuffer]
    show Ret (do
      let w ← fillArg _ buf 0 _
      if w.1 < 0 then .ok w else do
        let k ← chkInt (0 + w.1)
        .ok (k, w.2)) _
    refine Ret.bind (fillArg_ok (.root hn) hl (by omega) (by omega)) fun w hw => ?_
    by_cases hf : (buf.length : Int) - 0 ≤ t.length
    · rw [if_pos (by rw [hw.big hf]; omega)]
      refine Ret.ok ⟨fun _ => by rw [hw.big hf]; omega, fun h' => by omega⟩
    · obtain ⟨h1, h2⟩ := hw.fits (by omega)
      rw [if_neg (by omega)]
      refine Ret.bind_eq (chkInt_ok (by omega) (by rw [h1]; simp [naInt])) (Ret.ok ⟨fun h' => by omega, fun _ =>
        ⟨by dsimp only; omega, h2.size, fun k c hc => by simpa using h2.here k c hc⟩⟩)
  | @child node p ps t t' whole hp hn ih =>
    have hl' := hl
    rw [List.length_append] at hl
    have he : (p :: ps).isEmpty = false := rfl
    rw [fillArgBuffer, he]
    simp only [Bool.false_eq_true, if_false]
    refine Ret.bind (ih (by omega)) fun r hr => ?_
    by_cases hf : buf.length ≤ whole.length
    · have := hr.big hf
      rw [if_pos this]
      refine Ret.ok ⟨fun _ => this, fun h' => ?_⟩
      rw [List.length_append] at h'
      omega
    · obtain ⟨h1, h2, h3⟩ := hr.fits (by omega)
      rw [if_neg (by omega)]
      refine Ret.bind (fillArg_ok (.child hp hn) hl' (by omega) (by omega)) fun w hw => ?_
      by_cases hg : (buf.length : Int) - r.1 ≤ t'.length
      · rw [if_pos (by rw [hw.big hg]; omega)]
        refine Ret.ok ⟨fun _ => by rw [hw.big hg]; omega, fun h' => ?_⟩
        rw [List.length_append] at h'
        omega
      · obtain ⟨g1, g2⟩ := hw.fits (by omega)
        rw [if_neg (by omega)]
        refine Ret.bind_eq (chkInt_ok (by omega) (by rw [h1, g1]; simp [naInt]; omega)) (Ret.ok ⟨fun h' => ?_, fun _ => ⟨?_, ?_, ?_⟩⟩)
        · rw [List.length_append] at h'; omega
        · dsimp only
          rw [List.length_append]; omega
        · exact g2.size.trans h2
        · intro k c hc
          have hw0 : r.1.toNat = whole.length := by omega
          dsimp only
          rw [List.append_assoc] at hc
          by_cases hk : k < whole.length
          · rw [List.getElem?_append_left hk] at hc
            rw [g2.before k (by omega)]
            refine h3 k c ?_
            rw [List.getElem?_append_left hk]
            exact hc
          · rw [List.getElem?_append_right (by omega)] at hc
            have := g2.here _ c hc
            rw [hw0] at this
            rwa [show whole.length + (k - whole.length) = k by omega] at this

theorem cBytes_ok : ∀ {whole : List Char} {buf : ByteBuf}, '\x00' ∉ whole →
    (∀ (k : Nat) c, (whole ++ ['\x00'])[k]? = some c → buf[k]? = some (some c)) → cBytes buf = .ok whole := by
  intro whole
  induction whole with
  | nil =>
    intro buf _ h
    have := h 0 '\x00' rfl
    cases buf with
    | nil => simp at this
    | cons b buf =>
      simp at this
      subst this
      rfl
  | cons c whole ih =>
    intro buf hn h
    have h0 := h 0 c rfl
    simp only [List.mem_cons, not_or] at hn
    cases buf with
    | nil => simp at h0
    | cons b buf =>
      simp at h0
      subst h0
      have := ih (buf := buf) hn.2 (fun k x hx => by
        have := h (k + 1) x (by simpa using hx)
        simpa using this)
      simp only [cBytes]
      rw [if_neg (fun hc => hn.1 hc.symm), this]
      rfl

theorem vctrsArgLoop_ok {arg : List ArgNode} {t whole : List Char} (h : TagOf arg t whole)
    (hl : whole.length ≤ intMax) (hz : '\x00' ∉ whole) : ∀ (fuel size : Nat), 2 ≤ size →
      whole.length < size + fuel → vctrsArgLoop arg (fuel + 1) size = .ok whole := by
  intro fuel
  induction fuel with
  | zero =>
    intro size hs hf
    obtain ⟨r, h1, h2⟩ := fillArgBuffer_ok h hl (buf := alloc Char size) (by simp [alloc]; omega)
    have hlen : (alloc Char size).length = size := by simp [alloc]
    rw [hlen] at h1
    simp only [vctrsArgLoop]
    rw [h1, ok_bind]
    obtain ⟨g1, g2, g3⟩ := h2.fits (by omega)
    rw [if_neg (by omega)]
    exact cBytes_ok hz g3
  | succ fuel ih =>
    intro size hs hf
    obtain ⟨r, h1, h2⟩ := fillArgBuffer_ok h hl (buf := alloc Char size) (by simp [alloc]; omega)
    have hlen : (alloc Char size).length = size := by simp [alloc]
    rw [hlen] at h1
    rw [vctrsArgLoop, h1, ok_bind]
    by_cases hb : size ≤ whole.length
    · rw [if_pos (h2.big (by omega))]
      exact ih _ (by omega) (by omega)
    · obtain ⟨g1, g2, g3⟩ := h2.fits (by omega)
      rw [if_neg (by omega)]
      exact cBytes_ok hz g3

/-- The tag is the text of all nodes from the outermost to the innermost; an element of something
that has a text is `$name` or `[[position]]`, one of the dots is `name` or `..position`.  No byte is
written outside of a buffer, whatever the lengths of the texts, and enlarging the buffer ends after
at most as many rounds as there are bytes. -/
theorem C76_tag {arg : List ArgNode} {t whole : List Char} (h : TagOf arg t whole)
    (hl : whole.length ≤ intMax) (hz : '\x00' ∉ whole) (fuel : Nat) (hf : whole.length < fuel) :
    vctrsArg fuel arg = .ok whole := by
  have hne : arg.isEmpty = false := by cases h <;> rfl
  obtain ⟨f, rfl⟩ : ∃ f, fuel = f + 1 := ⟨fuel - 1, by omega⟩
  rw [vctrsArg, hne]
  exact vctrsArgLoop_ok h hl hz f 100 (by omega) (by omega)

theorem positionText_err {child : Bool} {l : List Name} {i k : Nat} (h : l.length ≤ k) :
    positionText child (some l) i k = .error .internal := by
  have : hasNameAt (some l) k = .error .internal := by
    simp only [hasNameAt]
    rw [if_pos h]
  cases child <;> simp only [positionText, Bool.false_eq_true, if_false, if_true] <;> rw [this] <;> rfl

theorem fillArg_err {node : ArgNode} {e : Err} (h : NodeErr node e) {ps : List ArgNode}
    (hp : ps = [] ∨ ∃ t whole, TagOf ps t whole ∧ whole.length ≤ intMax) (buf : ByteBuf) (pos : Nat)
    (rem : Int) : fillArg (node :: ps) buf pos rem = .error e := by
  have hc : ∃ child, (if ps.isEmpty then .ok false else do
          let r ← fillArg ps (alloc Char 1) 0 1
          .ok (!decide (r.1 = 0)) : C Bool) = .ok child := by
    rcases hp with rfl | ⟨t, whole, hp, hl⟩
    · exact ⟨_, rfl⟩
    · have he : ps.isEmpty = false := by cases hp <;> rfl
      obtain ⟨r, h1, _⟩ := fillArg_ok hp hl (buf := alloc Char 1) (pos := 0) (rem := 1) (by omega)
        (by simp [alloc])
      rw [he, h1]
      exact ⟨_, rfl⟩
  obtain ⟨child, hc⟩ := hc
  cases h with
  | eval => rfl
  | type => rfl
  | past h =>
    simp only [fillArg]
    rw [if_pos h]
  | short h1 h2 =>
    simp only [fillArg]
    rw [if_neg (by omega), hc, ok_bind, positionText_err h2]
    rfl
  | shortC h1 =>
    simp only [fillArg]
    rw [hc, ok_bind, positionText_err h1]
    rfl

theorem fillArgBuffer_err {arg : List ArgNode} {whole : List Char} {e : Err} (h : TagErr arg whole e)
    (hl : whole.length ≤ intMax) {buf : ByteBuf} (hb : 1 ≤ buf.length) :
    (whole.length < buf.length → fillArgBuffer arg buf 0 buf.length = .error e) ∧
    (fillArgBuffer arg buf 0 buf.length = .error e ∨
      ∃ r, fillArgBuffer arg buf 0 buf.length = .ok r ∧ r.1 < 0) := by
  induction h with
  | @root node e hn =>
    have : fillArgBuffer [node] buf 0 buf.length = .error e := by
      simp only [fillArgBuffer]
      show (do
        let w ← fillArg _ buf 0 _
        if w.1 < 0 then .ok w else do
          let k ← chkInt (0 + w.1)
          .ok (k, w.2)) = _
      rw [fillArg_err hn (.inl rfl)]
      rfl
    exact ⟨fun _ => this, .inl this⟩
  | @here node p ps t whole e hp hn =>
    have he : (p :: ps).isEmpty = false := rfl
    obtain ⟨r, h1, hr⟩ := fillArgBuffer_ok hp hl hb
    have hs : fillArgBuffer (node :: p :: ps) buf 0 buf.length =
        (if r.1 < 0 then .ok r else .error e) := by
      rw [fillArgBuffer, he]
      simp only [Bool.false_eq_true, if_false]
      rw [h1, ok_bind, fillArg_err hn (.inr ⟨_, _, hp, hl⟩)]
      rfl
    rw [hs]
    by_cases hf : buf.length ≤ whole.length
    · rw [if_pos (hr.big hf)]
      exact ⟨fun h => by omega, .inr ⟨r, rfl, hr.big hf⟩⟩
    · have := (hr.fits (by omega)).1
      rw [if_neg (by omega)]
      exact ⟨fun _ => rfl, .inl rfl⟩
  | @parent node p ps whole e hp ih =>
    have he : (p :: ps).isEmpty = false := rfl
    obtain ⟨i1, i2⟩ := ih hl
    have hs : ∀ c, fillArgBuffer (p :: ps) buf 0 buf.length = c →
        fillArgBuffer (node :: p :: ps) buf 0 buf.length = (c >>= fun r =>
          if r.1 < 0 then .ok r else do
            let w ← fillArg (node :: p :: ps) r.2 r.1.toNat (buf.length - r.1)
            if w.1 < 0 then .ok w
            else do
              let k ← chkInt (r.1 + w.1)
              .ok (k, w.2)) := by
      rintro c rfl
      rw [fillArgBuffer, he]
      simp only [Bool.false_eq_true, if_false]
    refine ⟨fun h => by rw [hs _ (i1 h)]; rfl, ?_⟩
    rcases i2 with i2 | ⟨r, i2, i3⟩
    · exact .inl (by rw [hs _ i2]; rfl)
    · refine .inr ⟨r, ?_, i3⟩
      rw [hs _ i2, ok_bind, if_pos i3]

/-- A tag with a node which cannot be shown is the error of the outermost such node. -/
theorem C76_error {arg : List ArgNode} {whole : List Char} {e : Err} (h : TagErr arg whole e)
    (hl : whole.length ≤ intMax) (fuel : Nat) (hf : whole.length < fuel) :
    vctrsArg fuel arg = .error e := by
  have hne : arg.isEmpty = false := by cases h <;> rfl
  have key : ∀ (fuel size : Nat), 2 ≤ size → whole.length < size + fuel →
      vctrsArgLoop arg (fuel + 1) size = .error e := by
    intro fuel
    induction fuel with
    | zero =>
      intro size hs hf
      have hlen : (alloc Char size).length = size := by simp [alloc]
      have := (fillArgBuffer_err h hl (buf := alloc Char size) (by omega)).1 (by omega)
      rw [hlen] at this
      simp only [vctrsArgLoop]
      rw [this]; rfl
    | succ fuel ih =>
      intro size hs hf
      have hlen : (alloc Char size).length = size := by simp [alloc]
      obtain ⟨h1, h2⟩ := fillArgBuffer_err h hl (buf := alloc Char size) (by omega)
      rw [hlen] at h1 h2
      rw [vctrsArgLoop]
      rcases h2 with h2 | ⟨r, h2, h3⟩
      · rw [h2]; rfl
      · rw [h2, ok_bind, if_pos h3]
        refine ih _ (by omega) (by omega)
  obtain ⟨f, rfl⟩ : ∃ f, fuel = f + 1 := ⟨fuel - 1, by omega⟩
  rw [vctrsArg, hne]
  exact key f 100 (by omega) (by omega)

theorem name_cases (names : Option (List Name)) (i : Nat) :
    (∃ s, HasNameAt names i s) ∨ NoNameAt names i ∨ ∃ l, names = some l ∧ l.length ≤ i := by
  cases names with
  | none => exact .inr (.inl (.inl rfl))
  | some l =>
    by_cases h : i < l.length
    · have hi : l[i]? = some l[i] := List.getElem?_eq_getElem h
      cases hn : l[i] with
      | none => exact .inr (.inl (.inr ⟨l, rfl, .inl (by rw [hi, hn])⟩))
      | some s =>
        by_cases hs : s = []
        · subst hs
          exact .inr (.inl (.inr ⟨l, rfl, .inr (by rw [hi, hn])⟩))
        · exact .inl ⟨s, l, rfl, by rw [hi, hn], hs⟩
    · exact .inr (.inr ⟨l, rfl, by omega⟩)

theorem node_total (child : Bool) (node : ArgNode) : (∃ t, NodeText child node t) ∨ ∃ e, NodeErr node e := by
  have key : ∀ (names : Option (List Name)) (i k : Nat), (∃ s, PositionText child names i k s) ∨
      ∃ l, names = some l ∧ l.length ≤ k := by
    intro names i k
    rcases name_cases names k with ⟨s, h⟩ | h | h
    · cases child
      · exact .inl ⟨_, .dotsName h⟩
      · exact .inl ⟨_, .childName h⟩
    · cases child
      · exact .inl ⟨_, .dotsPos h⟩
      · exact .inl ⟨_, .childPos h⟩
    · exact .inr h
  cases node with
  | wrapper s => exact .inl ⟨_, .wrapper⟩
  | lazy v =>
    rcases v with e | (s | _ | _)
    · exact .inr ⟨_, .eval⟩
    · exact .inl ⟨_, .lazyStr⟩
    · exact .inl ⟨_, .lazyNull⟩
    · exact .inr ⟨_, .type⟩
  | subscript names n i =>
    by_cases hi : i < n
    · rcases key names i i with ⟨s, h⟩ | ⟨l, rfl, h⟩
      · exact .inl ⟨_, .subscript hi h⟩
      · exact .inr ⟨_, .short hi h⟩
    · exact .inr ⟨_, .past (by omega)⟩
  | counter names i k =>
    rcases key names i k with ⟨s, h⟩ | ⟨l, rfl, h⟩
    · exact .inl ⟨_, .counter h⟩
    · exact .inr ⟨_, .shortC h⟩

/-- Every tag is covered: it has a text or an error. -/
theorem C76_total : ∀ arg : List ArgNode, arg ≠ [] →
    (∃ t whole, TagOf arg t whole) ∨ ∃ whole e, TagErr arg whole e := by
  intro arg
  induction arg with
  | nil => intro h; exact absurd rfl h
  | cons node ps ih =>
    intro _
    cases ps with
    | nil =>
      rcases node_total false node with ⟨t, h⟩ | ⟨e, h⟩
      · exact .inl ⟨_, _, .root h⟩
      · exact .inr ⟨_, _, .root h⟩
    | cons p ps =>
      rcases ih (by simp) with ⟨t, whole, h⟩ | ⟨whole, e, h⟩
      · rcases node_total (decide (t ≠ [])) node with ⟨t', h'⟩ | ⟨e, h'⟩
        · exact .inl ⟨_, _, .child h h'⟩
        · exact .inr ⟨_, _, .here h h'⟩
      · exact .inr ⟨_, _, .parent h⟩

/-- Data for the examples: `x$a[[2]]`, and a name which does not fit the first buffers. -/
def exArg : List ArgNode :=
  [.subscript none 3 1, .subscript (some [none, some ['a']]) 2 1, .lazy (.ok (.str ['x']))]

example : TagOf exArg "[[2]]".toList "x$a[[2]]".toList :=
  have h1 : PositionText true (some [none, some ['a']]) 1 1 "$a" :=
    .childName (s := ['a']) ⟨_, rfl, rfl, by decide⟩
  have h2 : PositionText true none 1 1 "[[2]]" := .childPos (.inl rfl)
  have h3 : TagOf [.lazy (.ok (.str ['x']))] ['x'] ['x'] := .root .lazyStr
  TagOf.child (TagOf.child h3 (.subscript (by decide) h1)) (.subscript (by decide) h2)
example : vctrsArg 9 exArg = .ok "x$a[[2]]".toList := by decide +kernel
example : vctrsArg 200 [.counter (some [some (List.replicate 160 'a')]) 0 0] =
    .ok (List.replicate 160 'a') := by decide +kernel
example : TagErr [.wrapper ['b'], .subscript (some []) 3 1, .wrapper []] [] .internal :=
  .parent (.here (.root .wrapper) (.short (by decide) (by decide)))
example : vctrsArg 1 [.wrapper ['b'], .subscript (some []) 3 1, .wrapper []] = .error .internal := by
  decide +kernel

end Vctrs
