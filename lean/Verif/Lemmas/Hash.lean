import Verif.Lemmas.Equal
import Verif.Lemmas.Names
import Verif.Model.Hash

/-! # Filling the hash array, row by row -/

namespace Vctrs

open Spec

/-- What one column does to one slot of the hash array. -/
def eltHash (addr : Name → BitVec 64) (naEqual : Bool) (h : BitVec 32) :
    (t : VTy) → t.El → C (BitVec 32)
  | .atom t, e => .ok (if naEqual || decide (t = .raw) then hashCombine h (hashScalar addr t e)
      else if h = hashMissing then h
      else if isMissing t e then hashMissing else hashCombine h (hashScalar addr t e))
  | .list, (e : Obj) =>
      if naEqual then do .ok (hashCombine h (← hashObj addr e))
      else if h = hashMissing then .ok h
      else do
        let k ← listHashScalarPropagate addr e
        .ok (if k = hashMissing then hashMissing else hashCombine h k)

/-- The same, reading the element from the column. -/
def cellHash (addr : Name → BitVec 64) (naEqual : Bool) (i : Nat) (h : BitVec 32) :
    Val → C (BitVec 32)
  | .vec t xs => do eltHash addr naEqual h t (← rd xs i)
  | .df _ _ => .error .internal

theorem cellHash_vec {addr : Name → BitVec 64} {naEqual : Bool} {i : Nat} {h : BitVec 32} {t : VTy}
    {xs : List t.El} {e : t.El} (he : xs[i]? = some e) :
    cellHash addr naEqual i h (.vec t xs) = eltHash addr naEqual h t e := by
  simp only [cellHash]
  rw [rd_of_getElem? he, ok_bind]

theorem loop_slots {F : Nat → List (BitVec 32) → C (List (BitVec 32))} {p : List (BitVec 32)}
    (g : Nat → BitVec 32)
    (hF : ∀ i v a, v.length = p.length → i < p.length → p[i]? = some a → v[i]? = some a →
      F i v = .ok (v.set i (g i))) :
    forN p.length F p = .ok ((List.range p.length).map g) := by
  obtain ⟨out, h1, h2, h3⟩ := forN_inplace F (fun i _ => g i) p
    (fun i v a hl hp hv => hF i v a hl (List.getElem?_eq_some_iff.1 hp).1 hp hv)
  rw [h1]
  congr 1
  apply List.ext_getElem?
  intro i
  rw [h3 i]
  by_cases hi : i < p.length
  · simp [hi]
  · simp [hi]

theorem set_same {β : Type} {l : List β} {i : Nat} {a : β} (h : l[i]? = some a) : l.set i a = l := by
  apply List.ext_getElem?
  intro j
  have hi := (List.getElem?_eq_some_iff.1 h).1
  rw [getElem?_set' hi]
  by_cases hj : j = i
  · subst hj; simp [h]
  · rw [if_neg hj]

theorem hashFillLoop_ok {α : Type} {hash : α → C (BitVec 32)} {xs : List α} {p : List (BitVec 32)}
    (g : Nat → BitVec 32) (hx : xs.length = p.length)
    (hg : ∀ i h e, p[i]? = some h → xs[i]? = some e →
      (do .ok (hashCombine h (← hash e)) : C (BitVec 32)) = .ok (g i)) :
    hashFillLoop hash p.length xs p = .ok ((List.range p.length).map g) := by
  unfold hashFillLoop
  refine loop_slots g (fun i v a hl hi hpa hva => ?_)
  have hxe := List.getElem?_eq_getElem (l := xs) (i := i) (by omega)
  have := hg i a _ hpa hxe
  rw [rd_of_getElem? hva, ok_bind, rd_of_getElem? hxe, ok_bind]
  cases hk : hash xs[i] with
  | error e => rw [hk] at this; cases this
  | ok k =>
    rw [hk, ok_bind] at this
    injection this with this
    rw [ok_bind, this, wr_ok (by omega)]

theorem hashFillPropagate_ok {α : Type} {hash : α → BitVec 32} {missing : α → Bool} {xs : List α}
    {p : List (BitVec 32)} (g : Nat → BitVec 32) (hx : xs.length = p.length)
    (hg : ∀ i h e, p[i]? = some h → xs[i]? = some e →
      (if h = hashMissing then h else if missing e then hashMissing
        else hashCombine h (hash e)) = g i) :
    hashFillPropagate hash missing p.length xs p = .ok ((List.range p.length).map g) := by
  unfold hashFillPropagate
  refine loop_slots g (fun i v a hl hi hpa hva => ?_)
  have hxe := List.getElem?_eq_getElem (l := xs) (i := i) (by omega)
  have := hg i a _ hpa hxe
  rw [rd_of_getElem? hva, ok_bind]
  by_cases ha : a = hashMissing
  · rw [if_pos ha] at this ⊢
    rw [← this, set_same hva]
  · rw [if_neg ha] at this ⊢
    rw [rd_of_getElem? hxe, ok_bind]
    cases hm : missing xs[i]
    · rw [hm, if_neg (by simp)] at this
      rw [if_neg (by simp), this, wr_ok (by omega)]
    · rw [hm, if_pos rfl] at this
      rw [if_pos rfl, this, wr_ok (by omega)]

theorem listHashScalarPropagate_eq (addr : Name → BitVec 64) {o : Obj} (ho : o ≠ .nil) :
    listHashScalarPropagate addr o = hashObj addr o := by
  unfold listHashScalarPropagate
  split
  · exact absurd rfl ho
  · rfl

theorem hashFillListPropagate_ok {addr : Name → BitVec 64} {xs : List Obj}
    {p : List (BitVec 32)} (g : Nat → BitVec 32) (hx : xs.length = p.length)
    (hg : ∀ i h e, p[i]? = some h → xs[i]? = some e →
      (if h = hashMissing then .ok h
       else do
         let k ← listHashScalarPropagate addr e
         .ok (if k = hashMissing then hashMissing else hashCombine h k) : C (BitVec 32)) =
      .ok (g i)) :
    hashFillListPropagate addr p.length xs p = .ok ((List.range p.length).map g) := by
  unfold hashFillListPropagate
  refine loop_slots g (fun i v a hl hi hpa hva => ?_)
  have hxe := List.getElem?_eq_getElem (l := xs) (i := i) (by omega)
  have := hg i a _ hpa hxe
  rw [rd_of_getElem? hva, ok_bind]
  by_cases ha : a = hashMissing
  · rw [if_pos ha] at this ⊢
    injection this with this
    rw [← this, set_same hva]
  · rw [if_neg ha] at this ⊢
    rw [rd_of_getElem? hxe, ok_bind]
    cases hk : listHashScalarPropagate addr xs[i] with
    | error e => rw [hk] at this; cases this
    | ok k =>
      rw [hk, ok_bind] at this
      injection this with this
      rw [ok_bind]
      by_cases h1 : k = hashMissing
      · rw [if_pos h1] at this ⊢
        rw [this, wr_ok (by omega)]
      · rw [if_neg h1] at this ⊢
        rw [ok_bind, this, wr_ok (by omega)]

theorem hashFillVec_ok (addr : Name → BitVec 64) (naEqual : Bool) {n : Nat} {p : List (BitVec 32)}
    (hp : p.length = n) (g : Nat → BitVec 32) : (t : VTy) → (xs : List t.El) → xs.length = n →
    (∀ i h e, p[i]? = some h → xs[i]? = some e → eltHash addr naEqual h t e = .ok (g i)) →
    hashFillVec addr naEqual n p t xs = .ok ((List.range n).map g)
  | .atom t, xs, hx, hg => by
      subst hp
      have hg' : ∀ (i : Nat) (h : BitVec 32) (e : t.El), p[i]? = some h → (xs : List t.El)[i]? = some e →
          (if naEqual || decide (t = .raw) then hashCombine h (hashScalar addr t e)
            else if h = hashMissing then h
            else if isMissing t e then hashMissing else hashCombine h (hashScalar addr t e)) = g i := by
        intro i h e h1 h2
        have := hg i h e h1 h2
        injection this
      show (if naEqual || decide (t = .raw) then
          hashFillLoop (fun e => .ok (hashScalar addr t e)) p.length (xs : List t.El) p
        else hashFillPropagate (hashScalar addr t) (isMissing t) p.length (xs : List t.El) p) = _
      by_cases hb : (naEqual || decide (t = .raw)) = true
      · rw [if_pos hb]
        refine hashFillLoop_ok g hx (fun i h e h1 h2 => ?_)
        have := hg' i h e h1 h2
        rw [if_pos hb] at this
        rw [← this]; rfl
      · rw [if_neg hb]
        refine hashFillPropagate_ok g hx (fun i h e h1 h2 => ?_)
        have := hg' i h e h1 h2
        rwa [if_neg hb] at this
  | .list, (xs : List Obj), (hx : xs.length = n), hg => by
      subst hp
      show (if naEqual then hashFillLoop (hashObj addr) p.length xs p
        else hashFillListPropagate addr p.length xs p) = _
      cases naEqual
      · exact hashFillListPropagate_ok g hx hg
      · exact hashFillLoop_ok g hx hg

/-- The hash of row `i`: column by column from 0. -/
def rowSlot (addr : Name → BitVec 64) (naEqual : Bool) (i : Nat) (h : BitVec 32)
    (cols : List Val) : C (BitVec 32) := cols.foldlM (cellHash addr naEqual i) h

theorem dfHashFill_ok (addr : Name → BitVec 64) (naEqual : Bool) {n : Nat} (cols : List Val)
    (hc : ∀ p ∈ cols, ∃ t xs, p = .vec t xs ∧ xs.length = n) (f g : Nat → BitVec 32)
    (hg : ∀ i, i < n → rowSlot addr naEqual i (f i) cols = .ok (g i)) :
    dfHashFill addr naEqual n ((List.range n).map f) cols = .ok ((List.range n).map g) := by
  induction cols generalizing f with
  | nil =>
    simp only [dfHashFill]
    congr 1
    apply List.map_congr_left
    intro i hi
    have := hg i (List.mem_range.1 hi)
    simp only [rowSlot, List.foldlM_nil] at this
    injection this
  | cons p cols ih =>
    obtain ⟨t, xs, rfl, hl⟩ := hc p (by simp)
    classical
    have hmid : ∀ i, ∃ m, i < n → cellHash addr naEqual i (f i) (.vec t xs) = .ok m ∧
        rowSlot addr naEqual i m cols = .ok (g i) := by
      intro i
      by_cases hi : i < n
      · have := hg i hi
        simp only [rowSlot, List.foldlM_cons] at this
        cases hm : cellHash addr naEqual i (f i) (.vec t xs) with
        | error e => rw [hm] at this; cases this
        | ok m => rw [hm] at this; exact ⟨m, fun _ => ⟨rfl, this⟩⟩
      · exact ⟨0, fun h => absurd h hi⟩
    choose m hm using hmid
    simp only [dfHashFill, hashFill]
    rw [hashFillVec_ok addr naEqual (by simp) m t xs hl]
    · rw [ok_bind]
      exact ih (fun p hp => hc p (by simp [hp])) m (fun i hi => (hm i hi).2)
    · intro i h e hp he
      have hi : i < n := by
        have := (List.getElem?_eq_some_iff.1 hp).1
        simpa using this
      rw [List.getElem?_map, List.getElem?_range hi] at hp
      cases hp
      rw [← cellHash_vec he]
      exact (hm i hi).1

theorem replicate_eq_map (n : Nat) (a : BitVec 32) :
    List.replicate n a = (List.range n).map (fun _ => a) := by
  apply List.ext_getElem?
  intro i
  by_cases hi : i < n
  · simp [hi]
  · simp [hi]

/-- The hash array of a dictionary, from the hashes of its rows. -/
theorem dictHashes_ok (addr : Name → BitVec 64) (naEqual : Bool) {x : Val} (hx : Flat x)
    (g : Nat → BitVec 32)
    (hg : ∀ i, i < x.size → rowSlot addr naEqual i 0 (columns x) = .ok (g i)) :
    dictHashes addr naEqual x = .ok ((List.range x.size).map g) := by
  have hc : ∀ p ∈ columns x, ∃ t xs, p = .vec t xs ∧ xs.length = x.size := by
    intro p hp
    obtain ⟨c, hc⟩ := List.mem_iff_getElem?.1 hp
    obtain ⟨t, xs, -, h1, -, h2, -⟩ := hx.cols c p p hc hc
    exact ⟨t, xs, h1, h2⟩
  have := dfHashFill_ok addr naEqual (columns x) hc (fun _ => 0) g hg
  rw [← replicate_eq_map] at this
  unfold dictHashes
  cases x with
  | df n cols => exact this
  | vec t xs =>
    simp only [columns, dfHashFill] at this
    cases hr : hashFill addr naEqual (Val.vec t xs).size
        (List.replicate (Val.vec t xs).size 0) (.vec t xs) with
    | error e => rw [hr] at this; cases this
    | ok r => rw [hr] at this; exact this

/-! ## Existence and congruence -/

theorem foldlM_total {β γ : Type} {f : β → γ → C β} (l : List γ) (b : β)
    (h : ∀ a, ∀ c ∈ l, ∃ r, f a c = .ok r) : ∃ r, l.foldlM f b = .ok r := by
  induction l generalizing b with
  | nil => exact ⟨b, rfl⟩
  | cons c l ih =>
    obtain ⟨r, hr⟩ := h b c (by simp)
    rw [List.foldlM_cons, hr, ok_bind]
    exact ih r (fun a c hc => h a c (by simp [hc]))

theorem cellHash_total (addr : Name → BitVec 64) (naEqual : Bool) {i n : Nat} (hi : i < n)
    (h : BitVec 32) (t : VTy) (xs : List t.El) (hl : xs.length = n)
    (ho : ∀ l : List Obj, Val.vec t xs = .vec .list l → ∀ e ∈ l, ∃ r, hashObj addr e = .ok r) :
    ∃ r, cellHash addr naEqual i h (.vec t xs) = .ok r := by
  have he := List.getElem?_eq_getElem (l := xs) (i := i) (by omega)
  rw [cellHash_vec he]
  cases t with
  | atom t => exact ⟨_, rfl⟩
  | list =>
    obtain ⟨r, hr⟩ := ho xs rfl _ (List.getElem_mem (l := xs) (n := i) (by omega))
    revert hr
    generalize (xs[i]) = e
    intro hr
    show ∃ r, (if naEqual then do .ok (hashCombine h (← hashObj addr e))
            else if h = hashMissing then .ok h
            else do
              let k ← listHashScalarPropagate addr e
              .ok (if k = hashMissing then hashMissing else hashCombine h k) : C (BitVec 32)) = .ok r
    cases naEqual
    · simp only [Bool.false_eq_true, if_false]
      split
      · exact ⟨_, rfl⟩
      · have : ∃ k, listHashScalarPropagate addr e = .ok k := by
          by_cases hn : e = .nil
          · subst hn; exact ⟨_, rfl⟩
          · rw [listHashScalarPropagate_eq addr hn]; exact ⟨_, hr⟩
        obtain ⟨k, hk⟩ := this
        rw [hk]
        exact ⟨_, rfl⟩
    · simp only [if_true]
      rw [hr]
      exact ⟨_, rfl⟩

/-- All list elements can be hashed. -/
def HashableVal (addr : Name → BitVec 64) (x : Val) : Prop :=
  ∀ l : List Obj, Val.vec .list l ∈ columns x → ∀ e ∈ l, ∃ r, hashObj addr e = .ok r

theorem rowSlot_total (addr : Name → BitVec 64) (naEqual : Bool) {x : Val} (hx : Flat x)
    (ho : HashableVal addr x) {i : Nat} (hi : i < x.size) (h : BitVec 32) :
    ∃ r, rowSlot addr naEqual i h (columns x) = .ok r := by
  refine foldlM_total _ _ (fun a p hp => ?_)
  obtain ⟨c, hc⟩ := List.mem_iff_getElem?.1 hp
  obtain ⟨t, xs, -, rfl, -, h2, -⟩ := hx.cols c p p hc hc
  exact cellHash_total addr naEqual hi a t xs h2 (fun l hl => ho l (by rw [← hl]; exact hp))

theorem dictHashes_rows (addr : Name → BitVec 64) (naEqual : Bool) {x : Val} (hx : Flat x)
    (ho : HashableVal addr x) : ∃ out, dictHashes addr naEqual x = .ok out ∧ out.length = x.size ∧
      ∀ i, i < x.size → ∃ h, out[i]? = some h ∧ rowSlot addr naEqual i 0 (columns x) = .ok h := by
  classical
  have : ∀ i, ∃ r, i < x.size → rowSlot addr naEqual i 0 (columns x) = .ok r := by
    intro i
    by_cases hi : i < x.size
    · obtain ⟨r, hr⟩ := rowSlot_total addr naEqual hx ho hi 0
      exact ⟨r, fun _ => hr⟩
    · exact ⟨0, fun h => absurd h hi⟩
  choose g hg using this
  refine ⟨_, dictHashes_ok addr naEqual hx g hg, by simp, ?_⟩
  intro i hi
  exact ⟨g i, by simp [hi], hg i hi⟩

theorem eltHash_congr (addr : Name → BitVec 64) (naEqual : Bool) (h : BitVec 32) : (t : VTy) →
    (a b : t.El) → SameElt t a b → eltHash addr naEqual h t a = eltHash addr naEqual h t b
  | .atom t, a, b, hs => by
      have he := (equalNaEqual_same t a b).2 hs
      have h1 : hashScalar addr t a = hashScalar addr t b := hashScalar_congr addr t he
      have h2 : isMissing t a = isMissing t b := isMissing_congr t he
      show (Except.ok (if naEqual || decide (t = .raw) then hashCombine h (hashScalar addr t a)
            else if h = hashMissing then h
            else if isMissing t a then hashMissing else hashCombine h (hashScalar addr t a)) : C (BitVec 32)) =
        .ok (if naEqual || decide (t = .raw) then hashCombine h (hashScalar addr t b)
            else if h = hashMissing then h
            else if isMissing t b then hashMissing else hashCombine h (hashScalar addr t b))
      rw [h1, h2]
  | .list, (a : Obj), (b : Obj), (hs : canon a = canon b) => by
      obtain ⟨h1, h2⟩ := eqObj_of_canon hs
      have h3 := hashObj_congr addr a h1 h2.ge
      have h4 : listHashScalarPropagate addr a = listHashScalarPropagate addr b := by
        by_cases hn : a = .nil
        · subst hn; rw [eqObj_nil_iff.1 h1]
        · have hn' : b ≠ .nil := by
            rintro rfl
            have := (eqObj_symm a h1).2 h2.ge
            exact hn (eqObj_nil_iff.1 this)
          rw [listHashScalarPropagate_eq addr hn, listHashScalarPropagate_eq addr hn', h3]
      show (if naEqual then do .ok (hashCombine h (← hashObj addr a))
            else if h = hashMissing then .ok h
            else do
              let k ← listHashScalarPropagate addr a
              .ok (if k = hashMissing then hashMissing else hashCombine h k) : C (BitVec 32)) =
        (if naEqual then do .ok (hashCombine h (← hashObj addr b))
            else if h = hashMissing then .ok h
            else do
              let k ← listHashScalarPropagate addr b
              .ok (if k = hashMissing then hashMissing else hashCombine h k))
      rw [h3, h4]

theorem foldlM_congr {β γ δ : Type} {f : β → γ → C β} {g : β → δ → C β} :
    (l : List γ) → (m : List δ) → l.length = m.length →
    (∀ (c : Nat) (p : γ) (q : δ), l[c]? = some p → m[c]? = some q → ∀ a, f a p = g a q) →
    ∀ b, l.foldlM f b = m.foldlM g b
  | [], [], _, _, b => rfl
  | p :: l, q :: m, hl, h, b => by
      rw [List.foldlM_cons, List.foldlM_cons, h 0 p q rfl rfl b]
      congr 1
      funext a
      exact foldlM_congr l m (by simpa using hl) (fun c p q hp hq => h (c + 1) p q hp hq) a
  | [], _ :: _, hl, _, _ => by simp at hl
  | _ :: _, [], hl, _, _ => by simp at hl

/-! ## Marked slots -/

theorem missingScalar_iff : (t : VTy) → (a : t.El) → (missingScalar t a = true ↔ MissingElt t a)
  | .atom .lgl, (a : Int) => decide_eq_true_iff (p := a = naInt)
  | .atom .int, (a : Int) => decide_eq_true_iff (p := a = naInt)
  | .atom .dbl, (a : Dbl) => isNan_iff a
  | .atom .cpl, (a : Dbl × Dbl) => by
      show (isNan a.1 || isNan a.2) = true ↔ IsNaN a.1 ∨ IsNaN a.2
      rw [Bool.or_eq_true, isNan_iff, isNan_iff]
  | .atom .chr, (a : Name) => Option.isNone_iff_eq_none
  | .atom .raw, (a : BitVec 8) => by
      show false = true ↔ False
      simp
  | .list, (a : Obj) => by
      show objIsMissing a = true ↔ a = .nil
      cases a <;> simp [objIsMissing]

/-- A missing cell of a non-raw column marks the slot. -/
theorem eltHash_missing (addr : Name → BitVec 64) (h : BitVec 32) : (t : VTy) → (a : t.El) →
    MissingElt t a → eltHash addr false h t a = .ok hashMissing
  | .atom t, a, hm => by
      have h1 : isMissing t a = true := (missingScalar_iff (.atom t) a).2 hm
      have h2 : t ≠ .raw := by rintro rfl; exact hm
      show (Except.ok (if false || decide (t = .raw) then hashCombine h (hashScalar addr t a)
            else if h = hashMissing then h
            else if isMissing t a then hashMissing else hashCombine h (hashScalar addr t a)) :
              C (BitVec 32)) = .ok hashMissing
      rw [if_neg (by simp [h2]), h1]
      by_cases hh : h = hashMissing
      · rw [if_pos hh, hh]
      · rw [if_neg hh, if_pos rfl]
  | .list, (a : Obj), (hm : a = .nil) => by
      subst hm
      show (if false then do .ok (hashCombine h (← hashObj addr .nil))
            else if h = hashMissing then .ok h
            else do
              let k ← listHashScalarPropagate addr .nil
              .ok (if k = hashMissing then hashMissing else hashCombine h k) : C (BitVec 32)) = _
      rw [if_neg (by simp)]
      by_cases hh : h = hashMissing
      · rw [if_pos hh, hh]
      · rw [if_neg hh]; rfl

/-- A column that is not raw leaves a marked slot marked. -/
theorem eltHash_marked (addr : Name → BitVec 64) : (t : VTy) → (a : t.El) → t ≠ .atom .raw →
    eltHash addr false hashMissing t a = .ok hashMissing
  | .atom t, a, ht => by
      show (Except.ok (if false || decide (t = .raw) then hashCombine hashMissing (hashScalar addr t a)
            else if hashMissing = hashMissing then hashMissing
            else if isMissing t a then hashMissing
            else hashCombine hashMissing (hashScalar addr t a)) : C (BitVec 32)) = .ok hashMissing
      rw [if_neg (by simpa using fun h => ht (by rw [h])), if_pos rfl]
  | .list, (a : Obj), _ => by
      show (if false then do .ok (hashCombine hashMissing (← hashObj addr a))
            else if hashMissing = hashMissing then .ok hashMissing
            else do
              let k ← listHashScalarPropagate addr a
              .ok (if k = hashMissing then hashMissing else hashCombine hashMissing k) :
              C (BitVec 32)) = _
      rw [if_neg (by simp), if_pos rfl]

theorem rowSlot_marked (addr : Name → BitVec 64) {i n : Nat} (hi : i < n) (cols : List Val)
    (hc : ∀ p ∈ cols, ∃ t xs, p = .vec t xs ∧ xs.length = n ∧ t ≠ .atom .raw) :
    rowSlot addr false i hashMissing cols = .ok hashMissing := by
  induction cols with
  | nil => rfl
  | cons p cols ih =>
    obtain ⟨t, xs, rfl, hl, ht⟩ := hc p (by simp)
    have he := List.getElem?_eq_getElem (l := xs) (i := i) (by omega)
    simp only [rowSlot, List.foldlM_cons]
    rw [cellHash_vec he, eltHash_marked addr t _ ht, ok_bind]
    exact ih (fun p hp => hc p (by simp [hp]))

theorem rowSlot_missing (addr : Name → BitVec 64) {i n : Nat} (hi : i < n) (cols : List Val)
    (h : BitVec 32) (r : BitVec 32) (hr : rowSlot addr false i h cols = .ok r)
    (hc : ∀ p ∈ cols, ∃ t xs, p = .vec t xs ∧ xs.length = n) (c : Nat) (p : Val)
    (hp : cols[c]? = some p) (hm : MissingCell p i)
    (hraw : ∀ (d : Nat) (xs : List (BitVec 8)), c < d → cols[d]? ≠ some (.vec (.atom .raw) xs)) :
    r = hashMissing := by
  induction cols generalizing h c with
  | nil => simp at hp
  | cons q cols ih =>
    cases c with
    | zero =>
      simp only [List.getElem?_cons_zero, Option.some.injEq] at hp
      subst hp
      obtain ⟨t, xs, rfl, hl⟩ := hc q (by simp)
      obtain ⟨a, ha, hma⟩ := hm
      simp only [rowSlot, List.foldlM_cons] at hr
      rw [cellHash_vec ha, eltHash_missing addr h t a hma, ok_bind] at hr
      have := rowSlot_marked addr hi cols (fun p hp => by
        obtain ⟨u, ys, rfl, hl⟩ := hc p (by simp [hp])
        refine ⟨u, ys, rfl, hl, ?_⟩
        rintro rfl
        obtain ⟨d, hd⟩ := List.mem_iff_getElem?.1 hp
        exact hraw (d + 1) ys (by omega) (by simpa using hd))
      rw [show cols.foldlM (cellHash addr false i) hashMissing = .ok hashMissing from this] at hr
      cases hr
      rfl
    | succ c =>
      simp only [List.getElem?_cons_succ] at hp
      simp only [rowSlot, List.foldlM_cons] at hr
      cases hk : cellHash addr false i h q with
      | error e => rw [hk] at hr; cases hr
      | ok k =>
        rw [hk, ok_bind] at hr
        exact ih k hr (fun p hp => hc p (by simp [hp])) c hp
          (fun d xs hd => by simpa using hraw (d + 1) xs (by omega))

/-- Some column is missing at row `i`. -/
theorem pIsIncomplete_ok {x : Val} (hx : Flat x) {i : Nat} (hi : i < x.size) :
    ∃ b, pIsIncomplete x i = .ok b ∧
      (b = true ↔ ∃ (c : Nat) (p : Val), (columns x)[c]? = some p ∧ MissingCell p i) := by
  cases x with
  | vec t xs =>
    have hi' : i < xs.length := hi
    refine ⟨missingScalar t xs[i], by simp only [pIsIncomplete]; rw [rd_ok hi', ok_bind], ?_⟩
    rw [missingScalar_iff]
    constructor
    · intro h; exact ⟨0, _, rfl, xs[i], List.getElem?_eq_getElem hi', h⟩
    · rintro ⟨c, p, hp, hm⟩
      match c, hp with
      | 0, hp =>
        simp only [columns, List.getElem?_cons_zero, Option.some.injEq] at hp
        subst hp
        obtain ⟨a, ha, hm⟩ := hm
        rw [List.getElem?_eq_getElem hi'] at ha
        cases ha
        exact hm
      | c + 1, hp => simp [columns] at hp
  | df n cols =>
    have hi' : i < n := hi
    suffices h : Ret (pIsIncomplete (.df n cols) i) (fun b => b = true ↔
        ∃ (c : Nat) (p : Val), cols[c]? = some p ∧ MissingCell p i) by exact h
    simp only [pIsIncomplete]
    refine Ret.forBrk (fun k (b : Bool) => b = false ∧
      ∀ (c : Nat) (p : Val), c < k → cols[c]? = some p → ¬ MissingCell p i) _ ?_ ?_ ?_
    · exact ⟨rfl, fun c p hc => by omega⟩
    · rintro k b hk ⟨rfl, hb⟩
      obtain ⟨t, xs, -, hp, -, hl, -⟩ := hx.cols k cols[k] cols[k] (List.getElem?_eq_getElem hk)
        (List.getElem?_eq_getElem hk)
      have hl' : xs.length = n := hl
      have hix : i < xs.length := by omega
      refine Ret.bind_eq (rd_ok hk) ?_
      refine Ret.bind_eq (a := missingScalar t xs[i]) ?_ ?_
      · rw [hp]; simp only [pIsMissing]; rw [rd_ok hix, ok_bind]
      · cases hm : missingScalar t xs[i]
        · refine Ret.ok ⟨rfl, fun c p hc hcp => ?_⟩
          rcases Nat.lt_or_ge c k with h1 | h1
          · exact hb c p h1 hcp
          · have : c = k := by omega
            subst this
            rw [List.getElem?_eq_getElem hk, hp] at hcp
            cases hcp
            rintro ⟨a, ha, hma⟩
            rw [List.getElem?_eq_getElem hix] at ha
            cases ha
            rw [← missingScalar_iff, hm] at hma
            cases hma
        · refine Ret.ok ⟨fun _ => ⟨k, _, List.getElem?_eq_getElem hk, ?_⟩, fun _ => rfl⟩
          rw [hp]
          exact ⟨_, List.getElem?_eq_getElem hix, (missingScalar_iff t _).1 hm⟩
    · rintro b ⟨rfl, hb⟩
      constructor
      · intro h; cases h
      · rintro ⟨c, p, hp, hm⟩
        exact absurd hm (hb c p (List.getElem?_eq_some_iff.1 hp).1 hp)

end Vctrs
