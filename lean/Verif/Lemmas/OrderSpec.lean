import Verif.SpecOrder
import Verif.Lemmas.OrderDf

/-!
# From keys to the specification of orders
-/

namespace Vctrs

open Spec

theorem lexLt_irrefl (a : List Nat) : ¬ LexLt a a := by
  rintro ⟨p, x, y, s, t, h1, h2, h3⟩
  have := List.append_cancel_left (h1.symm.trans h2)
  injection this
  omega

theorem lexLt_cons {x y : Nat} {a b : List Nat} :
    LexLt (x :: a) (y :: b) ↔ x < y ∨ (x = y ∧ LexLt a b) := by
  constructor
  · rintro ⟨p, u, v, s, t, h1, h2, h3⟩
    cases p with
    | nil =>
      simp only [List.nil_append, List.cons.injEq] at h1 h2
      exact Or.inl (by omega)
    | cons q p =>
      simp only [List.cons_append, List.cons.injEq] at h1 h2
      exact Or.inr ⟨h1.1.trans h2.1.symm, p, u, v, s, t, h1.2, h2.2, h3⟩
  · rintro (h | ⟨rfl, p, u, v, s, t, rfl, rfl, h3⟩)
    · exact ⟨[], x, y, a, b, rfl, rfl, h⟩
    · exact ⟨x :: p, u, v, s, t, rfl, rfl, h3⟩

theorem lexLt_nil : ¬ LexLt [] [] := lexLt_irrefl []

theorem lexLt_append : (a b c d : List Nat) → a.length = b.length →
    (LexLt (a ++ c) (b ++ d) ↔ LexLt a b ∨ (a = b ∧ LexLt c d))
  | [], [], c, d, _ => by simp [lexLt_nil]
  | x :: a, y :: b, c, d, h => by
      simp only [List.cons_append]
      rw [lexLt_cons, lexLt_append a b c d (by simpa using h), lexLt_cons]
      simp only [List.cons.injEq]
      tauto

theorem lexLt_tri : (a b : List Nat) → a.length = b.length → LexLt a b ∨ a = b ∨ LexLt b a
  | [], [], _ => Or.inr (Or.inl rfl)
  | x :: a, y :: b, h => by
      rw [lexLt_cons, lexLt_cons]
      rcases lexLt_tri a b (by simpa using h) with h' | h' | h'
      · rcases Nat.lt_trichotomy x y with h2 | h2 | h2
        · exact Or.inl (Or.inl h2)
        · exact Or.inl (Or.inr ⟨h2, h'⟩)
        · exact Or.inr (Or.inr (Or.inl h2))
      · rcases Nat.lt_trichotomy x y with h2 | h2 | h2
        · exact Or.inl (Or.inl h2)
        · exact Or.inr (Or.inl (by rw [h2, h']))
        · exact Or.inr (Or.inr (Or.inl h2))
      · rcases Nat.lt_trichotomy x y with h2 | h2 | h2
        · exact Or.inl (Or.inl h2)
        · exact Or.inr (Or.inr (Or.inr ⟨h2.symm, h'⟩))
        · exact Or.inr (Or.inr (Or.inl h2))

theorem lexLt_asymm {a b : List Nat} (h : LexLt a b) (h' : LexLt b a) : False := by
  induction a generalizing b with
  | nil =>
    obtain ⟨p, u, v, s, t, h1, _⟩ := h
    simp at h1
  | cons x a ih =>
    cases b with
    | nil =>
      obtain ⟨p, u, v, s, t, _, h1, _⟩ := h
      simp at h1
    | cons y b =>
      rcases lexLt_cons.1 h with h1 | ⟨h1, h2⟩ <;> rcases lexLt_cons.1 h' with h3 | ⟨h3, h4⟩
      · omega
      · omega
      · omega
      · exact ih h2 h4

theorem lexLt_tied {a b : List Nat} (hl : a.length = b.length) :
    a = b ↔ ¬ LexLt a b ∧ ¬ LexLt b a := by
  constructor
  · rintro rfl
    exact ⟨lexLt_irrefl a, lexLt_irrefl a⟩
  · rintro ⟨h1, h2⟩
    rcases lexLt_tri a b hl with h | h | h
    · exact absurd h h1
    · exact h
    · exact absurd h h2

/-- The locations of `oneTo` as rows. -/
def rowsOf (w : List Int) : List Nat := w.map (fun a => (a - 1).toNat)

theorem rowsOf_back {n : Nat} {w : List Int} (h : ∀ a ∈ w, a ∈ oneTo n) :
    (rowsOf w).map (fun (i : Nat) => (i : Int) + 1) = w := by
  unfold rowsOf
  rw [List.map_map]
  conv_rhs => rw [← List.map_id w]
  apply List.map_congr_left
  intro a ha
  obtain ⟨h1, h2⟩ := mem_oneTo.1 (h a ha)
  simp only [Function.comp, id]
  omega

theorem rowsOf_oneTo (n : Nat) : rowsOf (oneTo n) = List.range n := by
  unfold rowsOf oneTo
  rw [List.map_map]
  conv_rhs => rw [← List.map_id (List.range n)]
  apply List.map_congr_left
  intro a ha
  simp only [Function.comp, id]
  omega

theorem filter_flatten_block {β κ : Type} [DecidableEq κ] {R : κ → κ → Prop} (hirr : ∀ k, ¬ R k k)
    {key : β → κ} : (B : List (List β)) → TieBlocks R key B → ∀ b ∈ B, ∀ a ∈ b,
    B.flatten.filter (fun c => decide (key c = key a)) = b
  | [], _, b, hb, _, _ => by simp at hb
  | c :: B, h, b, hb, a, ha => by
      have hB : TieBlocks R key B := ⟨fun c hc => h.ne c (by simp [hc]),
        fun c hc => h.tied c (by simp [hc]), (List.pairwise_cons.1 h.sep).2⟩
      have hs := (List.pairwise_cons.1 h.sep).1
      rw [List.flatten_cons, List.filter_append]
      rcases List.mem_cons.1 hb with rfl | hb'
      · have h1 : b.filter (fun c => decide (key c = key a)) = b := by
          rw [List.filter_eq_self]
          intro d hd
          simp [h.tied b (by simp) d hd a ha]
        have h2 : B.flatten.filter (fun c => decide (key c = key a)) = [] := by
          rw [List.filter_eq_nil_iff]
          intro d hd
          obtain ⟨e, he, hde⟩ := List.mem_flatten.1 hd
          have := hs e he a ha d hde
          intro hk
          rw [of_decide_eq_true hk] at this
          exact hirr _ this
        rw [h1, h2, List.append_nil]
      · have h1 : c.filter (fun c => decide (key c = key a)) = [] := by
          rw [List.filter_eq_nil_iff]
          intro d hd hk
          have := hs b hb' d hd a ha
          rw [of_decide_eq_true hk] at this
          exact hirr _ this
        rw [h1, List.nil_append, filter_flatten_block hirr B hB b hb' a ha]

/-- An order by keys is an order of the rows. -/
theorem tieGroups_of_ordered {before : Nat → Nat → Prop} {key : Int → List Nat} {n : Nat}
    {o : List Int} {gs : List Nat} (h : Ordered LexLt key (oneTo n) o gs)
    (hb : ∀ i j, i < n → j < n → (before i j ↔ LexLt (key ((i : Int) + 1)) (key ((j : Int) + 1)))) :
    ∃ B : List (List Nat), TieGroups before n B ∧
      o = B.flatten.map (fun (i : Nat) => (i : Int) + 1) ∧ gs = B.map List.length := by
  have hperm := h.perm
  obtain ⟨hf, B, hB, rfl, rfl⟩ := ordered_iff_ties.1 h
  have hmem : ∀ b ∈ B, ∀ a ∈ b, a ∈ oneTo n := fun b hb' a ha =>
    hperm.mem_iff.1 (List.mem_flatten.2 ⟨b, hb', ha⟩)
  have hrow : ∀ b ∈ B, ∀ i ∈ rowsOf b, i < n ∧ ((i : Int) + 1) ∈ b := by
    intro b hb' i hi
    obtain ⟨a, ha, rfl⟩ := List.mem_map.1 hi
    obtain ⟨h1, h2⟩ := mem_oneTo.1 (hmem b hb' a ha)
    have : (((a - 1).toNat : Nat) : Int) + 1 = a := by omega
    rw [this]
    exact ⟨by omega, ha⟩
  have hflat : (B.map rowsOf).flatten = rowsOf B.flatten := by
    unfold rowsOf
    rw [List.map_flatten]
  refine ⟨B.map rowsOf, ⟨?_, ?_, ?_, ?_, ?_⟩, ?_, ?_⟩
  · rw [hflat, ← rowsOf_oneTo]
    exact hperm.map _
  · intro b hb'
    obtain ⟨c, hc, rfl⟩ := List.mem_map.1 hb'
    have := hB.ne c hc
    unfold rowsOf
    simpa using this
  · intro b hb'
    obtain ⟨c, hc, rfl⟩ := List.mem_map.1 hb'
    obtain ⟨a, ha⟩ := List.exists_mem_of_ne_nil c (hB.ne c hc)
    have e := filter_flatten_block lexLt_irrefl B hB c hc a ha
    rw [hf] at e
    have hs : c.Sublist (oneTo n) := by rw [← e]; exact List.filter_sublist
    have hs' : (rowsOf c).Sublist (List.range n) := by
      rw [← rowsOf_oneTo]
      exact hs.map _
    exact List.Pairwise.sublist hs' List.pairwise_lt_range
  · intro b hb' i hi j hj
    obtain ⟨c, hc, rfl⟩ := List.mem_map.1 hb'
    obtain ⟨hi1, hi2⟩ := hrow c hc i hi
    obtain ⟨hj1, hj2⟩ := hrow c hc j hj
    rw [hb i j hi1 hj1, hB.tied c hc _ hi2 _ hj2]
    exact lexLt_irrefl _
  · rw [List.pairwise_map]
    refine List.Pairwise.imp_of_mem ?_ hB.sep
    intro b c hb' hc' hbc i hi j hj
    obtain ⟨hi1, hi2⟩ := hrow b hb' i hi
    obtain ⟨hj1, hj2⟩ := hrow c hc' j hj
    rw [hb i j hi1 hj1]
    exact hbc _ hi2 _ hj2
  · rw [hflat, rowsOf_back (n := n)]
    intro a ha
    exact hperm.mem_iff.1 ha
  · rw [List.map_map]
    apply List.map_congr_left
    intro b _
    simp [rowsOf]

theorem Spec.TieGroups.stable {before : Nat → Nat → Prop} {n : Nat} {B : List (List Nat)}
    (h : TieGroups before n B) :
    StableOrder before n (B.flatten.map (fun (i : Nat) => (i : Int) + 1)) := by
  refine ⟨B.flatten, rfl, h.perm, ?_⟩
  rw [List.pairwise_flatten]
  refine ⟨?_, h.sorted.imp (fun hbc i hi j hj => Or.inl (hbc i hi j hj))⟩
  intro b hb
  refine List.Pairwise.imp_of_mem ?_ (h.increasing b hb)
  intro i j hi hj hij
  exact Or.inr ⟨h.tied b hb j hj i hi, hij⟩

theorem isMax_maxOf (l : List Nat) : IsMax l (maxOf l) := by
  induction l with
  | nil => exact ⟨by simp, Or.inr ⟨rfl, rfl⟩⟩
  | cons a l ih =>
    obtain ⟨h1, h2⟩ := ih
    have e : maxOf (a :: l) = max a (maxOf l) := rfl
    refine ⟨?_, Or.inl ?_⟩
    · intro s hs
      rw [e]
      rcases List.mem_cons.1 hs with rfl | hs
      · omega
      · have := h1 s hs
        omega
    · rw [e]
      rcases Nat.le_total a (maxOf l) with hle | hle
      · rw [Nat.max_eq_right hle]
        rcases h2 with h2 | ⟨h2, h3⟩
        · exact List.mem_cons_of_mem _ h2
        · subst h2
          simp only [h3] at *
          have : a = 0 := by omega
          simp [this]
      · rw [Nat.max_eq_left hle]
        simp

/-! ## Keys of the elements -/

/-- Where missing values are put, src/order.c:4595-4598. -/
def naLastOf (desc naLargest : Bool) : Bool := if desc then !naLargest else naLargest

theorem intKey_before {desc naLargest : Bool} {a b : Int} (ha : IsInt a) (hb : IsInt b) :
    intKey desc (naLastOf desc naLargest) a < intKey desc (naLastOf desc naLargest) b ↔
      Before desc naLargest false .int a b := by
  obtain ⟨ha1, ha2⟩ := ha
  obtain ⟨hb1, hb2⟩ := hb
  have ea : a = naInt ∨ a ≠ naInt := Decidable.em _
  have eb : b = naInt ∨ b ≠ naInt := Decidable.em _
  unfold Before Smaller NaSmaller naLastOf intKey
  rcases ea with rfl | ea <;> rcases eb with rfl | eb
  · cases desc <;> cases naLargest <;> simp
  · rw [if_pos rfl, if_neg eb]
    have hb3 : -2147483648 < b := by simp only [naInt] at hb1 eb; omega
    have hb4 : b ≤ 2147483647 := by simp only [intMax] at hb2; omega
    cases desc <;> cases naLargest <;> simp [eb] <;> omega
  · rw [if_pos rfl, if_neg ea]
    have hb3 : -2147483648 < a := by simp only [naInt] at ha1 ea; omega
    have hb4 : a ≤ 2147483647 := by simp only [intMax] at ha2; omega
    cases desc <;> cases naLargest <;> simp [ea] <;> omega
  · rw [if_neg ea, if_neg eb]
    have ha3 : -2147483648 < a := by simp only [naInt] at ha1 ea; omega
    have ha4 : a ≤ 2147483647 := by simp only [intMax] at ha2; omega
    have hb3 : -2147483648 < b := by simp only [naInt] at hb1 eb; omega
    have hb4 : b ≤ 2147483647 := by simp only [intMax] at hb2; omega
    cases desc <;> cases naLargest <;> simp [ea, eb] <;> omega

theorem dblKey_smaller {naLargest nanDistinct : Bool} {desc : Bool} {a b : Dbl} :
    dblAdjustElt desc (naLastOf desc naLargest) nanDistinct a <
      dblAdjustElt desc (naLastOf desc naLargest) nanDistinct b ↔
      (if desc then DblSmaller naLargest nanDistinct b a
        else DblSmaller naLargest nanDistinct a b) := by
  have hb : ∀ z : Dbl, dblClassify z = .number →
      1 < dblAdjustElt desc (naLastOf desc naLargest) nanDistinct z ∧
      dblAdjustElt desc (naLastOf desc naLargest) nanDistinct z < 0xFFFFFFFFFFFFFFFE := by
    intro z hz
    rw [dblAdjustElt_number hz]
    exact dblMap_bounds (by rw [dblMul_isNan]; exact dblClassify_number.1 hz)
  rcases dblClassify_spec a with ⟨ca, a1, a2⟩ | ⟨ca, a1, a2⟩ | ⟨ca, a1, a2⟩ <;>
    rcases dblClassify_spec b with ⟨cb, b1, b2⟩ | ⟨cb, b1, b2⟩ | ⟨cb, b1, b2⟩
  · rw [dblAdjustElt_number ca, dblAdjustElt_number cb, dblMap_lt_iff
      (by rw [dblMul_isNan]; exact dblClassify_number.1 ca)
      (by rw [dblMul_isNan]; exact dblClassify_number.1 cb), dblMul_val, dblMul_val]
    unfold DblSmaller NaSmaller
    cases desc <;> simp [a1, b1]
  · have := hb a ca
    rw [dblAdjustElt_missing cb]
    unfold DblSmaller NaSmaller naLastOf at *
    cases desc <;> cases naLargest <;> simp [a1, b1] at * <;> omega
  · have := hb a ca
    rw [dblAdjustElt_nan cb]
    unfold DblSmaller NaSmaller naLastOf at *
    cases desc <;> cases naLargest <;> cases nanDistinct <;> simp [a1, b1] at * <;> omega
  · have := hb b cb
    rw [dblAdjustElt_missing ca]
    unfold DblSmaller NaSmaller naLastOf at *
    cases desc <;> cases naLargest <;> simp [a1, b1] at * <;> omega
  · rw [dblAdjustElt_missing ca, dblAdjustElt_missing cb]
    unfold DblSmaller NaSmaller naLastOf at *
    cases desc <;> simp [a1, b1, a2, b2]
  · rw [dblAdjustElt_missing ca, dblAdjustElt_nan cb]
    unfold DblSmaller NaSmaller naLastOf at *
    cases desc <;> cases naLargest <;> cases nanDistinct <;> simp [a1, b1, a2, b2]
  · have := hb b cb
    rw [dblAdjustElt_nan ca]
    unfold DblSmaller NaSmaller naLastOf at *
    cases desc <;> cases naLargest <;> cases nanDistinct <;> simp [a1, b1] at * <;> omega
  · rw [dblAdjustElt_nan ca, dblAdjustElt_missing cb]
    unfold DblSmaller NaSmaller naLastOf at *
    cases desc <;> cases naLargest <;> cases nanDistinct <;> simp [a1, b1, a2, b2]
  · rw [dblAdjustElt_nan ca, dblAdjustElt_nan cb]
    unfold DblSmaller NaSmaller naLastOf at *
    cases desc <;> simp [a1, b1, a2, b2]

theorem class_naReal : dblClassify naReal = .missing := by decide +kernel

theorem class_rNaN : dblClassify rNaN = .nan := by decide +kernel

theorem cplKey_fst (desc naLast nanDistinct : Bool) (e : Dbl × Dbl) :
    dblAdjustElt desc naLast nanDistinct (cplNormaliseMissing e).1 =
      dblAdjustElt desc naLast nanDistinct (cplPart e.1 e.2) := by
  obtain ⟨x, y⟩ := e
  unfold cplNormaliseMissing cplPart
  rcases dblClassify_spec x with ⟨cx, x1, x2⟩ | ⟨cx, x1, x2⟩ | ⟨cx, x1, x2⟩ <;>
    rcases dblClassify_spec y with ⟨cy, y1, y2⟩ | ⟨cy, y1, y2⟩ | ⟨cy, y1, y2⟩ <;>
    simp only [cx, cy, x1, y1, if_true, if_false]
  · rw [dblAdjustElt_missing class_naReal, dblAdjustElt_missing cy]
  · rw [dblAdjustElt_nan class_rNaN, dblAdjustElt_nan cy]
  · rw [dblAdjustElt_missing class_naReal, dblAdjustElt_missing cx]
  · rw [dblAdjustElt_nan class_rNaN, dblAdjustElt_nan cx]

theorem cplKey_snd (desc naLast nanDistinct : Bool) (e : Dbl × Dbl) :
    dblAdjustElt desc naLast nanDistinct (cplNormaliseMissing e).2 =
      dblAdjustElt desc naLast nanDistinct (cplPart e.2 e.1) := by
  obtain ⟨x, y⟩ := e
  unfold cplNormaliseMissing cplPart
  rcases dblClassify_spec x with ⟨cx, x1, x2⟩ | ⟨cx, x1, x2⟩ | ⟨cx, x1, x2⟩ <;>
    rcases dblClassify_spec y with ⟨cy, y1, y2⟩ | ⟨cy, y1, y2⟩ | ⟨cy, y1, y2⟩ <;>
    simp only [cx, cy, x1, y1, if_true, if_false]
  · rw [dblAdjustElt_missing class_naReal, dblAdjustElt_missing cy]
  · rw [dblAdjustElt_nan class_rNaN, dblAdjustElt_nan cy]
  · rw [dblAdjustElt_missing class_naReal, dblAdjustElt_missing cx]
  · rw [dblAdjustElt_nan class_rNaN, dblAdjustElt_nan cx]

theorem name_before {desc naLargest nanDistinct : Bool} {a b : Name} :
    NameBefore desc (naLastOf desc naLargest) a b ↔ Before desc naLargest nanDistinct .chr a b := by
  unfold Before Smaller NaSmaller naLastOf
  cases a <;> cases b <;> cases desc <;> cases naLargest <;> simp [NameBefore]

theorem locVal_row {α : Type} [Inhabited α] {x : List α} {i : Nat} (h : i < x.length) :
    x[i]? = some (locVal x ((i : Int) + 1)) := by
  unfold locVal
  rw [show ((i : Int) + 1 - 1).toNat = i by omega, List.getElem?_eq_getElem h]
  rfl

theorem keyBefore_vec {nanDistinct desc naLargest : Bool} {t : ATy} {xs : List t.El} {i j : Nat}
    {a b : t.El} (ha : xs[i]? = some a) (hb : xs[j]? = some b) :
    KeyBefore nanDistinct (desc, naLargest, .vec (.atom t) xs) i j ↔
      Before desc naLargest nanDistinct t a b := by
  constructor
  · rintro ⟨t', xs', a', b', he, ha', hb', h⟩
    cases he
    rw [ha] at ha'
    rw [hb] at hb'
    cases ha'
    cases hb'
    exact h
  · intro h
    exact ⟨t, xs, a, b, rfl, ha, hb, h⟩

/-- The keys of a vector order its elements. -/
theorem colKeys_before {desc naLargest nanDistinct : Bool} {n : Nat} {v : Val} (hv : ColOk n v)
    {i j : Nat} (hi : i < n) (hj : j < n) :
    LexLt (keysOf (colKeys desc (naLastOf desc naLargest) nanDistinct v) ((i : Int) + 1))
      (keysOf (colKeys desc (naLastOf desc naLargest) nanDistinct v) ((j : Int) + 1)) ↔
      KeyBefore nanDistinct (desc, naLargest, v) i j := by
  have single : ∀ x y : Nat, LexLt [x] [y] ↔ x < y := by
    intro x y
    rw [lexLt_cons]
    simp [lexLt_nil]
  match v, hv with
  | .vec (.atom .int) (x : List Int), ⟨hx, hint⟩ =>
    subst hx
    have hi' := locVal_row hi
    have hj' := locVal_row hj
    rw [keyBefore_vec (t := .int) hi' hj']
    simp only [colKeys, keysOf, List.map_cons, List.map_nil]
    rw [single, intKey_before (hint _ (List.mem_of_getElem? hi')) (hint _ (List.mem_of_getElem? hj'))]
    rfl
  | .vec (.atom .lgl) (x : List Int), ⟨hx, hint⟩ =>
    subst hx
    have hi' := locVal_row hi
    have hj' := locVal_row hj
    rw [keyBefore_vec (t := .lgl) hi' hj']
    simp only [colKeys, keysOf, List.map_cons, List.map_nil]
    rw [single, intKey_before (hint _ (List.mem_of_getElem? hi')) (hint _ (List.mem_of_getElem? hj'))]
    rfl
  | .vec (.atom .dbl) (x : List Dbl), hx =>
    have hx' : x.length = n := hx
    subst hx'
    have hi' := locVal_row hi
    have hj' := locVal_row hj
    rw [keyBefore_vec (t := .dbl) hi' hj']
    simp only [colKeys, keysOf, List.map_cons, List.map_nil]
    rw [single, dblKey_smaller]
    rfl
  | .vec (.atom .cpl) (x : List (Dbl × Dbl)), hx =>
    have hx' : x.length = n := hx
    subst hx'
    have hi' := locVal_row hi
    have hj' := locVal_row hj
    rw [keyBefore_vec (t := .cpl) hi' hj']
    simp only [colKeys, cplKeys, keysOf, List.map_cons, List.map_nil]
    rw [lexLt_cons, single, cplKey_fst, cplKey_fst, cplKey_snd, cplKey_snd]
    generalize locVal x ((i : Int) + 1) = a
    generalize locVal x ((j : Int) + 1) = b
    have e1 := @dblKey_smaller naLargest nanDistinct desc (cplPart a.1 a.2) (cplPart b.1 b.2)
    have e2 := @dblKey_smaller naLargest nanDistinct desc (cplPart b.1 b.2) (cplPart a.1 a.2)
    have e3 := @dblKey_smaller naLargest nanDistinct desc (cplPart a.2 a.1) (cplPart b.2 b.1)
    unfold Before Smaller
    cases desc
    · simp only [Bool.false_eq_true, if_false] at *
      rw [← e1, ← e2, ← e3]
      omega
    · simp only [if_true] at *
      rw [← e1, ← e2, ← e3]
      omega
  | .vec (.atom .chr) (x : List Name), ⟨hx, hb⟩ =>
    subst hx
    have hi' := locVal_row hi
    have hj' := locVal_row hj
    rw [keyBefore_vec (t := .chr) hi' hj']
    simp only [colKeys, keysOf, List.map_cons, List.map_nil]
    rw [single, (strKey_rank _ _ x _ (List.mem_of_getElem? hi') _ (List.mem_of_getElem? hj')).1,
      name_before]

/-- A key with the place of missing values. -/
def toDfCol (k : SortKey) : DfCol := (k.1, naLastOf k.1 k.2.1, k.2.2)

theorem rowBefore_cons {nanDistinct : Bool} {k : SortKey} {ks : List SortKey} {i j : Nat} :
    RowBefore nanDistinct (k :: ks) i j ↔ KeyBefore nanDistinct k i j ∨
      ((¬ KeyBefore nanDistinct k i j ∧ ¬ KeyBefore nanDistinct k j i) ∧
        RowBefore nanDistinct ks i j) := by
  constructor
  · rintro ⟨m, k', h1, h2, h3⟩
    cases m with
    | zero =>
      simp only [List.getElem?_cons_zero, Option.some.injEq] at h1
      subst h1
      exact Or.inl h2
    | succ m =>
      right
      refine ⟨h3 0 k (by omega) rfl, m, k', by simpa using h1, h2, ?_⟩
      intro m' k'' hm hk
      exact h3 (m' + 1) k'' (by omega) (by simpa using hk)
  · rintro (h | ⟨h, m, k', h1, h2, h3⟩)
    · exact ⟨0, k, rfl, h, fun m' k' hm => by omega⟩
    · refine ⟨m + 1, k', by simpa using h1, h2, ?_⟩
      intro m' k'' hm hk
      cases m' with
      | zero =>
        simp only [List.getElem?_cons_zero, Option.some.injEq] at hk
        subst hk
        exact h
      | succ m' => exact h3 m' k'' (by omega) (by simpa using hk)

/-- The keys of several vectors order the rows. -/
theorem dfKeys_before {nanDistinct : Bool} {n : Nat} : (ks : List SortKey) →
    (∀ k ∈ ks, ColOk n k.2.2) → ∀ {i j : Nat}, i < n → j < n →
    (RowBefore nanDistinct ks i j ↔
      LexLt (keysOf (dfKeys nanDistinct (ks.map toDfCol)) ((i : Int) + 1))
        (keysOf (dfKeys nanDistinct (ks.map toDfCol)) ((j : Int) + 1)))
  | [], _, i, j, _, _ => by
      constructor
      · rintro ⟨m, k, h, _⟩
        simp at h
      · intro h
        exact absurd h lexLt_nil
  | k :: ks, h, i, j, hi, hj => by
      have ih := dfKeys_before (nanDistinct := nanDistinct) ks (fun k' hk => h k' (by simp [hk])) hi hj
      rw [rowBefore_cons, ih]
      have e : ∀ a, keysOf (dfKeys nanDistinct ((k :: ks).map toDfCol)) a =
          keysOf (colKeys k.1 (naLastOf k.1 k.2.1) nanDistinct k.2.2) a ++
            keysOf (dfKeys nanDistinct (ks.map toDfCol)) a := by
        intro a
        simp [dfKeys, keysOf, toDfCol]
      have hk : ColOk n k.2.2 := h k (by simp)
      have b1 := colKeys_before (desc := k.1) (naLargest := k.2.1) (nanDistinct := nanDistinct) hk hi hj
      have b2 := colKeys_before (desc := k.1) (naLargest := k.2.1) (nanDistinct := nanDistinct) hk hj hi
      rw [e, e, lexLt_append _ _ _ _ (by simp [keysOf]), lexLt_tied (by simp [keysOf]), b1, b2]

end Vctrs
