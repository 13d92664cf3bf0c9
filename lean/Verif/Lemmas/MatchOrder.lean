import Verif.Lemmas.MatchRecurse
import Verif.Lemmas.OrderTop
import Verif.Lemmas.RankCount
import Verif.Props.C51

/-!
# The order of integer columns
-/

namespace Vctrs

open Spec

/-- The integer columns are those of `X`. -/
def ColsAre (cols : List (List Int)) (n : Nat) (X : Nat → Nat → Int) : Prop :=
  ∀ (c : Nat) (v : List Int), cols[c]? = some v → v = (List.range n).map (X c) ∧ ∀ a ∈ v, IsInt a

/-- Row `i` is before row `j` in the first of `d` columns where they differ. -/
def ColLt (X : Nat → Nat → Int) (d : Nat) (i j : Nat) : Prop :=
  ∃ c, c < d ∧ X c i < X c j ∧ ∀ c', c' < c → X c' i = X c' j

/-- Rows `i` and `j` are equal in the first `d` columns. -/
def ColEq (X : Nat → Nat → Int) (d : Nat) (i j : Nat) : Prop := ∀ c, c < d → X c i = X c j

theorem col_tri (X : Nat → Nat → Int) (d i j : Nat) :
    ColLt X d i j ∨ ColEq X d i j ∨ ColLt X d j i := by
  induction d with
  | zero => exact .inr (.inl fun c hc => by omega)
  | succ d ih =>
    rcases ih with ⟨c, h1, h2, h3⟩ | h | ⟨c, h1, h2, h3⟩
    · exact .inl ⟨c, by omega, h2, h3⟩
    · rcases Int.lt_trichotomy (X d i) (X d j) with h' | h' | h'
      · exact .inl ⟨d, by omega, h', h⟩
      · refine .inr (.inl fun c hc => ?_)
        rcases Nat.lt_or_ge c d with h'' | h''
        · exact h c h''
        · have : c = d := by omega
          subst this
          exact h'
      · exact .inr (.inr ⟨d, by omega, h', fun c hc => (h c hc).symm⟩)
    · exact .inr (.inr ⟨c, by omega, h2, h3⟩)

theorem colLt_irrefl {X : Nat → Nat → Int} {d i j : Nat} (h : ColEq X d i j) : ¬ ColLt X d i j := by
  rintro ⟨c, h1, h2, _⟩
  have := h c h1
  omega

theorem colLt_asymm {X : Nat → Nat → Int} {d i j : Nat} (h : ColLt X d i j) : ¬ ColLt X d j i := by
  obtain ⟨c, h1, h2, h3⟩ := h
  rintro ⟨c', h4, h5, h6⟩
  rcases Nat.lt_trichotomy c c' with h | h | h
  · have := h6 c h
    omega
  · subst h
    omega
  · have := h3 c' h
    omega

theorem colLt_trans {X : Nat → Nat → Int} {d i j k : Nat} (h : ColLt X d i j)
    (h' : ColLt X d j k ∨ ColEq X d j k) : ColLt X d i k := by
  obtain ⟨c, h1, h2, h3⟩ := h
  rcases h' with ⟨c', h4, h5, h6⟩ | h'
  · rcases Nat.lt_trichotomy c c' with h | h | h
    · exact ⟨c, h1, by rw [← h6 c h]; exact h2, fun b hb => by rw [h3 b hb, h6 b (by omega)]⟩
    · subst h
      exact ⟨c, h1, by omega, fun b hb => by rw [h3 b hb, h6 b hb]⟩
    · exact ⟨c', h4, by rw [h3 c' h]; exact h5, fun b hb => by rw [h3 b (by omega), h6 b hb]⟩
  · exact ⟨c, h1, by rw [← h' c h1]; exact h2, fun b hb => by rw [h3 b hb, h' b (by omega)]⟩

theorem colEq_trans {X : Nat → Nat → Int} {d i j k : Nat} (h : ColEq X d i j) (h' : ColEq X d j k) :
    ColEq X d i k := fun c hc => (h c hc).trans (h' c hc)

theorem colLt_eq_trans {X : Nat → Nat → Int} {d i j k : Nat} (h : ColEq X d i j)
    (h' : ColLt X d j k) : ColLt X d i k := by
  obtain ⟨c, h1, h2, h3⟩ := h'
  exact ⟨c, h1, by rw [h c h1]; exact h2, fun b hb => by rw [h b (by omega), h3 b hb]⟩

/-- An integer vector. -/
def intVal (v : List Int) : Val := .vec (.atom .int) v

/-- The columns as vectors. -/
def intCols (cols : List (List Int)) : List Val := cols.map intVal

theorem leavesAll_intCols : (cols : List (List Int)) → leavesAll (intCols cols) = intCols cols
  | [] => rfl
  | v :: cols => by
      have := leavesAll_intCols cols
      unfold intCols at this ⊢
      rw [List.map_cons]
      unfold leavesAll
      rw [this]
      rfl

theorem keyBefore_int {n : Nat} {X : Nat → Int} (h : ∀ r, r < n → IsInt (X r)) {i j : Nat}
    (hi : i < n) (hj : j < n) :
    KeyBefore true (false, false, intVal ((List.range n).map X)) i j ↔ X i < X j := by
  have hX := h i hi
  have hY := h j hj
  have spec : Before false false true .int (X i) (X j) ↔ X i < X j := by
    show NaSmaller false (X i = naInt) (X j = naInt) (X i < X j) ↔ X i < X j
    unfold NaSmaller
    unfold IsInt at hX hY
    constructor
    · rintro (h | h | h)
      · exact h.2.2
      · exact absurd h.1 (by simp)
      · have := h.2.1
        have := h.2.2
        omega
    · intro h
      by_cases h' : X i = naInt
      · exact .inr (.inr ⟨rfl, h', by omega⟩)
      · exact .inl ⟨h', by omega, h⟩
  constructor
  · rintro ⟨t, xs, a, b, e, ha, hb, hab⟩
    dsimp only at e hab
    cases e
    have hgi : ((List.range n).map X)[i]? = some (X i) := by simp [hi]
    have hgj : ((List.range n).map X)[j]? = some (X j) := by simp [hj]
    have ea := ha.symm.trans hgi
    have eb := hb.symm.trans hgj
    cases ea
    cases eb
    exact spec.1 hab
  · intro h
    have hgi : ((List.range n).map X)[i]? = some (X i) := by simp [hi]
    have hgj : ((List.range n).map X)[j]? = some (X j) := by simp [hj]
    exact ⟨.int, (List.range n).map X, X i, X j, rfl, hgi, hgj, spec.2 h⟩

theorem rowBefore_int {cols : List (List Int)} {n : Nat} {X : Nat → Nat → Int}
    (h : ColsAre cols n X) {i j : Nat} (hi : i < n) (hj : j < n) :
    RowBefore true ((intCols cols).map (fun p => (false, false, p))) i j ↔
      ColLt X cols.length i j := by
  have get : ∀ (c : Nat) (k : SortKey),
      ((intCols cols).map (fun p => (false, false, p)) : List SortKey)[c]? = some k →
      c < cols.length ∧ (∀ i j, i < n → j < n → (KeyBefore true k i j ↔ X c i < X c j)) := by
    intro c k hk
    unfold intCols at hk
    rw [List.map_map, List.getElem?_map, Option.map_eq_some_iff] at hk
    obtain ⟨v, hv, rfl⟩ := hk
    obtain ⟨e, hint⟩ := h c v hv
    refine ⟨(List.getElem?_eq_some_iff.1 hv).1, fun i j hi hj => ?_⟩
    subst e
    exact keyBefore_int (fun r hr => hint _ (List.mem_map.2 ⟨r, List.mem_range.2 hr, rfl⟩)) hi hj
  have has : ∀ c, c < cols.length → ∃ k : SortKey,
      ((intCols cols).map (fun p => (false, false, p)) : List SortKey)[c]? = some k := by
    intro c hc
    exact ⟨_, List.getElem?_eq_getElem (by unfold intCols; simpa using hc)⟩
  constructor
  · rintro ⟨c, k, hk, hb, hp⟩
    obtain ⟨hc, hX⟩ := get c k hk
    refine ⟨c, hc, (hX i j hi hj).1 hb, fun c' hc' => ?_⟩
    obtain ⟨k', hk'⟩ := has c' (by omega)
    obtain ⟨_, hX'⟩ := get c' k' hk'
    have := hp c' k' hc' hk'
    rw [hX' i j hi hj, hX' j i hj hi] at this
    omega
  · rintro ⟨c, hc, h1, h2⟩
    obtain ⟨k, hk⟩ := has c hc
    refine ⟨c, k, hk, ((get c k hk).2 i j hi hj).2 h1, fun c' k' hc' hk' => ?_⟩
    rw [(get c' k' hk').2 i j hi hj, (get c' k' hk').2 j i hj hi]
    have := h2 c' hc'
    omega

theorem Spec.TieGroups.congr_lt {before before' : Nat → Nat → Prop} {n : Nat} {B : List (List Nat)}
    (h : TieGroups before n B) (he : ∀ i j, i < n → j < n → (before i j ↔ before' i j)) :
    TieGroups before' n B := by
  have hlt : ∀ {r : Nat} {d : List Nat}, d ∈ B → r ∈ d → r < n := fun hd hr =>
    List.mem_range.1 (h.perm.mem_iff.1 (List.mem_flatten.2 ⟨_, hd, hr⟩))
  refine ⟨h.perm, h.nonempty, h.increasing, fun b hb i hi j hj hij =>
    h.tied b hb i hi j hj ((he i j (hlt hb hi) (hlt hb hj)).2 hij), ?_⟩
  refine List.Pairwise.imp_of_mem ?_ h.sorted
  intro b c hb hc hbc i hi j hj
  exact (he i j (hlt hb hi) (hlt hc hj)).1 (hbc i hi j hj)

theorem intCols_order {x : Val} {cols : List (List Int)} {n : Nat} {X : Nat → Nat → Int}
    (hx : leaves x = intCols cols) (hcol : leavesAll (columns x) = columns x) (hz : x.size = n)
    (h : ColsAre cols n X) (hn : n ≤ intMax) (groupSizes : Bool) {tl : TL} (h0 : ∀ u, 0 ≤ tl u)
    {fuel : Nat} (hf : 1 < cols.length → cols.length ≤ fuel) :
    Ret (vecOrderInfo fuel x chrsAsc chrsSmallest true true groupSizes tl
      (List.replicate 100001 0)) (OrderInfoOk (ColLt X cols.length) n groupSizes tl
        (List.replicate 100001 0)) := by
  have hcol' : columns x = intCols cols := by rw [← hcol, leavesAll_columns, hx]
  refine (vecOrderInfo_ok (ds := List.replicate (columns x).length false)
    (ns := List.replicate (columns x).length false) true groupSizes (by rw [hz]; exact hn) ?_ ?_
    ⟨by simp, .inl ⟨_, false, rfl, rfl, by simp⟩⟩ ⟨by simp, .inl ⟨_, false, rfl, rfl, by simp⟩⟩ h0
    rfl ?_).mono ?_
  · intro p hp
    rw [hx] at hp
    unfold intCols at hp
    obtain ⟨v, hv, rfl⟩ := List.mem_map.1 hp
    obtain ⟨c, hc, e⟩ := List.mem_iff_getElem.1 hv
    obtain ⟨e', hint⟩ := h c v (by rw [← e]; exact List.getElem?_eq_getElem hc)
    refine ⟨?_, hint⟩
    rw [e', hz]
    simp
  · intro i p _ hp
    rw [hx] at hp
    unfold intCols at hp
    rw [List.getElem?_map, Option.map_eq_some_iff] at hp
    obtain ⟨v, _, rfl⟩ := hp
    exact id
  · intro h'
    rw [hx] at h' ⊢
    unfold intCols at h' ⊢
    rw [List.length_map] at h' ⊢
    exact hf h'
  · rintro r ⟨h1, h2, B, hB, h3⟩
    refine ⟨h1, h2, B, ?_, h3⟩
    rw [hz] at hB
    refine hB.congr_lt fun i j hi hj => ?_
    unfold sortKeys
    rw [sortKeys_asc, leavesAll_columns, hx]
    exact rowBefore_int h hi hj

theorem intDf_info {cols : List (List Int)} {n : Nat} {X : Nat → Nat → Int} (h : ColsAre cols n X)
    (hn : n ≤ intMax) (groupSizes : Bool) {tl : TL} (h0 : ∀ u, 0 ≤ tl u) {fuel : Nat}
    (hf : cols.length ≤ fuel) :
    Ret (vecOrderInfo fuel (intDf n cols) chrsAsc chrsSmallest true true groupSizes tl
      (List.replicate 100001 0)) (OrderInfoOk (ColLt X cols.length) n groupSizes tl
        (List.replicate 100001 0)) :=
  intCols_order (x := intDf n cols) (leavesAll_intCols cols) (leavesAll_intCols cols) rfl h hn groupSizes h0
    (fun _ => hf)

theorem intDf_order {cols : List (List Int)} {n : Nat} {X : Nat → Nat → Int} (h : ColsAre cols n X)
    (hn : n ≤ intMax) {tl : TL} (h0 : ∀ u, 0 ≤ tl u) {fuel : Nat} (hf : cols.length ≤ fuel) :
    ∃ B, TieGroups (ColLt X cols.length) n B ∧
      vecOrder fuel (intDf n cols) chrsAsc chrsSmallest true tl (List.replicate 100001 0) =
        .ok (B.flatten.map (fun (i : Nat) => (i : Int) + 1), tl, List.replicate 100001 0) := by
  obtain ⟨⟨⟨o, g⟩, tl', st⟩, h1, h2, h3, B, hB, h4, _⟩ := intDf_info h hn false h0 hf
  dsimp only at h2 h3 h4
  subst h2 h3 h4
  refine ⟨B, hB, ?_⟩
  unfold vecOrder
  rw [h1, ok_bind]

theorem intVec_order {v : List Int} {n : Nat} {X : Nat → Int} (h : v = (List.range n).map X)
    (hint : ∀ a ∈ v, IsInt a) (hn : n ≤ intMax) {tl : TL} (h0 : ∀ u, 0 ≤ tl u) (fuel : Nat) :
    ∃ B, TieGroups (fun i j => X i < X j) n B ∧
      vecOrder fuel (.vec (.atom .int) v) chrsAsc chrsSmallest true tl (List.replicate 100001 0) =
        .ok (B.flatten.map (fun (i : Nat) => (i : Int) + 1), tl, List.replicate 100001 0) := by
  have hc : ColsAre [v] n (fun _ => X) := by
    intro c w hw
    cases c with
    | zero =>
      simp only [List.getElem?_cons_zero, Option.some.injEq] at hw
      subst hw
      exact ⟨h, hint⟩
    | succ c => simp at hw
  obtain ⟨⟨⟨o, g⟩, tl', st⟩, h1, h2, h3, B, hB, h4, _⟩ := intCols_order (cols := [v])
    (x := .vec (.atom .int) v) (fuel := fuel) rfl rfl (by
      rw [h]
      show ((List.range n).map X).length = n
      rw [List.length_map, List.length_range]) hc hn false h0
    (by simp)
  dsimp only at h2 h3 h4
  subst h2 h3 h4
  refine ⟨B, hB.congr fun i j => ?_, ?_⟩
  · constructor
    · rintro ⟨_, _, h, _⟩
      exact h
    · intro h
      exact ⟨0, by simp, h, fun c hc => by omega⟩
  · unfold vecOrder
    rw [h1, ok_bind]

end Vctrs
