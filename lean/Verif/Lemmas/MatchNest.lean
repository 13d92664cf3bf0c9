import Verif.Lemmas.MatchOrder
import Mathlib.Data.List.Sort

/-!
# Nesting containers
-/

namespace Vctrs

open Spec

/-- The first `f` columns decide, or the others do not decrease. -/
def NestRel (X : Nat → Nat → Int) (f nc : Nat) (i j : Nat) : Prop :=
  ColLt X f i j ∨ (ColEq X f i j ∧ ∀ c, f ≤ c → c < nc → X c i ≤ X c j)

theorem colEq_le {X : Nat → Nat → Int} {d e i j : Nat} (h : ColEq X d i j) (he : e ≤ d) :
    ColEq X e i j := fun c hc => h c (by omega)

theorem colEq_symm {X : Nat → Nat → Int} {d i j : Nat} (h : ColEq X d i j) : ColEq X d j i :=
  fun c hc => (h c hc).symm

theorem colLt_le {X : Nat → Nat → Int} {d e i j : Nat} (h : ColLt X e i j) (he : e ≤ d) :
    ColLt X d i j := by
  obtain ⟨c, h1, h2⟩ := h
  exact ⟨c, by omega, h2⟩

theorem NestRel.of_eq {X : Nat → Nat → Int} {f nc i j : Nat} (hf : f ≤ nc) (h : ColEq X nc i j) :
    NestRel X f nc i j :=
  .inr ⟨colEq_le h hf, fun c _ hc => Int.le_of_eq (h c hc)⟩

theorem NestRel.trans {X : Nat → Nat → Int} {f nc i j k : Nat} (h : NestRel X f nc i j)
    (h' : NestRel X f nc j k) : NestRel X f nc i k := by
  rcases h with h | ⟨h1, h2⟩
  · refine .inl (colLt_trans h ?_)
    rcases h' with h' | ⟨h', _⟩
    · exact .inl h'
    · exact .inr h'
  · rcases h' with h' | ⟨h3, h4⟩
    · exact .inl (colLt_eq_trans h1 h')
    · exact .inr ⟨colEq_trans h1 h3, fun c hc hc' => by
        have := h2 c hc hc'
        have := h4 c hc hc'
        omega⟩

/-- Sorted rows are in order if the columns after column `f` do not decrease. -/
theorem nestRel_of_sorted {X : Nat → Nat → Int} {f nc i j : Nat} (hf : f < nc)
    (h : ¬ ColLt X nc j i) (h' : ∀ c, f < c → c < nc → X c i ≤ X c j) : NestRel X f nc i j := by
  rcases col_tri X f i j with h1 | h1 | h1
  · exact .inl h1
  · refine .inr ⟨h1, fun c hc hc' => ?_⟩
    rcases Nat.eq_or_lt_of_le hc with e | e
    · subst e
      rcases Int.lt_or_le (X f j) (X f i) with h2 | h2
      · exact absurd ⟨f, hf, h2, fun c hc => (h1 c hc).symm⟩ h
      · exact h2
    · exact h' c e hc'
  · exact absurd (colLt_le h1 (by omega)) h

theorem nestLe_of_eq {X : Nat → Nat → Int} {op : Nat → MOp} {i j : Nat} {g : Int → Nat} {k k' : Int}
    (hi : g k = i) (hj : g k' = j) {nc : Nat} (hop : ∀ c, c < nc → op c = .eq)
    (h : ¬ ColLt X nc j i) : ∀ (d c : Nat), c + d = nc → ColEq X c i j →
      NestLe op (fun c k => X c (g k)) d c k k' := by
  intro d
  induction d with
  | zero => intro c _ _; trivial
  | succ d ih =>
    intro c hc he
    unfold NestLe
    rw [hi, hj]
    rcases Int.lt_trichotomy (X c i) (X c j) with h1 | h1 | h1
    · exact .inl ⟨hop c (by omega), h1⟩
    · refine .inr ⟨Int.le_of_eq h1, ih (c + 1) (by omega) fun b hb => ?_⟩
      rcases Nat.eq_or_lt_of_le (Nat.le_of_lt_succ hb) with e | e
      · subst e; exact h1
      · exact he b e
    · exact absurd ⟨c, by omega, h1, fun b hb => (he b hb).symm⟩ h

theorem nestLe_of_le {X : Nat → Nat → Int} {op : Nat → MOp} {i j : Nat} {g : Int → Nat} {k k' : Int}
    (hi : g k = i) (hj : g k' = j) {nc : Nat} : ∀ (d c : Nat), c + d = nc →
      (∀ b, c ≤ b → b < nc → X b i ≤ X b j) → NestLe op (fun c k => X c (g k)) d c k k' := by
  intro d
  induction d with
  | zero => intro c _ _; trivial
  | succ d ih =>
    intro c hc he
    unfold NestLe
    rw [hi, hj]
    exact .inr ⟨he c (Nat.le_refl _) (by omega), ih (c + 1) (by omega) fun b hb => he b (by omega)⟩

theorem NestRel.nestLe {X : Nat → Nat → Int} {op : Nat → MOp} {i j f nc : Nat} {g : Int → Nat}
    {k k' : Int} (hi : g k = i) (hj : g k' = j) (hop : ∀ c, c < f → op c = .eq)
    (h : NestRel X f nc i j) : ∀ (d c : Nat), c + d = nc → c ≤ f → ColEq X c i j →
      NestLe op (fun c k => X c (g k)) d c k k' := by
  rcases h with ⟨b, h1, h2, h3⟩ | ⟨h1, h2⟩
  · intro d
    induction d with
    | zero => intro c _ _ _; trivial
    | succ d ih =>
      intro c hc hcf he
      rcases Nat.lt_trichotomy c b with hb | hb | hb
      · unfold NestLe
        rw [hi, hj]
        refine .inr ⟨Int.le_of_eq (h3 c hb), ih (c + 1) (by omega) (by omega) fun b' hb' => ?_⟩
        exact h3 b' (by omega)
      · subst hb
        unfold NestLe
        rw [hi, hj]
        exact .inl ⟨hop c h1, h2⟩
      · have := he b hb
        omega
  · intro d c hc _ _
    refine nestLe_of_le hi hj d c hc fun b hb hb' => ?_
    rcases Nat.lt_or_ge b f with e | e
    · exact Int.le_of_eq (h1 b e)
    · exact h2 b e hb'

/-! ## Sorted rows -/

theorem Spec.TieGroups.ordered {X : Nat → Nat → Int} {d n : Nat} {B : List (List Nat)}
    (h : TieGroups (ColLt X d) n B) {t t' i j : Nat} (htt : t < t') (hi : B.flatten[t]? = some i)
    (hj : B.flatten[t']? = some j) : ColLt X d i j ∨ (ColEq X d i j ∧ i < j) := by
  obtain ⟨p, e, _, hp⟩ := h.stable
  have e' : p = B.flatten := by
    have := congrArg (List.map (fun (a : Int) => (a - 1).toNat)) e
    simp only [List.map_map] at this
    have id' : ((fun (a : Int) => (a - 1).toNat) ∘ fun (i : Nat) => (i : Int) + 1) = id := by
      funext i
      simp
    rw [id', List.map_id, List.map_id] at this
    exact this.symm
  subst e'
  obtain ⟨h1, e1⟩ := List.getElem?_eq_some_iff.1 hi
  obtain ⟨h2, e2⟩ := List.getElem?_eq_some_iff.1 hj
  have := List.pairwise_iff_getElem.1 hp t t' h1 h2 htt
  rw [e1, e2] at this
  rcases this with h3 | ⟨h3, h4⟩
  · exact .inl h3
  · rcases col_tri X d i j with h5 | h5 | h5
    · exact .inl h5
    · exact .inr ⟨h5, h4⟩
    · exact absurd h5 h3

theorem Spec.TieGroups.not_lt {X : Nat → Nat → Int} {d n : Nat} {B : List (List Nat)}
    (h : TieGroups (ColLt X d) n B) {t t' i j : Nat} (htt : t ≤ t') (hi : B.flatten[t]? = some i)
    (hj : B.flatten[t']? = some j) : ¬ ColLt X d j i := by
  rcases Nat.eq_or_lt_of_le htt with e | e
  · subst e
    rw [hi] at hj
    cases hj
    exact colLt_irrefl fun _ _ => rfl
  · rcases h.ordered e hi hj with h1 | ⟨h1, _⟩
    · exact colLt_asymm h1
    · exact colLt_irrefl (colEq_symm h1)

theorem sorted_prefix {p S R : List Nat} (hp : p.Perm (S ++ R)) (hd : ∀ i ∈ R, i ∉ S)
    (hs : p.Pairwise (fun i j => i ∈ S ∨ j ∉ S)) {t i : Nat} (ht : p[t]? = some i) :
    i ∈ S ↔ t < S.length := by
  classical
  let key : Nat → Nat := fun i => if i ∈ S then 0 else 1
  have e : p.map key = (S ++ R).map key := by
    refine List.Perm.eq_of_pairwise' (r := (· ≤ ·)) ?_ ?_ (hp.map key)
    · rw [List.pairwise_map]
      refine hs.imp ?_
      intro i j hij
      rcases hij with h | h
      · show (if i ∈ S then 0 else 1) ≤ _
        rw [if_pos h]
        exact Nat.zero_le _
      · show _ ≤ (if j ∈ S then 0 else 1)
        rw [if_neg h]
        show (if i ∈ S then 0 else 1) ≤ 1
        split <;> omega
    · rw [List.pairwise_map, List.pairwise_append]
      refine ⟨?_, ?_, ?_⟩
      · refine List.pairwise_of_forall_mem_list ?_
        intro i hi j _
        show (if i ∈ S then 0 else 1) ≤ _
        rw [if_pos hi]
        exact Nat.zero_le _
      · refine List.pairwise_of_forall_mem_list ?_
        intro i _ j hj
        show _ ≤ (if j ∈ S then 0 else 1)
        rw [if_neg (hd j hj)]
        show (if i ∈ S then 0 else 1) ≤ 1
        split <;> omega
      · intro i hi j _
        show (if i ∈ S then 0 else 1) ≤ _
        rw [if_pos hi]
        exact Nat.zero_le _
  have h1 : (p.map key)[t]? = some (key i) := by rw [List.getElem?_map, ht]; rfl
  rw [e, List.getElem?_map, Option.map_eq_some_iff] at h1
  obtain ⟨j, hj, hk⟩ := h1
  rw [List.getElem?_append] at hj
  split at hj
  · next hlt =>
    have : j ∈ S := List.mem_of_getElem? hj
    have k0 : key j = 0 := if_pos this
    refine ⟨fun _ => hlt, fun _ => ?_⟩
    refine Decidable.byContradiction fun hn => ?_
    have : key i = 1 := if_neg hn
    omega
  · next hge =>
    have : j ∉ S := hd j (List.mem_of_getElem? hj)
    have k0 : key j = 1 := if_neg this
    refine ⟨fun hi => ?_, fun h => absurd h hge⟩
    have : key i = 0 := if_pos hi
    omega

/-- The groups of the first columns end where those of more columns do. -/
theorem outer_boundary {X : Nat → Nat → Int} {f nc n : Nat} (hf : f ≤ nc) {B Bo : List (List Nat)}
    (hB : TieGroups (ColLt X nc) n B) (hBo : TieGroups (ColLt X f) n Bo) {g t t' i j : Nat}
    (ht : t < (Bo.take g).flatten.length) (ht' : (Bo.take g).flatten.length ≤ t')
    (hi : B.flatten[t]? = some i) (hj : B.flatten[t']? = some j) : ColLt X f i j := by
  have split : Bo.flatten = (Bo.take g).flatten ++ (Bo.drop g).flatten := by
    rw [← List.flatten_append, List.take_append_drop]
  have lt : ∀ i ∈ (Bo.take g).flatten, ∀ j ∈ (Bo.drop g).flatten, ColLt X f i j := by
    intro i hi j hj
    obtain ⟨b, hb, hib⟩ := List.mem_flatten.1 hi
    obtain ⟨c, hc, hjc⟩ := List.mem_flatten.1 hj
    have := hBo.sorted
    rw [← List.take_append_drop g Bo, List.pairwise_append] at this
    exact this.2.2 b hb c hc i hib j hjc
  have disj : ∀ i ∈ (Bo.drop g).flatten, i ∉ (Bo.take g).flatten := by
    intro i hi hi'
    exact colLt_irrefl (fun _ _ => rfl) (lt i hi' i hi)
  have hperm : B.flatten.Perm ((Bo.take g).flatten ++ (Bo.drop g).flatten) := by
    rw [← split]
    exact hB.perm.trans hBo.perm.symm
  have side : ∀ i ∈ B.flatten, i ∉ (Bo.take g).flatten → i ∈ (Bo.drop g).flatten := by
    intro i hi hn
    rcases List.mem_append.1 (hperm.mem_iff.1 hi) with h | h
    · exact absurd h hn
    · exact h
  have hsort : B.flatten.Pairwise (fun i j => i ∈ (Bo.take g).flatten ∨ j ∉ (Bo.take g).flatten) := by
    rw [List.pairwise_iff_getElem]
    intro a b ha hb hab
    by_cases h1 : B.flatten[a] ∈ (Bo.take g).flatten
    · exact .inl h1
    · refine .inr fun h2 => ?_
      have := lt _ h2 _ (side _ (List.getElem_mem ha) h1)
      exact hB.not_lt (Nat.le_of_lt hab) (List.getElem?_eq_getElem ha) (List.getElem?_eq_getElem hb)
        (colLt_le this hf)
  refine lt i ((sorted_prefix hperm disj hsort hi).2 ht) j
    (side j (List.mem_of_getElem? hj) fun h => ?_)
  have := (sorted_prefix hperm disj hsort hj).1 h
  omega

/-! ## The loop over groups -/

theorem fullyGe_ok {cols : List (List Int)} {n : Nat} {Y : Nat → Nat → Int} (h : ColsAre cols n Y)
    {i j : Nat} (hi : i < n) (hj : j < n) :
    Ret (fullyGe cols i j) (fun b => b = true → ∀ c, 1 ≤ c → c < cols.length → Y c j ≤ Y c i) := by
  unfold fullyGe
  refine Ret.forBrk (fun k _ => ∀ c, cols.length ≤ c + k → c < cols.length → Y c j ≤ Y c i) _
    (fun c h1 h2 => by omega) ?_ ?_
  · intro k b hk hI
    obtain ⟨v, hv⟩ : ∃ v, cols[cols.length - 1 - k]? = some v :=
      ⟨_, List.getElem?_eq_getElem (by omega)⟩
    obtain ⟨e, _⟩ := h _ v hv
    have hvi : v[i]? = some (Y (cols.length - 1 - k) i) := by rw [e]; simp [hi]
    have hvj : v[j]? = some (Y (cols.length - 1 - k) j) := by rw [e]; simp [hj]
    rw [rd_of_getElem? hv, ok_bind, rdI_get hvi, ok_bind, rdI_get hvj, ok_bind]
    dsimp only
    rcases intCompareScalar_cases (Y (cols.length - 1 - k) i) (Y (cols.length - 1 - k) j) with
      ⟨e1, e2⟩ | ⟨e1, e2⟩ | ⟨e1, e2⟩
    · rw [e1, if_neg (by decide)]
      refine Ret.ok fun c h1 h2 => ?_
      by_cases hc : c = cols.length - 1 - k
      · subst hc; omega
      · exact hI c (by omega) h2
    · rw [e1, if_pos (by decide)]
      exact Ret.ok fun h => by cases h
    · rw [e1, if_neg (by decide)]
      refine Ret.ok fun c h1 h2 => ?_
      by_cases hc : c = cols.length - 1 - k
      · subst hc; omega
      · exact hI c (by omega) h2
  · intro b hI _ c h1 h2
    exact hI c (by omega) h2

theorem findNest_ok {cols : List (List Int)} {n : Nat} {Y : Nat → Nat → Int} (h : ColsAre cols n Y)
    {row : Nat} (hrow : row < n) {prev : List Int}
    (hp : ∀ (k : Nat) (r : Int), prev[k]? = some r → ∃ r' : Nat, r = r' ∧ r' < n) :
    Ret (findNest cols row prev) (fun id => id ≤ prev.length ∧ (id < prev.length →
      ∃ r : Nat, prev[id]? = some (r : Int) ∧
        ∀ c, 1 ≤ c → c < cols.length → Y c r ≤ Y c row)) := by
  unfold findNest
  refine Ret.bind (Ret.forBrk (fun k id => id = k) (fun id => id ≤ prev.length ∧
    (id < prev.length → ∃ r : Nat, prev[id]? = some (r : Int) ∧
        ∀ c, 1 ≤ c → c < cols.length → Y c r ≤ Y c row)) rfl ?_ ?_) (fun id h => Ret.ok h)
  · intro k id hk hid
    subst hid
    obtain ⟨r, hr⟩ : ∃ r, prev[id]? = some r := ⟨_, List.getElem?_eq_getElem hk⟩
    obtain ⟨r', rfl, hr'⟩ := hp id r hr
    rw [rd_of_getElem? hr, ok_bind]
    refine Ret.bind (fullyGe_ok h hrow hr') ?_
    intro b hb
    by_cases hbt : b = true
    · rw [if_pos hbt]
      exact Ret.ok ⟨Nat.le_of_lt hk, fun _ => ⟨r', hr, hb hbt⟩⟩
    · rw [if_neg hbt]
      exact Ret.ok rfl
  · rintro _ rfl
    exact ⟨Nat.le_refl _, fun h => by omega⟩

/-- The sizes of the groups of the first `f` columns. -/
def OuterIs (X : Nat → Nat → Int) (f n : Nat) : Option (List Nat) → Prop
  | none => True
  | some sizes => ∃ Bo, TieGroups (ColLt X f) n Bo ∧ sizes = Bo.map List.length

/-- The state after the groups before group `i`. -/
structure NestInv (X : Nat → Nat → Int) (f nc n : Nat) (B : List (List Nat))
    (outer : Option (List Nat)) (i : Nat) (s : NestState) : Prop where
  start : s.start = (B.take i).flatten.length
  len : s.ids.length = n
  n1 : 1 ≤ s.n
  pn : s.prevRows.length ≤ s.n
  ni : s.n ≤ i + 1
  pi : s.prevRows.length ≤ i
  next : ∀ Bo : List (List Nat), outer = some (Bo.map List.length) →
    s.nextOuter = (Bo.take s.locOuter).flatten.length
  ids : ∀ t r, t < s.start → B.flatten[t]? = some r → ∃ id : Nat, s.ids[r]? = some (id : Int) ∧ id < s.n
  rel : ∀ t t' r r', t ≤ t' → t' < s.start → B.flatten[t]? = some r → B.flatten[t']? = some r' →
    s.ids[r]? = s.ids[r']? → NestRel X f nc r r'
  fresh : ∃ b, b ≤ s.start ∧ (∀ t t' r r', t < b → b ≤ t' → B.flatten[t]? = some r →
      B.flatten[t']? = some r' → NestRel X f nc r r') ∧
    (∀ t r, b ≤ t → t < s.start → B.flatten[t]? = some r → ∃ (id row : Nat),
      s.ids[r]? = some (id : Int) ∧ s.prevRows[id]? = some (row : Int) ∧ NestRel X f nc r row)
  rows : ∀ (k : Nat) (r : Int), s.prevRows[k]? = some r →
    ∃ (t r' : Nat), t < s.start ∧ B.flatten[t]? = some r' ∧ r = r'

theorem nestReset_ok {X : Nat → Nat → Int} {f nc n : Nat} (hf : f < nc) {B : List (List Nat)}
    (hB : TieGroups (ColLt X nc) n B) {outer : Option (List Nat)} (ho : OuterIs X f n outer) {i : Nat}
    (hi : i < B.length) {s : NestState} (h : NestInv X f nc n B outer i s) :
    Ret (nestReset outer s) (NestInv X f nc n B outer i) := by
  unfold nestReset
  match outer, ho with
  | none, _ => exact Ret.ok h
  | some _, ⟨Bo, hBo, rfl⟩ =>
    dsimp only
    by_cases hr : s.nextOuter = s.start
    · rw [if_pos hr]
      have hnext := h.next Bo rfl
      have hst : s.start < n := by
        rw [h.start]
        have hb : B[i]? = some B[i] := List.getElem?_eq_getElem hi
        have h1 := take_flatten_le B (i + 1)
        rw [take_flatten_succ hb, List.length_append] at h1
        have h2 := List.length_pos_of_ne_nil (hB.nonempty _ (List.getElem_mem hi))
        have h3 := hB.perm.length_eq
        rw [List.length_range] at h3
        omega
      have hloc : s.locOuter < Bo.length := by
        refine Decidable.byContradiction fun hn => ?_
        rw [List.take_of_length_le (by omega), hBo.perm.length_eq, List.length_range] at hnext
        omega
      rw [rd_of_getElem? (a := Bo[s.locOuter].length) (by simp [hloc]), ok_bind]
      refine Ret.ok ⟨h.start, h.len, h.n1, Nat.zero_le _, h.ni, Nat.zero_le _, ?_, h.ids, h.rel,
        ⟨s.start, Nat.le_refl _, ?_, fun t r h1 h2 => absurd h1 (Nat.not_le.2 h2)⟩, ?_⟩
      · intro Bo' e
        have e' : Bo.map List.length = Bo'.map List.length := Option.some.inj e
        have h1 := h.next Bo' e
        have lens : ∀ k, (Bo.take k).flatten.length = (Bo'.take k).flatten.length := by
          intro k
          rw [List.length_flatten, List.length_flatten, List.map_take, List.map_take, e']
        dsimp only
        rw [← lens, take_flatten_succ (List.getElem?_eq_getElem hloc), List.length_append, hnext]
      · intro t t' r r' h1 h2 h3 h4
        refine .inl (outer_boundary (by omega) hB hBo (g := s.locOuter) ?_ ?_ h3 h4)
        · rw [← hnext, hr]; exact h1
        · rw [← hnext, hr]; exact h2
      · intro k r hk
        simp at hk
    · rw [if_neg hr]
      exact Ret.ok h

theorem nestRound_ok {X : Nat → Nat → Int} {f nc n : Nat} (hf : f < nc) {B : List (List Nat)}
    (hB : TieGroups (ColLt X nc) n B) {cols : List (List Int)}
    (hcols : ColsAre cols n (fun c => X (f + c))) (hlen : cols.length = nc - f)
    {outer : Option (List Nat)} (ho : OuterIs X f n outer) {i : Nat}
    (hi : i < B.length) {s : NestState} (h : NestInv X f nc n B outer i s) :
    Ret (nestRound cols (B.flatten.map (fun (i : Nat) => (i : Int) + 1)) (B.map List.length) outer i
      s) (NestInv X f nc n B outer (i + 1)) := by
  unfold nestRound
  refine Ret.bind (nestReset_ok hf hB ho hi h) ?_
  clear h s
  intro s h
  obtain ⟨b, hb⟩ : ∃ b, B[i]? = some b := ⟨_, List.getElem?_eq_getElem hi⟩
  have hbB := List.mem_of_getElem? hb
  have hne := hB.nonempty b hbB
  have hlp := List.length_pos_of_ne_nil hne
  have hstart := h.start
  have hfl : ∀ j, j < b.length → B.flatten[s.start + j]? = b[j]? := by
    intro j hj
    rw [hstart]
    exact flatten_get hb hj
  obtain ⟨row, hrow⟩ : ∃ row, b[0]? = some row := ⟨_, List.getElem?_eq_getElem hlp⟩
  have hprow : B.flatten[s.start]? = some row := by
    have := hfl 0 hlp
    rw [Nat.add_zero, hrow] at this
    exact this
  have hlt : ∀ r, r ∈ b → r < n := fun r hr => hB.lt hb hr
  have hrn := hlt row (List.mem_of_getElem? hrow)
  have mem : ∀ t r, B.flatten[t]? = some r → r < n := fun t r ht =>
    List.mem_range.1 (hB.perm.mem_iff.1 (List.mem_of_getElem? ht))
  have tie : ∀ r ∈ b, ∀ r' ∈ b, ColEq X nc r r' := by
    intro r hr r' hr'
    rcases col_tri X nc r r' with h1 | h1 | h1
    · exact absurd h1 (hB.tied b hbB r hr r' hr')
    · exact h1
    · exact absurd h1 (hB.tied b hbB r' hr' r hr)
  rw [rd_of_getElem? (a := b.length) (by rw [List.getElem?_map, hb]; rfl), ok_bind,
    rd_of_getElem? (a := (row : Int) + 1) (by rw [List.getElem?_map, hprow]; rfl), ok_bind]
  dsimp only
  rw [show (row : Int) + 1 - 1 = row by omega]
  refine Ret.bind (findNest_ok hcols hrn ?_) ?_
  · intro k r hk
    obtain ⟨t, r', h1, h2, h3⟩ := h.rows k r hk
    exact ⟨r', h3, mem t r' h2⟩
  intro id ⟨hid, hprev⟩
  -- the rows of containers
  have hstep : Ret (if id = s.prevRows.length then
      let m := s.prevRows.length + 1
      .ok { s with prevRows := s.prevRows ++ [(row : Int)], n := if m > s.n then m else s.n }
    else do
      let p ← wr s.prevRows id (row : Int)
      .ok { s with prevRows := p } : C NestState)
      (fun s' => s'.ids = s.ids ∧ s'.start = s.start ∧ s'.locOuter = s.locOuter ∧
        s'.nextOuter = s.nextOuter ∧ s.n ≤ s'.n ∧ s'.n ≤ i + 2 ∧ s'.prevRows.length ≤ s'.n ∧
        s'.prevRows.length ≤ i + 1 ∧ id < s'.prevRows.length ∧
        s'.prevRows[id]? = some (row : Int) ∧ ∀ k, k ≠ id → s'.prevRows[k]? = s.prevRows[k]?) := by
    have h1 := h.pn
    have h2 := h.ni
    have h3 := h.pi
    by_cases e : id = s.prevRows.length
    · rw [if_pos e]
      refine Ret.ok ⟨rfl, rfl, rfl, rfl, ?_, ?_, ?_, ?_, ?_, ?_, ?_⟩
      · dsimp only
        split <;> omega
      · dsimp only
        split <;> omega
      · dsimp only
        rw [List.length_append, List.length_singleton]
        split <;> omega
      · dsimp only
        rw [List.length_append, List.length_singleton]
        omega
      · dsimp only
        rw [List.length_append, List.length_singleton]
        omega
      · dsimp only
        rw [e, List.getElem?_append_right (Nat.le_refl _)]
        simp
      · intro k hk
        dsimp only
        rcases Nat.lt_or_ge k s.prevRows.length with h4 | h4
        · rw [List.getElem?_append_left h4]
        · rw [List.getElem?_eq_none (by simp; omega), List.getElem?_eq_none h4]
    · rw [if_neg e, wr_ok (by omega), ok_bind]
      refine Ret.ok ⟨rfl, rfl, rfl, rfl, Nat.le_refl _, by dsimp only; omega, ?_, ?_, ?_, ?_, ?_⟩
      · dsimp only
        rw [List.length_set]
        exact h1
      · dsimp only
        rw [List.length_set]
        omega
      · dsimp only
        rw [List.length_set]
        omega
      · dsimp only
        rw [getElem?_set' (by omega), if_pos rfl]
      · intro k hk
        dsimp only
        rw [getElem?_set' (by omega), if_neg hk]
  refine Ret.bind hstep ?_
  rintro s' ⟨e1, e2, e3, e4, e5, e6, e7, e8, e9, e10, e11⟩
  rw [e1, e2]
  refine Ret.bind (Ret.forFrom (i := s.start) (r := b.length) (s := s.ids) (fun j ids =>
    ids.length = n ∧ (∀ t r, t < s.start → B.flatten[t]? = some r → ids[r]? = s.ids[r]?) ∧
    (∀ t r, s.start ≤ t → t < j → B.flatten[t]? = some r → ids[r]? = some (id : Int)))
    ⟨h.len, fun _ _ _ _ => rfl, fun t r h1 h2 => absurd h1 (by omega)⟩ ?_) ?_
  · rintro j ids hj hj' ⟨l1, l2, l3⟩
    have hjb : B.flatten[j]? = b[j - s.start]? := by
      rw [← hfl (j - s.start) (by omega)]
      congr 1
      omega
    obtain ⟨r, hr⟩ : ∃ r, b[j - s.start]? = some r := ⟨_, List.getElem?_eq_getElem (by omega)⟩
    rw [hr] at hjb
    have hrn' := hlt r (List.mem_of_getElem? hr)
    rw [rd_of_getElem? (a := (r : Int) + 1) (by rw [List.getElem?_map, hjb]; rfl), ok_bind,
      show (r : Int) + 1 - 1 = r by omega, wrI_nat (by omega)]
    have uniq : ∀ t r', B.flatten[t]? = some r' → t ≠ j → r' ≠ r := by
      intro t r' ht hne e
      subst e
      obtain ⟨a1, a2⟩ := List.getElem?_eq_some_iff.1 ht
      obtain ⟨b1, b2⟩ := List.getElem?_eq_some_iff.1 hjb
      exact hne ((hB.nodup.getElem_inj_iff).1 (a2.trans b2.symm))
    refine Ret.ok ⟨by rw [List.length_set]; exact l1, fun t r' h1 h2 => ?_, fun t r' h1 h2 h3 => ?_⟩
    · rw [getElem?_set' (by omega), if_neg (uniq t r' h2 (by omega))]
      exact l2 t r' h1 h2
    · rw [getElem?_set' (by omega)]
      by_cases htj : t = j
      · subst htj
        rw [hjb] at h3
        cases h3
        rw [if_pos rfl]
      · rw [if_neg (uniq t r' h3 htj)]
        exact l3 t r' h1 (by omega) h3
  rintro ids ⟨l1, l2, l3⟩
  have hmemb : ∀ t r, s.start ≤ t → t < s.start + b.length → B.flatten[t]? = some r → r ∈ b := by
    intro t r h1 h2 h3
    have := hfl (t - s.start) (by omega)
    rw [show s.start + (t - s.start) = t by omega, h3] at this
    exact List.mem_of_getElem? this.symm
  obtain ⟨fr, f1, f2, f3⟩ := h.fresh
  -- a row of the same container is related to the new rows
  have link : ∀ (r0 : Nat) (row0 : Nat), s.prevRows[id]? = some (row0 : Int) →
      NestRel X f nc r0 row0 → NestRel X f nc r0 row := by
    intro r0 row0 h1 h2
    obtain ⟨h3, _⟩ := List.getElem?_eq_some_iff.1 h1
    obtain ⟨r, h4, h5⟩ := hprev h3
    rw [h1] at h4
    have h6 : row0 = r := by
      have := Option.some.inj h4
      omega
    subst h6
    obtain ⟨t, r', h7, h8, h9⟩ := h.rows id _ h1
    have h10 : row0 = r' := by omega
    subst h10
    refine h2.trans (nestRel_of_sorted hf (hB.not_lt (Nat.le_of_lt h7) h8 hprow) fun c hc hc' => ?_)
    have := h5 (c - f) (by omega) (by omega)
    rw [show f + (c - f) = c by omega] at this
    exact this
  refine Ret.ok ⟨?_, l1, by dsimp only; have := h.n1; omega, e7, e6, e8, ?_, ?_, ?_, ⟨fr, ?_, f2, ?_⟩, ?_⟩
  · dsimp only
    rw [take_flatten_succ hb, List.length_append, ← hstart]
  · intro Bo hBo
    dsimp only
    rw [e3, e4]
    exact h.next Bo hBo
  · intro t r ht hr
    dsimp only at ht ⊢
    rcases Nat.lt_or_ge t s.start with h1 | h1
    · obtain ⟨id', h2, h3⟩ := h.ids t r h1 hr
      exact ⟨id', by rw [l2 t r h1 hr, h2], by omega⟩
    · exact ⟨id, l3 t r h1 ht hr, by omega⟩
  · intro t t' r r' htt ht' hr hr' hid'
    dsimp only at ht' hid'
    rcases Nat.lt_or_ge t' s.start with h1 | h1
    · rw [l2 t r (by omega) hr, l2 t' r' h1 hr'] at hid'
      exact h.rel t t' r r' htt h1 hr hr' hid'
    · have hb' := hmemb t' r' h1 ht' hr'
      rcases Nat.lt_or_ge t s.start with h2 | h2
      · rcases Nat.lt_or_ge t fr with h3 | h3
        · exact f2 t t' r r' h3 (by omega) hr hr'
        · obtain ⟨id', row0, g1, g2, g3⟩ := f3 t r h3 h2 hr
          rw [l2 t r h2 hr, l3 t' r' h1 ht' hr', g1] at hid'
          have : id' = id := by
            have := Option.some.inj hid'
            omega
          subst this
          exact (link r row0 g2 g3).trans (NestRel.of_eq (by omega)
            (tie row (List.mem_of_getElem? hrow) r' hb'))
      · exact NestRel.of_eq (by omega) (tie r (hmemb t r h2 (by omega) hr) r' hb')
  · dsimp only
    omega
  · intro t r h1 h2 h3
    dsimp only at h2 ⊢
    rcases Nat.lt_or_ge t s.start with h4 | h4
    · obtain ⟨id', row0, g1, g2, g3⟩ := f3 t r h1 h4 h3
      by_cases e : id' = id
      · subst e
        exact ⟨id', row, by rw [l2 t r h4 h3, g1], e10, link r row0 g2 g3⟩
      · refine ⟨id', row0, by rw [l2 t r h4 h3, g1], ?_, g3⟩
        rw [e11 id' e]
        exact g2
    · exact ⟨id, row, l3 t r h4 h2 h3, e10, NestRel.of_eq (by omega)
        (tie r (hmemb t r h4 h2 h3) row (List.mem_of_getElem? hrow))⟩
  · intro k r hk
    dsimp only at hk ⊢
    by_cases e : k = id
    · subst e
      rw [e10] at hk
      exact ⟨s.start, row, by omega, hprow, (Option.some.inj hk).symm⟩
    · rw [e11 k e] at hk
      obtain ⟨t, r', h1, h2, h3⟩ := h.rows k r hk
      exact ⟨t, r', by omega, h2, h3⟩

end Vctrs
