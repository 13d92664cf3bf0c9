import Verif.Props.C28
import Verif.Props.C34
import Verif.Props.C37
import Verif.Props.C98

/-!
# C99: comparison agrees with order and rank
-/

namespace Vctrs

open Spec

/-! ## Ranks compare as the rows do -/

theorem hasCount_le {P Q : Nat → Prop} {k m : Nat} (hk : HasCount P k) (hm : HasCount Q m) (h : ∀ j, P j → Q j) :
    k ≤ m := by
  obtain ⟨l, l1, l2, rfl⟩ := hk
  obtain ⟨l', l1', l2', rfl⟩ := hm
  exact (List.subperm_of_subset l1 fun j hj => (l2' j).2 (h j ((l2 j).1 hj))).length_le

theorem hasCount_lt {P Q : Nat → Prop} {k m : Nat} (hk : HasCount P k) (hm : HasCount Q m) (h : ∀ j, P j → Q j)
    {z : Nat} (hz : Q z) (hz' : ¬ P z) : k < m := by
  obtain ⟨l, l1, l2, rfl⟩ := hk
  obtain ⟨l', l1', l2', rfl⟩ := hm
  have hn : (z :: l).Nodup := List.nodup_cons.2 ⟨fun hj => hz' ((l2 z).1 hj), l1⟩
  have := (List.subperm_of_subset (l₂ := l') hn fun j hj => (l2' j).2 (by
    rcases List.mem_cons.1 hj with rfl | hj
    · exact hz
    · exact h j ((l2 j).1 hj))).length_le
  rw [List.length_cons] at this
  omega

theorem lexLt_trans3 : (a b c : List Nat) → a.length = b.length → b.length = c.length → LexLt a b → LexLt b c →
    LexLt a c
  | [], [], _, _, _, h, _ => absurd h lexLt_nil
  | x :: a, y :: b, [], _, h, _, _ => by simp at h
  | x :: a, [], _, h, _, _, _ => by simp at h
  | [], y :: b, _, h, _, _, _ => by simp at h
  | x :: a, y :: b, z :: c, h1, h2, h3, h4 => by
    rw [lexLt_cons] at h3 h4 ⊢
    have ih := lexLt_trans3 a b c (by simpa using h1) (by simpa using h2)
    rcases h3 with h3 | ⟨h3, h3'⟩
    · rcases h4 with h4 | ⟨h4, h4'⟩ <;> exact .inl (by omega)
    · rcases h4 with h4 | ⟨h4, h4'⟩
      · exact .inl (by omega)
      · exact .inr ⟨by omega, ih h3' h4'⟩

/-- Ranks compare as the rows do, unless ties are told apart. -/
theorem rank_compare {before : Nat → Nat → Prop} {n : Nat} {key : Nat → List Nat}
    (hlen : ∀ i j, (key i).length = (key j).length)
    (hkey : ∀ i j, i < n → j < n → (before i j ↔ LexLt (key i) (key j))) {ties : Ties} (ht : ties ≠ .sequential)
    {i j : Nat} (hi : i < n) (hj : j < n) {a b : Int} (ha : IsRank before (fun j => j < n) i a ties)
    (hb : IsRank before (fun j => j < n) j b ties) : a < b ↔ before i j := by
  have tri : ∀ u v, u < n → v < n → before u v ∨ key u = key v ∨ before v u := by
    intro u v hu hv
    rw [hkey _ _ hu hv, hkey _ _ hv hu]
    exact lexLt_tri _ _ (hlen u v)
  have irr : ∀ u, u < n → ¬ before u u := fun u hu h => lexLt_irrefl _ ((hkey _ _ hu hu).1 h)
  have asy : ∀ u v, u < n → v < n → before u v → ¬ before v u :=
    fun u v hu hv h h' => lexLt_asymm ((hkey _ _ hu hv).1 h) ((hkey _ _ hv hu).1 h')
  have trans : ∀ u v w, u < n → v < n → w < n → before u v → ¬ before w v → before u w := by
    intro u v w hu hv hw h1 h2
    rcases tri w v hw hv with h | h | h
    · exact absurd h h2
    · rw [hkey _ _ hu hw, h, ← hkey _ _ hu hv]
      exact h1
    · rw [hkey _ _ hu hw]
      exact lexLt_trans3 _ _ _ (hlen _ _) (hlen _ _) ((hkey _ _ hu hv).1 h1) ((hkey _ _ hv hw).1 h)
  cases ties with
  | min =>
    obtain ⟨k, rfl, hk⟩ := ha
    obtain ⟨m, rfl, hm⟩ := hb
    constructor
    · intro h
      refine Classical.byContradiction fun hn => ?_
      have := hasCount_le hm hk fun s hs => ⟨hs.1, trans s j i hs.1 hj hi hs.2 hn⟩
      omega
    · intro h
      have := hasCount_lt hk hm (fun s hs => ⟨hs.1, trans s i j hs.1 hi hj hs.2 (asy _ _ hi hj h)⟩) (z := i) ⟨hi, h⟩
        fun hs => irr i hi hs.2
      omega
  | max =>
    obtain ⟨k, rfl, hk⟩ := ha
    obtain ⟨m, rfl, hm⟩ := hb
    constructor
    · intro h
      refine Classical.byContradiction fun hn => ?_
      have := hasCount_le hm hk fun s hs => ⟨hs.1, fun h' => hn (trans i s j hi hs.1 hj h' hs.2)⟩
      omega
    · intro h
      have := hasCount_lt hk hm (fun s hs => ⟨hs.1, fun h' => hs.2 (trans i j s hi hj hs.1 h (asy _ _ hj hs.1 h'))⟩)
        (z := j) ⟨hj, irr j hj⟩ fun hs => hs.2 h
      omega
  | sequential => exact absurd rfl ht
  | dense =>
    obtain ⟨k, rfl, hk⟩ := ha
    obtain ⟨m, rfl, hm⟩ := hb
    constructor
    · intro h
      refine Classical.byContradiction fun hn => ?_
      have := hasCount_le hm hk fun s hs => ⟨hs.1, trans s j i hs.1 hj hi hs.2.1 hn, hs.2.2⟩
      omega
    · intro h
      have first : ∀ u, u < n → key u = key i → ∃ z, z < n ∧ key z = key i ∧
          ∀ j', j' < n → j' < z → before z j' ∨ before j' z := by
        intro u
        induction u using Nat.strongRecOn with
        | ind u ih =>
          intro hu he
          by_cases hex : ∃ v, v < u ∧ key v = key i
          · obtain ⟨v, hv, hve⟩ := hex
            exact ih v hv (by omega) hve
          · refine ⟨u, hu, he, fun j' hj' hlt => ?_⟩
            rcases tri u j' hu hj' with h | h | h
            · exact .inl h
            · exact absurd ⟨j', hlt, h ▸ he⟩ hex
            · exact .inr h
      obtain ⟨z, hz, he, hf⟩ := first i hi rfl
      have := hasCount_lt hk hm (fun s hs => ⟨hs.1, trans s i j hs.1 hi hj hs.2.1 (asy _ _ hi hj h), hs.2.2⟩) (z := z)
        ⟨hz, by rw [hkey _ _ hz hj, he, ← hkey _ _ hi hj]; exact h, hf⟩ fun hs => by
          have := hs.2.1
          rw [hkey _ _ hz hi, he] at this
          exact lexLt_irrefl _ this
      omega

/-! ## Comparison of elements -/

/-- Not one of them NA and the other NaN. -/
def NotMixed : (t : ATy) → t.El → t.El → Prop
  | .dbl, (a : Dbl), (b : Dbl) => IsNaN a → IsNaN b → (IsNA a ↔ IsNA b)
  | _, _, _ => True

theorem intSmaller_lt (a b : Int) :
    NaSmaller false (a = naInt) (b = naInt) (a < b) ↔ a ≠ b ∧ (a = naInt ∨ (b ≠ naInt ∧ a < b)) := by
  unfold NaSmaller
  constructor
  · rintro (⟨h1, h2, h3⟩ | ⟨h, _⟩ | ⟨_, h1, h2⟩)
    · exact ⟨by omega, .inr ⟨h2, h3⟩⟩
    · cases h
    · exact ⟨fun e => h2 (e ▸ h1), .inl h1⟩
  · rintro ⟨h1, h2⟩
    by_cases ha : a = naInt
    · exact .inr (.inr ⟨rfl, ha, fun e => h1 (ha.trans e.symm)⟩)
    · obtain ⟨h3, h4⟩ := h2.resolve_left ha
      exact .inl ⟨ha, h3, h4⟩

theorem smaller_lt {t : ATy} (ht : Spec.Ordered t) (nd : Bool) (a b : t.El) (hab : NotMixed t a b) :
    Smaller false nd t a b ↔ AtomLt t a b := by
  cases t with
  | lgl => exact intSmaller_lt a b
  | int => exact intSmaller_lt a b
  | dbl =>
    have hab : IsNaN a → IsNaN b → (IsNA a ↔ IsNA b) := hab
    show DblSmaller false nd a b ↔ DblLt a b
    unfold DblSmaller DblLt NaSmaller dblRank
    by_cases ha : IsNaN a
    · by_cases hb : IsNaN b
      · have h := hab ha hb
        by_cases hA : IsNA a
        · simp [ha, hb, hA, h.1 hA]
        · have hB : ¬ IsNA b := fun e => hA (h.2 e)
          simp [ha, hb, hA, hB]
      · have hB : ¬ IsNA b := fun e => hb e.1
        by_cases hA : IsNA a <;> simp [ha, hb, hA, hB]
    · have hA : ¬ IsNA a := fun e => ha e.1
      by_cases hb : IsNaN b
      · by_cases hB : IsNA b <;> simp [ha, hb, hA, hB]
      · have hB : ¬ IsNA b := fun e => hb e.1
        simp [ha, hb, hA, hB]
  | cpl => exact ht.elim
  | chr =>
    show NaSmaller false _ _ _ ↔ AtomLt .chr a b
    have a' : Name := a
    match (a : Name), (b : Name) with
    | none, none => simp [NaSmaller, AtomLt]
    | none, some t => simp [NaSmaller, AtomLt]
    | some s, none => simp [NaSmaller, AtomLt]
    | some s, some t => simp [NaSmaller, AtomLt]
  | raw => exact ht.elim

theorem notMixed_symm {t : ATy} {a b : t.El} (h : NotMixed t a b) : NotMixed t b a := by
  cases t with
  | dbl => exact fun h1 h2 => (h h2 h1).symm
  | _ => trivial

theorem not_smaller_same {t : ATy} (ht : Spec.Ordered t) (nd : Bool) (a b : t.El) (hab : NotMixed t a b) :
    (¬ Smaller false nd t a b ∧ ¬ Smaller false nd t b a) ↔ SameAtom t a b := by
  rw [smaller_lt ht nd a b hab, smaller_lt ht nd b a (notMixed_symm hab), ← smaller_lt ht true a b hab,
    ← smaller_lt ht true b a (notMixed_symm hab)]
  refine tie_same ?_ ?_ false false a b
  · rintro rfl; exact ht
  · rintro rfl; exact ht

/-! ## Comparison of rows -/

/-- Vectors of an ordered type; no double vector has both NA and NaN. -/
def PlainLeaf (p : Val) : Prop :=
  ∃ (t : ATy) (xs : List t.El), p = .vec (.atom t) xs ∧ Spec.Ordered t ∧ ∀ a ∈ xs, ∀ b ∈ xs, NotMixed t a b

theorem sortKeys_plain (x : Val) : sortKeys x (List.replicate (columns x).length false)
    (List.replicate (columns x).length false) = (leaves x).map (fun q => (false, false, q)) := by
  unfold sortKeys
  rw [sortKeys_asc, leavesAll_columns]

section
variable {n : Nat} {I J : List Nat} (hI : ∀ i ∈ I, i < n) (hJ : ∀ j ∈ J, j < n) {c i j : Nat} (hi : I[c]? = some i)
  (hj : J[c]? = some j) (nd : Bool)
include hI hJ hi hj

theorem leaf_compare {p : Val} (hs : Sized n p) (hp : PlainLeaf p) :
    (AtLeaf AtomLt (pick I p) (pick J p) c ↔ KeyBefore nd (false, false, p) i j) ∧
    (AtLeaf SameAtom (pick I p) (pick J p) c ↔
      ¬ KeyBefore nd (false, false, p) i j ∧ ¬ KeyBefore nd (false, false, p) j i) := by
  obtain ⟨t, xs, rfl, ht, hm⟩ := hp
  cases hs with
  | vec _ _ hx =>
    have hx : xs.length = n := hx
    have hil : i < xs.length := by rw [hx]; exact hI i (List.mem_of_getElem? hi)
    have hjl : j < xs.length := by rw [hx]; exact hJ j (List.mem_of_getElem? hj)
    have ha := List.getElem?_eq_getElem hil
    have hb := List.getElem?_eq_getElem hjl
    have hmix := hm _ (List.getElem_mem hil) _ (List.getElem_mem hjl)
    have at_iff : ∀ R : (t : ATy) → t.El → t.El → Prop,
        (AtLeaf R (pick I (.vec (.atom t) xs)) (pick J (.vec (.atom t) xs)) c ↔ R t xs[i] xs[j]) := by
      intro R
      have h1 := pickList_get (fun i hi => hx ▸ hI i hi) (xs := xs) hi
      have h2 := pickList_get (fun j hj => hx ▸ hJ j hj) (xs := xs) hj
      constructor
      · rintro ⟨t', ys, zs, a, b, e1, e2, h3, h4, h5⟩
        cases e1
        cases e2
        have h3 : some xs[i] = some a := ha.symm.trans (h1.symm.trans h3)
        have h4 : some xs[j] = some b := hb.symm.trans (h2.symm.trans h4)
        cases h3
        cases h4
        exact h5
      · exact fun h => ⟨t, _, _, _, _, rfl, rfl, h1.trans ha, h2.trans hb, h⟩
    rw [at_iff, at_iff, keyBefore_iff ha hb, keyBefore_iff hb ha]
    exact ⟨(smaller_lt ht nd _ _ hmix).symm, (not_smaller_same ht nd _ _ hmix).symm⟩

theorem row_compare {x : Val} (hs : ∀ p ∈ leaves x, Sized n p) (hp : ∀ p ∈ leaves x, PlainLeaf p) :
    RowLt (pick I x) (pick J x) c ↔ RowBefore nd ((leaves x).map (fun q => (false, false, q))) i j := by
  unfold RowLt RowBefore
  rw [leaves_pick, leaves_pick]
  have hl : ∀ {p}, p ∈ leaves x → _ := fun {p} h => leaf_compare hI hJ hi hj nd (hs p h) (hp p h)
  constructor
  · rintro ⟨k, p, q, h1, h2, h3, h4⟩
    rw [List.getElem?_map] at h1 h2
    cases hk : (leaves x)[k]? with
    | none => rw [hk] at h1; cases h1
    | some r =>
      rw [hk] at h1 h2
      cases h1
      cases h2
      refine ⟨k, (false, false, r), by rw [List.getElem?_map, hk]; rfl, (hl (List.mem_of_getElem? hk)).1.1 h3, ?_⟩
      intro m' k' hm' hk'
      rw [List.getElem?_map] at hk'
      cases hr : (leaves x)[m']? with
      | none => rw [hr] at hk'; cases hk'
      | some r' =>
        rw [hr] at hk'
        cases hk'
        refine (hl (List.mem_of_getElem? hr)).2.1 (h4 m' _ _ hm' ?_ ?_) <;> rw [List.getElem?_map, hr] <;> rfl
  · rintro ⟨k, s, h1, h3, h4⟩
    rw [List.getElem?_map] at h1
    cases hk : (leaves x)[k]? with
    | none => rw [hk] at h1; cases h1
    | some r =>
      rw [hk] at h1
      cases h1
      refine ⟨k, pick I r, pick J r, by rw [List.getElem?_map, hk]; rfl, by rw [List.getElem?_map, hk]; rfl,
        (hl (List.mem_of_getElem? hk)).1.2 h3, ?_⟩
      intro m' p' q' hm' hp' hq'
      rw [List.getElem?_map] at hp' hq'
      cases hr : (leaves x)[m']? with
      | none => rw [hr] at hp'; cases hp'
      | some r' =>
        rw [hr] at hp' hq'
        cases hp'
        cases hq'
        exact (hl (List.mem_of_getElem? hr)).2.2 (h4 m' _ hm' (by rw [List.getElem?_map, hr]; rfl))

end

mutual

theorem comparable_pick {n : Nat} {I J : List Nat} (hI : ∀ i ∈ I, i < n) (hJ : ∀ j ∈ J, j < n)
    (hl : J.length = I.length) : (x : Val) → Sized n x → (∀ p ∈ leaves x, Sortable n p) →
    (∀ p ∈ leaves x, PlainLeaf p) → Comparable I.length (pick I x) (pick J x)
  | .vec t xs, hz, hs, hp => by
    have hs := hs _ (show Val.vec t xs ∈ [Val.vec t xs] from List.mem_singleton.2 rfl)
    obtain ⟨t', xs', e, ht, _⟩ := hp _ (show Val.vec t xs ∈ [Val.vec t xs] from List.mem_singleton.2 rfl)
    cases e
    cases hz with
    | vec _ _ hx =>
      refine .vec t' _ _ ht (pickList_length fun i hi => hx ▸ hI i hi)
        ((pickList_length fun i hi => hx ▸ hJ i hi).trans hl) ?_ ?_
      · cases t' with
        | lgl => exact fun v hv => hs.2 v (mem_pickList hv)
        | int => exact fun v hv => hs.2 v (mem_pickList hv)
        | _ => trivial
      · cases t' with
        | lgl => exact fun v hv => hs.2 v (mem_pickList hv)
        | int => exact fun v hv => hs.2 v (mem_pickList hv)
        | _ => trivial
  | .df m cols, hz, hs, hp => by
    cases hz with
    | df _ hc =>
      rw [pick, pick, hl]
      exact .df _ _ (comparableAll_pick hI hJ hl cols hc hs hp)

theorem comparableAll_pick {n : Nat} {I J : List Nat} (hI : ∀ i ∈ I, i < n) (hJ : ∀ j ∈ J, j < n)
    (hl : J.length = I.length) : (xs : List Val) → (∀ x ∈ xs, Sized n x) → (∀ p ∈ leavesAll xs, Sortable n p) →
    (∀ p ∈ leavesAll xs, PlainLeaf p) → ComparableAll I.length (pickAll I xs) (pickAll J xs)
  | [], _, _, _ => .nil
  | x :: xs, hz, hs, hp => by
    rw [pickAll, pickAll]
    exact .cons _ _ _ _
      (comparable_pick hI hJ hl x (hz x List.mem_cons_self) (fun p h => hs p (List.mem_append_left _ h))
        (fun p h => hp p (List.mem_append_left _ h)))
      (comparableAll_pick hI hJ hl xs (fun y hy => hz y (List.mem_cons_of_mem _ hy))
        (fun p h => hs p (List.mem_append_right _ h)) (fun p h => hp p (List.mem_append_right _ h)))

end

/-- `vec_compare(vec_slice(x, i), vec_slice(x, j), na_equal = TRUE)` is the sign of the difference of
`vec_rank(x)[i]` and `vec_rank(x)[j]`, unless the ranks of ties differ; whatever `nan_distinct` is.  What is missing are
vectors with both NA and NaN, where it does not hold, see `C99_nan`. -/
theorem C99_rank_partial (x : Val) (hn : x.size ≤ intMax) (hz : Sized x.size x) (hs : ∀ p ∈ leaves x, Sortable x.size p)
    (hp : ∀ p ∈ leaves x, PlainLeaf p) (I J : List Nat) (hI : ∀ i ∈ I, i < x.size) (hJ : ∀ j ∈ J, j < x.size)
    (hl : J.length = I.length) (nanDistinct : Bool) (ties : Ties) (ht : ties ≠ .sequential) (tl : TL)
    (h0 : ∀ u, 0 ≤ tl u) (fuel : Nat) (hf : (leaves x).length ≤ fuel) :
    ∃ (xi xj : Val) (out ranks : List Int),
      valSlice (.locs (I.map (fun (i : Nat) => (i : Int) + 1))) x = .ok xi ∧
      valSlice (.locs (J.map (fun (i : Nat) => (i : Int) + 1))) x = .ok xj ∧
      vecCompare true xi xj = .ok (out.map some) ∧ out.length = I.length ∧
      vecRank fuel x ties false [some "asc".toList] [some "smallest".toList] nanDistinct tl (List.replicate 100001 0) =
        .ok (ranks, tl, List.replicate 100001 0) ∧ ranks.length = x.size ∧
      ∀ (c i j : Nat) (r a b : Int), I[c]? = some i → J[c]? = some j → out[c]? = some r → ranks[i]? = some a →
        ranks[j]? = some b → (r = -1 ∨ r = 0 ∨ r = 1) ∧ (r = -1 ↔ a < b) ∧ (r = 1 ↔ b < a) := by
  obtain ⟨out, h1, h2, h3⟩ := C28_order (pick I x) (pick J x) I.length (comparable_pick hI hJ hl x hz hs hp)
  obtain ⟨ranks, k1, k2, k3⟩ := C37_partial x hn hz hs (by
    intro i p _ hpi hcx
    obtain ⟨t, xs, rfl, ht, _⟩ := hp p (List.mem_of_getElem? hpi)
    cases t <;> first | exact hcx | exact ht) [some "asc".toList] [some "smallest".toList]
    (List.replicate (columns x).length false) (List.replicate (columns x).length false)
    ⟨by simp, .inl ⟨_, false, rfl, rfl, by simp⟩⟩ ⟨by simp, .inl ⟨_, false, rfl, rfl, by simp⟩⟩ nanDistinct tl h0 ties
    false fuel hf
  refine ⟨_, _, out, ranks, valSlice_ok hI x hz, valSlice_ok hJ x hz, h1, h2, k1, k2, ?_⟩
  intro c i j r a b hi hj hr ha hb
  obtain ⟨h4, h5, h6, _⟩ := h3 c r hr
  have hil := hI i (List.mem_of_getElem? hi)
  have hjl := hJ j (List.mem_of_getElem? hj)
  have hsz : ∀ p ∈ leaves x, Sized x.size p := fun p hp => sized_of_sortable (hs p hp)
  have ra := (k3 i a ha).2 (.inl rfl)
  have rb := (k3 j b hb).2 (.inl rfl)
  have cong : ∀ {B : Nat → Nat → Prop} {i v}, IsRank B (fun j => j < x.size ∧ (false = false ∨ CompleteAt x j)) i v ties →
      IsRank B (fun j => j < x.size) i v ties :=
    fun h => IsRank.congr (hr := h) fun j => by simp
  obtain ⟨key, hlen, hkey⟩ := rowBefore_keys (nanDistinct := nanDistinct) hs
    (List.replicate (columns x).length false) (List.replicate (columns x).length false)
  refine ⟨h4, ?_, ?_⟩
  · rw [h5, row_compare hI hJ hi hj nanDistinct hsz hp, ← sortKeys_plain]
    exact (rank_compare hlen hkey ht hil hjl (cong ra) (cong rb)).symm
  · rw [h6, row_compare hJ hI hj hi nanDistinct hsz hp, ← sortKeys_plain]
    exact (rank_compare hlen hkey ht hjl hil (cong rb) (cong ra)).symm

/-- In `vec_sort(x)`, every element compares as less than or the same as the next; if it is the same, it was before it
in `x`.  What is missing are vectors with both NA and NaN, see `C99_nan`. -/
theorem C99_order_partial (x : Val) (hn : x.size ≤ intMax) (hz : Sized x.size x)
    (hs : ∀ p ∈ leaves x, Sortable x.size p) (hp : ∀ p ∈ leaves x, PlainLeaf p) (nanDistinct : Bool) (tl : TL)
    (h0 : ∀ u, 0 ≤ tl u) (fuel : Nat) (hf : (leaves x).length ≤ fuel) :
    ∃ (o : List Int) (xi xj : Val) (out : List Int),
      vecOrder fuel x [some "asc".toList] [some "smallest".toList] nanDistinct tl (List.replicate 100001 0) =
        .ok (o, tl, List.replicate 100001 0) ∧ o.length = x.size ∧
      valSlice (.locs o.dropLast) x = .ok xi ∧ valSlice (.locs o.tail) x = .ok xj ∧
      vecCompare true xi xj = .ok (out.map some) ∧ out.length = x.size - 1 ∧
      ∀ (c : Nat) (r a b : Int), out[c]? = some r → o[c]? = some a → o[c + 1]? = some b →
        r = -1 ∨ (r = 0 ∧ a < b) := by
  obtain ⟨o, h1, p, rfl, hperm, hpair⟩ := C34_order_only_partial x hn hs (by
    intro i p _ hpi hcx
    obtain ⟨t, xs, rfl, ht, _⟩ := hp p (List.mem_of_getElem? hpi)
    cases t <;> first | exact hcx | exact ht) [some "asc".toList] [some "smallest".toList]
    (List.replicate (columns x).length false) (List.replicate (columns x).length false)
    ⟨by simp, .inl ⟨_, false, rfl, rfl, by simp⟩⟩ ⟨by simp, .inl ⟨_, false, rfl, rfl, by simp⟩⟩ nanDistinct tl h0 fuel hf
  rw [sortKeys_plain] at hpair
  have hlt : ∀ i ∈ p, i < x.size := fun i hi => List.mem_range.1 (hperm.mem_iff.1 hi)
  have hI : ∀ i ∈ p.dropLast, i < x.size := fun i hi => hlt i (List.mem_of_mem_dropLast hi)
  have hJ : ∀ i ∈ p.tail, i < x.size := fun i hi => hlt i (List.mem_of_mem_tail hi)
  have hlen : p.length = x.size := by rw [hperm.length_eq, List.length_range]
  have hl : p.tail.length = p.dropLast.length := by simp
  obtain ⟨out, h2, h3, h4⟩ := C28_order (pick p.dropLast x) (pick p.tail x) p.dropLast.length
    (comparable_pick hI hJ hl x hz hs hp)
  refine ⟨_, pick p.dropLast x, pick p.tail x, out, h1, by simpa using hlen, ?_, ?_, h2, ?_, ?_⟩
  · rw [← List.map_dropLast]
    exact valSlice_ok hI x hz
  · rw [← List.map_tail]
    exact valSlice_ok hJ x hz
  · rw [h3, List.length_dropLast, hlen]
  intro c r a b hr ha hb
  rw [List.getElem?_map] at ha hb
  cases hi : p[c]? with
  | none => rw [hi] at ha; cases ha
  | some i =>
    cases hj : p[c + 1]? with
    | none => rw [hj] at hb; cases hb
    | some j =>
      rw [hi] at ha
      rw [hj] at hb
      cases ha
      cases hb
      have hcl := (List.getElem?_eq_some_iff.1 hj).1
      have hi' : p.dropLast[c]? = some i := by
        rw [List.getElem?_dropLast, if_pos (by omega), hi]
      have hj' : p.tail[c]? = some j := by
        rw [List.getElem?_tail, hj]
      have hsz : ∀ p ∈ leaves x, Sized x.size p := fun p hp => sized_of_sortable (hs p hp)
      obtain ⟨g1, g2, g3, _⟩ := h4 c r hr
      rw [row_compare hI hJ hi' hj' nanDistinct hsz hp] at g2
      rw [row_compare hJ hI hj' hi' nanDistinct hsz hp] at g3
      obtain ⟨_, ei⟩ := List.getElem?_eq_some_iff.1 hi
      obtain ⟨_, ej⟩ := List.getElem?_eq_some_iff.1 hj
      have hb := List.pairwise_iff_getElem.1 hpair c (c + 1) (by omega) hcl (by omega)
      rw [ei, ej] at hb
      rcases hb with hb | ⟨hb, hb'⟩
      · exact .inl (g2.2 hb)
      · rcases g1 with g1 | g1 | g1
        · exact .inl g1
        · exact .inr ⟨g1, by simpa using hb'⟩
        · exact absurd (g3.1 g1) hb

/-- `vec_rank(x, ties = "sequential")` is the inverse of `vec_order(x)` with the same arguments: the row that is `k`th in
the order has rank `k`.  Vectors may have both NA and NaN here.  What is missing is what is missing in C37. -/
theorem C99_sequential_partial (x : Val) (hn : x.size ≤ intMax) (hz : Sized x.size x)
    (hs : ∀ p ∈ leaves x, Sortable x.size p)
    (hc : ∀ (i : Nat) (p : Val), 0 < i → (leaves x)[i]? = some p → ¬ IsComplex p)
    (direction naValue : List Name) (ds ns : List Bool)
    (hd : ForColumns IsDirection direction (columns x).length ds)
    (hna : ForColumns IsNaValue naValue (columns x).length ns) (nanDistinct : Bool) (tl : TL)
    (h0 : ∀ u, 0 ≤ tl u) (fuel : Nat) (hf : (leaves x).length ≤ fuel) :
    ∃ o ranks : List Int,
      vecOrder fuel x direction naValue nanDistinct tl (List.replicate 100001 0) =
        .ok (o, tl, List.replicate 100001 0) ∧ o.length = x.size ∧
      vecRank fuel x .sequential false direction naValue nanDistinct tl (List.replicate 100001 0) =
        .ok (ranks, tl, List.replicate 100001 0) ∧ ranks.length = x.size ∧
      ∀ (k : Nat) (a : Int), o[k]? = some a → 1 ≤ a ∧ ranks[(a - 1).toNat]? = some ((k : Int) + 1) := by
  obtain ⟨o, h1, p, rfl, hperm, hpair⟩ :=
    C34_order_only_partial x hn hs hc direction naValue ds ns hd hna nanDistinct tl h0 fuel hf
  obtain ⟨ranks, k1, k2, k3⟩ :=
    C37_partial x hn hz hs hc direction naValue ds ns hd hna nanDistinct tl h0 .sequential false fuel hf
  have hlen : p.length = x.size := by rw [hperm.length_eq, List.length_range]
  refine ⟨_, ranks, h1, by simpa using hlen, k1, k2, ?_⟩
  intro k a ha
  rw [List.getElem?_map, Option.map_eq_some_iff] at ha
  obtain ⟨i, hi, rfl⟩ := ha
  obtain ⟨hk, ei⟩ := List.getElem?_eq_some_iff.1 hi
  have hlt : ∀ j ∈ p, j < x.size := fun j hj => List.mem_range.1 (hperm.mem_iff.1 hj)
  have hil : i < x.size := hlt i (List.mem_of_getElem? hi)
  refine ⟨by omega, ?_⟩
  have hnat : (((i : Int) + 1) - 1).toNat = i := by omega
  rw [hnat]
  have hv := List.getElem?_eq_getElem (l := ranks) (i := i) (by omega)
  obtain ⟨m, em, l, l1, l2, rfl⟩ := (k3 i _ hv).2 (.inl rfl)
  rw [hv, em]
  have hnodup : p.Nodup := hperm.nodup_iff.2 List.nodup_range
  have hl : l.length = k := by
    have hmem : ∀ j, j ∈ l ↔ j ∈ p.take k := by
      intro j
      rw [l2]
      have asy := fun {u v : Nat} (hu : u < x.size) (hv : v < x.size) =>
        rowBefore_asymm (nanDistinct := nanDistinct) hs (ds := ds) (ns := ns) hu hv
      constructor
      · rintro ⟨⟨hj, _⟩, hb⟩
        obtain ⟨k', hk', ej⟩ := List.getElem_of_mem (hperm.mem_iff.2 (List.mem_range.2 hj))
        rcases Nat.lt_trichotomy k' k with h | h | h
        · exact ej ▸ List.mem_take_iff_getElem.2 ⟨k', by omega, rfl⟩
        · subst h
          have e : j = i := ej.symm.trans ei
          subst e
          rcases hb with hb | ⟨_, hb⟩
          · exact absurd hb (asy hj hj hb)
          · omega
        · have hp := List.pairwise_iff_getElem.1 hpair k k' hk hk' h
          rw [ei, ej] at hp
          rcases hp with hp | ⟨hp, hp'⟩
          · rcases hb with hb | ⟨hb, _⟩
            · exact absurd hb (asy hil hj hp)
            · exact absurd hp hb
          · rcases hb with hb | ⟨_, hb⟩
            · exact absurd hb hp
            · omega
      · intro hj
        obtain ⟨k', hk', ej⟩ := List.mem_take_iff_getElem.1 hj
        have hp := List.pairwise_iff_getElem.1 hpair k' k (by omega) hk (by omega)
        rw [ei, ej] at hp
        exact ⟨⟨hlt j (List.mem_of_mem_take hj), .inl rfl⟩, hp⟩
    have := (List.perm_ext_iff_of_nodup l1 (hnodup.sublist (List.take_sublist k p))).2 hmem
    rw [this.length_eq, List.length_take]
    omega
  rw [hl]

/-! ## NA and NaN -/

/-- C99 fails for NA and NaN: `vec_compare()` has NaN before NA, but `vec_rank()` and `vec_order()` have NA before NaN if
`nan_distinct = TRUE`, and the same rank otherwise. -/
theorem C99_nan :
    vecCompare true (.vec (.atom .dbl) [naReal]) (.vec (.atom .dbl) [rNaN]) = .ok [some 1] ∧
    C37_run (vecRank 1 (.vec (.atom .dbl) [naReal, rNaN]) .min false exAsc exSmallest true exTl exStatic) =
      some [1, 2] ∧
    C37_run (vecRank 1 (.vec (.atom .dbl) [naReal, rNaN]) .min false exAsc exSmallest false exTl exStatic) =
      some [1, 1] ∧
    C37_run (vecOrder 1 (.vec (.atom .dbl) [rNaN, naReal]) exAsc exSmallest true exTl exStatic) = some [2, 1] := by
  refine ⟨?_, ?_, ?_, ?_⟩ <;> decide +kernel

/-! ## Examples -/

/-- Ones and NA. -/
def C99_d : List Dbl := [0x3FF0000000000000#64, naReal, 0x3FF0000000000000#64, naReal, 0x3FF0000000000000#64]

theorem C99_d_na (a : Dbl) (ha : a ∈ C99_d) (hn : IsNaN a) : IsNA a := by
  have h : C99_d.all (fun a => decide (IsNaN a → IsNA a)) = true := by decide +kernel
  exact of_decide_eq_true (List.all_eq_true.1 h a ha) hn

/-- A data frame with a packed column. -/
def C99_x : Val := .df 5 [.vec (.atom .dbl) C99_d,
  .df 5 [.vec (.atom .chr) [some ['b'], none, some ['a'], some ['a'], some ['b']],
    .vec (.atom .lgl) ([1, 0, 1, naInt, 1] : List Int)]]

theorem C99_leaves {p : Val} (h : p ∈ leaves C99_x) : Sortable 5 p ∧ PlainLeaf p := by
  simp only [C99_x, leaves, leavesAll, List.append_nil, List.mem_cons, List.not_mem_nil, or_false,
    List.singleton_append] at h
  rcases h with rfl | rfl | rfl
  · refine ⟨rfl, .dbl, C99_d, rfl, trivial, ?_⟩
    intro a ha b hb h1 h2
    exact ⟨fun _ => C99_d_na b hb h2, fun _ => C99_d_na a ha h1⟩
  · exact ⟨⟨rfl, C50_strings (by decide)⟩, .chr, _, rfl, trivial, fun _ _ _ _ => trivial⟩
  · refine ⟨⟨rfl, ?_⟩, .lgl, _, rfl, trivial, fun _ _ _ _ => trivial⟩
    unfold IsInt
    decide

example : C99_x.size ≤ intMax ∧ Sized C99_x.size C99_x ∧ (∀ p ∈ leaves C99_x, Sortable C99_x.size p) ∧
    (∀ p ∈ leaves C99_x, PlainLeaf p) := by
  refine ⟨by decide, ?_, fun p hp => (C99_leaves hp).1, fun p hp => (C99_leaves hp).2⟩
  refine .df _ fun p hp => ?_
  rcases List.mem_cons.1 hp with rfl | hp
  · exact .vec _ _ rfl
  · rw [List.mem_singleton.1 hp]
    refine .df _ fun p hp => ?_
    rcases List.mem_cons.1 hp with rfl | hp
    · exact .vec _ _ rfl
    · rw [List.mem_singleton.1 hp]
      exact .vec _ _ rfl

example : C37_run (vecRank 3 C99_x .sequential false exAsc exSmallest true exTl exStatic) = some [4, 1, 3, 2, 5] ∧
    C37_run (vecOrder 3 C99_x exAsc exSmallest true exTl exStatic) = some [2, 4, 3, 1, 5] := by
  refine ⟨?_, ?_⟩ <;> decide +kernel

example : C37_run (vecRank 3 C99_x .dense false exAsc exSmallest true exTl exStatic) = some [4, 1, 3, 2, 4] ∧
    C37_run (vecOrder 3 C99_x exAsc exSmallest true exTl exStatic) = some [2, 4, 3, 1, 5] ∧
    (do vecCompare true (← valSlice (.locs [1, 2, 3, 1]) C99_x) (← valSlice (.locs [2, 4, 1, 5]) C99_x)) =
      .ok [some 1, some (-1), some (-1), some 0] := by
  refine ⟨?_, ?_, ?_⟩ <;> decide +kernel

end Vctrs
