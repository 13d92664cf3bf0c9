import Verif.SpecType
import Verif.Lemmas.Shape

/-!
# Lemmas on the common type of bare vectors
-/

namespace Vctrs

open Spec

def allKinds : List Kind := [.null, .uns, .lgl, .int, .dbl, .cpl, .chr, .raw, .list]

theorem mem_allKinds (k : Kind) : k ∈ allKinds := by cases k <;> decide

theorem forall_kind {P : Kind → Prop} (h : ∀ k ∈ allKinds, P k) (k : Kind) : P k :=
  h k (mem_allKinds k)

/-- The join of two types, where the code defines it. -/
def kJoin : Kind → Kind → Option Kind
  | .null, k => some k
  | k, .null => some k
  | .uns, k => some k
  | k, .uns => some k
  | .lgl, .lgl => some .lgl
  | .lgl, .int => some .int
  | .int, .lgl => some .int
  | .int, .int => some .int
  | .lgl, .dbl => some .dbl
  | .dbl, .lgl => some .dbl
  | .int, .dbl => some .dbl
  | .dbl, .int => some .dbl
  | .dbl, .dbl => some .dbl
  | .int, .cpl => some .cpl
  | .cpl, .int => some .cpl
  | .dbl, .cpl => some .cpl
  | .cpl, .dbl => some .cpl
  | .cpl, .cpl => some .cpl
  | .chr, .chr => some .chr
  | .raw, .raw => some .raw
  | .list, .list => some .list
  | _, _ => none

theorem kJoin_comm (a b : Kind) : kJoin a b = kJoin b a := by
  revert a b
  refine forall_kind ?_
  intro a ha
  refine forall_kind ?_
  revert a
  decide

theorem kJoin_self (a : Kind) : kJoin a a = some a := by cases a <;> rfl

/-- Both groupings agree where both are defined. -/
theorem kJoin_assoc {a b c d e r s : Kind} (h1 : kJoin a b = some d) (h2 : kJoin d c = some r)
    (h3 : kJoin b c = some e) (h4 : kJoin a e = some s) : r = s := by
  have key : ∀ a ∈ allKinds, ∀ b ∈ allKinds, ∀ c ∈ allKinds, ∀ r ∈ allKinds, ∀ s ∈ allKinds,
      (kJoin a b).bind (fun d => kJoin d c) = some r →
      (kJoin b c).bind (fun d => kJoin a d) = some s → r = s := by decide +kernel
  exact key a (mem_allKinds a) b (mem_allKinds b) c (mem_allKinds c) r (mem_allKinds r) s
    (mem_allKinds s) (by rw [h1]; exact h2) (by rw [h3]; exact h4)

theorem kJoin_isJoin {a b c : Kind} (h : kJoin a b = some c) : IsJoin a b c := by
  have key : ∀ a ∈ allKinds, ∀ b ∈ allKinds, ∀ c ∈ allKinds, kJoin a b = some c →
      a.Le c ∧ b.Le c ∧ ∀ d ∈ allKinds, a.Le d → b.Le d → c.Le d := by decide +kernel
  obtain ⟨k1, k2, k3⟩ := key a (mem_allKinds a) b (mem_allKinds b) c (mem_allKinds c) h
  exact ⟨k1, k2, fun d => k3 d (mem_allKinds d)⟩

theorem kJoin_none {a b : Kind} : kJoin a b = none ↔
    (∀ c : Kind, ¬ (a.Le c ∧ b.Le c)) ∨ (a = .lgl ∧ b = .cpl) ∨ (a = .cpl ∧ b = .lgl) := by
  have key : ∀ a ∈ allKinds, ∀ b ∈ allKinds, kJoin a b = none ↔
      (∀ c ∈ allKinds, ¬ (a.Le c ∧ b.Le c)) ∨ (a = .lgl ∧ b = .cpl) ∨ (a = .cpl ∧ b = .lgl) := by
    decide +kernel
  rw [key a (mem_allKinds a) b (mem_allKinds b)]
  constructor
  · rintro (h | h)
    · exact Or.inl (fun c => h c (mem_allKinds c))
    · exact Or.inr h
  · rintro (h | h)
    · exact Or.inl (fun c _ => h c)
    · exact Or.inr h

/-- The type of an object. -/
def kindOf : RObj → Kind
  | .null => .null
  | .uns _ => .uns
  | .lgl xs d =>
    if d = none ∧ xs ≠ [] ∧ ∀ v ∈ xs, v = naInt then .uns else .lgl
  | .bare .integer _ _ => .int
  | .bare .double _ _ => .dbl
  | .bare .complex _ _ => .cpl
  | .bare .character _ _ => .chr
  | .bare .raw _ _ => .raw
  | .bare .list _ _ => .list

theorem kindOf_lgl {xs : List Int} {d : Option (List Int)}
    (h : ¬ (d = none ∧ xs ≠ [] ∧ ∀ v ∈ xs, v = naInt)) : kindOf (.lgl xs d) = .lgl := if_neg h

theorem hasKind_kindOf (x : RObj) : HasKind x (kindOf x) := by
  match x with
  | .null => exact .null
  | .uns n => exact .uns n
  | .lgl xs d =>
    by_cases h : d = none ∧ xs ≠ [] ∧ ∀ v ∈ xs, v = naInt
    · have : kindOf (.lgl xs d) = .uns := if_pos h
      rw [this]
      obtain ⟨rfl, h1, h2⟩ := h
      exact .missing h1 h2
    · have : kindOf (.lgl xs d) = .lgl := if_neg h
      rw [this]
      refine .lgl ?_
      by_cases h1 : d = none
      · by_cases h2 : xs = []
        · exact .inr (.inl h2)
        · refine .inr (.inr ?_)
          refine Classical.byContradiction fun hc => h ⟨h1, h2, fun v hv => ?_⟩
          exact Classical.byContradiction fun hne => hc ⟨v, hv, hne⟩
      · exact .inl h1
  | .bare .integer _ _ => exact .int ..
  | .bare .double _ _ => exact .dbl ..
  | .bare .complex _ _ => exact .cpl ..
  | .bare .character _ _ => exact .chr ..
  | .bare .raw _ _ => exact .raw ..
  | .bare .list _ _ => exact .list ..

theorem Spec.HasKind.eq {x : RObj} {k : Kind} (h : HasKind x k) : k = kindOf x := by
  cases h <;> try rfl
  · rename_i xs h1 h2
    exact (if_pos ⟨rfl, h1, h2⟩).symm
  · rename_i xs d h
    refine (if_neg ?_).symm
    rintro ⟨rfl, h1, h2⟩
    rcases h with h | h | ⟨v, hv, h⟩
    · exact h rfl
    · exact h1 h
    · exact h (h2 v hv)

/-- The type of a kind. -/
def kindTy : Kind → VType
  | .null => .null
  | .uns => .unspecified
  | .lgl => .logical
  | .int => .integer
  | .dbl => .double
  | .cpl => .complex
  | .chr => .character
  | .raw => .raw
  | .list => .list

theorem isUnspec_loop (xs : List Int) (h : xs ≠ []) :
    forBrk xs.length (isUnspecStep xs) true = .ok (decide (∀ v ∈ xs, v = naInt)) := by
  suffices H : Ret _ (fun r => r = decide (∀ v ∈ xs, v = naInt)) by
    obtain ⟨r, hr, rfl⟩ := H; exact hr
  refine Ret.forBrk (fun i s => s = true ∧ ∀ j v, j < i → xs[j]? = some v → v = naInt) _
    ⟨rfl, by intro j v hj; omega⟩ ?_ ?_
  · rintro i s hi ⟨rfl, hI⟩
    unfold isUnspecStep
    rw [rd_ok hi, ok_bind]
    split
    · rename_i hv
      refine ⟨.brk false, rfl, ?_⟩
      show false = _
      symm
      rw [decide_eq_false_iff_not]
      intro hall
      exact hv (hall _ (List.getElem_mem hi))
    · rename_i hv
      refine ⟨.next true, rfl, rfl, ?_⟩
      intro j v hj hjv
      by_cases hji : j = i
      · subst hji
        rw [List.getElem?_eq_getElem hi] at hjv
        cases hjv
        simpa using hv
      · exact hI j v (by omega) hjv
  · rintro s ⟨rfl, hI⟩
    symm
    rw [decide_eq_true_iff]
    intro v hv
    obtain ⟨j, hj, rfl⟩ := List.mem_iff_getElem.mp hv
    exact hI j _ hj (List.getElem?_eq_getElem hj)

theorem vecTypeof_ok (x : RObj) : vecTypeof x = .ok (kindTy (kindOf x)) := by
  match x with
  | .null => rfl
  | .uns n => rfl
  | .lgl xs (some d) =>
    have : kindOf (.lgl xs (some d)) = .lgl := kindOf_lgl (fun h => nomatch h.1)
    rw [this]
    rfl
  | .lgl xs none =>
    unfold vecTypeof vecIsUnspecified
    dsimp only
    by_cases h : xs = []
    · subst h
      have : kindOf (.lgl [] none) = .lgl := kindOf_lgl (fun h => h.2.1 rfl)
      rw [this]
      rfl
    · rw [if_neg (by simpa using h), isUnspec_loop xs h, ok_bind]
      by_cases h2 : ∀ v ∈ xs, v = naInt
      · have : kindOf (.lgl xs none) = .uns := if_pos ⟨rfl, h, h2⟩
        rw [this, decide_eq_true h2]
        rfl
      · have : kindOf (.lgl xs none) = .lgl := if_neg (fun h' => h2 h'.2.2)
        rw [this, decide_eq_false h2]
        rfl
  | .bare .integer _ _ => rfl
  | .bare .double _ _ => rfl
  | .bare .complex _ _ => rfl
  | .bare .character _ _ => rfl
  | .bare .raw _ _ => rfl
  | .bare .list _ _ => rfl

/-- The empty object of a type. -/
def canon : Kind → Option (List Int) → RObj
  | .null, _ => .null
  | .uns, _ => .uns 0
  | .lgl, d => .lgl [] d
  | .int, d => .bare .integer 0 d
  | .dbl, d => .bare .double 0 d
  | .cpl, d => .bare .complex 0 d
  | .chr, d => .bare .character 0 d
  | .raw, d => .bare .raw 0 d
  | .list, d => .bare .list 0 d

theorem dimSliceNull_ok {d : Option (List Int)} (h : DimNonempty d) : dimSliceNull d = .ok (shNorm d) := by
  rcases d with _ | _ | ⟨a, x⟩
  · rfl
  · exact absurd rfl h
  · rfl

theorem vecPtype_ok {x : RObj} (h : DimNonempty x.dim) :
    vecPtype x = .ok (canon (kindOf x) (shNorm x.dim)) := by
  unfold vecPtype
  rw [vecTypeof_ok, ok_bind]
  match x, h with
  | .null, _ => rfl
  | .uns n, _ => rfl
  | .lgl xs d, h =>
    by_cases hk : d = none ∧ xs ≠ [] ∧ ∀ v ∈ xs, v = naInt
    · have : kindOf (.lgl xs d) = .uns := if_pos hk
      rw [this]
      rfl
    · have : kindOf (.lgl xs d) = .lgl := if_neg hk
      rw [this]
      show dimSliceNull d >>= _ = _
      rw [dimSliceNull_ok (d := d) h]
      rfl
  | .bare t n d, h =>
    have e : ∀ b, (dimSliceNull d >>= fun d => (Except.ok (RObj.bare b 0 d) : C RObj))
        = .ok (.bare b 0 (shNorm d)) := by
      intro b
      rw [dimSliceNull_ok (d := d) h]
      rfl
    cases t <;> exact e _

/-- Type and shape of an object. -/
def sig (x : RObj) : Kind × Option (List Int) := (kindOf x, shNorm x.dim)

/-- The common type and shape. -/
def sigJoin (a b : Kind × Option (List Int)) : Option (Kind × Option (List Int)) :=
  match kJoin a.1 b.1 with
  | none => none
  | some k => (shJoin a.2 b.2).map (fun d => (k, d))

/-- Outcome of a computation on types. -/
def ofSig : Option (Kind × Option (List Int)) → C RObj
  | none => .error .abort
  | some s => .ok (canon s.1 s.2)

/-- Objects without a type have no dimensions. -/
theorem dim_of_kind {x : RObj} (h : kindOf x = .null ∨ kindOf x = .uns) : x.dim = none := by
  match x, h with
  | .null, _ => rfl
  | .uns _, _ => rfl
  | .lgl xs d, h =>
    by_cases hk : d = none ∧ xs ≠ [] ∧ ∀ v ∈ xs, v = naInt
    · exact hk.1
    · have : kindOf (.lgl xs d) = .lgl := if_neg hk
      rw [this] at h
      simp at h
  | .bare t n d, h => cases t <;> simp [kindOf] at h

theorem shapedLgl_eq {x y : RObj} (hx : DimNonempty x.dim) (hy : DimNonempty y.dim) :
    shapedLgl x y = ofSig ((shJoin (shNorm x.dim) (shNorm y.dim)).map (fun d => (.lgl, d))) := by
  unfold shapedLgl
  rw [vecShape2_join hx hy]
  cases shJoin (shNorm x.dim) (shNorm y.dim) <;> rfl

/-- The type of a base type. -/
def bareKind : BareTy → Kind
  | .integer => .int
  | .double => .dbl
  | .complex => .cpl
  | .character => .chr
  | .raw => .raw
  | .list => .list

theorem shapedBare_eq {t : BareTy} {x y : RObj} (hx : DimNonempty x.dim) (hy : DimNonempty y.dim) :
    shapedBare t x y =
      ofSig ((shJoin (shNorm x.dim) (shNorm y.dim)).map (fun d => (bareKind t, d))) := by
  unfold shapedBare
  rw [vecShape2_join hx hy]
  cases shJoin (shNorm x.dim) (shNorm y.dim) <;> cases t <;> rfl

theorem dispatch_eq {x y : RObj} (hx : DimNonempty x.dim) (hy : DimNonempty y.dim) :
    ptype2DispatchS3 x y = .error .abort := by
  unfold ptype2DispatchS3
  rw [vecPtype_ok hx, ok_bind, vecPtype_ok hy, ok_bind]

/-- The common type of two objects in terms of their types and shapes. -/
theorem vecPtype2_eq {x y : RObj} (hx : DimNonempty x.dim) (hy : DimNonempty y.dim) :
    vecPtype2 x y = ofSig (sigJoin (sig x) (sig y)) := by
  unfold vecPtype2 sigJoin sig
  rw [vecTypeof_ok, ok_bind, vecTypeof_ok, ok_bind]
  have ex := vecPtype_ok hx
  have ey := vecPtype_ok hy
  have dx := dim_of_kind (x := x)
  have dy := dim_of_kind (x := y)
  have e1 := shapedLgl_eq hx hy
  have e2 := fun t => shapedBare_eq (t := t) hx hy
  have e3 := dispatch_eq hx hy
  dsimp only
  cases hkx : kindOf x
  case null =>
    rw [hkx] at dx
    rw [dx (.inl rfl)]
    exact ey
  case uns =>
    rw [hkx] at dx
    rw [dx (.inr rfl)]
    cases hky : kindOf y
    case null =>
      rw [hky] at dy
      rw [dy (.inl rfl)]
      rw [hkx] at ex
      exact ex
    all_goals (rw [hky] at ey; exact ey)
  all_goals
    cases hky : kindOf y
    case null =>
      rw [hky] at dy
      rw [dy (.inl rfl)]
      rw [hkx] at ex
      refine ex.trans ?_
      cases shNorm x.dim <;> rfl
    case uns =>
      rw [hky] at dy
      rw [dy (.inr rfl)]
      rw [hkx] at ex
      refine ex.trans ?_
      cases shNorm x.dim <;> rfl
    all_goals first
      | exact e1
      | exact e2 .integer
      | exact e2 .double
      | exact e2 .complex
      | exact e2 .character
      | exact e2 .raw
      | exact e2 .list
      | exact e3

end Vctrs
