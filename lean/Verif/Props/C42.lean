import Verif.Props.C41

/-!
# C42: vec_ptype_common and the order of its arguments

The property as stated does not hold: logical and complex vectors have no common type (there is no
case for them in src/ptype2.c:112-147 and no method in R/type-bare.R), although logical vectors
combine with integer and double vectors and these combine with complex vectors.  A reduction that
meets the complex vector last succeeds and one that meets it first fails.  Below, `C42_order`
refutes the property, and the property is proved for arguments without both logical and complex
vectors (`C42_partial`).  For all arguments, two orders that both succeed agree (`C42_agree`).
-/

namespace Vctrs

open Spec

/-- `vec_ptype_common(TRUE, 1L, 1i)` is complex and `vec_ptype_common(TRUE, 1i, 1L)` fails. -/
theorem C42_order :
    vecPtypeCommon .null [.plain (.lgl [1] none), .plain (.bare .integer 1 none),
        .plain (.bare .complex 1 none)] = .ok (.bare .complex 0 none) ∧
      vecPtypeCommon .null [.plain (.lgl [1] none), .plain (.bare .complex 1 none),
        .plain (.bare .integer 1 none)] = .error .abort := ⟨by cbv, by cbv⟩

/-- Hence the property does not hold for all argument lists. -/
theorem C42_order_dependent : ¬ ∀ d e : List (Dot RObj), d.Perm e →
    vecPtypeCommon .null d = vecPtypeCommon .null e := by
  intro h
  have := h [.plain (.lgl [1] none), .plain (.bare .integer 1 none),
        .plain (.bare .complex 1 none)] [.plain (.lgl [1] none), .plain (.bare .complex 1 none),
        .plain (.bare .integer 1 none)] ((List.Perm.swap _ _ _).cons _)
  rw [C42_order.1, C42_order.2] at this
  cases this

/-- Without both logical and complex arguments, permuting the arguments changes neither the result
nor whether there is one.  Missing: arguments with both, see `C42_order`. -/
theorem C42_partial {d e : List (Dot RObj)} (hp : d.Perm e)
    (hd : ∀ x ∈ d.flatMap Dot.flat, x.dim ≠ some [])
    (hk : (∀ x ∈ d.flatMap Dot.flat, ¬ HasKind x .lgl) ∨
      (∀ x ∈ d.flatMap Dot.flat, ¬ HasKind x .cpl)) :
    vecPtypeCommon .null d = vecPtypeCommon .null e := by
  have hpf := flatDots_perm hp
  rw [vecPtypeCommon_eq hd, vecPtypeCommon_eq (fun x hx => hd x (hpf.mem_iff.mpr hx))]
  obtain ⟨f, hf⟩ : ∃ f, ∀ x ∈ flatDots d, kGood f (kindOf x) = true := by
    rcases hk with hk | hk
    · refine ⟨true, fun x hx => ?_⟩
      have := hk x hx
      simp only [kGood, if_true, bne_iff_ne, ne_eq]
      intro he
      exact this (he ▸ hasKind_kindOf x)
    · refine ⟨false, fun x hx => ?_⟩
      have := hk x hx
      simp only [kGood, bne_iff_ne, ne_eq]
      simp only [Bool.false_eq_true, if_false, bne_iff_ne, ne_eq]
      intro he
      exact this (he ▸ hasKind_kindOf x)
  rw [sigFold_perm (f := f) (hpf.map sig) (.null, none)
    ⟨fun _ => rfl, rfl, by simp [DimNonempty]⟩ (by cases f <;> rfl) ?_]
  intro s hs
  obtain ⟨x, hx, rfl⟩ := List.mem_map.mp hs
  exact ⟨sigOk_sig (hd x hx), hf x hx⟩

example : vecPtypeCommon .null [.plain (.bare .complex 1 none),
    .box [.bare .integer 2 (some [2, 1]), .lgl [naInt] none], .plain (.bare .double 4 (some [1, 4]))]
    = .ok (.bare .complex 0 (some [0, 4])) := by cbv

example : vecPtypeCommon .null [.plain (.bare .double 4 (some [1, 4])),
    .box [.bare .integer 2 (some [2, 1]), .lgl [naInt] none], .plain (.bare .complex 1 none)]
    = .ok (.bare .complex 0 (some [0, 4])) := by cbv

example : ¬ HasKind (.lgl [naInt] none) .lgl := by
  rintro ⟨⟩
  rename_i h
  rcases h with h | h | ⟨v, hv, h⟩
  · exact h rfl
  · cases h
  · simp at hv; exact h hv

/-- Whatever the arguments, two orders in which the reduction succeeds give the same type. -/
theorem C42_agree {d e : List (Dot RObj)} (hp : d.Perm e)
    (hd : ∀ x ∈ d.flatMap Dot.flat, x.dim ≠ some []) {r s : RObj}
    (hr : vecPtypeCommon .null d = .ok r) (hs : vecPtypeCommon .null e = .ok s) : r = s := by
  have hpf := flatDots_perm hp
  rw [vecPtypeCommon_eq hd] at hr
  rw [vecPtypeCommon_eq (fun x hx => hd x (hpf.mem_iff.mpr hx))] at hs
  cases h1 : ((flatDots d).map sig).foldlM sigJoin (.null, none) with
  | none => rw [h1] at hr; cases hr
  | some t =>
    cases h2 : ((flatDots e).map sig).foldlM sigJoin (.null, none) with
    | none => rw [h2] at hs; cases hs
    | some u =>
      rw [h1] at hr
      rw [h2] at hs
      have := sigFold_agree (hpf.map sig) (a := (.null, none))
        ⟨fun _ => rfl, rfl, by simp [DimNonempty]⟩ (by
          intro s hs
          obtain ⟨x, hx, rfl⟩ := List.mem_map.mp hs
          exact sigOk_sig (hd x hx)) h1 h2
      subst this
      cases hr
      cases hs
      rfl

example : vecPtypeCommon .null [.plain (.lgl [1] none), .plain (.bare .integer 1 none),
      .plain (.bare .complex 1 none)] = .ok (.bare .complex 0 none) ∧
    vecPtypeCommon .null [.plain (.bare .integer 1 none), .plain (.lgl [1] none),
      .plain (.bare .complex 1 none)] = .ok (.bare .complex 0 none) := ⟨by cbv, by cbv⟩

/-- The result is the least type to which the types of all the arguments convert, and a logical
vector if all the arguments are unspecified or `NULL`. -/
theorem C42_join {d : List (Dot RObj)} (hd : ∀ x ∈ d.flatMap Dot.flat, x.dim ≠ some []) {r : RObj}
    (h : vecPtypeCommon .null d = .ok r) :
    ∃ c, (∀ x ∈ d.flatMap Dot.flat, ∀ a, HasKind x a → a.Le c) ∧
      (∀ c' : Kind, (∀ x ∈ d.flatMap Dot.flat, ∀ a, HasKind x a → a.Le c') → c.Le c') ∧
      (HasKind r c ∨ (c = .uns ∧ r = .lgl [] none)) := by
  rw [vecPtypeCommon_eq hd] at h
  cases h1 : ((flatDots d).map sig).foldlM sigJoin (.null, none) with
  | none => rw [h1] at h; cases h
  | some t =>
    rw [h1] at h
    cases h
    obtain ⟨⟨p1, p2⟩, _⟩ := sigFold_join h1
    refine ⟨t.1, ?_, ?_, ?_⟩
    · intro x hx a ha
      refine p1 a (List.mem_cons_of_mem _ ?_)
      rw [List.map_map]
      exact List.mem_map.mpr ⟨x, hx, ha.eq.symm⟩
    · intro c' hc'
      refine p2 c' ?_
      intro k hk
      rcases List.mem_cons.mp hk with rfl | hk
      · exact .inr (.inl rfl)
      · rw [List.map_map] at hk
        obtain ⟨x, hx, rfl⟩ := List.mem_map.mp hk
        exact hc' x hx _ (hasKind_kindOf x)
    · obtain ⟨k, dd⟩ := t
      cases k
      case uns => exact .inr ⟨rfl, rfl⟩
      case lgl => exact .inl (.lgl (.inr (.inl rfl)))
      all_goals exact .inl (by constructor)

example : vecPtypeCommon .null [.plain .null, .plain (.lgl [naInt] none)] = .ok (.lgl [] none) := by
  cbv

/-- If every two arguments have a common type, so have all of them. -/
theorem C42_pairwise {d : List (Dot RObj)} (hd : ∀ x ∈ d.flatMap Dot.flat, x.dim ≠ some [])
    (hp : (d.flatMap Dot.flat).Pairwise (fun x y => ∃ r, vecPtype2 x y = .ok r)) :
    ∃ r, vecPtypeCommon .null d = .ok r := by
  rw [vecPtypeCommon_eq hd]
  have h : ((flatDots d).map sig).foldlM sigJoin (.null, none) ≠ none := by
    refine sigFold_pair ⟨fun _ => rfl, rfl, by simp [DimNonempty]⟩ ?_ ?_
    · intro s hs
      obtain ⟨x, hx, rfl⟩ := List.mem_map.mp hs
      exact sigOk_sig (hd x hx)
    · rw [List.pairwise_cons]
      constructor
      · intro s _
        unfold sigJoin
        simp [kJoin, shJoin]
      · rw [List.pairwise_map]
        refine List.Pairwise.imp_of_mem ?_ hp
        rintro x y hx hy ⟨r, hr⟩
        rw [(vecPtype2_sig (hd x hx) (hd y hy) hr).1]
        simp
  obtain ⟨t, ht⟩ := Option.ne_none_iff_exists'.mp h
  rw [ht]
  exact ⟨_, rfl⟩

example : List.Pairwise (fun x y => ∃ r, vecPtype2 x y = .ok r)
    [.lgl [1] none, .bare .integer 2 (some [2, 1]), .bare .double 4 (some [1, 4])] := by
  refine .cons ?_ (.cons ?_ (.cons (by simp) .nil))
  · intro y hy
    simp only [List.mem_cons, List.not_mem_nil, or_false] at hy
    rcases hy with rfl | rfl
    · exact ⟨.bare .integer 0 (some [0, 1]), by cbv⟩
    · exact ⟨.bare .double 0 (some [0, 4]), by cbv⟩
  · intro y hy
    simp only [List.mem_cons, List.not_mem_nil, or_false] at hy
    subst hy
    exact ⟨.bare .double 0 (some [0, 4]), by cbv⟩

/-- A prototype given by the caller is returned whatever the arguments. -/
theorem C42_ptype {p : RObj} (hp : p ≠ .null) (d : List (Dot RObj)) :
    vecPtypeCommon p d = vecPtype p := by
  cases p with
  | null => exact absurd rfl hp
  | _ => rfl

example : vecPtypeCommon (.bare .integer 3 none) [.plain (.bare .character 1 none)] =
    .ok (.bare .integer 0 none) := by cbv

end Vctrs
