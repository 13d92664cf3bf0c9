import Verif.Lemmas.OrderCounting

/-!
# Ordering of integers: entry points
-/

namespace Vctrs

/-- What ordering the chunk `w` by `key` gives. -/
def OrdOk (key : Int → Nat) (w : List Int) (st : OrdState) (r : List Int × OrdState) : Prop :=
  r.2.static = st.static ∧ ∃ gs, Ordered (· < ·) key w r.1 gs ∧ Pushed st.gi gs r.2.gi

theorem OrdOk.of_unpushed {key : Int → Nat} {w : List Int} {st : OrdState} {gi : GroupInfos}
    (h : Unpushed st.gi (w.map key) gi) {r : List Int × OrdState}
    (hr : OrdOk key w { st with gi := gi } r) : OrdOk key w st r := by
  obtain ⟨h1, gs, h2, h3⟩ := hr
  exact ⟨h1, gs, h2, h.pushed h2 h3⟩

theorem intOrderChunkImpl_ok {val : Int → Int} {w : List Int} (decreasing naLast : Bool)
    (hi : ∀ a ∈ w, Spec.IsInt (val a)) {cap countsLen : Nat} (hcap : w.length ≤ cap)
    (hcl : 4 * 256 ≤ countsLen) {st : OrdState} (hs : StaticOk st.static)
    (hroom : Room st.gi w.length) :
    Ret (intOrderChunkImpl decreasing naLast cap countsLen (w.map val) w st)
      (OrdOk (fun a => intKey decreasing naLast (val a)) w st) := by
  have hk : adjustLoop (intAdjustElt decreasing naLast) (w.map val) =
      .ok (w.map (fun a => intKey decreasing naLast (val a))) := by
    rw [adjustLoop_ok (k := intKey decreasing naLast) (by
      intro v hv
      obtain ⟨a, ha, rfl⟩ := List.mem_map.1 hv
      exact intAdjustElt_ok (hi a ha)), List.map_map]
    rfl
  unfold intOrderChunkImpl
  split
  · refine Ret.bind_eq hk ?_
    refine Ret.bind (orderInsertion_ok _ w st.gi hroom) ?_
    rintro ⟨_, o, gi⟩ ⟨gs, h1, _, h3⟩
    exact Ret.ok ⟨rfl, gs, h1, h3⟩
  · rename_i hlen
    refine Ret.bind (intComputeRange_ok (x := w.map val) (by
      intro v hv
      obtain ⟨a, ha, rfl⟩ := List.mem_map.1 hv
      exact hi a ha)) ?_
    rintro ⟨xMin, range⟩ hrange
    dsimp only
    split
    · rename_i hlt
      simp only [countingRangeBoundary] at hlt
      obtain ⟨_, h⟩ | ⟨h1, h2, h3⟩ := hrange
      · dsimp only at h; omega
      · refine Ret.bind (intOrderCounting_ok (o := some w) decreasing naLast h2 hlt hi
          (fun a ha => h3 _ (List.mem_map_of_mem ha)) hcap hs st.gi hroom (Or.inl rfl)) ?_
        rintro ⟨o, static, gi⟩ ⟨q1, gs, q2, q3⟩
        exact Ret.ok ⟨q1, gs, q2, q3⟩
    · refine Ret.bind_eq hk ?_
      have hw : 0 < w.length := by
        simp only [List.length_map, orderInsertionBoundary] at hlen
        omega
      refine Ret.bind (orderRadix_ok 4 cap countsLen _ w st.gi
        (fun a ha => intKey_lt (hi a ha)) hcap hcl hw hroom) ?_
      rintro ⟨_, o, gi⟩ ⟨gs, h1, _, h3⟩
      exact Ret.ok ⟨rfl, gs, h1, h3⟩

theorem intOrderChunk_ok {val : Int → Int} {w : List Int} (decreasing naLast : Bool)
    (hi : ∀ a ∈ w, Spec.IsInt (val a)) {cap countsLen : Nat} (hcap : w.length ≤ cap)
    (hcl : 4 * 256 ≤ countsLen) {st : OrdState} (hs : StaticOk st.static)
    (hroom : Room st.gi w.length) :
    Ret (intOrderChunk decreasing naLast cap countsLen (w.map val) w st)
      (OrdOk (fun a => intKey decreasing naLast (val a)) w st) := by
  unfold intOrderChunk
  refine Ret.bind (sortedness_ok (intCmp_key (x := w.map val) (by
      intro v hv
      obtain ⟨a, ha, rfl⟩ := List.mem_map.1 hv
      exact hi a ha)) st.gi (by simpa using hroom)) ?_
  rw [List.map_map]
  rintro ⟨s, gi⟩ hspec
  dsimp only
  split
  · rename_i hu
    refine Ret.bind (ordResolveChunk_ok (r := (s, gi)) hspec hu) ?_
    rintro o ⟨gs, h1, h2⟩
    exact Ret.ok ⟨rfl, gs, h1, h2⟩
  · rename_i hu
    have hu' : s = .unsorted := by
      by_contra h; exact hu h
    subst hu'
    obtain ⟨_, hun⟩ := hspec
    refine (intOrderChunkImpl_ok decreasing naLast hi hcap hcl (st := { st with gi := gi }) hs
      (hun.room hroom)).mono ?_
    intro r hr
    exact OrdOk.of_unpushed hun hr

theorem intOrderImpl_ok {val : Int → Int} {n : Nat} (decreasing naLast : Bool)
    (hi : ∀ a ∈ oneTo n, Spec.IsInt (val a)) {countsLen : Nat} (hcl : 4 * 256 ≤ countsLen)
    {st : OrdState} (hs : StaticOk st.static) (hroom : Room st.gi n) :
    Ret (intOrderImpl decreasing naLast countsLen ((oneTo n).map val) st)
      (OrdOk (fun a => intKey decreasing naLast (val a)) (oneTo n) st) := by
  have hln : ((oneTo n).map val).length = n := by simp [oneTo_length]
  have hroom' : Room st.gi (oneTo n).length := by rw [oneTo_length]; exact hroom
  have hk : adjustLoop (intAdjustElt decreasing naLast) ((oneTo n).map val) =
      .ok ((oneTo n).map (fun a => intKey decreasing naLast (val a))) := by
    rw [adjustLoop_ok (k := intKey decreasing naLast) (by
      intro v hv
      obtain ⟨a, ha, rfl⟩ := List.mem_map.1 hv
      exact intAdjustElt_ok (hi a ha)), List.map_map]
    rfl
  unfold intOrderImpl
  rw [hln]
  split
  · refine Ret.bind_eq (intIncr_ok n) ?_
    refine Ret.bind_eq hk ?_
    refine Ret.bind (orderInsertion_ok _ _ st.gi hroom') ?_
    rintro ⟨_, o, gi⟩ ⟨gs, h1, _, h3⟩
    exact Ret.ok ⟨rfl, gs, h1, h3⟩
  · rename_i hlen
    refine Ret.bind (intComputeRange_ok (x := (oneTo n).map val) (by
      intro v hv
      obtain ⟨a, ha, rfl⟩ := List.mem_map.1 hv
      exact hi a ha)) ?_
    rintro ⟨xMin, range⟩ hrange
    dsimp only
    split
    · rename_i hlt
      simp only [countingRangeBoundary] at hlt
      obtain ⟨_, h⟩ | ⟨h1, h2, h3⟩ := hrange
      · dsimp only at h; omega
      · refine Ret.bind (intOrderCounting_ok (o := none) decreasing naLast h2 hlt hi
          (fun a ha => h3 _ (List.mem_map_of_mem ha)) (by rw [oneTo_length]; exact Nat.le_refl _) hs st.gi hroom'
          (Or.inr ⟨rfl, by rw [oneTo_length]⟩)) ?_
        rintro ⟨o, static, gi⟩ ⟨q1, gs, q2, q3⟩
        exact Ret.ok ⟨q1, gs, q2, q3⟩
    · refine Ret.bind_eq (intIncr_ok n) ?_
      refine Ret.bind_eq hk ?_
      have hw : 0 < (oneTo n).length := by
        simp only [orderInsertionBoundary] at hlen
        rw [oneTo_length]
        omega
      refine Ret.bind (orderRadix_ok 4 n countsLen _ _ st.gi
        (fun a ha => intKey_lt (hi a ha)) (by rw [oneTo_length]; exact Nat.le_refl _) hcl hw hroom') ?_
      rintro ⟨_, o, gi⟩ ⟨gs, h1, _, h3⟩
      exact Ret.ok ⟨rfl, gs, h1, h3⟩

theorem intOrder_ok {val : Int → Int} {n : Nat} (decreasing naLast : Bool)
    (hi : ∀ a ∈ oneTo n, Spec.IsInt (val a)) {countsLen : Nat} (hcl : 4 * 256 ≤ countsLen)
    {st : OrdState} (hs : StaticOk st.static) (hroom : Room st.gi n) :
    Ret (intOrder decreasing naLast countsLen ((oneTo n).map val) st)
      (OrdOk (fun a => intKey decreasing naLast (val a)) (oneTo n) st) := by
  have hln : ((oneTo n).map val).length = n := by simp [oneTo_length]
  unfold intOrder
  refine Ret.bind (sortedness_ok (intCmp_key (x := (oneTo n).map val) (by
      intro v hv
      obtain ⟨a, ha, rfl⟩ := List.mem_map.1 hv
      exact hi a ha)) st.gi (by rw [hln]; exact hroom)) ?_
  rw [List.map_map]
  rintro ⟨s, gi⟩ hspec
  dsimp only
  rw [hln]
  split
  · rename_i hu
    refine Ret.bind (ordResolve_ok (r := (s, gi)) hspec hu) ?_
    rintro o ⟨gs, h1, h2⟩
    exact Ret.ok ⟨rfl, gs, h1, h2⟩
  · rename_i hu
    have hu' : s = .unsorted := by
      by_contra h; exact hu h
    subst hu'
    obtain ⟨_, hun⟩ := hspec
    refine (intOrderImpl_ok decreasing naLast hi hcl (st := { st with gi := gi }) hs
      (hun.room hroom)).mono ?_
    intro r hr
    exact OrdOk.of_unpushed hun hr

/-- Any vector gives a value to each location. -/
theorem exists_val {α : Type} [Inhabited α] (x : List α) :
    ∃ val : Int → α, x = (oneTo x.length).map val := by
  refine ⟨fun a => (x[(a - 1).toNat]?).getD default, ?_⟩
  apply List.ext_getElem?
  intro i
  rw [List.getElem?_map]
  by_cases hi : i < x.length
  · rw [oneTo_getElem? hi]
    simp [hi]
  · rw [List.getElem?_eq_none (by omega), List.getElem?_eq_none (by rw [oneTo_length]; omega)]
    rfl

end Vctrs
