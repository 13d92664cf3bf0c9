import Verif.Lemmas.Load

/-! Facts about the dictionary that need nothing from the element equality or hash. -/

namespace Vctrs

variable {α : Type} {ops : PolyOps α}

theorem probeLoop_any (d : Dict α) (m : Nat) (hm : m ≤ 31) (hlen : d.key.length = 2 ^ m)
    (hfree : none ∈ d.key) (hb : ∀ idx, some idx ∈ d.key → idx < d.vec.length) (y : α)
    (hash : Nat) :
    ∃ p, probeLoop ops d y hash d.key.length 0 = .ok p ∧ p < d.key.length ∧
      (d.key[p]? = some none ∨
        ∃ idx a, d.key[p]? = some (some idx) ∧ d.vec[idx]? = some a ∧ ops.eq a y = true) := by
  obtain ⟨pf, hpf, hfr⟩ := List.getElem_of_mem hfree
  obtain ⟨kf, hkf, hkfp⟩ := probe_surj hash m hm pf (by omega)
  have gen : ∀ rem k, k + rem = d.key.length → k ≤ kf →
      ∃ p, probeLoop ops d y hash rem k = .ok p ∧ p < d.key.length ∧
      (d.key[p]? = some none ∨
        ∃ idx a, d.key[p]? = some (some idx) ∧ d.vec[idx]? = some a ∧ ops.eq a y = true) := by
    intro rem
    induction rem with
    | zero => intro k hk hkk; omega
    | succ rem ih =>
      intro k hk hkkf
      have hklt : k < 2 ^ m := by omega
      have hplt : probe hash k d.key.length < d.key.length := by
        rw [hlen]; exact probe_lt _ _ _ hm hklt
      have hnb : ¬ (k > 1 ∧ probe hash k d.key.length = hash) := by
        rintro ⟨h1, h2⟩
        rw [hlen] at h2
        exact probe_ne_hash _ _ _ hm hklt (by omega) h2
      unfold probeLoop
      simp only []
      rw [if_neg hnb, rd_ok hplt]
      cases hkey : d.key[probe hash k d.key.length] with
      | none => exact ⟨_, by simp, hplt, Or.inl (by rw [List.getElem?_eq_getElem hplt, hkey])⟩
      | some idx =>
        have hidx : idx < d.vec.length := hb idx (by rw [← hkey]; exact List.getElem_mem hplt)
        simp only [ok_bind]
        rw [rd_ok hidx]
        simp only [ok_bind]
        cases heq : ops.eq d.vec[idx] y with
        | true =>
          exact ⟨_, by simp, hplt, Or.inr ⟨idx, d.vec[idx],
            by rw [List.getElem?_eq_getElem hplt, hkey], List.getElem?_eq_getElem hidx, heq⟩⟩
        | false =>
          simp only [Bool.false_eq_true, if_false]
          have hkne : k ≠ kf := by
            intro hkk
            subst hkk
            rw [← hlen] at hkfp
            simp only [hkfp] at hkey
            rw [hfr] at hkey
            simp at hkey
          exact ih (k + 1) (by omega) (by omega)
  exact gen d.key.length 0 (by omega) (by omega)

theorem loadDict_any (x : List α) (hn : x.length ≤ intMax) :
    ∃ d d', newDict ops false x = .ok d ∧ loadDict ops d x.length = .ok d' := by
  obtain ⟨d, h1, h2, h3⟩ := newDict_loaded (ops := ops) x hn
  obtain ⟨m, hm, hlen⟩ := h2.inv.pow
  refine ⟨d, ?_⟩
  have : ∃ d', loadDict ops d x.length = .ok d' ∧ True := by
    unfold loadDict
    obtain ⟨d', h, _⟩ := forN_inv (f := fun i d => (do
        let hash ← dictHashScalar ops d i
        match ← rd d.key hash with
        | none => dictPut d hash i
        | some _ => .ok d : C (Dict α))) (n := x.length) (s := d)
      (fun i d' => d'.key.length = 2 ^ m ∧ d'.vec = x ∧ d'.hash = d.hash ∧
        (d'.key.filter Option.isSome).length ≤ i ∧ ∀ idx, some idx ∈ d'.key → idx < x.length)
      ⟨hlen, h2.vec, rfl, by
        have := h2.inv.occ
        simpa [firsts] using this, by
        intro idx hidx
        obtain ⟨p, hp, hpe⟩ := List.getElem_of_mem hidx
        have := h3 p hp
        rw [List.getElem?_eq_getElem hp, hpe] at this
        simp at this⟩
      (by
        intro i d' hi ⟨g1, g2, g3, g4, g5⟩
        have hbig := h2.big
        have hfree : none ∈ d'.key := by
          apply Classical.byContradiction
          intro hno
          have : d'.key.filter Option.isSome = d'.key := by
            apply List.filter_eq_self.2
            intro a ha
            cases a with
            | none => exact absurd ha hno
            | some _ => rfl
          rw [this] at g4
          omega
        have hh : rd d'.hash i = .ok (ops.hash x[i]).toNat := by
          apply rd_of_getElem?
          rw [g3, h2.inv.hash, h2.vec]
          simp [List.getElem?_eq_getElem hi]
        have hv : rd d'.vec i = .ok x[i] := by rw [g2]; exact rd_ok hi
        obtain ⟨p, hp, hplt, hres⟩ := probeLoop_any (ops := ops) d' m hm g1 hfree
          (by rw [g2]; exact g5) x[i] (ops.hash x[i]).toNat
        have hs : dictHashScalar ops d' i = .ok p := by
          simp only [dictHashScalar, dictHashWith, hh, hv, ok_bind, hp]
        rcases hres with hfr | ⟨idx, a, hocc, _, _⟩
        · refine ⟨{ d' with key := d'.key.set p (some i), used := d'.used + 1 }, ?_, ?_⟩
          · simp [hs, rd_of_getElem? hfr, dictPut, wr_ok hplt]
          · refine ⟨by simpa using g1, g2, g3, ?_, ?_⟩
            · have hk : d'.key = d'.key.take p ++ none :: d'.key.drop (p + 1) := by
                have : d'.key[p] = none := by
                  rw [List.getElem?_eq_getElem hplt] at hfr; simpa using hfr
                rw [← this, List.getElem_cons_drop, List.take_append_drop]
              simp only [List.set_eq_take_append_cons_drop, if_pos hplt]
              rw [hk] at g4
              simp only [List.filter_append, List.length_append] at g4 ⊢
              simp at g4 ⊢
              omega
            · intro idx hidx
              rcases List.mem_or_eq_of_mem_set hidx with h | h
              · exact g5 idx h
              · simp at h; omega
        · exact ⟨d', by simp [hs, rd_of_getElem? hocc], g1, g2, g3, by omega, g5⟩)
    exact ⟨d', h, trivial⟩
  obtain ⟨d', h, _⟩ := this
  exact ⟨d', h1, h⟩

end Vctrs
