import Verif.Model.ChopTable
import Verif.Lemmas.Table
import Verif.Props.C47

/-!
# Chopping vectors and data frames
-/

namespace Vctrs

open Spec

theorem fillN_ok {α S : Type} {n : Nat} {f : Nat → S → C (α × S)} {s : S} (I : Nat → S → Prop) (P : Nat → α → Prop)
    (h0 : I 0 s) (step : ∀ i s, i < n → I i s → Ret (f i s) (fun r => P i r.1 ∧ I (i + 1) r.2)) :
    Ret (fillN n f s) (fun ys => ys.length = n ∧ ∀ (j : Nat) y, ys[j]? = some y → P j y) := by
  unfold fillN
  refine Ret.bind (Ret.forN (fun (i : Nat) (p : List (Option α) × S) => I i p.2 ∧
    ∃ ys : List α, ys.length = i ∧ p.1 = ys.map some ++ List.replicate (n - i) none ∧
      ∀ (j : Nat) y, ys[j]? = some y → P j y) ⟨h0, [], rfl, by simp [alloc], by simp⟩ ?_) ?_
  · rintro i ⟨out, st⟩ hi ⟨h1, ys, h2, h3, h4⟩
    refine Ret.bind (step i st hi h1) ?_
    rintro ⟨v, st'⟩ ⟨h5, h6⟩
    dsimp only at h3 ⊢
    refine Ret.bind_eq (wr_ok (by rw [h3]; simp; omega)) (Ret.ok ⟨h6, ys ++ [v], by simp [h2], ?_, ?_⟩)
    · rw [h3, List.set_append_right _ _ (by simp [h2]), List.length_map, h2, Nat.sub_self,
        show n - i = (n - (i + 1)) + 1 by omega, List.replicate_succ, List.set_cons_zero]
      simp
    · intro j y hy
      rw [List.getElem?_append] at hy
      split at hy
      · exact h4 j y hy
      · have : j - ys.length = 0 := by
          by_contra hne
          rw [List.getElem?_eq_none (by simp; omega)] at hy
          cases hy
        rw [this] at hy
        cases hy
        rw [show j = i by omega]
        exact h5
  · rintro ⟨out, st⟩ ⟨_, ys, h2, h3, h4⟩
    dsimp only at h3 ⊢
    rw [h3, Nat.sub_self]
    simp only [List.replicate_zero, List.append_nil]
    exact Ret.of_eq (initd_map_some ys) ⟨h2, h4⟩

/-- The subscripts of the pieces point at `L`. -/
def ChopsAt (by_ : ChopBy) (n : Nat) (L : Nat → List (Option Nat)) : Prop :=
  ∀ j, j < indicesOutSize by_ n → ∃ sub, chopSub by_ j = some sub ∧ SubscriptOk n sub ∧ PointsAt sub (L j) ∧
    (L j).length ≤ 2147483647

theorem chopState_start (by_ : ChopBy) : ChopState by_ 0 (0, 0, 0) := by
  cases by_ <;> exact ⟨rfl, by simp⟩

/-- The next subscript. -/
theorem chopNext {by_ : ChopBy} {n j : Nat} {L : Nat → List (Option Nat)} {st : Nat × Int × Int} (hL : ChopsAt by_ n L)
    (hj : j < indicesOutSize by_ n) (hs : ChopState by_ j st) : ∃ sub st', indicesNext by_ st = .ok (sub, st') ∧
      ChopState by_ (j + 1) st' ∧ SubscriptOk n sub ∧ PointsAt sub (L j) ∧ (L j).length ≤ 2147483647 := by
  obtain ⟨sub, st', h1, h2, h3⟩ := indicesNext_ok hs hj
  obtain ⟨sub', g1, g2, g3, g4⟩ := hL j hj
  rw [h1] at g1
  cases g1
  exact ⟨sub, st', h2, h3, g2, g3, g4⟩

theorem chopNames_ok {t : VTy} {xs : List t.El} {nms : Option (List Name)} {by_ : ChopBy} {n : Nat}
    {L : Nat → List (Option Nat)} (hL : ChopsAt by_ n L) (hx : IsTab n (.vec t xs nms)) :
    Ret (chopNames t xs nms by_) (fun ys => ys.length = indicesOutSize by_ n ∧
      ∀ (j : Nat) y, ys[j]? = some y → SlicedAs (L j) (.vec t xs nms) y) := by
  cases hx with
  | vec h1 h2 =>
    unfold chopNames
    rw [h1]
    refine fillN_ok (fun j st => ChopState by_ j st) _ (chopState_start _) ?_
    intro j st hj hs
    obtain ⟨sub, st', k1, k2, k3, k4, _⟩ := chopNext hL hj hs
    refine Ret.bind_eq k1 ?_
    dsimp only
    refine Ret.bind (sliceBase_located (isBlank_naElt t) (by rw [h1]; exact k3) k4) ?_
    intro ys hys
    refine Ret.bind (sliceNames_ok h2 k3 k4) ?_
    intro nms' hn
    exact Ret.ok ⟨.vec hys hn, k2⟩

/-- The data frames after their first `i` columns have been filled in. -/
def ShellsAt (h : Name → BitVec 32) (rn : Option (List Name)) (cols : List NVal) (m : Nat) (L : Nat → List (Option Nat))
    (i : Nat) (out : List DfShell) : Prop :=
  out.length = m ∧ ∀ (j : Nat) (e : DfShell), out[j]? = some e → e.rows = (L j).length ∧
    (∃ d, restoreRownames h e.rowNames = .ok d ∧ LocatedRows (L j) rn d) ∧
    ∃ ys : List NVal, ys.length = i ∧ e.cols = ys.map some ++ List.replicate (cols.length - i) none ∧
      ∀ (c : Nat) (x y : NVal), cols[c]? = some x → ys[c]? = some y → SlicedAs (L j) x y

theorem chopShells_ok (h : Name → BitVec 32) {n : Nat} {rn : Option (List Name)} {cols : List NVal} {by_ : ChopBy}
    {L : Nat → List (Option Nat)} (hL : ChopsAt by_ n L)
    (hn : ∀ l, rn = some l → l.length = n ∧ ∀ s, some s ∈ l → s.length ≤ 2147483619) :
    Ret (chopShells h n cols.length rn by_) (ShellsAt h rn cols (indicesOutSize by_ n) L 0) := by
  unfold chopShells
  refine (fillN_ok (fun j st => ChopState by_ j st) (fun j (e : DfShell) => e.rows = (L j).length ∧
    (∃ d, restoreRownames h e.rowNames = .ok d ∧ LocatedRows (L j) rn d) ∧ e.cols = List.replicate cols.length none)
    (chopState_start _) ?_).mono ?_
  · intro j st hj hs
    obtain ⟨sub, st', k1, k2, k3, k4, k5⟩ := chopNext hL hj hs
    refine Ret.bind_eq k1 ?_
    dsimp only
    obtain ⟨b, d, h6, h7, h8⟩ := sliceRownames_ok h hn k3 k4 k5
    refine Ret.bind_eq h6 (Ret.ok ⟨⟨k4.1.symm, ⟨d, h7, h8⟩, rfl⟩, k2⟩)
  · rintro out ⟨h1, h2⟩
    refine ⟨h1, fun j e he => ?_⟩
    obtain ⟨k1, k2, k3⟩ := h2 j e he
    exact ⟨k1, k2, [], rfl, by rw [k3]; simp, by simp⟩

theorem chopPut_ok {h : Name → BitVec 32} {rn : Option (List Name)} {cols chopped : List NVal} {m i : Nat}
    {L : Nat → List (Option Nat)} {out : List DfShell} {x : NVal} (hs : ShellsAt h rn cols m L i out) (hx : cols[i]? = some x)
    (hc : chopped.length = m ∧ ∀ (j : Nat) y, chopped[j]? = some y → SlicedAs (L j) x y) :
    Ret (chopPut i chopped m out) (ShellsAt h rn cols m L (i + 1)) := by
  unfold chopPut
  have hil : i < cols.length := (List.getElem?_eq_some_iff.1 hx).1
  refine (Ret.forN (fun (k : Nat) (o : List DfShell) => o.length = m ∧ ∀ (j : Nat) (e : DfShell), o[j]? = some e →
    ∃ e0, out[j]? = some e0 ∧ ((k ≤ j ∧ e = e0) ∨ (j < k ∧ ∃ y, chopped[j]? = some y ∧ e = { e0 with cols := e0.cols.set i (some y) })))
    ⟨hs.1, fun j e he => ⟨e, he, Or.inl ⟨by omega, rfl⟩⟩⟩ ?_).mono ?_
  · rintro k o hk ⟨h1, h2⟩
    have hko : k < o.length := by omega
    have hkc : k < chopped.length := by omega
    obtain ⟨e0, g1, g2⟩ := h2 k _ (List.getElem?_eq_getElem hko)
    have ge : o[k] = e0 := by
      rcases g2 with ⟨_, g⟩ | ⟨g, _⟩
      · exact g
      · omega
    obtain ⟨_, _, ys, e1, e2, _⟩ := hs.2 k e0 g1
    refine Ret.bind_eq (rd_ok hko) (Ret.bind_eq (rd_ok hkc) ?_)
    refine Ret.bind_eq (wr_ok (by rw [ge, e2]; simp; omega)) ?_
    refine Ret.of_eq (wr_ok hko) ⟨by simp [h1], ?_⟩
    intro j e he
    rw [getElem?_set' hko] at he
    split at he
    · rename_i hjk
      cases he
      subst hjk
      refine ⟨e0, g1, Or.inr ⟨by omega, _, List.getElem?_eq_getElem hkc, by rw [ge]⟩⟩
    · rename_i hjk
      obtain ⟨e0', f1, f2⟩ := h2 j e he
      refine ⟨e0', f1, ?_⟩
      rcases f2 with ⟨f2, f3⟩ | ⟨f2, f3⟩
      · exact Or.inl ⟨by omega, f3⟩
      · exact Or.inr ⟨by omega, f3⟩
  · rintro o ⟨h1, h2⟩
    refine ⟨h1, fun j e he => ?_⟩
    have hjm : j < m := by rw [← h1]; exact (List.getElem?_eq_some_iff.1 he).1
    obtain ⟨e0, g1, g2⟩ := h2 j e he
    obtain ⟨f1, f2, ys, f3, f4, f5⟩ := hs.2 j e0 g1
    rcases g2 with ⟨g2, _⟩ | ⟨_, y, g2, g3⟩
    · omega
    · subst g3
      refine ⟨f1, f2, ys ++ [y], by simp [f3], ?_, ?_⟩
      · dsimp only
        rw [f4, List.set_append_right _ _ (by simp [f3]), List.length_map, f3, Nat.sub_self,
          show cols.length - i = (cols.length - (i + 1)) + 1 by omega, List.replicate_succ, List.set_cons_zero]
        simp
      · intro c u v hu hv
        rw [List.getElem?_append] at hv
        split at hv
        · exact f5 c u v hu hv
        · have : c - ys.length = 0 := by
            by_contra hne
            rw [List.getElem?_eq_none (by simp; omega)] at hv
            cases hv
          rw [this] at hv
          cases hv
          rw [show c = i by omega, hx] at hu
          cases hu
          exact hc.2 j _ g2

theorem chopRestore_ok {h : Name → BitVec 32} {n m : Nat} {cn : List Name} {rn : Option (List Name)} {cols : List NVal}
    {L : Nat → List (Option Nat)} {out : List DfShell} (hs : ShellsAt h rn cols m L cols.length out) :
    Ret (chopRestore h cn out) (fun ys => ys.length = m ∧ ∀ (j : Nat) y, ys[j]? = some y → SlicedAs (L j) (.df n cn cols rn) y) := by
  unfold chopRestore
  rw [← hs.1]
  refine fillN_ok (fun _ _ => True) _ trivial ?_
  intro j st hj _
  refine Ret.bind_eq (rd_ok hj) ?_
  obtain ⟨h1, ⟨d, h2, h3⟩, ys, h4, h5, h6⟩ := hs.2 j _ (List.getElem?_eq_getElem hj)
  refine Ret.bind_eq h2 ?_
  rw [h5, Nat.sub_self, List.replicate_zero, List.append_nil]
  refine Ret.bind_eq (initd_map_some ys) (Ret.ok ⟨?_, trivial⟩)
  rw [h1]
  exact .df h4 h6 h3

mutual

theorem nvalChop_ok (h : Name → BitVec 32) {by_ : ChopBy} {n : Nat} {L : Nat → List (Option Nat)} (hL : ChopsAt by_ n L) :
    (x : NVal) → IsTab n x → Ret (nvalChop h by_ x) (fun ys => ys.length = indicesOutSize by_ n ∧
      ∀ (j : Nat) y, ys[j]? = some y → SlicedAs (L j) x y)
  | .null, hx => nomatch hx
  | .vec t xs nms, hx => by
    rw [nvalChop]
    exact chopNames_ok hL hx
  | .df m cn cols rn, hx => by
    cases hx with
    | df h1 h2 h3 =>
      rw [nvalChop]
      refine Ret.bind (chopShells_ok h hL h3) ?_
      intro out ho
      refine Ret.bind (nvalChopCols_ok h hL cols [] rfl h2 ho) ?_
      intro out ho
      exact chopRestore_ok ho

theorem nvalChopCols_ok (h : Name → BitVec 32) {by_ : ChopBy} {n : Nat} {L : Nat → List (Option Nat)} (hL : ChopsAt by_ n L)
    {rn : Option (List Name)} {cols : List NVal} :
    (xs : List NVal) → (pre : List NVal) → {out : List DfShell} → cols = pre ++ xs → (∀ p ∈ xs, IsTab n p) →
    ShellsAt h rn cols (indicesOutSize by_ n) L pre.length out →
    Ret (nvalChopCols h by_ (indicesOutSize by_ n) pre.length xs out) (ShellsAt h rn cols (indicesOutSize by_ n) L cols.length)
  | [], pre, out, e, _, hs => by
    rw [List.append_nil] at e
    subst e
    rw [nvalChopCols]
    exact Ret.ok hs
  | x :: xs, pre, out, e, hx, hs => by
    rw [nvalChopCols]
    refine Ret.bind (nvalChop_ok h hL x (hx x (by simp))) ?_
    intro ys hys
    refine Ret.bind (chopPut_ok hs (by rw [e]; simp) hys) ?_
    intro out' ho
    have := nvalChopCols_ok h hL (cols := cols) xs (pre ++ [x]) (out := out') (by rw [e]; simp) (fun p hp => hx p (by simp [hp]))
      (by rw [List.length_append]; exact ho)
    rw [List.length_append] at this
    exact this

end

end Vctrs
