import Verif.SpecTable
import Verif.Lemmas.Assign
import Verif.Lemmas.Names
import Verif.Lemmas.Size
import Verif.Props.C24

/-!
# Lemmas about slicing values with names
-/

namespace Vctrs

open Spec

/-- `locs` are the locations of the subscript `s`. -/
def PointsAt (s : Subscript) (locs : List (Option Nat)) : Prop :=
  locs.length = (subscriptSize s).toNat ∧
  ∀ (k : Nat) (e : Int), k < locs.length → subscriptAt s k = some e →
    locs[k]? = some (if e = naInt then none else some (e - 1).toNat)

theorem isBlank_naElt (t : VTy) : IsBlank t (naElt t) := by
  rcases t with t | _
  · cases t
    · exact rfl
    · exact rfl
    · show IsNA naReal
      unfold IsNA IsNaN naReal; decide
    · show IsNA naReal ∧ IsNA naReal
      unfold IsNA IsNaN naReal; decide
    · exact rfl
    · exact rfl
  · exact rfl

theorem sliceBase_located {α : Type} {na : α} {blank : α → Prop} (hb : blank na) {x : List α} {s : Subscript}
    {locs : List (Option Nat)} (hs : SubscriptOk x.length s) (hl : PointsAt s locs) :
    Ret (sliceBase na x s) (Located blank locs x) := by
  refine (sliceBase_ok na hs).mono ?_
  rintro out ⟨h1, h2⟩
  have key : ∀ (k : Nat) l, locs[k]? = some l → ∃ v, out[k]? = some v ∧ (l = none → v = na) ∧
      ∀ i, l = some i → x[i]? = some v := by
    intro k l hk
    have hkl := (List.getElem?_eq_some_iff.1 hk).1
    obtain ⟨e, h3, h4⟩ := h2 k (by rw [← hl.1]; exact hkl)
    have h5 := hl.2 k e hkl h3
    rw [hk] at h5
    injection h5 with h5
    have hko : k < out.length := by rw [h1, ← hl.1]; exact hkl
    refine ⟨out[k], List.getElem?_eq_getElem hko, ?_, ?_⟩
    · intro hn
      rw [hn] at h5
      by_cases hna : e = naInt
      · rw [if_pos hna, List.getElem?_eq_getElem hko] at h4
        exact Option.some.inj h4
      · rw [if_neg hna] at h5; cases h5
    · intro i hi
      rw [hi] at h5
      by_cases hna : e = naInt
      · rw [if_pos hna] at h5; cases h5
      · rw [if_neg hna] at h5 h4
        cases h5
        rw [← h4]; exact List.getElem?_eq_getElem hko
  refine ⟨by rw [h1, hl.1], ?_, ?_⟩
  · intro k hk
    obtain ⟨v, h3, h4, _⟩ := key k _ hk
    exact ⟨v, h3, h4 rfl ▸ hb⟩
  · intro k i hk
    obtain ⟨v, h3, _, h4⟩ := key k _ hk
    exact ⟨v, h3, h4 i rfl⟩

theorem sliceNames_ok {n : Nat} {nms : Option (List Name)} {s : Subscript} {locs : List (Option Nat)}
    (hn : ∀ l, nms = some l → l.length = n) (hs : SubscriptOk n s) (hl : PointsAt s locs) :
    Ret (sliceNames nms s) (LocatedNames locs nms) := by
  cases nms with
  | none => exact Ret.ok (Or.inl ⟨rfl, rfl⟩)
  | some l =>
    have hln := hn l rfl
    rw [sliceNames]
    refine Ret.bind (sliceBase_located (blank := fun v => v = some []) rfl (by rw [hln]; exact hs) hl) ?_
    intro b hb
    exact Ret.ok (Or.inr ⟨l, b, rfl, rfl, hb⟩)

theorem short_base {names : List Name} (hl : ∀ s, some s ∈ names → s.length ≤ 2147483619) :
    ∀ n ∈ names, (baseOf n).length ≤ 2147483619 :=
  fun n hn => baseOf_length n _ (fun s hs => hl s (hs ▸ hn))

theorem uniqueNames_twice (h : Name → BitVec 32) {b : List Name} (hb : b.length ≤ 2147483647)
    (hs : ∀ n ∈ b, (baseOf n).length ≤ 2147483619) :
    ∃ c d, vecAsUniqueNames h b = .ok c ∧ vecAsUniqueNames h c = .ok d ∧ UniqueRepair b c ∧ UniqueRepair c d := by
  obtain ⟨c, h1, h2⟩ := vecAsUniqueNames_ok h b hb hs
  obtain ⟨d, h3, h4⟩ := vecAsUniqueNames_ok h c (by rw [h2.size]; exact hb) (repair_base_length h2 hs)
  exact ⟨c, d, h1, h3, h2, h4⟩

theorem located_short {locs : List (Option Nat)} {a b : List Name}
    (h : Located (fun v => v = none) locs a b) (ha : ∀ s, some s ∈ a → s.length ≤ 2147483619) :
    ∀ s, some s ∈ b → s.length ≤ 2147483619 := by
  intro s hs
  obtain ⟨k, hk, hks⟩ := List.getElem_of_mem hs
  have hkl : k < locs.length := by rw [← h.1]; exact hk
  have hk2 := List.getElem?_eq_getElem hk
  rw [hks] at hk2
  cases hl : locs[k] with
  | none =>
    obtain ⟨v, h1, h2⟩ := h.2.1 k (by rw [List.getElem?_eq_getElem hkl, hl])
    rw [hk2, h2] at h1; cases h1
  | some i =>
    obtain ⟨v, h1, h2⟩ := h.2.2 k i (by rw [List.getElem?_eq_getElem hkl, hl])
    rw [hk2] at h1; injection h1 with h1; subst h1
    exact ha s (List.mem_of_getElem? h2)

theorem sliceRownames_ok (h : Name → BitVec 32) {n : Nat} {rn : Option (List Name)} {s : Subscript}
    {locs : List (Option Nat)}
    (hn : ∀ l, rn = some l → l.length = n ∧ ∀ s, some s ∈ l → s.length ≤ 2147483619)
    (hs : SubscriptOk n s) (hl : PointsAt s locs) (hm : locs.length ≤ 2147483647) :
    ∃ b d, sliceRownames h rn s = .ok b ∧ restoreRownames h b = .ok d ∧ LocatedRows locs rn d := by
  cases rn with
  | none => exact ⟨none, none, rfl, rfl, Or.inl ⟨rfl, rfl⟩⟩
  | some l =>
    obtain ⟨hln, hsh⟩ := hn l rfl
    obtain ⟨b, h1, h2⟩ := sliceBase_located (na := (none : Name)) (blank := fun v => v = none) rfl
      (by rw [hln]; exact hs) hl
    obtain ⟨c, d, h3, h4, h5, h6⟩ := uniqueNames_twice h (b := b) (by rw [h2.1]; exact hm)
      (short_base (located_short h2 hsh))
    refine ⟨some c, some d, ?_, ?_, Or.inr ⟨l, b, c, d, rfl, rfl, h2, h5, h6⟩⟩
    · simp only [sliceRownames, h1, ok_bind, h3]
    · simp only [restoreRownames, h4, ok_bind]

theorem Spec.IsTab.size_eq {n : Nat} {x : NVal} (h : IsTab n x) : x.size = n := by
  cases h with
  | vec h1 _ => exact h1
  | df => rfl

mutual

theorem nvalSlice_ok (h : Name → BitVec 32) {n : Nat} {s : Subscript} {locs : List (Option Nat)}
    (hs : SubscriptOk n s) (hl : PointsAt s locs) (hm : locs.length ≤ 2147483647) :
    (x : NVal) → IsTab n x → Ret (nvalSlice h s x) (SlicedAs locs x)
  | .null, hx => nomatch hx
  | .vec t xs nms, hx => by
    cases hx with
    | vec h1 h2 =>
      rw [nvalSlice]
      refine Ret.bind (sliceBase_located (isBlank_naElt t) (by rw [h1]; exact hs) hl) ?_
      intro ys hys
      refine Ret.bind (sliceNames_ok h2 hs hl) ?_
      intro nms' hn
      exact Ret.ok (.vec hys hn)
  | .df m cn cols rn, hx => by
    cases hx with
    | df h1 h2 h3 =>
      rw [nvalSlice]
      refine Ret.bind (nvalSliceCols_ok h hs hl hm cols h2) ?_
      rintro cols' ⟨h4, h5⟩
      obtain ⟨b, d, h6, h7, h8⟩ := sliceRownames_ok h h3 hs hl hm
      refine Ret.bind_eq h6 (Ret.bind_eq h7 ?_)
      rw [← hl.1]
      exact Ret.ok (.df h4 h5 h8)

theorem nvalSliceCols_ok (h : Name → BitVec 32) {n : Nat} {s : Subscript} {locs : List (Option Nat)}
    (hs : SubscriptOk n s) (hl : PointsAt s locs) (hm : locs.length ≤ 2147483647) :
    (xs : List NVal) → (∀ p ∈ xs, IsTab n p) →
    Ret (nvalSliceCols h s n xs) (fun ys => ys.length = xs.length ∧
      ∀ (c : Nat) (x y : NVal), xs[c]? = some x → ys[c]? = some y → SlicedAs locs x y)
  | [], _ => Ret.ok ⟨rfl, fun c x y hx => by simp at hx⟩
  | x :: xs, hx => by
    rw [nvalSliceCols, if_neg (by rw [(hx x (by simp)).size_eq]; simp)]
    refine Ret.bind (nvalSlice_ok h hs hl hm x (hx x (by simp))) ?_
    intro y hy
    refine Ret.bind (nvalSliceCols_ok h hs hl hm xs (fun p hp => hx p (by simp [hp]))) ?_
    rintro ys ⟨h1, h2⟩
    refine Ret.ok ⟨by simp [h1], ?_⟩
    intro c u v hu hv
    cases c with
    | zero =>
      simp only [List.getElem?_cons_zero, Option.some.injEq] at hu hv
      subst hu hv; exact hy
    | succ c =>
      simp only [List.getElem?_cons_succ] at hu hv
      exact h2 c u v hu hv

end

theorem pointsAt_locs {loc : List Int} : PointsAt (.locs loc) (locations loc) := by
  refine ⟨by simp [locations, subscriptSize], ?_⟩
  intro k e hk he
  simp only [subscriptAt] at he
  simp [locations, he]

theorem pointsAt_rep (j : Int) (n : Nat) :
    PointsAt (.rep j n) (List.replicate n (if j = naInt then none else some (j - 1).toNat)) := by
  refine ⟨by simp [subscriptSize], ?_⟩
  intro k e hk he
  simp only [subscriptAt] at he
  simp only [List.length_replicate] at hk
  split at he
  · cases he; rw [List.getElem?_replicate, if_pos hk]
  · cases he

theorem nvalInit_ok (h : Name → BitVec 32) {m : Nat} {x : NVal} (hx : IsTab m x) {n : Nat}
    (hn : n ≤ 2147483647) : Ret (nvalInit h x n) (SlicedAs (List.replicate n none) x) := by
  have hs := nvalSlice_ok h (s := .rep naInt n) (locs := List.replicate n none) (n := m)
    ⟨by omega, Or.inl rfl⟩ (by have := pointsAt_rep naInt n; rwa [if_pos rfl] at this)
    (by simpa using hn) x hx
  have : nvalInit h x n = nvalSlice h (.rep naInt n) x := by
    cases hx with
    | vec => rw [nvalInit, if_neg (by omega), compactRep, if_neg (by omega), ok_bind]; nofun
    | df => rw [nvalInit, if_neg (by omega), compactRep, if_neg (by omega), ok_bind]; nofun
  rw [this]; exact hs

theorem nvalSlice_rep1 (h : Name → BitVec 32) {x : NVal} (hx : IsTab 1 x) {n : Nat}
    (hn : n ≤ 2147483647) : Ret (nvalSlice h (.rep 1 n) x) (SlicedAs (List.replicate n (some 0)) x) :=
  nvalSlice_ok h (s := .rep 1 n) (locs := List.replicate n (some 0)) (n := 1)
    ⟨by omega, Or.inr ⟨by omega, by omega⟩⟩
    (by have := pointsAt_rep 1 n; rwa [if_neg (by decide)] at this) (by simpa using hn) x hx

end Vctrs
