import Verif.Lemmas.OrderMark

/-!
# Ordering of strings: entry points
-/

namespace Vctrs

open Spec (BytesLt)

/-- State after marking the unique strings, sorted as `V`. -/
structure MarkedSorted (tl0 : TL) (n : Nat) (V : List (List Char)) (ts : TlState) : Prop where
  saved : TlSaved tl0 n (V.map some) ts
  sorted : V.Pairwise BytesLt
  marks : ∀ (i : Nat) (s : List Char), V[i]? = some s → ts.tl (some s) = -(i : Int) - 1

theorem BufHas.putBack {α : Type} {n : Nat} {b : TlBuf α} {l l' : List α} (h : BufHas n b l)
    (hl : l'.length = l.length) : BufHas n { b with data := putBack b.data 0 (l'.map some) } l' := by
  have hle := h.le
  refine ⟨by rw [hl]; exact h.1, ?_, ?_⟩
  · unfold Vctrs.putBack
    dsimp only
    rw [List.take_zero, List.nil_append, List.take_append_of_le_length (by simp),
      List.take_of_length_le (by simp)]
  · unfold Vctrs.putBack
    have := h.2.2
    simp
    omega

theorem BufHas.copyBack {α : Type} {n : Nat} {b : TlBuf α} {l : List α} (h : BufHas n b l) :
    copyBack b.data b.used = .ok l := by
  unfold Vctrs.copyBack
  rw [h.1, if_pos h.le, h.2.1, initd_map_some]

theorem chrMarkSortedUniques_ok {tl0 : TL} {n : Nat} {ts : TlState} (h : TlClean tl0 n ts)
    {x : List Name} (hx : x.length ≤ n) {cap : Nat} (hcap : x.length ≤ cap)
    (hb : ∀ s, some s ∈ x → IsBytes s) :
    Ret (chrMarkSortedUniques cap x ts) (fun r =>
      ∃ V, MarkedSorted tl0 n V r ∧ ∀ s, s ∈ V ↔ some s ∈ x ∧ 0 ≤ tl0 (some s)) := by
  unfold chrMarkSortedUniques
  refine Ret.bind (chrMarkUniques_ok h hx) ?_
  rintro r ⟨U, ⟨hs, hz, hm, hk, hn⟩, hU⟩
  have hzl : r.info.sizes.used = r.info.uniques.used := by
    rw [hz.1, hs.uniq.1]; simp
  have hUx : U.length ≤ x.length := by
    have := nodup_subset_length (hn.map (f := some) (fun a b h => by simpa using h)) (x := x) (by
      intro a ha
      obtain ⟨s, hs', rfl⟩ := List.mem_map.1 ha
      exact ((hU s).1 hs').1)
    simpa using this
  dsimp only
  refine Ret.bind_eq hs.uniq.copyBack ?_
  rw [← hzl]
  refine Ret.bind_eq hz.copyBack ?_
  have hzle := hz.le
  rw [List.length_map] at hzle
  refine Ret.bind (chrOrderRadix_ok (v := U) (by omega) (fun s hs' => hb s ((hU s).1 hs').1) hn hm) ?_
  rintro ⟨u, z⟩ ⟨V, hV, hp, hsort⟩
  injection hV with e1 e2
  subst e1 e2
  dsimp only
  have hlen := hp.length_eq
  have hub : BufHas n ⟨putBack r.info.uniques.data 0 ((V.map some).map some),
      r.info.uniques.used⟩ (V.map some) := hs.uniq.putBack (by simpa using hlen)
  have hVn : V.Nodup := hp.nodup_iff.2 hn
  have hul : U.length = r.info.sizes.used := by rw [hz.1, List.length_map]
  rw [hz.1, List.length_map]
  rw [← hzl, ← hul] at hub
  refine Ret.bind (Ret.forN (fun i (tl : TL) =>
    (∀ (j : Nat) (s : List Char), j < i → V[j]? = some s → tl (some s) = -(j : Int) - 1) ∧
    (∀ u, u ∉ U.map some → tl u = tl0 u)) ?_ ?_) ?_
  · exact ⟨fun j s hj => by omega, hs.off⟩
  · rintro i tl hi ⟨h1, h2⟩
    have hi' : i < V.length := by omega
    have hVi : V[i]? = some V[i] := List.getElem?_eq_getElem hi'
    refine Ret.bind_eq (rdU_ok (hub.get (a := some V[i]) (by rw [List.getElem?_map, hVi]; rfl))) ?_
    refine Ret.ok ⟨?_, ?_⟩
    · intro j s hj hjs
      unfold TL.set
      split
      · rename_i heq
        have heq' : s = V[i] := by simpa using heq
        subst heq'
        have hjl := (List.getElem?_eq_some_iff.1 hjs).1
        have : j = i := (List.getElem?_inj hjl hVn).1 (hjs.trans hVi.symm)
        rw [this]
      · rename_i hne
        by_cases hji : j = i
        · subst hji
          rw [hVi] at hjs
          cases hjs
          exact absurd rfl hne
        · exact h1 j s (by omega) hjs
    · intro u hu
      unfold TL.set
      split
      · rename_i heq
        subst heq
        exact absurd (List.mem_map_of_mem (hp.mem_iff.1 (List.getElem_mem hi'))) hu
      · exact h2 u hu
  · rintro tl ⟨h1, h2⟩
    obtain ⟨hsu, ⟨S, hS, hS1, hS2, hS3⟩, hsz, hsm, hso, hnn⟩ := hs
    refine Ret.ok ⟨V, ⟨⟨hub, ⟨S, hS, hS1, ?_, by simpa [hlen] using hS3⟩, ?_, hsm, ?_, ?_⟩, hsort, ?_⟩, ?_⟩
    · intro u hu
      refine hS2 u ?_
      obtain ⟨s, hs', rfl⟩ := List.mem_map.1 hu
      exact List.mem_map_of_mem (hp.mem_iff.1 hs')
    · have := hz.putBack (l' := V.map List.length) (by simpa using hlen)
      exact this.2.2
    · intro u hu
      refine h2 u (fun hc => hu ?_)
      obtain ⟨s, hs', rfl⟩ := List.mem_map.1 hc
      exact List.mem_map_of_mem (hp.mem_iff.2 hs')
    · intro u hu
      refine hnn u ?_
      obtain ⟨s, hs', rfl⟩ := List.mem_map.1 hu
      exact List.mem_map_of_mem (hp.mem_iff.1 hs')
    · intro i s his
      exact h1 i s (by have := (List.getElem?_eq_some_iff.1 his).1; omega) his
    · intro s
      rw [hp.mem_iff, hU]

theorem toI32_ok {y : Int} (h1 : 0 ≤ y) (h2 : y ≤ (intMax : Int)) : toI32 y = y := by
  unfold toI32
  simp only [intMax] at h2
  rw [BitVec.toInt_ofInt]
  apply Int.bmod_eq_of_le <;> omega

/-- The integer a string is given. -/
def strCode (tl : TL) : Name → Int
  | none => naInt
  | some s => -(tl (some s))

theorem chrExtractOrdering_ok {x : List Name} {tl : TL}
    (h : ∀ s, some s ∈ x → 0 ≤ -(tl (some s)) ∧ -(tl (some s)) ≤ (intMax : Int)) :
    chrExtractOrdering x tl = .ok (x.map (strCode tl)) := by
  unfold chrExtractOrdering
  suffices H : Ret _ (fun r => r = x.map (strCode tl)) by
    obtain ⟨r, hr, rfl⟩ := H
    exact hr
  refine Ret.bind (Ret.forN (fun i (out : List (Option Int)) => out.length = x.length ∧
    ∀ (j : Nat) (a : Name), j < i → x[j]? = some a → out[j]? = some (some (strCode tl a))) ?_ ?_) ?_
  · exact ⟨by simp, fun j a hj => by omega⟩
  · rintro i out hi ⟨h1, h2⟩
    have hxi : x[i]? = some x[i] := List.getElem?_eq_getElem hi
    refine Ret.bind_eq (rd_of_getElem? hxi) ?_
    have hv : (if x[i] = none then naInt else toI32 (-(tl x[i]))) = strCode tl x[i] := by
      split
      · rename_i hnone; rw [hnone]; rfl
      · rename_i hsome
        obtain ⟨e, he⟩ := Option.ne_none_iff_exists'.1 hsome
        have hmem : some e ∈ x := he ▸ List.getElem_mem hi
        rw [he, toI32_ok (h e hmem).1 (h e hmem).2]
        rfl
    rw [hv]
    refine Ret.of_eq (wr_ok (by omega)) ⟨by simpa using h1, ?_⟩
    intro j a hj hja
    rw [getElem?_set' (by omega)]
    split
    · rename_i hji
      subst hji
      rw [hxi] at hja
      cases hja
      rfl
    · exact h2 j a (by omega) hja
  · rintro out ⟨h1, h2⟩
    refine Ret.of_eq (initd_ok (r := x.map (strCode tl)) (by simpa using h1) ?_) rfl
    intro i hi
    rw [List.length_map] at hi
    rw [h2 i x[i] hi (List.getElem?_eq_getElem hi)]
    simp

/-- When one string comes before another. -/
def NameBefore (decreasing naLast : Bool) : Name → Name → Prop
  | none, none => False
  | none, some _ => naLast = false
  | some _, none => naLast = true
  | some s, some t => if decreasing then BytesLt t s else BytesLt s t

/-- `k` orders the strings of `x`. -/
def StrKey (decreasing naLast : Bool) (x : List Name) (k : Name → Nat) : Prop :=
  ∀ a ∈ x, ∀ b ∈ x, (k a < k b ↔ NameBefore decreasing naLast a b) ∧ (k a = k b ↔ a = b)

theorem StrKey.sub {decreasing naLast : Bool} {x y : List Name} {k : Name → Nat}
    (h : StrKey decreasing naLast x k) (hy : ∀ a ∈ y, a ∈ x) : StrKey decreasing naLast y k :=
  fun a ha b hb => h a (hy a ha) b (hy b hb)

theorem chrCmp_key {decreasing naLast : Bool} {x : List Name} {k : Name → Nat}
    (h : StrKey decreasing naLast x k) : CmpKey (chrCmp decreasing naLast) k x := by
  intro a ha b hb
  obtain ⟨h1, h2⟩ := h a ha b hb
  rw [h1, h2]
  unfold chrCmp
  dsimp only
  by_cases hab : a = b
  · subst hab
    rw [if_pos rfl]
    simp only [Int.lt_irrefl, false_iff, and_true]
    cases a with
    | none => simp [NameBefore]
    | some s => cases decreasing <;> simp [NameBefore, bytesLt_irrefl]
  · rw [if_neg hab]
    cases a with
    | none =>
      cases b with
      | none => exact absurd rfl hab
      | some t => cases naLast <;> simp [NameBefore]
    | some s =>
      cases b with
      | none => cases naLast <;> simp [NameBefore]
      | some t =>
        rw [if_neg (by simp), if_neg (by simp)]
        obtain ⟨e1, e2, e3⟩ := strcmp_spec s t
        have hst : (some s = some t) ↔ s = t := by simp
        simp only [charOf, NameBefore]
        rw [hst, ← e3]
        cases decreasing
        · simp only [Bool.false_eq_true, if_false]
          rw [← e1]; omega
        · simp only [if_true]
          rw [← e2]; omega

theorem sorted_index {V : List (List Char)} (h : V.Pairwise BytesLt) {i j : Nat} {s t : List Char}
    (hi : V[i]? = some s) (hj : V[j]? = some t) :
    (BytesLt s t ↔ i < j) ∧ (s = t ↔ i = j) := by
  obtain ⟨hil, rfl⟩ := List.getElem?_eq_some_iff.1 hi
  obtain ⟨hjl, rfl⟩ := List.getElem?_eq_some_iff.1 hj
  rw [List.pairwise_iff_getElem] at h
  rcases Nat.lt_trichotomy i j with hlt | heq | hgt
  · have := h i j hil hjl hlt
    refine ⟨by simp [this, hlt], ?_⟩
    constructor
    · intro he; rw [he] at this; exact absurd this (bytesLt_irrefl _)
    · omega
  · subst heq
    simp [bytesLt_irrefl]
  · have := h j i hjl hil hgt
    refine ⟨?_, ?_⟩
    · constructor
      · intro h'; exact absurd (bytesLt_trans h' this) (bytesLt_irrefl _)
      · omega
    · constructor
      · intro he; rw [he] at this; exact absurd this (bytesLt_irrefl _)
      · omega

theorem intKey_pos {decreasing naLast : Bool} {i : Nat} (hi : i < 2147483647) :
    intKey decreasing naLast ((i : Int) + 1) =
      if decreasing then (if naLast then 2147483646 - i else 2147483647 - i)
      else (if naLast then 2147483648 + i else 2147483649 + i) := by
  unfold intKey
  rw [if_neg (by simp only [naInt]; omega)]
  cases decreasing <;> cases naLast <;> simp only [if_true, if_false, Bool.false_eq_true] <;> omega

theorem intKey_na (decreasing naLast : Bool) :
    intKey decreasing naLast naInt = if naLast then 4294967295 else 0 := by
  unfold intKey
  rw [if_pos rfl]

/-- The integers given to sorted unique strings order the strings. -/
theorem strKey_code {decreasing naLast : Bool} {x : List Name} {V : List (List Char)} {tl : TL}
    (hs : V.Pairwise BytesLt)
    (hm : ∀ (i : Nat) (s : List Char), V[i]? = some s → tl (some s) = -(i : Int) - 1)
    (hV : ∀ s, some s ∈ x → s ∈ V) (hn : V.length ≤ intMax) :
    (∀ a ∈ x, Spec.IsInt (strCode tl a)) ∧
      StrKey decreasing naLast x (fun a => intKey decreasing naLast (strCode tl a)) := by
  have hx : ∀ s, some s ∈ x → ∃ i : Nat, V[i]? = some s ∧ strCode tl (some s) = (i : Int) + 1 ∧
      i < 2147483647 := by
    intro s hsx
    obtain ⟨i, hi⟩ := List.mem_iff_getElem?.1 (hV s hsx)
    have h1 := hm i s hi
    have h2 := (List.getElem?_eq_some_iff.1 hi).1
    refine ⟨i, hi, ?_, ?_⟩
    · show -(tl (some s)) = _
      omega
    · unfold intMax at hn; omega
  have hnone : strCode tl none = naInt := rfl
  refine ⟨?_, ?_⟩
  · intro a ha
    cases a with
    | none => rw [hnone]; exact ⟨Int.le_refl _, by unfold naInt intMax; omega⟩
    | some s =>
      obtain ⟨i, _, h2, h3⟩ := hx s ha
      rw [h2]
      exact ⟨by unfold naInt; omega, by unfold intMax; omega⟩
  · intro a ha b hb
    dsimp only
    cases a with
    | none =>
      cases b with
      | none => simp [NameBefore]
      | some t =>
        obtain ⟨j, _, h2, h3⟩ := hx t hb
        rw [hnone, h2, intKey_pos h3, intKey_na]
        simp only [NameBefore, reduceCtorEq, iff_false]
        cases decreasing <;> cases naLast <;>
          simp only [if_true, if_false, Bool.false_eq_true, reduceCtorEq, iff_false, iff_true] <;>
          omega
    | some s =>
      obtain ⟨i, g1, g2, g3⟩ := hx s ha
      cases b with
      | none =>
        rw [hnone, g2, intKey_pos g3, intKey_na]
        simp only [NameBefore, reduceCtorEq, iff_false]
        cases decreasing <;> cases naLast <;>
          simp only [if_true, if_false, Bool.false_eq_true, reduceCtorEq, iff_false, iff_true] <;>
          omega
      | some t =>
        obtain ⟨j, h1, h2, h3⟩ := hx t hb
        rw [g2, h2, intKey_pos h3, intKey_pos g3]
        have e1 := sorted_index hs g1 h1
        have e2 := sorted_index hs h1 g1
        have hst : (some s = some t) ↔ s = t := by simp
        rw [hst, e1.2]
        simp only [NameBefore]
        cases decreasing
        · simp only [Bool.false_eq_true, if_false]
          rw [e1.1]
          cases naLast <;> simp only [if_true, if_false, Bool.false_eq_true] <;> omega
        · simp only [if_true]
          rw [e2.1]
          cases naLast <;> simp only [if_true, if_false, Bool.false_eq_true] <;> omega

theorem OrdOk.congr_key {key key' : Int → Nat} {w : List Int} {st : OrdState}
    {r : List Int × OrdState} (h : OrdOk key w st r)
    (hk : ∀ a ∈ w, ∀ b ∈ w, (key a = key b ↔ key' a = key' b) ∧
      (key a < key b → key' a < key' b)) : OrdOk key' w st r := by
  obtain ⟨h1, gs, h2, h3⟩ := h
  exact ⟨h1, gs, h2.congr_key (fun a ha b hb => (hk a ha b hb).1)
    (fun a ha b hb => (hk a ha b hb).2), h3⟩

theorem StrKey.unique {decreasing naLast : Bool} {x : List Name} {k k' : Name → Nat}
    (h : StrKey decreasing naLast x k) (h' : StrKey decreasing naLast x k') :
    ∀ a ∈ x, ∀ b ∈ x, (k a = k b ↔ k' a = k' b) ∧ (k a < k b → k' a < k' b) := by
  intro a ha b hb
  obtain ⟨h1, h2⟩ := h a ha b hb
  obtain ⟨h3, h4⟩ := h' a ha b hb
  exact ⟨h2.trans h4.symm, fun hl => h3.2 (h1.1 hl)⟩

/-- What the marks are good for. -/
theorem chrCode_facts {tl0 : TL} {n : Nat} {V : List (List Char)} {ts : TlState}
    (hm : MarkedSorted tl0 n V ts) (hn : n ≤ intMax) (hVn : V.length ≤ n) {x : List Name}
    (hV : ∀ s, some s ∈ x → s ∈ V) :
    (∀ s, some s ∈ x → 0 ≤ -(ts.tl (some s)) ∧ -(ts.tl (some s)) ≤ (intMax : Int)) := by
  intro s hs
  obtain ⟨i, hi⟩ := List.mem_iff_getElem?.1 (hV s hs)
  have h1 := hm.marks i s hi
  have h2 := (List.getElem?_eq_some_iff.1 hi).1
  rw [h1]
  constructor <;> omega

theorem TlSaved.le {tl0 : TL} {n : Nat} {U : List Name} {ts : TlState} (h : TlSaved tl0 n U ts) :
    U.length ≤ n := Nat.le_trans h.uniq.le h.uniq.2.2

theorem chrOrderChunk_ok {tl0 : TL} {n : Nat} {V : List (List Char)} {ts : TlState}
    (hm : MarkedSorted tl0 n V ts) (hn : n ≤ intMax) {val : Int → Name} {w : List Int}
    (decreasing naLast : Bool) (hV : ∀ a ∈ w, ∀ s, val a = some s → s ∈ V)
    {k : Name → Nat} (hk : StrKey decreasing naLast (w.map val) k)
    {cap countsLen : Nat} (hcap : w.length ≤ cap)
    (hcl : 4 * 256 ≤ countsLen) {st : OrdState} (hs : StaticOk st.static)
    (hroom : Room st.gi w.length) :
    Ret (chrOrderChunk decreasing naLast cap countsLen (w.map val) w ts.tl st)
      (OrdOk (fun a => k (val a)) w st) := by
  have hV' : ∀ s, some s ∈ w.map val → s ∈ V := by
    intro s hs'
    obtain ⟨a, ha, he⟩ := List.mem_map.1 hs'
    exact hV a ha s he
  have hVl : V.length ≤ n := by simpa using hm.saved.le
  obtain ⟨hint, hcode⟩ := strKey_code (decreasing := decreasing) (naLast := naLast)
    hm.sorted hm.marks hV' (by omega)
  unfold chrOrderChunk
  refine Ret.bind (sortedness_ok (chrCmp_key hk) st.gi (by simpa using hroom)) ?_
  rw [List.map_map]
  rintro ⟨s, gi⟩ hspec
  dsimp only
  split
  · rename_i hu
    refine Ret.bind (ordResolveChunk_ok (r := (s, gi)) hspec hu) ?_
    rintro o ⟨gs, h1, h2⟩
    exact Ret.ok ⟨rfl, gs, h1, h2⟩
  · rename_i hu
    have hu' : s = .unsorted := by
      by_contra h; exact hu h
    subst hu'
    obtain ⟨_, hun⟩ := hspec
    refine Ret.bind_eq (chrExtractOrdering_ok (chrCode_facts hm hn hVl hV')) ?_
    rw [List.map_map]
    refine (intOrderChunkImpl_ok (val := strCode ts.tl ∘ val) decreasing naLast
      (fun a ha => hint _ (List.mem_map_of_mem ha)) hcap hcl (st := { st with gi := gi }) hs
      (hun.room hroom)).mono ?_
    intro r hr
    refine OrdOk.of_unpushed hun (hr.congr_key ?_)
    intro a ha b hb
    exact hcode.unique hk _ (List.mem_map_of_mem ha) _ (List.mem_map_of_mem hb)

theorem chrOrderInternal_ok {tl0 : TL} {n : Nat} {ts : TlState} (hc : TlClean tl0 n ts)
    (h0 : ∀ u, 0 ≤ tl0 u) (hn : n ≤ intMax) {val : Int → Name}
    (decreasing naLast : Bool) (hb : ∀ a ∈ oneTo n, ∀ s, val a = some s → IsBytes s)
    {k : Name → Nat} (hk : StrKey decreasing naLast ((oneTo n).map val) k)
    {countsLen : Nat} (hcl : 4 * 256 ≤ countsLen) {st : OrdState} (hs : StaticOk st.static)
    (hroom : Room st.gi n) :
    Ret (chrOrderInternal decreasing naLast countsLen ((oneTo n).map val) ts st)
      (fun r => (∃ U, TlSaved tl0 n U r.2.1) ∧ OrdOk (fun a => k (val a)) (oneTo n) st (r.1, r.2.2)) := by
  have hln : ((oneTo n).map val).length = n := by simp [oneTo_length]
  unfold chrOrderInternal
  refine Ret.bind (sortedness_ok (chrCmp_key hk) st.gi (by rw [hln]; exact hroom)) ?_
  rw [List.map_map]
  rintro ⟨s, gi⟩ hspec
  dsimp only
  rw [hln]
  split
  · rename_i hu
    refine Ret.bind (ordResolve_ok (r := (s, gi)) hspec hu) ?_
    rintro o ⟨gs, h1, h2⟩
    exact Ret.ok ⟨⟨[], hc.saved⟩, rfl, gs, h1, h2⟩
  · rename_i hu
    have hu' : s = .unsorted := by
      by_contra h; exact hu h
    subst hu'
    obtain ⟨_, hun⟩ := hspec
    refine Ret.bind (chrMarkSortedUniques_ok hc (by omega) (by omega) (by
      intro s hs'
      obtain ⟨a, ha, he⟩ := List.mem_map.1 hs'
      exact hb a ha s he)) ?_
    rintro ts' ⟨V, hm, hV⟩
    have hVl : V.length ≤ n := by simpa using hm.saved.le
    have hV' : ∀ s, some s ∈ (oneTo n).map val → s ∈ V := fun s hs' => (hV s).2 ⟨hs', h0 _⟩
    obtain ⟨hint, hcode⟩ := strKey_code (decreasing := decreasing) (naLast := naLast)
      hm.sorted hm.marks hV' (by omega)
    refine Ret.bind_eq (chrExtractOrdering_ok (chrCode_facts hm hn hVl hV')) ?_
    rw [List.map_map]
    refine Ret.bind (intOrderImpl_ok (val := strCode ts'.tl ∘ val) decreasing naLast
      (fun a ha => hint _ (List.mem_map_of_mem ha)) hcl (st := { st with gi := gi }) hs
      (hun.room hroom)) ?_
    rintro ⟨o, st'⟩ hr
    refine Ret.ok ⟨⟨_, hm.saved⟩, OrdOk.of_unpushed hun (hr.congr_key ?_)⟩
    intro a ha b hb
    exact hcode.unique hk _ (List.mem_map_of_mem ha) _ (List.mem_map_of_mem hb)

theorem chrOrder_ok {tl0 : TL} {n : Nat} {ts : TlState} (hc : TlClean tl0 n ts)
    (h0 : ∀ u, 0 ≤ tl0 u) (hn : n ≤ intMax) {val : Int → Name}
    (decreasing naLast : Bool) (hb : ∀ a ∈ oneTo n, ∀ s, val a = some s → IsBytes s)
    {k : Name → Nat} (hk : StrKey decreasing naLast ((oneTo n).map val) k)
    {countsLen : Nat} (hcl : 4 * 256 ≤ countsLen) {st : OrdState} (hs : StaticOk st.static)
    (hroom : Room st.gi n) :
    Ret (chrOrder decreasing naLast countsLen ((oneTo n).map val) ts st)
      (fun r => TlClean tl0 n r.2.1 ∧ OrdOk (fun a => k (val a)) (oneTo n) st (r.1, r.2.2)) := by
  unfold chrOrder
  refine Ret.bind (chrOrderInternal_ok hc h0 hn decreasing naLast hb hk hcl hs hroom) ?_
  rintro ⟨o, ts', st'⟩ ⟨⟨U, hU⟩, h2⟩
  refine Ret.bind (truelengthReset_ok hU) ?_
  intro ts'' h
  exact Ret.ok ⟨h, h2⟩

/-- A key by rank: the number of elements before. -/
noncomputable def rankKey {α : Type} (lt : α → α → Prop) (x : List α) (a : α) : Nat :=
  open Classical in (x.filter (fun b => decide (lt b a))).length

theorem rankKey_spec {α : Type} {lt : α → α → Prop} (hirr : ∀ a, ¬ lt a a)
    (htr : ∀ a b c, lt a b → lt b c → lt a c)
    (hco : ∀ a b c, lt a b → lt a c ∨ lt c b) (x : List α) :
    ∀ a ∈ x, ∀ b ∈ x, (rankKey lt x a < rankKey lt x b ↔ lt a b) ∧
      (rankKey lt x a = rankKey lt x b ↔ ¬ lt a b ∧ ¬ lt b a) := by
  classical
  have hle : ∀ a b, ¬ lt b a → rankKey lt x a ≤ rankKey lt x b := by
    intro a b h
    unfold rankKey
    apply List.Sublist.length_le
    apply List.monotone_filter_right
    intro c hc
    simp at hc ⊢
    rcases hco c a b hc with h' | h'
    · exact h'
    · exact absurd h' h
  have hlt : ∀ a ∈ x, ∀ b ∈ x, lt a b → rankKey lt x a < rankKey lt x b := by
    intro a ha b hb h
    have h2 := hle a b (fun h' => hirr a (htr a b a h h'))
    refine Nat.lt_of_le_of_ne h2 ?_
    intro he
    unfold rankKey at he
    have hsub : (x.filter (fun c => decide (lt c a))).Sublist (x.filter (fun c => decide (lt c b))) := by
      apply List.monotone_filter_right
      intro c hc
      simp at hc ⊢
      exact htr c a b hc h
    have heq := hsub.eq_of_length (by simpa using he)
    have hmem : a ∈ x.filter (fun c => decide (lt c b)) := by simp [ha, h]
    rw [← heq] at hmem
    simp [hirr] at hmem
  intro a ha b hb
  constructor
  · constructor
    · intro h
      by_contra hc
      have := hle b a hc
      omega
    · exact hlt a ha b hb
  · constructor
    · intro h
      exact ⟨fun h' => by have := hlt a ha b hb h'; omega,
        fun h' => by have := hlt b hb a ha h'; omega⟩
    · rintro ⟨h1, h2⟩
      have := hle a b h2
      have := hle b a h1
      omega

theorem nameBefore_irrefl {decreasing naLast : Bool} (a : Name) :
    ¬ NameBefore decreasing naLast a a := by
  cases a with
  | none => simp [NameBefore]
  | some s => cases decreasing <;> simp [NameBefore, bytesLt_irrefl]

theorem nameBefore_trans {decreasing naLast : Bool} (a b c : Name)
    (h1 : NameBefore decreasing naLast a b) (h2 : NameBefore decreasing naLast b c) :
    NameBefore decreasing naLast a c := by
  cases a <;> cases b <;> cases c <;> cases decreasing <;> cases naLast <;>
    simp only [NameBefore, if_true, if_false, Bool.false_eq_true, Bool.true_eq_false, reduceCtorEq] at h1 h2 ⊢
  all_goals first
    | exact bytesLt_trans h1 h2
    | exact bytesLt_trans h2 h1

theorem nameBefore_tri {decreasing naLast : Bool} (a b : Name) :
    NameBefore decreasing naLast a b ∨ a = b ∨ NameBefore decreasing naLast b a := by
  cases a with
  | none =>
    cases b with
    | none => simp
    | some t => cases naLast <;> simp [NameBefore]
  | some s =>
    cases b with
    | none => cases naLast <;> simp [NameBefore]
    | some t =>
      have := bytesLt_tri s t
      cases decreasing <;> simp only [NameBefore, if_true, if_false, Bool.false_eq_true,
        Option.some.injEq] <;> tauto

theorem strKey_rank (decreasing naLast : Bool) (x : List Name) :
    StrKey decreasing naLast x (rankKey (NameBefore decreasing naLast) x) := by
  intro a ha b hb
  have := rankKey_spec (lt := NameBefore decreasing naLast) nameBefore_irrefl nameBefore_trans (by
    intro a b c h
    rcases nameBefore_tri (decreasing := decreasing) (naLast := naLast) a c with h' | h' | h'
    · exact Or.inl h'
    · subst h'; exact Or.inr h
    · exact Or.inr (nameBefore_trans _ _ _ h' h)) x a ha b hb
  refine ⟨this.1, this.2.trans ⟨?_, ?_⟩⟩
  · rintro ⟨h1, h2⟩
    rcases nameBefore_tri (decreasing := decreasing) (naLast := naLast) a b with h' | h' | h'
    · exact absurd h' h1
    · exact h'
    · exact absurd h' h2
  · rintro rfl
    exact ⟨nameBefore_irrefl _, nameBefore_irrefl _⟩

end Vctrs
