import Verif.Lemmas.OrderStr
import Verif.Lemmas.OrderEntry

/-!
# Marking unique strings in their TRUELENGTHs
-/

namespace Vctrs

open Spec (BytesLt)

/-- A growing array holds `l` and never exceeds `n` slots. -/
def BufHas {α : Type} (n : Nat) (b : TlBuf α) (l : List α) : Prop :=
  b.used = l.length ∧ b.data.take l.length = l.map some ∧ b.data.length ≤ n

theorem BufHas.get {α : Type} {n : Nat} {b : TlBuf α} {l : List α} (h : BufHas n b l) {i : Nat}
    {a : α} (hi : l[i]? = some a) : b.data[i]? = some (some a) := by
  have hil := (List.getElem?_eq_some_iff.1 hi).1
  have := congrArg (fun l => l[i]?) h.2.1
  simp only [List.getElem?_map, hi, List.getElem?_take, if_pos hil] at this
  exact this

theorem BufHas.le {α : Type} {n : Nat} {b : TlBuf α} {l : List α} (h : BufHas n b l) :
    l.length ≤ b.data.length := by
  have := congrArg List.length h.2.1
  simp at this
  omega

theorem tlBuf_push_ok {α : Type} {n : Nat} {b : TlBuf α} {l : List α} (h : BufHas n b l)
    (hn : l.length < n) (v : α) : Ret (b.push n v) (fun b' => BufHas n b' (l ++ [v])) := by
  obtain ⟨h1, h2, h3⟩ := h
  have hle := BufHas.le ⟨h1, h2, h3⟩
  suffices H : ∀ d : List (Option α), d.take l.length = l.map some → l.length < d.length →
      d.length ≤ n → Ret (do let data ← wr d b.used (some v); .ok ⟨data, b.used + 1⟩ : C (TlBuf α))
        (fun b' => BufHas n b' (l ++ [v])) by
    unfold TlBuf.push
    dsimp only
    split
    · rename_i hu
      have hg : b.data.length ≤ truelengthReallocSize b.data.length n ∧
          l.length < truelengthReallocSize b.data.length n ∧
          truelengthReallocSize b.data.length n ≤ n := by
        unfold truelengthReallocSize truelengthAllocDefault
        split
        · split <;> omega
        · split <;> omega
      obtain ⟨r1, r2⟩ := intResize_grow b.data hg.1
      refine H _ ?_ (by omega) (by omega)
      rw [← r2, List.take_take, Nat.min_eq_left (by omega)] at h2
      exact h2
    · exact H _ h2 (by omega) h3
  intro d hd hld hdn
  refine Ret.bind_eq (wr_ok (by omega)) ?_
  refine Ret.ok ⟨by simp [h1], ?_, by simpa using hdn⟩
  dsimp only
  rw [h1, List.length_append, List.length_singleton, List.map_append, ← hd,
    List.take_set, List.take_succ_eq_append_getElem hld, List.set_append_right _ _ (by simp)]
  have : (List.take l.length d).length = l.length := by rw [List.length_take]; omega
  rw [this, Nat.sub_self]
  rfl

/-- The TRUELENGTHs in `tl0` of the strings in `U` have been saved. -/
structure TlSaved (tl0 : TL) (n : Nat) (U : List Name) (ts : TlState) : Prop where
  uniq : BufHas n ts.info.uniques U
  strs : ∃ S, BufHas n ts.info.strings S ∧ (∀ p ∈ S, p.2 = tl0 p.1) ∧
    (∀ u ∈ U, 0 < tl0 u → (u, tl0 u) ∈ S) ∧ S.length ≤ U.length
  sizes : ts.info.sizes.data.length ≤ n
  nmax : ts.info.nMax = n
  off : ∀ u, u ∉ U → ts.tl u = tl0 u
  nonneg : ∀ u ∈ U, 0 ≤ tl0 u

/-- No string is marked. -/
structure TlClean (tl0 : TL) (n : Nat) (ts : TlState) : Prop where
  tl : ts.tl = tl0
  uniq : BufHas n ts.info.uniques []
  strs : BufHas n ts.info.strings []
  sizes : BufHas n ts.info.sizes []
  nmax : ts.info.nMax = n
  maxSize : ts.info.maxStringSize = 0

theorem TlClean.saved {tl0 : TL} {n : Nat} {ts : TlState} (h : TlClean tl0 n ts) :
    TlSaved tl0 n [] ts :=
  ⟨h.uniq, ⟨[], h.strs, by simp, by simp, by simp⟩, h.sizes.2.2, h.nmax, fun u _ => by rw [h.tl],
    by simp⟩

theorem tlClean_new (tl0 : TL) (n : Nat) : TlClean tl0 n ⟨tl0, TlInfo.new n⟩ :=
  ⟨rfl, ⟨rfl, rfl, by simp [TlInfo.new]⟩, ⟨rfl, rfl, by simp [TlInfo.new]⟩,
    ⟨rfl, rfl, by simp [TlInfo.new]⟩, rfl, rfl⟩

/-- Resetting restores the TRUELENGTHs. -/
theorem truelengthReset_ok {tl0 : TL} {n : Nat} {U : List Name} {ts : TlState}
    (h : TlSaved tl0 n U ts) :
    Ret (truelengthReset ts) (TlClean tl0 n) := by
  obtain ⟨hu, ⟨S, hS, hS1, hS2, _⟩, hz, hm, hoff, h0⟩ := h
  unfold truelengthReset
  refine Ret.bind (Ret.forN (fun i (tl : TL) => (∀ u ∈ U.take i, tl u = 0) ∧
    (∀ u, u ∉ U → tl u = tl0 u)) ⟨by simp, hoff⟩ ?_) ?_
  · rintro i tl hi ⟨h1, h2⟩
    rw [hu.1] at hi
    have hUi : U[i]? = some U[i] := List.getElem?_eq_getElem hi
    refine Ret.bind_eq (rdU_ok (hu.get hUi)) ?_
    refine Ret.ok ⟨?_, ?_⟩
    · intro u hu'
      unfold TL.set
      split
      · rfl
      · rename_i hne
        rw [List.take_succ_eq_append_getElem hi] at hu'
        rcases List.mem_append.1 hu' with h | h
        · exact h1 u h
        · exact absurd (by simpa using h) hne
    · intro u hu'
      unfold TL.set
      split
      · rename_i heq
        exact absurd (heq ▸ List.getElem_mem hi) hu'
      · exact h2 u hu'
  · rintro tl ⟨h1, h2⟩
    rw [hu.1, List.take_length] at h1
    refine Ret.bind (Ret.forN (fun i (tl : TL) => (∀ p ∈ S.take i, tl p.1 = tl0 p.1) ∧
      (∀ u, u ∉ U → tl u = tl0 u) ∧ (∀ u ∈ U, tl u = 0 ∨ tl u = tl0 u)) ⟨by simp, h2, fun u hu => Or.inl (h1 u hu)⟩ ?_) ?_
    · rintro i tl hi ⟨g1, g2, g3⟩
      rw [hS.1] at hi
      have hSi : S[i]? = some S[i] := List.getElem?_eq_getElem hi
      refine Ret.bind_eq (rdU_ok (hS.get hSi)) ?_
      have hv := hS1 _ (List.getElem_mem hi)
      have hset : ∀ u, (tl.set S[i].1 S[i].2) u = tl0 u ∨
          (u ≠ S[i].1 ∧ (tl.set S[i].1 S[i].2) u = tl u) := by
        intro u
        unfold TL.set
        split
        · rename_i he; left; rw [hv, he]
        · rename_i he; right; exact ⟨he, rfl⟩
      refine Ret.ok ⟨?_, ?_, ?_⟩
      · intro p hp
        rcases hset p.1 with h | ⟨h, h'⟩
        · exact h
        · rw [h']
          rw [List.take_succ_eq_append_getElem hi] at hp
          rcases List.mem_append.1 hp with hp | hp
          · exact g1 p hp
          · have : p = S[i] := by simpa using hp
            exact absurd (by rw [this]) h
      · intro u hu'
        rcases hset u with h | ⟨h, h'⟩
        · exact h
        · rw [h']; exact g2 u hu'
      · intro u hu'
        rcases hset u with h | ⟨h, h'⟩
        · exact Or.inr h
        · rw [h']; exact g3 u hu'
    · rintro tl ⟨g1, g2, g3⟩
      rw [hS.1, List.take_length] at g1
      refine Ret.ok ⟨?_, ⟨rfl, rfl, hu.2.2⟩, ⟨rfl, rfl, hS.2.2⟩, ⟨rfl, rfl, hz⟩, hm, rfl⟩
      funext u
      by_cases huU : u ∈ U
      · rcases g3 u huU with h | h
        · by_cases hpos : 0 < tl0 u
          · exact g1 _ (hS2 u huU hpos)
          · have := h0 u huU
            show tl u = tl0 u
            omega
        · exact h
      · exact g2 u huU

/-- Saving one more string. -/
theorem TlSaved.save {tl0 : TL} {n : Nat} {U : List Name} {ts : TlState}
    (h : TlSaved tl0 n U ts) {elt : Name} (h0 : 0 ≤ tl0 elt) (helt : elt ∉ U)
    (hroom : U.length < n) {T : Type} (f : TlBuf (Name × Int) → TlBuf Name → C T) (P : T → Prop)
    (hf : ∀ strings uniques, (∀ tl sizes maxSize, (∀ u, u ∉ U ++ [elt] → tl u = tl0 u) →
        sizes.data.length ≤ n →
        TlSaved tl0 n (U ++ [elt]) ⟨tl, ⟨strings, uniques, sizes, maxSize, n⟩⟩) →
      Ret (f strings uniques) P) :
    Ret (do
      let strings ← (if ts.tl elt > 0 then ts.info.strings.push ts.info.nMax (elt, ts.tl elt)
        else .ok ts.info.strings : C (TlBuf (Name × Int)))
      let uniques ← ts.info.uniques.push ts.info.nMax elt
      f strings uniques) P := by
  obtain ⟨hu, ⟨S, hS, hS1, hS2, hS3⟩, hz, hm, hoff, hnn⟩ := h
  rw [hoff elt helt, hm]
  refine Ret.bind (P := fun b => ∃ S', BufHas n b S' ∧ (∀ p ∈ S', p.2 = tl0 p.1) ∧
    (∀ u ∈ U ++ [elt], 0 < tl0 u → (u, tl0 u) ∈ S') ∧ S'.length ≤ U.length + 1) ?_ ?_
  · split
    · rename_i hpos
      refine (tlBuf_push_ok hS (by omega) _).mono ?_
      intro b hb
      refine ⟨_, hb, ?_, ?_, by simp; omega⟩
      · intro p hp
        rcases List.mem_append.1 hp with hp | hp
        · exact hS1 p hp
        · have : p = (elt, tl0 elt) := by simpa using hp
          rw [this]
      · intro u hu' hup
        rcases List.mem_append.1 hu' with hu' | hu'
        · exact List.mem_append_left _ (hS2 u hu' hup)
        · have : u = elt := by simpa using hu'
          subst this
          simp
    · rename_i hpos
      refine Ret.ok ⟨S, hS, hS1, ?_, by omega⟩
      intro u hu' hup
      rcases List.mem_append.1 hu' with hu' | hu'
      · exact hS2 u hu' hup
      · have : u = elt := by simpa using hu'
        subst this
        omega
  · rintro b ⟨S', g1, g2, g3, g4⟩
    refine Ret.bind (tlBuf_push_ok hu hroom elt) ?_
    intro b' hb'
    exact hf b b' (fun tl sizes maxSize h1 h2 =>
      ⟨hb', ⟨S', g1, g2, g3, by simpa using g4⟩, h2, rfl, h1, by
        intro u hu'
        rcases List.mem_append.1 hu' with hu' | hu'
        · exact hnn u hu'
        · have : u = elt := by simpa using hu'
          subst this
          exact h0⟩)

/-- The strings of a list of names. -/
def strings (x : List Name) : List (List Char) := x.filterMap id

theorem mem_strings {x : List Name} {s : List Char} : s ∈ strings x ↔ some s ∈ x := by
  simp [strings]

/-- State after marking the unique strings `U`. -/
structure MarkedUniques (tl0 : TL) (n : Nat) (U : List (List Char)) (ts : TlState) : Prop where
  saved : TlSaved tl0 n (U.map some) ts
  sizes : BufHas n ts.info.sizes (U.map List.length)
  maxSize : ∀ s ∈ U, s.length ≤ ts.info.maxStringSize
  marked : ∀ s ∈ U, ts.tl (some s) = -1
  nodup : U.Nodup

theorem nodup_subset_length {α : Type} [DecidableEq α] {U x : List α} (hn : U.Nodup)
    (h : ∀ a ∈ U, a ∈ x) : U.length ≤ x.length := (hn.subperm h).length_le

theorem chrMarkUniques_ok {tl0 : TL} {n : Nat} {ts : TlState} (h : TlClean tl0 n ts)
    {x : List Name} (hx : x.length ≤ n) :
    Ret (chrMarkUniques x ts) (fun r => ∃ U, MarkedUniques tl0 n U r ∧
      ∀ s, s ∈ U ↔ some s ∈ x ∧ 0 ≤ tl0 (some s)) := by
  unfold chrMarkUniques
  refine (Ret.forN (fun i (r : TlState) => ∃ U, MarkedUniques tl0 n U r ∧
    ∀ s, s ∈ U ↔ some s ∈ x.take i ∧ 0 ≤ tl0 (some s)) ?_ ?_).mono ?_
  · exact ⟨[], ⟨h.saved, h.sizes, by simp, by simp, List.nodup_nil⟩, by simp⟩
  · rintro i r hi ⟨U, ⟨hs, hz, hm, hk, hn⟩, hU⟩
    have hxi : x[i]? = some x[i] := List.getElem?_eq_getElem hi
    refine Ret.bind_eq (rd_of_getElem? hxi) ?_
    have htk : ∀ s, some s ∈ x.take (i + 1) ↔ some s ∈ x.take i ∨ some s = x[i] := by
      intro s
      rw [List.take_succ_eq_append_getElem hi, List.mem_append, List.mem_singleton]
    unfold chrMarkStep
    split
    · rename_i hnone
      refine Ret.ok ⟨U, ⟨hs, hz, hm, hk, hn⟩, ?_⟩
      intro s
      rw [hU, htk, hnone]
      simp
    · rename_i hsome
      obtain ⟨e, he⟩ := Option.ne_none_iff_exists'.1 hsome
      rw [he]
      dsimp only
      split
      · rename_i hneg
        have heU : e ∈ U ∨ tl0 (some e) < 0 := by
          by_contra hc
          rw [not_or] at hc
          have := hs.off (some e) (by simpa using hc.1)
          omega
        refine Ret.ok ⟨U, ⟨hs, hz, hm, hk, hn⟩, ?_⟩
        intro s
        rw [htk, or_and_right, ← hU, he]
        constructor
        · exact Or.inl
        · rintro (h | ⟨h, h'⟩)
          · exact h
          · cases h
            rcases heU with h | h
            · exact h
            · omega
      · rename_i hneg
        have heU : e ∉ U := by
          intro hc
          rw [hk e hc] at hneg
          omega
        have hlen : U.length < n := by
          have h1 : (e :: U).Nodup := List.nodup_cons.2 ⟨heU, hn⟩
          have h2 : ((e :: U).map some).length ≤ (x.take (i + 1)).length := by
            refine nodup_subset_length (h1.map (fun a b h => by simpa using h)) ?_
            intro a ha
            obtain ⟨s, hs', rfl⟩ := List.mem_map.1 ha
            rw [htk]
            rcases List.mem_cons.1 hs' with h | h
            · right; rw [h, he]
            · left; exact ((hU s).1 h).1
          rw [List.length_map, List.length_cons, List.length_take] at h2
          omega
        have h0 : 0 ≤ tl0 (some e) := by
          have := hs.off (some e) (by simpa using heU)
          omega
        refine TlSaved.save (elt := some e) hs h0 (by simpa using heU) (by simpa using hlen)
          (T := TlState) (fun strings uniques => do
            let sizes ← r.info.sizes.push r.info.nMax (charOf (some e)).length
            .ok ⟨r.tl.set (some e) (-1), ⟨strings, uniques, sizes,
              if r.info.maxStringSize < (charOf (some e)).length then (charOf (some e)).length
              else r.info.maxStringSize, r.info.nMax⟩⟩) _ ?_
        intro strs uniqs hsv
        rw [hs.nmax]
        refine Ret.bind (tlBuf_push_ok hz (by simpa using hlen) _) ?_
        intro sz hsz
        refine Ret.ok ⟨U ++ [e], ⟨?_, ?_, ?_, ?_, ?_⟩, ?_⟩
        · rw [List.map_append]
          refine hsv _ _ _ ?_ hsz.2.2
          intro u hu
          rw [List.mem_append, not_or] at hu
          unfold TL.set
          rw [if_neg (by simpa using hu.2)]
          exact hs.off u hu.1
        · rw [List.map_append]; exact hsz
        · intro s hs'
          dsimp only
          have e1 : (charOf (some e)).length = e.length := rfl
          rcases List.mem_append.1 hs' with h | h
          · have := hm s h
            split <;> omega
          · have : s = e := by simpa using h
            subst this
            split <;> omega
        · intro s hs'
          dsimp only
          unfold TL.set
          split
          · rfl
          · rename_i hne
            rcases List.mem_append.1 hs' with h | h
            · exact hk s h
            · exact absurd (by simpa using h) hne
        · rw [List.nodup_append]
          refine ⟨hn, by simp, ?_⟩
          intro a ha b hb
          have : b = e := by simpa using hb
          subst this
          exact fun h => heU (h ▸ ha)
        · intro s
          rw [htk, or_and_right, ← hU, he, List.mem_append]
          simp only [List.mem_singleton, Option.some.injEq]
          constructor
          · rintro (h | rfl)
            · exact Or.inl h
            · exact Or.inr ⟨rfl, h0⟩
          · rintro (h | ⟨rfl, _⟩)
            · exact Or.inl h
            · exact Or.inr rfl
  · rintro r ⟨U, h1, h2⟩
    refine ⟨U, h1, ?_⟩
    intro s
    rw [h2, List.take_length]

end Vctrs
