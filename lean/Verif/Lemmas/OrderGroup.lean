import Verif.Lemmas.OrderLex
import Verif.Lemmas.OrderChr
import Verif.Lemmas.OrderDbl
import Verif.Model.OrderDf

/-!
# Loops over groups of ties; complex vectors
-/

namespace Vctrs

/-- What one round of a loop over the groups does to the block `b`. -/
def GroupStep (key2 : Int → Nat) (b : List Int) (s r : GroupLoop) : Prop :=
  r.off = s.off + b.length ∧ r.st.static = s.st.static ∧ ∃ b' gs, Ordered (· < ·) key2 b b' gs ∧
    r.o = putBack s.o s.off b' ∧ Pushed s.st.gi gs r.st.gi

/-- A loop over the groups orders each of them. -/
theorem tieLoop_ok {S : Type} (p : S → GroupLoop) (J : S → Prop) {key2 : Int → Nat}
    {B : List (List Int)} {f : Nat → S → C S}
    (hf : ∀ (g : Nat) (b : List Int), B[g]? = some b → ∀ s, J s →
      (∃ pre post, (p s).o = pre ++ b ++ post ∧ (p s).off = pre.length) →
      (p s).off = (B.take g).flatten.length →
      Room (p s).st.gi b.length →
      Ret (f g s) (fun r => J r ∧ GroupStep key2 b (p s) (p r)))
    {s : S} (hJ : J s) (ho : (p s).o = B.flatten) (hoff : (p s).off = 0)
    (hroom : Room (p s).st.gi B.flatten.length) :
    Ret (forN B.length f s) (fun r => J r ∧ (p r).st.static = (p s).st.static ∧
      ∃ Cs : List (List Int × List Nat),
        List.Forall₂ (fun b c => Ordered (· < ·) key2 b c.1 c.2) B Cs ∧
        (p r).o = Cs.flatMap (·.1) ∧ Pushed (p s).st.gi (Cs.flatMap (·.2)) (p r).st.gi) := by
  refine (Ret.forN (fun g (r : S) => J r ∧ (p r).st.static = (p s).st.static ∧
    (p r).off = (B.take g).flatten.length ∧
    ∃ Cs : List (List Int × List Nat),
      List.Forall₂ (fun b c => Ordered (· < ·) key2 b c.1 c.2) (B.take g) Cs ∧
      (p r).o = Cs.flatMap (·.1) ++ (B.drop g).flatten ∧
      (Cs.flatMap (·.1)).length = (B.take g).flatten.length ∧
      (Cs.flatMap (·.2)).length ≤ (B.take g).flatten.length ∧
      Pushed (p s).st.gi (Cs.flatMap (·.2)) (p r).st.gi) ?_ ?_).mono ?_
  · exact ⟨hJ, rfl, by simp [hoff], [], by simp, by simp [ho], by simp, by simp, Pushed.refl _⟩
  · rintro g r hg ⟨h1, h2, h3, Cs, h4, h5, h6, h7, h8⟩
    have hb : B[g]? = some B[g] := List.getElem?_eq_getElem hg
    have hdrop : B.drop g = B[g] :: B.drop (g + 1) := List.drop_eq_getElem_cons hg
    have htake : B.take (g + 1) = B.take g ++ [B[g]] := List.take_succ_eq_append_getElem hg
    have hsplit : (p r).o = Cs.flatMap (·.1) ++ B[g] ++ (B.drop (g + 1)).flatten := by
      rw [h5, hdrop, List.flatten_cons, List.append_assoc]
    have hlen : B.flatten.length = (B.take g).flatten.length + B[g].length +
        (B.drop (g + 1)).flatten.length := by
      conv_lhs => rw [← List.take_append_drop g B, hdrop]
      rw [List.flatten_append, List.flatten_cons, List.length_append, List.length_append]
      omega
    have htl : (B.take (g + 1)).flatten.length = (B.take g).flatten.length + B[g].length := by
      rw [htake, List.flatten_append, List.length_append, List.flatten_singleton]
    have hroom' : Room (p r).st.gi B[g].length :=
      (hroom.pushed h8 (by omega)).mono (by omega)
    refine (hf g B[g] hb r h1 ⟨_, _, hsplit, by rw [h3, h6]⟩ h3 hroom').mono ?_
    rintro r' ⟨q1, q2, q3, b', gs, q4, q5, q6⟩
    refine ⟨q1, q3.trans h2, ?_, Cs ++ [(b', gs)], ?_, ?_, ?_, ?_, ?_⟩
    · rw [q2, h3, htl]
    · rw [htake]
      exact List.rel_append h4 (List.Forall₂.cons q4 List.Forall₂.nil)
    · rw [q5, hsplit, putBack_mid (by rw [h3, h6]) q4.length]
      simp
    · rw [htl, List.flatMap_append, List.length_append, h6, List.flatMap_singleton, q4.length]
    · have := q4.gs_length
      rw [htl, List.flatMap_append, List.length_append, List.flatMap_singleton]
      dsimp only
      omega
    · have := h8.trans q6
      simpa using this
  · rintro r ⟨h1, h2, h3, Cs, h4, h5, h6, h7, h8⟩
    rw [List.take_length] at h4
    rw [List.drop_length] at h5
    exact ⟨h1, h2, Cs, h4, by simpa using h5, h8⟩

/-- The element at a (1-based) location. -/
def locVal {α : Type} [Inhabited α] (x : List α) (a : Int) : α := x[(a - 1).toNat]?.getD default

theorem locVal_map {α : Type} [Inhabited α] (x : List α) :
    (oneTo x.length).map (locVal x) = x := by
  apply List.ext_getElem?
  intro i
  rw [List.getElem?_map]
  by_cases hi : i < x.length
  · rw [oneTo_getElem? hi]
    simp [locVal, hi]
  · rw [List.getElem?_eq_none (by rw [oneTo_length]; omega), List.getElem?_eq_none (by omega)]
    rfl

theorem mem_oneTo {n : Nat} {a : Int} : a ∈ oneTo n ↔ 1 ≤ a ∧ a ≤ n := by
  unfold oneTo
  rw [List.mem_map]
  constructor
  · rintro ⟨i, hi, rfl⟩
    rw [List.mem_range] at hi
    omega
  · rintro ⟨h1, h2⟩
    exact ⟨(a - 1).toNat, List.mem_range.2 (by omega), by omega⟩

theorem oneTo_nodup (n : Nat) : (oneTo n).Nodup := by
  unfold oneTo
  exact List.nodup_range.map (fun a b h => by simpa using h)

theorem locVal_rdI {α : Type} [Inhabited α] {x : List α} {a : Int} (h : a ∈ oneTo x.length) :
    rdI x (a - 1) = .ok (locVal x a) := by
  obtain ⟨h1, h2⟩ := mem_oneTo.1 h
  unfold rdI locVal
  rw [if_neg (by omega)]
  have hi : (a - 1).toNat < x.length := by omega
  rw [rd_ok hi, List.getElem?_eq_getElem hi]
  rfl

theorem locVal_mem {α : Type} [Inhabited α] {x : List α} {a : Int} (h : a ∈ oneTo x.length) :
    locVal x a ∈ x := by
  obtain ⟨h1, h2⟩ := mem_oneTo.1 h
  have hi : (a - 1).toNat < x.length := by omega
  have : locVal x a = x[(a - 1).toNat] := by
    unfold locVal
    rw [List.getElem?_eq_getElem hi]
    rfl
  rw [this]
  exact List.getElem_mem hi

theorem extractChunk_ok {α β : Type} [Inhabited α] (f : α → β) {x : List α} {w : List Int}
    (hw : ∀ a ∈ w, a ∈ oneTo x.length) :
    extractChunk f x w = .ok (w.map (fun a => f (locVal x a))) := by
  unfold extractChunk
  suffices H : Ret _ (fun r => r = w.map (fun a => f (locVal x a))) by
    obtain ⟨r, hr, rfl⟩ := H
    exact hr
  refine Ret.bind (Ret.forN (fun i (out : List (Option β)) => out.length = w.length ∧
    ∀ (j : Nat) (a : Int), j < i → w[j]? = some a → out[j]? = some (some (f (locVal x a)))) ?_ ?_) ?_
  · exact ⟨by simp, fun j a hj => by omega⟩
  · rintro i out hi ⟨h1, h2⟩
    have hwi : w[i]? = some w[i] := List.getElem?_eq_getElem hi
    refine Ret.bind_eq (rd_of_getElem? hwi) ?_
    refine Ret.bind_eq (locVal_rdI (hw _ (List.getElem_mem hi))) ?_
    refine Ret.of_eq (wr_ok (by omega)) ⟨by simpa using h1, ?_⟩
    intro j a hj hja
    rw [getElem?_set' (by omega)]
    split
    · rename_i hji
      subst hji
      rw [hwi] at hja
      cases hja
      rfl
    · exact h2 j a (by omega) hja
  · rintro out ⟨h1, h2⟩
    refine Ret.of_eq (initd_ok (r := w.map _) (by simpa using h1) ?_) rfl
    intro i hi
    rw [List.length_map] at hi
    rw [h2 i w[i] hi (List.getElem?_eq_getElem hi)]
    simp

theorem cplReal_ok (x : List (Dbl × Dbl)) :
    cplReal x = .ok (x.map (fun e => (cplNormaliseMissing e).1)) := by
  unfold cplReal
  suffices H : Ret _ (fun r => r = x.map (fun e => (cplNormaliseMissing e).1)) by
    obtain ⟨r, hr, rfl⟩ := H
    exact hr
  refine Ret.bind (Ret.forN (fun i (out : List (Option Dbl)) => out.length = x.length ∧
    ∀ (j : Nat) (a : Dbl × Dbl), j < i → x[j]? = some a →
      out[j]? = some (some (cplNormaliseMissing a).1)) ?_ ?_) ?_
  · exact ⟨by simp, fun j a hj => by omega⟩
  · rintro i out hi ⟨h1, h2⟩
    have hxi : x[i]? = some x[i] := List.getElem?_eq_getElem hi
    refine Ret.bind_eq (rd_of_getElem? hxi) ?_
    refine Ret.of_eq (wr_ok (by omega)) ⟨by simpa using h1, ?_⟩
    intro j a hj hja
    rw [getElem?_set' (by omega)]
    split
    · rename_i hji
      subst hji
      rw [hxi] at hja
      cases hja
      rfl
    · exact h2 j a (by omega) hja
  · rintro out ⟨h1, h2⟩
    refine Ret.of_eq (initd_ok (r := x.map _) (by simpa using h1) ?_) rfl
    intro i hi
    rw [List.length_map] at hi
    rw [h2 i x[i] hi (List.getElem?_eq_getElem hi)]
    simp

/-- The groups recorded: exactly `gs`, unless groups are ignored. -/
structure Tracked (n : Nat) (force : Bool) (gs : List Nat) (gi : GroupInfos) : Prop where
  maxData : gi.maxDataSize = n
  force : gi.force = force
  has : gi.ignore = false → GHas gi gs ∧ gi.current.maxGroupSize = maxOf gs

theorem Tracked.pushed {n : Nat} {force : Bool} {gs : List Nat} {gi gi' : GroupInfos}
    (h : Tracked n force [] gi) (hp : Pushed gi gs gi') : Tracked n force gs gi' := by
  refine ⟨hp.static.maxData.trans h.maxData, hp.static.force.trans h.force, ?_⟩
  intro hi
  rw [hp.static.ignore] at hi
  obtain ⟨h1, h2⟩ := h.has hi
  refine ⟨by simpa using hp.has hi [] h1, ?_⟩
  rw [hp.max hi, h2]
  exact Nat.max_eq_right (Nat.zero_le _)

theorem Tracked.room {n : Nat} {force : Bool} {gi : GroupInfos} (h : Tracked n force [] gi) :
    Room gi n := by
  intro hi
  exact ⟨[], (h.has hi).1, by simp [h.maxData]⟩

theorem groupsSwap_ignore (gi : GroupInfos) : (groupsSwap gi).ignore = gi.ignore := by
  unfold groupsSwap
  split
  · rfl
  · unfold GroupInfos.setCurrent
    dsimp only
    split <;> rfl

theorem Tracked.swap {n : Nat} {force : Bool} {gs : List Nat} {gi : GroupInfos}
    (h : Tracked n force gs gi) : Tracked n force [] (groupsSwap gi) := by
  refine ⟨?_, ?_, ?_⟩
  · unfold groupsSwap
    split
    · exact h.maxData
    · unfold GroupInfos.setCurrent
      dsimp only
      split <;> exact h.maxData
  · unfold groupsSwap
    split
    · exact h.force
    · unfold GroupInfos.setCurrent
      dsimp only
      split <;> exact h.force
  · intro hi
    rw [groupsSwap_ignore] at hi
    unfold groupsSwap
    rw [hi]
    simp only [Bool.false_eq_true, if_false]
    unfold GHas
    rw [current_setCurrent]
    split <;> simp [groupRealloc, maxOf]

theorem tracked_new (n : Nat) (force ignore : Bool) :
    Tracked n force [] (GroupInfos.new n force ignore) :=
  ⟨rfl, rfl, fun _ => ⟨⟨rfl, rfl⟩, rfl⟩⟩

theorem Tracked.setIgnore {n : Nat} {force : Bool} {gs : List Nat} {gi : GroupInfos}
    (h : Tracked n force gs gi) : Tracked n force gs { gi with ignore := true } :=
  ⟨h.maxData, h.force, fun hi => by simp at hi⟩

/-- Data of the groups before a loop over them. -/
theorem Tracked.pre {n : Nat} {force : Bool} {gs : List Nat} {gi : GroupInfos}
    (h : Tracked n force gs gi) (hi : gi.ignore = false) :
    gi.current.nGroups = gs.length ∧ ∀ (g : Nat) (k : Nat), gs[g]? = some k →
      rdU gi.current.data g = .ok k := by
  obtain ⟨⟨h1, h2⟩, _⟩ := h.has hi
  refine ⟨h1, ?_⟩
  intro g k hg
  apply rdU_ok
  have hgl := (List.getElem?_eq_some_iff.1 hg).1
  have := congrArg (fun l => l[g]?) h2
  simp only [List.getElem?_map, hg, List.getElem?_take, if_pos hgl] at this
  exact this

/-- The keys of a complex number. -/
def cplKeys (decreasing naLast nanDistinct : Bool) (x : List (Dbl × Dbl)) : List (Int → Nat) :=
  [fun a => dblAdjustElt decreasing naLast nanDistinct (cplNormaliseMissing (locVal x a)).1,
   fun a => dblAdjustElt decreasing naLast nanDistinct (cplNormaliseMissing (locVal x a)).2]

/-- What ordering a vector by several keys gives. -/
def LexOk (ks : List (Int → Nat)) (n : Nat) (force ignore : Bool) (static : List Nat)
    (r : List Int × OrdState) : Prop :=
  r.2.static = static ∧ r.2.gi.ignore = ignore ∧ ∃ gs, LexOrdered ks (oneTo n) r.1 gs ∧
    Tracked n force gs r.2.gi

theorem cplOrder_ok (decreasing naLast nanDistinct : Bool) {countsLen : Nat} {x : List (Dbl × Dbl)}
    (hcl : 8 * 256 ≤ countsLen) (ts : TlState) {st : OrdState} {force : Bool}
    (ht : Tracked x.length force [] st.gi)
    (hst : GHas st.gi [] ∧ st.gi.current.maxGroupSize = 0) :
    Ret (cplOrder decreasing naLast nanDistinct countsLen x ts st) (fun r => r.2.1 = ts ∧
      LexOk (cplKeys decreasing naLast nanDistinct x) x.length force st.gi.ignore st.static
        (r.1, r.2.2)) := by
  unfold cplOrder
  dsimp only
  refine Ret.bind_eq (cplReal_ok x) ?_
  have ht0 : Tracked x.length force [] { st.gi with ignore := false } :=
    ⟨ht.maxData, ht.force, fun _ => hst⟩
  have hre : x.map (fun e => (cplNormaliseMissing e).1) =
      (oneTo x.length).map (fun a => (cplNormaliseMissing (locVal x a)).1) := by
    conv_lhs => rw [← locVal_map x]
    rw [List.map_map]
    rfl
  rw [hre]
  refine Ret.bind (dblOrder_ok (val := fun a => (cplNormaliseMissing (locVal x a)).1) decreasing
    naLast nanDistinct hcl (st := { st with gi := { st.gi with ignore := false } }) ht0.room) ?_
  rintro ⟨o, st1⟩ ⟨hs1, gs, ho, hp⟩
  dsimp only at hs1 ho hp ⊢
  have hL := LexOrdered.single ho
  have ht1 : Tracked x.length force gs st1.gi := ht0.pushed hp
  have hi1 : st1.gi.ignore = false := hp.static.ignore
  obtain ⟨hng, hgd⟩ := ht1.pre hi1
  -- after resetting `ignore`
  have key : ∀ gi2 : GroupInfos, Tracked x.length force gs gi2 → gi2.ignore = st.gi.ignore →
      gi2.current = st1.gi.current →
      Ret (do
        if gi2.current.nGroups = x.length then .ok (o, ts, { st1 with gi := gi2 })
        else do
          let im ← extractChunk (fun e => (cplNormaliseMissing e).2) x o
          let r ← forN gi2.current.nGroups
            (cplGroup decreasing naLast nanDistinct x.length countsLen gi2.current.data im)
            ⟨0, o, ts, { st1 with gi := groupsSwap gi2 }⟩
          .ok (r.o, r.ts, r.st) : C (List Int × TlState × OrdState)) (fun r => r.2.1 = ts ∧
        LexOk (cplKeys decreasing naLast nanDistinct x) x.length force st.gi.ignore st.static
          (r.1, r.2.2)) := by
    intro gi2 ht2 hig2 hcur
    rw [hcur, hng]
    split
    · rename_i hall
      refine Ret.ok ⟨rfl, hs1, hig2, gs, ?_, ht2⟩
      exact hL.more (by rw [oneTo_length]; exact hall) _
    · obtain ⟨B, hB1, hB2, hB3, hB4, hB5⟩ := hL.refine
      subst hB1
      refine Ret.bind_eq (extractChunk_ok _ (fun a ha => by
        obtain ⟨b, hb, hab⟩ := List.mem_flatten.1 ha
        exact hB4 b hb a hab)) ?_
      have hBl : gs.length = B.length := by rw [hB2, List.length_map]
      have hfl : B.flatten.length = x.length := by
        have := hL.length
        rwa [oneTo_length] at this
      rw [hBl]
      refine Ret.bind (tieLoop_ok (fun s : GroupLoop => s) (fun s => s.ts = ts ∧
        s.st.gi.ignore = st.gi.ignore) (B := B)
        (key2 := fun a => dblAdjustElt decreasing naLast nanDistinct
          (cplNormaliseMissing (locVal x a)).2) ?_ ?_ rfl rfl ?_) ?_
      · rintro g b hgb s ⟨hJ, hJi⟩ ⟨pre, post, hso, hoff⟩ hoff2 hroom
        have hbB : b ∈ B := List.mem_of_getElem? hgb
        have hbpos : 0 < b.length := List.length_pos_iff.2 (hB3 b hbB)
        have hgs : gs[g]? = some b.length := by rw [hB2, List.getElem?_map, hgb]; rfl
        unfold cplGroup
        refine Ret.bind_eq (hgd g _ hgs) ?_
        split
        · rename_i h1
          refine Ret.bind (groupsSizeMaybePush_ok (by omega) (hroom.mono (by omega))) ?_
          intro gi' hgi'
          refine Ret.ok ⟨⟨hJ, by
            have := hgi'.static.ignore
            dsimp only; rw [this]; exact hJi⟩, by dsimp only; rw [h1], rfl, b, [1], ?_, ?_, hgi'⟩
          · have := Ordered.const (· < ·) (key := fun a => dblAdjustElt decreasing naLast nanDistinct
              (cplNormaliseMissing (locVal x a)).2) (w := b) (k := dblAdjustElt decreasing naLast
              nanDistinct (cplNormaliseMissing (locVal x (b.head (hB3 b hbB)))).2) (by
                intro a ha
                obtain ⟨c, hc⟩ := List.length_eq_one_iff.1 h1
                subst hc
                simp at ha
                subst ha
                rfl) hbpos
            rwa [h1] at this
          · dsimp only
            rw [hso, putBack_mid hoff rfl]
        · rename_i h1
          have hBg : B.flatten = (B.take g).flatten ++ b ++ (B.drop (g + 1)).flatten := by
            have hgl := (List.getElem?_eq_some_iff.1 hgb).1
            have hge : B[g] = b := (List.getElem?_eq_some_iff.1 hgb).2
            conv_lhs => rw [← List.take_append_drop g B, List.drop_eq_getElem_cons hgl, hge]
            simp
          have hwim : window (B.flatten.map (fun a => (cplNormaliseMissing (locVal x a)).2)) s.off
              b.length = .ok (b.map (fun a => (cplNormaliseMissing (locVal x a)).2)) := by
            rw [hBg, List.map_append, List.map_append]
            exact window_mid (by rw [List.length_map]; exact hoff2) (by simp)
          refine Ret.bind_eq hwim ?_
          have hwo : window s.o s.off b.length = .ok b := by
            rw [hso]; exact window_mid hoff rfl
          refine Ret.bind_eq hwo ?_
          have hble : b.length ≤ x.length := by
            rw [← hfl, hBg]; simp; omega
          refine Ret.bind (dblOrderChunk_ok (val := fun a => (cplNormaliseMissing (locVal x a)).2)
            (w := b) decreasing naLast nanDistinct hble hcl (st := s.st) hroom) ?_
          rintro ⟨b', st'⟩ ⟨hs', gs', hob, hpb⟩
          exact Ret.ok ⟨⟨hJ, by
            have := hpb.static.ignore
            dsimp only at this ⊢; rw [this]; exact hJi⟩, rfl, hs', b', gs', hob, rfl, hpb⟩
      · exact ⟨rfl, by rw [groupsSwap_ignore]; exact hig2⟩
      · rw [hfl]; exact ht2.swap.room
      · rintro r ⟨⟨hJ, hJi⟩, hsr, Cs, hCs, hro, hpr⟩
        refine Ret.ok ⟨hJ, hsr.trans hs1, hJi, _, ?_, ht2.swap.pushed hpr⟩
        dsimp only
        rw [hro]
        exact hB5 _ Cs hCs
  cases hr : st.gi.ignore with
  | false =>
    simp only [Bool.false_eq_true, if_false]
    have := key st1.gi ht1 (by rw [hi1, hr]) rfl
    rw [hr] at this
    exact this
  | true =>
    simp only [if_true]
    have := key { st1.gi with ignore := true } ht1.setIgnore (by rw [hr]) rfl
    rw [hr] at this
    exact this

end Vctrs
