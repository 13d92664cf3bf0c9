import Verif.Model.MatchExpand
import Verif.SpecMatch
import Verif.Lemmas.MatchState
import Verif.Lemmas.RetOr

/-!
# Single steps of the expansion of compact matches
-/

namespace Vctrs

open Spec

/-- The error is the one for bad input, for a reason. -/
def Fails (A : Prop) (e : Err) : Prop := e = .abort ∧ A

theorem RetOr.weaken {α : Type} {c : C α} {P : α → Prop} {A A' : Prop} (h : RetOr c P (Fails A))
    (ha : A → A') : RetOr c P (Fails A') := by
  rcases h with h | ⟨e, h1, h2, h3⟩
  · exact .inl h
  · exact .inr ⟨e, h1, h2, ha h3⟩

theorem RetOr.abort {α : Type} {P : α → Prop} {A : Prop} (h : A) :
    RetOr (.error .abort : C α) P (Fails A) := .inr ⟨_, rfl, rfl, h⟩

/-- The pairs written so far. -/
structure XOut (cap : Nat) (pre : List (Int × Int)) (s : XState) : Prop where
  n : ∃ r, s.needles = pre.map (fun x => some x.1) ++ r ∧ pre.length + r.length = cap
  h : ∃ r, s.haystack = pre.map (fun x => some x.2) ++ r ∧ pre.length + r.length = cap
  loc : s.locOut = pre.length

theorem wr_append {α : Type} {p r : List α} {v : α} (h : 0 < r.length) :
    wr (p ++ r) p.length v = .ok (p ++ [v] ++ r.tail) := by
  rw [wr_ok (by rw [List.length_append]; omega)]
  congr 1
  cases r with
  | nil => simp at h
  | cons x r => simp

theorem XOut.emit {cap : Nat} {pre : List (Int × Int)} {s : XState} (h : XOut cap pre s)
    (hc : pre.length < cap) (a b : Int) :
    ∃ ns hs, wr s.needles s.locOut (some a) = .ok ns ∧ wr s.haystack s.locOut (some b) = .ok hs ∧
      ∀ s' : XState, s'.needles = ns → s'.haystack = hs → s'.locOut = s.locOut + 1 →
        XOut cap (pre ++ [(a, b)]) s' := by
  obtain ⟨rn, n1, n2⟩ := h.n
  obtain ⟨rh, h1, h2⟩ := h.h
  have hn := wr_append (p := pre.map (fun x => some x.1)) (r := rn) (v := some a) (by omega)
  have hh := wr_append (p := pre.map (fun x => some x.2)) (r := rh) (v := some b) (by omega)
  rw [List.length_map] at hn hh
  refine ⟨pre.map (fun x => some x.1) ++ [some a] ++ rn.tail,
    pre.map (fun x => some x.2) ++ [some b] ++ rh.tail, ?_, ?_, fun s' e1 e2 e3 => ⟨⟨rn.tail, ?_, ?_⟩, ⟨rh.tail, ?_, ?_⟩, ?_⟩⟩
  · rw [n1, h.loc]
    exact hn
  · rw [h1, h.loc]
    exact hh
  · rw [e1, List.map_append]
    rfl
  · simp only [List.length_append, List.length_tail, List.length_cons, List.length_nil]
    omega
  · rw [e2, List.map_append]
    rfl
  · simp only [List.length_append, List.length_tail, List.length_cons, List.length_nil]
    omega
  · rw [e3, h.loc]
    simp

/-- The rows of the haystack found so far. -/
structure XTrack (e : XEnv) (m : Nat) (done : List Nat) (s : XState) : Prop where
  retain : e.retain = true → s.track = true
  det : s.track = true → s.detected = (List.range m).map (fun r => decide (r ∈ done))
  check : s.checkHaystack = (checksHaystack e.multiple e.relationship && decide done.Nodup)
  track : s.checkHaystack = true → s.track = true
  any : s.anyHaystack = (checksHaystack e.multiple e.relationship && decide (¬ done.Nodup))
  rel : ¬ done.Nodup → e.relationship ≠ .oneToOne ∧ e.relationship ≠ .oneToMany

theorem checksHaystack_one {mu : MMultiple} {re : MRelationship}
    (h : re = .oneToOne ∨ re = .oneToMany) : checksHaystack mu re = true := by
  rcases h with rfl | rfl <;> rfl

theorem nodup_snoc {done : List Nat} {row : Nat} :
    (done ++ [row]).Nodup ↔ done.Nodup ∧ row ∉ done := by
  rw [List.nodup_append]
  simp only [List.nodup_cons, List.not_mem_nil, not_false_eq_true, List.nodup_nil, and_self,
    List.mem_singleton, true_and]
  constructor
  · rintro ⟨h1, h2⟩
    exact ⟨h1, fun h => h2 row h row rfl rfl⟩
  · rintro ⟨h1, h2⟩
    exact ⟨h1, fun a ha b hb => by rw [hb]; intro e; rw [e] at ha; exact h2 ha⟩

/-- What tracking does not change. -/
structure XSame (s s' : XState) : Prop where
  needles : s'.needles = s.needles
  haystack : s'.haystack = s.haystack
  locOut : s'.locOut = s.locOut
  checkNeedles : s'.checkNeedles = s.checkNeedles
  anyNeedles : s'.anyNeedles = s.anyNeedles
  previous : s'.previous = s.previous
  overall : s'.overall = s.overall

theorem detected_snoc {m row : Nat} {done : List Nat} (hr : row < m) :
    ((List.range m).map (fun r => decide (r ∈ done))).set row true =
      (List.range m).map (fun r => decide (r ∈ done ++ [row])) := by
  apply List.ext_getElem?
  intro r
  rw [getElem?_set' (by simpa using hr)]
  by_cases h : r < m
  · simp only [List.getElem?_map, List.getElem?_range h, Option.map_some, List.mem_append,
      List.mem_singleton]
    split
    · next e => simp [e]
    · next e => simp [e]
  · rw [if_neg (by omega)]
    simp [h]

theorem expandTrack_ok {e : XEnv} {m : Nat} {done : List Nat} {s : XState} (h : XTrack e m done s)
    {warns : Bool} (hw : warns = false → e.relationship = .warnManyToMany →
      checksHaystack e.multiple e.relationship = false) {row : Nat} (hr : row < m) :
    RetOr (expandTrack e warns row s) (fun s' => XTrack e m (done ++ [row]) s' ∧ XSame s s' ∧
        s'.warned = (s.warned || (e.relationship == .warnManyToMany && s.anyNeedles &&
          s'.anyHaystack && !s.anyHaystack)))
      (Fails ((e.relationship = .oneToOne ∨ e.relationship = .oneToMany) ∧
        ¬ (done ++ [row]).Nodup)) := by
  obtain ⟨retain, det, check, track, any, rel⟩ := h
  have hnd : ¬ done.Nodup → ¬ (done ++ [row]).Nodup := fun h h' => h (nodup_snoc.1 h').1
  have stay : s.checkHaystack = false →
      (checksHaystack e.multiple e.relationship && decide (done ++ [row]).Nodup) = false ∧
      (checksHaystack e.multiple e.relationship && decide (¬ (done ++ [row]).Nodup)) =
        (checksHaystack e.multiple e.relationship && decide (¬ done.Nodup)) ∧
      (¬ (done ++ [row]).Nodup → e.relationship ≠ .oneToOne ∧ e.relationship ≠ .oneToMany) := by
    intro hc
    rw [check] at hc
    cases hch : checksHaystack e.multiple e.relationship with
    | false =>
      refine ⟨rfl, rfl, fun _ => ⟨fun h => ?_, fun h => ?_⟩⟩
      · rw [checksHaystack_one (.inl h)] at hch
        cases hch
      · rw [checksHaystack_one (.inr h)] at hch
        cases hch
    | true =>
      rw [hch, Bool.true_and, decide_eq_false_iff_not] at hc
      rw [Bool.true_and, Bool.true_and, Bool.true_and, decide_eq_false (hnd hc),
        decide_eq_true (hnd hc), decide_eq_true hc]
      exact ⟨rfl, rfl, fun _ => rel hc⟩
  unfold expandTrack
  cases htr : s.track with
  | false =>
    rw [if_neg (by simp)]
    have hc : s.checkHaystack = false := by
      cases hc : s.checkHaystack
      · rfl
      · rw [track hc] at htr
        cases htr
    obtain ⟨s1, s2, s3⟩ := stay hc
    refine RetOr.ok ⟨⟨retain, fun h => (by rw [htr] at h; cases h), by rw [s1, hc], track,
      by rw [s2, any], s3⟩, ⟨rfl, rfl, rfl, rfl, rfl, rfl, rfl⟩, ?_⟩
    cases s.anyHaystack <;> simp
  | true =>
    rw [if_pos rfl]
    have hdet := det htr
    have hwr : ∀ d : List Bool, d = s.detected → wrI d (row : Int) true =
        .ok ((List.range m).map (fun r => decide (r ∈ done ++ [row]))) := by
      intro d hd
      rw [hd, hdet, wrI_nat (by simpa using hr), detected_snoc hr]
    cases hc : s.checkHaystack with
    | false =>
      rw [if_neg (by simp), ok_bind, hwr _ rfl, ok_bind]
      obtain ⟨s1, s2, s3⟩ := stay hc
      refine RetOr.ok ⟨⟨fun _ => htr, fun _ => rfl, by rw [s1]; exact hc, fun _ => htr,
        by rw [s2]; exact any, s3⟩, ⟨rfl, rfl, rfl, rfl, rfl, rfl, rfl⟩, ?_⟩
      dsimp only
      cases s.anyHaystack <;> simp
    | true =>
      rw [if_pos rfl]
      rw [check, Bool.and_eq_true, decide_eq_true_eq] at hc
      obtain ⟨hc, hd⟩ := hc
      have any0 : s.anyHaystack = false := by
        rw [any, hc, decide_eq_false (fun h => h hd)]
        rfl
      have seen : rdI s.detected (row : Int) = .ok (decide (row ∈ done)) := by
        rw [hdet]
        exact rdI_get (by simp [hr])
      rw [seen, ok_bind]
      dsimp only
      by_cases hin : row ∈ done
      · have hdup : ¬ (done ++ [row]).Nodup := fun h => (nodup_snoc.1 h).2 hin
        rw [decide_eq_true hin, if_pos rfl]
        unfold expandSeen
        cases hre : e.relationship with
        | oneToOne => exact RetOr.abort ⟨.inl rfl, hdup⟩
        | oneToMany => exact RetOr.abort ⟨.inr rfl, hdup⟩
        | warnManyToMany =>
          dsimp only
          cases warns with
          | false =>
            rw [hw rfl hre] at hc
            cases hc
          | true =>
            rw [if_pos rfl, ok_bind, hwr _ rfl, ok_bind]
            rw [hre] at hc
            refine RetOr.ok ⟨⟨?_, fun _ => rfl, ?_, ?_, ?_, ?_⟩,
              ⟨rfl, rfl, rfl, rfl, rfl, rfl, rfl⟩, ?_⟩
            · exact fun h => h
            · dsimp only
              rw [hre, hc, decide_eq_false hdup]
              rfl
            · intro h
              cases h
            · dsimp only
              rw [hre, hc, decide_eq_true hdup]
              rfl
            · intro _
              rw [hre]
              exact ⟨by simp, by simp⟩
            · dsimp only
              rw [any0]
              simp
        | none => rw [hre] at hc; cases hc
        | manyToOne => rw [hre] at hc; cases hc
        | manyToMany => rw [hre] at hc; cases hc
      · have hnd' : (done ++ [row]).Nodup := nodup_snoc.2 ⟨hd, hin⟩
        rw [decide_eq_false hin, if_neg (by simp), ok_bind, hwr _ rfl, ok_bind]
        refine RetOr.ok ⟨⟨fun _ => rfl, fun _ => rfl, ?_, fun _ => rfl, ?_, fun h => absurd hnd' h⟩,
          ⟨rfl, rfl, rfl, rfl, rfl, rfl, rfl⟩, ?_⟩
        · dsimp only
          rw [hc, decide_eq_true hnd']
          rfl
        · dsimp only
          rw [hc, decide_eq_false (fun h => h hnd')]
          rfl
        · dsimp only
          rw [any0]
          simp

/-- The state of the expansion after the pairs `pre`, with the rows `done`; `many` tells whether
several matches of a needle were seen. -/
structure XInv (e : XEnv) (cap m : Nat) (pre : List (Int × Int)) (done : List Nat) (many : Bool)
    (s : XState) : Prop where
  out : XOut cap pre s
  track : XTrack e m done s
  anyNeedles : s.anyNeedles = many
  checkNeedles : s.checkNeedles = (checksNeedles e.multiple && !many)
  fine : many = true → e.multiple ≠ .error ∧ e.relationship ≠ .oneToOne ∧
    e.relationship ≠ .manyToOne
  warned : s.warned = ((e.multiple == .warning && many) ||
    (e.relationship == .warnManyToMany && many && s.anyHaystack))

theorem expandOut_ok {e : XEnv} {cap m : Nat} {pre : List (Int × Int)} {done : List Nat}
    {many : Bool} {s : XState} (h : XInv e cap m pre done many s) (hc : pre.length < cap)
    (a b : Int) :
    Ret (expandOut a b s) (fun s' => XInv e cap m (pre ++ [(a, b)]) done many s' ∧
      s'.previous = s.previous ∧ s'.overall = s.overall) := by
  obtain ⟨ns, hs, h1, h2, h3⟩ := h.out.emit hc a b
  unfold expandOut
  rw [h1, ok_bind, h2, ok_bind]
  exact Ret.ok ⟨⟨h3 _ rfl rfl rfl, ⟨h.track.retain, h.track.det, h.track.check, h.track.track,
    h.track.any, h.track.rel⟩, h.anyNeedles, h.checkNeedles, h.fine, h.warned⟩, rfl, rfl⟩

/-- A row is written and tracked. -/
theorem emit_track_ok {e : XEnv} {cap m : Nat} {pre : List (Int × Int)} {done : List Nat}
    {many : Bool} {s : XState} (h : XInv e cap m pre done many s) (hc : pre.length < cap)
    {warns : Bool} (hw : warns = false → e.relationship = .warnManyToMany →
      checksHaystack e.multiple e.relationship = false) {row : Nat} (hr : row < m) (a b : Int)
    (f : XState → XState)
    (hf : ∀ s : XState, (f s).needles = s.needles ∧ (f s).haystack = s.haystack ∧
      (f s).locOut = s.locOut + 1 ∧ (f s).checkNeedles = s.checkNeedles ∧
      (f s).checkHaystack = s.checkHaystack ∧ (f s).anyNeedles = s.anyNeedles ∧
      (f s).anyHaystack = s.anyHaystack ∧ (f s).previous = s.previous ∧ (f s).track = s.track ∧
      (f s).detected = s.detected ∧ (f s).warned = s.warned) :
    RetOr (do
      let s ← (do
        let n ← wr s.needles s.locOut (some a)
        let h ← wr s.haystack s.locOut (some b)
        .ok { s with needles := n, haystack := h } : C XState)
      let s ← expandTrack e warns row s
      .ok (f s)) (fun s' => XInv e cap m (pre ++ [(a, b)]) (done ++ [row]) many s' ∧
        s'.previous = s.previous ∧ ∃ s0 : XState, s0.overall = s.overall ∧ s' = f s0)
      (Fails ((e.relationship = .oneToOne ∨ e.relationship = .oneToMany) ∧
        ¬ (done ++ [row]).Nodup)) := by
  obtain ⟨ns, hs, h1, h2, h3⟩ := h.out.emit hc a b
  rw [h1, ok_bind, h2, ok_bind, ok_bind]
  refine RetOr.bind (expandTrack_ok (s := { s with needles := ns, haystack := hs }) ⟨h.track.retain, h.track.det, h.track.check, h.track.track,
    h.track.any, h.track.rel⟩ hw hr) ?_
  rintro s' ⟨t, u, v⟩
  obtain ⟨f1, f2, f3, f4, f5, f6, f7, f8, f9, f10, f11⟩ := hf s'
  refine RetOr.ok ⟨⟨h3 _ (f1.trans u.needles) (f2.trans u.haystack) (f3.trans (by rw [u.locOut])),
    ⟨?_, ?_, ?_, ?_, ?_, t.rel⟩, ?_, ?_, h.fine, ?_⟩, ?_, s', u.overall, rfl⟩
  · rw [f9]; exact t.retain
  · rw [f9, f10]; exact t.det
  · rw [f5]; exact t.check
  · rw [f5, f9]; exact t.track
  · rw [f7]; exact t.any
  · rw [f6, u.anyNeedles]; exact h.anyNeedles
  · rw [f4, u.checkNeedles]; exact h.checkNeedles
  · rw [f11, f7, v]
    dsimp only
    rw [h.warned, h.anyNeedles, t.any, h.track.any]
    have mono : decide (¬ done.Nodup) = true → decide (¬ (done ++ [row]).Nodup) = true := by
      rw [decide_eq_true_eq, decide_eq_true_eq]
      exact fun h h' => h (nodup_snoc.1 h').1
    cases (e.multiple == MMultiple.warning) <;>
      cases (e.relationship == MRelationship.warnManyToMany) <;> cases many <;>
      cases (checksHaystack e.multiple e.relationship) <;>
      revert mono <;> cases (decide (¬ done.Nodup)) <;> cases (decide (¬ (done ++ [row]).Nodup)) <;>
      decide
  · rw [f8, u.previous]

theorem expandMatch_ok {e : XEnv} {cap m : Nat} {pre : List (Int × Int)} {done : List Nat}
    {many : Bool} {s : XState} (h : XInv e cap m pre done many s) (hc : pre.length < cap)
    {start loc : Int} {j row : Nat} (hr : row < m)
    (ho : rdI e.oHaystack (start + j) = .ok ((row : Int) + 1)) :
    RetOr (expandMatch e start loc j s) (fun s' =>
        XInv e cap m (pre ++ [(loc + 1, (row : Int) + 1)]) (done ++ [row]) many s' ∧
        s'.previous = s.previous ∧ s'.overall = s.overall)
      (Fails ((e.relationship = .oneToOne ∨ e.relationship = .oneToMany) ∧
        ¬ (done ++ [row]).Nodup)) := by
  unfold expandMatch
  rw [ho, ok_bind, nat_succ_pred]
  refine (emit_track_ok h hc (warns := true) (fun h => by cases h) hr (loc + 1) ((row : Int) + 1)
    (fun s => { s with locOut := s.locOut + 1 })
    (fun s => ⟨rfl, rfl, rfl, rfl, rfl, rfl, rfl, rfl, rfl, rfl, rfl⟩)).mono ?_
  rintro s' ⟨h1, h2, s0, h3, h4⟩
  refine ⟨h1, h2, ?_⟩
  rw [h4]
  exact h3

theorem expandCheckNeedles_ok {e : XEnv} {cap m : Nat} {pre : List (Int × Int)} {done : List Nat}
    {many : Bool} {s : XState} (h : XInv e cap m pre done many s) {size loc : Int} :
    RetOr (expandCheckNeedles e size loc s) (fun s' =>
        XInv e cap m pre done (many || (checksNeedles e.multiple &&
          decide (size > 1 ∨ loc = s.previous))) s' ∧ s'.overall = s.overall ∧
        (checksNeedles e.multiple = false → s' = s) ∧
        (checksNeedles e.multiple = true → many = true ∨ size > 1 ∨ s'.previous = loc) ∧
        (s'.previous = s.previous ∨ s'.previous = loc))
      (Fails ((e.multiple = .error ∨ e.relationship = .oneToOne ∨ e.relationship = .manyToOne) ∧
        checksNeedles e.multiple = true ∧ (size > 1 ∨ loc = s.previous))) := by
  unfold expandCheckNeedles
  cases hch : checksNeedles e.multiple with
  | false =>
    rw [if_neg (by rw [h.checkNeedles, hch]; simp)]
    refine RetOr.ok ⟨?_, rfl, fun _ => rfl, fun h => (by cases h), .inl rfl⟩
    rw [Bool.false_and, Bool.or_false]
    exact h
  | true =>
    cases hm : many with
    | true =>
      rw [if_neg (by rw [h.checkNeedles, hm]; simp)]
      refine RetOr.ok ⟨?_, rfl, fun h => (by cases h), fun _ => .inl rfl, .inl rfl⟩
      rw [Bool.true_or, ← hm]
      exact h
    | false =>
      subst hm
      have hwarn : s.warned = false := by rw [h.warned]; simp
      rw [if_pos (by rw [h.checkNeedles, hch]; rfl), Bool.false_or, Bool.true_and]
      by_cases hc : size > 1 ∨ loc = s.previous
      · rw [if_pos hc, decide_eq_true hc]
        have prevs : ∀ w : Bool, w = ((e.multiple == .warning) ||
            (e.relationship == .warnManyToMany && s.anyHaystack)) → e.multiple ≠ .error →
            e.relationship ≠ .oneToOne → e.relationship ≠ .manyToOne →
            XInv e cap m pre done true { s with anyNeedles := true, warned := w, checkNeedles := false } := by
          intro w hw e1 e2 e3
          refine ⟨⟨h.out.n, h.out.h, h.out.loc⟩, ⟨h.track.retain, h.track.det, h.track.check,
            h.track.track, h.track.any, h.track.rel⟩, rfl, ?_, fun _ => ⟨e1, e2, e3⟩, ?_⟩
          · simp
          · dsimp only
            rw [hw]
            simp
        have fin : ∀ w : Bool, w = ((e.multiple == .warning) ||
            (e.relationship == .warnManyToMany && s.anyHaystack)) → e.multiple ≠ .error →
            e.relationship ≠ .oneToOne → e.relationship ≠ .manyToOne →
            RetOr (.ok { s with anyNeedles := true, warned := w, checkNeedles := false }) (fun s' =>
              XInv e cap m pre done true s' ∧ s'.overall = s.overall ∧
              (true = false → s' = s) ∧
              (true = true → false = true ∨ size > 1 ∨ s'.previous = loc) ∧
              (s'.previous = s.previous ∨ s'.previous = loc))
            (Fails ((e.multiple = .error ∨ e.relationship = .oneToOne ∨
              e.relationship = .manyToOne) ∧ true = true ∧ (size > 1 ∨ loc = s.previous))) := by
          intro w h1 h2 h3 h4
          refine RetOr.ok ⟨prevs w h1 h2 h3 h4, rfl, fun h => (by cases h), fun _ => ?_, .inl rfl⟩
          rcases hc with hc | hc
          · exact .inr (.inl hc)
          · exact .inr (.inr hc.symm)
        cases hmu : e.multiple with
        | error => exact RetOr.abort ⟨.inl rfl, rfl, hc⟩
        | any => rw [hmu] at hch; cases hch
        | first => rw [hmu] at hch; cases hch
        | last => rw [hmu] at hch; cases hch
        | all =>
          rw [hmu] at fin
          dsimp only
          cases hre : e.relationship with
          | oneToOne => exact RetOr.abort ⟨.inr (.inl rfl), rfl, hc⟩
          | manyToOne => exact RetOr.abort ⟨.inr (.inr rfl), rfl, hc⟩
          | warnManyToMany =>
            rw [hre] at fin
            exact fin _ (by rw [hwarn]; rfl) (by simp) (by simp) (by simp)
          | none => rw [hre] at fin; exact fin _ (by rw [hwarn]; rfl) (by simp) (by simp) (by simp)
          | oneToMany => rw [hre] at fin; exact fin _ (by rw [hwarn]; rfl) (by simp) (by simp) (by simp)
          | manyToMany => rw [hre] at fin; exact fin _ (by rw [hwarn]; rfl) (by simp) (by simp) (by simp)
        | warning =>
          rw [hmu] at fin
          dsimp only
          cases hre : e.relationship with
          | oneToOne => exact RetOr.abort ⟨.inr (.inl rfl), rfl, hc⟩
          | manyToOne => exact RetOr.abort ⟨.inr (.inr rfl), rfl, hc⟩
          | warnManyToMany =>
            rw [hre] at fin
            exact fin _ (by rw [hwarn]; cases s.anyHaystack <;> rfl) (by simp) (by simp) (by simp)
          | none => rw [hre] at fin; exact fin _ (by rw [hwarn]; rfl) (by simp) (by simp) (by simp)
          | oneToMany => rw [hre] at fin; exact fin _ (by rw [hwarn]; rfl) (by simp) (by simp) (by simp)
          | manyToMany => rw [hre] at fin; exact fin _ (by rw [hwarn]; rfl) (by simp) (by simp) (by simp)
      · rw [if_neg hc, decide_eq_false hc]
        refine RetOr.ok ⟨⟨⟨h.out.n, h.out.h, h.out.loc⟩, ⟨h.track.retain, h.track.det,
          h.track.check, h.track.track, h.track.any, h.track.rel⟩, h.anyNeedles, h.checkNeedles,
          h.fine, h.warned⟩, rfl, fun h => (by cases h), fun _ => .inr (.inr rfl), .inr rfl⟩

end Vctrs
