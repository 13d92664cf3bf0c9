import Verif.Lemmas.OrderGroup

/-!
# Ordering of data frames
-/

namespace Vctrs

/-- The keys by which a column is ordered. -/
noncomputable def colKeys (decreasing naLast nanDistinct : Bool) : Val → List (Int → Nat)
  | .vec (.atom .int) (x : List Int) => [fun a => intKey decreasing naLast (locVal x a)]
  | .vec (.atom .lgl) (x : List Int) => [fun a => intKey decreasing naLast (locVal x a)]
  | .vec (.atom .dbl) (x : List Dbl) =>
    [fun a => dblAdjustElt decreasing naLast nanDistinct (locVal x a)]
  | .vec (.atom .cpl) (x : List (Dbl × Dbl)) => cplKeys decreasing naLast nanDistinct x
  | .vec (.atom .chr) (x : List Name) =>
    [fun a => rankKey (NameBefore decreasing naLast) x (locVal x a)]
  | _ => []

/-- A column that can be ordered, with values of its C type. -/
def ColOk (n : Nat) : Val → Prop
  | .vec (.atom .int) (x : List Int) => x.length = n ∧ ∀ v ∈ x, Spec.IsInt v
  | .vec (.atom .lgl) (x : List Int) => x.length = n ∧ ∀ v ∈ x, Spec.IsInt v
  | .vec (.atom .dbl) (x : List Dbl) => x.length = n
  | .vec (.atom .cpl) (x : List (Dbl × Dbl)) => x.length = n
  | .vec (.atom .chr) (x : List Name) => x.length = n ∧ ∀ s, some s ∈ x → IsBytes s
  | _ => False

/-- The counts allocated are enough for the column. -/
def CountsOk (countsLen : Nat) (v : Val) : Prop := ∀ b, nBytesCounts v = .ok b → 256 * b ≤ countsLen

theorem map_locVal {α : Type} [Inhabited α] {x : List α} {n : Nat} (h : x.length = n) :
    x = (oneTo n).map (locVal x) := by subst h; exact (locVal_map x).symm

theorem LexOk.of_ordOk {key : Int → Nat} {n : Nat} {force : Bool} {st : OrdState}
    {r : List Int × OrdState} (h : OrdOk key (oneTo n) st r) (ht : Tracked n force [] st.gi) :
    LexOk [key] n force st.gi.ignore st.static r := by
  obtain ⟨h1, gs, h2, h3⟩ := h
  exact ⟨h1, h3.static.ignore, gs, LexOrdered.single h2, ht.pushed h3⟩

/-- Ordering one vector. -/
theorem orderBaseSwitch_ok (decreasing naLast nanDistinct : Bool) {countsLen n : Nat} {v : Val}
    (hv : ColOk n v) (hcl : CountsOk countsLen v) (hn : n ≤ intMax) {tl0 : TL} {ts : TlState}
    (hts : TlClean tl0 n ts) (h0 : ∀ u, 0 ≤ tl0 u) {st : OrdState} (hs : StaticOk st.static)
    {force : Bool} (ht : Tracked n force [] st.gi)
    (hst : GHas st.gi [] ∧ st.gi.current.maxGroupSize = 0) :
    Ret (orderBaseSwitch decreasing naLast nanDistinct true countsLen v ts st) (fun r =>
      TlClean tl0 n r.2.1 ∧ LexOk (colKeys decreasing naLast nanDistinct v) n force st.gi.ignore
        st.static (r.1, r.2.2)) := by
  match v, hv, hcl with
  | .vec (.atom .int) (x : List Int), ⟨hx, hi⟩, hcl =>
    have hc : 4 * 256 ≤ countsLen := by have := hcl 4 rfl; omega
    have := intOrder_ok (val := locVal x) (n := n) decreasing naLast (fun a ha => by
      subst hx; exact hi _ (locVal_mem ha)) hc hs ht.room
    rw [← map_locVal hx] at this
    refine Ret.bind this ?_
    rintro ⟨o, st'⟩ h
    exact Ret.ok ⟨hts, LexOk.of_ordOk h ht⟩
  | .vec (.atom .lgl) (x : List Int), ⟨hx, hi⟩, hcl =>
    have hc : 4 * 256 ≤ countsLen := by have := hcl 4 rfl; omega
    have := intOrder_ok (val := locVal x) (n := n) decreasing naLast (fun a ha => by
      subst hx; exact hi _ (locVal_mem ha)) hc hs ht.room
    rw [← map_locVal hx] at this
    refine Ret.bind this ?_
    rintro ⟨o, st'⟩ h
    exact Ret.ok ⟨hts, LexOk.of_ordOk h ht⟩
  | .vec (.atom .dbl) (x : List Dbl), hx, hcl =>
    have hc : 8 * 256 ≤ countsLen := by have := hcl 8 rfl; omega
    have := dblOrder_ok (val := locVal x) (n := n) decreasing naLast nanDistinct hc ht.room
    rw [← map_locVal hx] at this
    refine Ret.bind this ?_
    rintro ⟨o, st'⟩ h
    exact Ret.ok ⟨hts, LexOk.of_ordOk h ht⟩
  | .vec (.atom .cpl) (x : List (Dbl × Dbl)), hx, hcl =>
    have hc : 8 * 256 ≤ countsLen := by have := hcl 8 rfl; omega
    have hx' : x.length = n := hx
    subst hx'
    refine (cplOrder_ok decreasing naLast nanDistinct hc ts ht hst).mono ?_
    rintro ⟨o, ts', st'⟩ ⟨h1, h2⟩
    exact ⟨h1 ▸ hts, h2⟩
  | .vec (.atom .chr) (x : List Name), ⟨hx, hb⟩, hcl =>
    have hc : 4 * 256 ≤ countsLen := by have := hcl 4 rfl; omega
    have hk := strKey_rank decreasing naLast x
    have hb' : ∀ a ∈ oneTo n, ∀ s, locVal x a = some s → IsBytes s := by
      intro a ha s hs'
      subst hx
      exact hb s (hs' ▸ locVal_mem ha)
    have hk' : StrKey decreasing naLast ((oneTo n).map (locVal x))
        (rankKey (NameBefore decreasing naLast) x) := by rw [← map_locVal hx]; exact hk
    have := chrOrder_ok hts h0 hn (val := locVal x) decreasing naLast hb' hk' hc hs ht.room
    rw [← map_locVal hx] at this
    refine this.mono ?_
    rintro ⟨o, ts', st'⟩ ⟨h1, h2⟩
    exact ⟨h1, LexOk.of_ordOk h2 ht⟩

/-- What has to hold of the marks before a chunk of a column is ordered. -/
def MarksFor (tl0 : TL) (n : Nat) (v : Val) (ts : TlState) : Prop :=
  match v.chr? with
  | some x => ∃ V, MarkedSorted tl0 n V ts ∧ ∀ s, s ∈ V ↔ some s ∈ x
  | none => TlClean tl0 n ts

theorem colKeys_single {decreasing naLast nanDistinct : Bool} {n : Nat} {v : Val} (hv : ColOk n v)
    (hc : v.isCpl = false) : ∃ k, colKeys decreasing naLast nanDistinct v = [k] := by
  match v, hv, hc with
  | .vec (.atom .int) (x : List Int), _, _ => exact ⟨_, rfl⟩
  | .vec (.atom .lgl) (x : List Int), _, _ => exact ⟨_, rfl⟩
  | .vec (.atom .dbl) (x : List Dbl), _, _ => exact ⟨_, rfl⟩
  | .vec (.atom .chr) (x : List Name), _, _ => exact ⟨_, rfl⟩

/-- Ordering one chunk of a column that is not complex. -/
theorem orderChunkSwitch_ok (decreasing naLast nanDistinct re : Bool) {cap countsLen n : Nat}
    {v : Val} (hv : ColOk n v) (hcpl : v.isCpl = false) (hcl : CountsOk countsLen v)
    (hn : n ≤ intMax) {tl0 : TL} {ts : TlState} (hts : MarksFor tl0 n v ts)
    {k : Int → Nat} (hk : colKeys decreasing naLast nanDistinct v = [k])
    {w : List Int} (hw : ∀ a ∈ w, a ∈ oneTo n) (hcap : w.length ≤ cap)
    {st : OrdState} (hs : StaticOk st.static) (hroom : Room st.gi w.length) :
    Ret (orderChunkSwitch decreasing naLast nanDistinct true re cap countsLen v w ts st) (fun r =>
      r.2.1 = ts ∧ OrdOk k w st (r.1, r.2.2)) := by
  match v, hv, hcl, hcpl, hts, hk with
  | .vec (.atom .int) (x : List Int), ⟨hx, hi⟩, hcl, _, _, hk =>
    have hc : 4 * 256 ≤ countsLen := by have := hcl 4 rfl; omega
    subst hx
    have hk' : k = fun a => intKey decreasing naLast (locVal x a) := (List.cons.inj hk).1.symm
    subst hk'
    refine Ret.bind_eq (extractChunk_ok id hw) ?_
    refine Ret.bind (intOrderChunk_ok (val := locVal x) decreasing naLast
      (fun a ha => hi _ (locVal_mem (hw a ha))) hcap hc hs hroom) ?_
    rintro ⟨o, st'⟩ h
    exact Ret.ok ⟨rfl, h⟩
  | .vec (.atom .lgl) (x : List Int), ⟨hx, hi⟩, hcl, _, _, hk =>
    have hc : 4 * 256 ≤ countsLen := by have := hcl 4 rfl; omega
    subst hx
    have hk' : k = fun a => intKey decreasing naLast (locVal x a) := (List.cons.inj hk).1.symm
    subst hk'
    refine Ret.bind_eq (extractChunk_ok id hw) ?_
    refine Ret.bind (intOrderChunk_ok (val := locVal x) decreasing naLast
      (fun a ha => hi _ (locVal_mem (hw a ha))) hcap hc hs hroom) ?_
    rintro ⟨o, st'⟩ h
    exact Ret.ok ⟨rfl, h⟩
  | .vec (.atom .dbl) (x : List Dbl), hx, hcl, _, _, hk =>
    have hc : 8 * 256 ≤ countsLen := by have := hcl 8 rfl; omega
    have hx' : x.length = n := hx
    subst hx'
    have hk' : k = fun a => dblAdjustElt decreasing naLast nanDistinct (locVal x a) :=
      (List.cons.inj hk).1.symm
    subst hk'
    refine Ret.bind_eq (extractChunk_ok id hw) ?_
    refine Ret.bind (dblOrderChunk_ok (val := locVal x) decreasing naLast nanDistinct
      hcap hc hroom) ?_
    rintro ⟨o, st'⟩ h
    exact Ret.ok ⟨rfl, h⟩
  | .vec (.atom .chr) (x : List Name), ⟨hx, hb⟩, hcl, _, hts, hk =>
    have hc : 4 * 256 ≤ countsLen := by have := hcl 4 rfl; omega
    obtain ⟨V, hV, hVx⟩ : ∃ V, MarkedSorted tl0 n V ts ∧ ∀ s, s ∈ V ↔ some s ∈ x := hts
    have hk' : k = fun a => rankKey (NameBefore decreasing naLast) x (locVal x a) :=
      (List.cons.inj hk).1.symm
    subst hk'
    have hw' : ∀ a ∈ w, a ∈ oneTo x.length := by rw [hx]; exact hw
    refine Ret.bind_eq (extractChunk_ok id hw') ?_
    rw [if_pos rfl]
    refine Ret.bind (chrOrderChunk_ok hV hn (val := locVal x) decreasing naLast
      (fun a ha s hs' => (hVx s).2 (hs' ▸ locVal_mem (hw' a ha)))
      ((strKey_rank decreasing naLast x).sub (by
        intro a ha
        obtain ⟨b, hb', rfl⟩ := List.mem_map.1 ha
        exact locVal_mem (hw' b hb'))) hcap hc hs hroom) ?_
    rintro ⟨o, st'⟩ h
    exact Ret.ok ⟨rfl, h⟩

/-- A column with the way it is ordered. -/
abbrev DfCol := Bool × Bool × Val

/-- The keys of the columns. -/
noncomputable def dfKeys (nanDistinct : Bool) (ps : List DfCol) : List (Int → Nat) :=
  ps.flatMap (fun p => colKeys p.1 p.2.1 nanDistinct p.2.2)

/-- An argument given once for all or for each column. -/
def ArgFor (arg : List Bool) (vals : List Bool) : Prop :=
  arg = vals ∨ ∃ d, arg = [d] ∧ ∀ v ∈ vals, v = d

theorem ArgFor.step {arg vals : List Bool} (h : ArgFor arg vals) {d0 : Bool}
    (hd0 : arg.length = 1 → arg[0]? = some d0) {i : Nat} {v : Bool} (hv : vals[i]? = some v) :
    (if arg.length = 1 then .ok d0 else rdI arg (i : Int) : C Bool) = .ok v := by
  split
  · rename_i h1
    rcases h with rfl | ⟨d, rfl, hall⟩
    · obtain ⟨c, hc⟩ := List.length_eq_one_iff.1 h1
      subst hc
      have := hd0 h1
      simp at this
      subst this
      have hi := (List.getElem?_eq_some_iff.1 hv).1
      have : i = 0 := by simp at hi; omega
      subst this
      simp at hv
      rw [hv]
    · have := hd0 h1
      simp at this
      subst this
      rw [hall v (List.mem_of_getElem? hv)]
  · rename_i h1
    rcases h with rfl | ⟨d, rfl, hall⟩
    · unfold rdI
      rw [if_neg (by omega)]
      exact rd_of_getElem? (by simpa using hv)
    · simp at h1

/-- Invariant of the loop over the columns. -/
structure DfInv (n : Nat) (force nanDistinct : Bool) (tl0 : TL) (static : List Nat)
    (ps : List DfCol) (decreasing naLast : List Bool) (i : Nat) (s : DfLoop) : Prop where
  rerun : s.rerun = false
  ts : TlClean tl0 n s.ts
  static : s.st.static = static
  ord : ∃ gs, LexOrdered (dfKeys nanDistinct (ps.take i)) (oneTo n) s.o gs ∧
    Tracked n force gs s.st.gi
  ign : i < ps.length → s.st.gi.ignore = false
  ignF : force = true → s.st.gi.ignore = false
  dec : decreasing.length = 1 → decreasing[0]? = some s.decreasing
  nal : naLast.length = 1 → naLast[0]? = some s.naLast

/-- One round of the loop, for a column that is not complex. -/
theorem dfColumn_ok {n countsLen : Nat} {nanDistinct force : Bool} {tl0 : TL} {static : List Nat}
    {ps : List DfCol} {decreasing naLast : List Bool} (hn : n ≤ intMax) (h0 : ∀ u, 0 ≤ tl0 u)
    (hs : StaticOk static) (hdec : ArgFor decreasing (ps.map (·.1)))
    (hnal : ArgFor naLast (ps.map (·.2.1))) {i : Nat} {p : DfCol} (hp : ps[i]? = some p)
    (hv : ColOk n p.2.2) (hcpl : p.2.2.isCpl = false) (hcl : CountsOk countsLen p.2.2)
    {s : DfLoop} (h : DfInv n force nanDistinct tl0 static ps decreasing naLast i s) :
    Ret (dfColumn nanDistinct true n countsLen (ps.map (·.2.2)) decreasing naLast (i : Int) s)
      (fun r => r.2 = (i : Int) ∧
        DfInv n force nanDistinct tl0 static ps decreasing naLast (i + 1) r.1) := by
  obtain ⟨hrer, hts, hst, ⟨gs, hord, htr⟩, hign, hignF, hd, hna⟩ := h
  have hil := (List.getElem?_eq_some_iff.1 hp).1
  have hig := hign hil
  obtain ⟨hng, hgd⟩ := htr.pre hig
  unfold dfColumn
  dsimp only
  refine Ret.bind_eq (hdec.step hd (by rw [List.getElem?_map, hp]; rfl)) ?_
  refine Ret.bind_eq (hnal.step hna (by rw [List.getElem?_map, hp]; rfl)) ?_
  have hcol : rdI (ps.map (·.2.2)) (i : Int) = .ok p.2.2 := by
    unfold rdI
    rw [if_neg (by omega)]
    exact rd_of_getElem? (by
      rw [Int.toNat_natCast, List.getElem?_map, hp]; rfl)
  refine Ret.bind_eq hcol ?_
  rw [hcpl, hrer]
  simp only [Bool.false_eq_true, if_false]
  -- marks
  have hmark : Ret (match p.2.2.chr? with
      | some x => if true = true then chrMarkSortedUniques n x s.ts else .ok s.ts
      | none => .ok s.ts : C TlState) (MarksFor tl0 n p.2.2) := by
    unfold MarksFor
    match hpv : p.2.2, hv with
    | .vec (.atom .chr) (x : List Name), hv =>
      obtain ⟨hx, hb⟩ : x.length = n ∧ ∀ s, some s ∈ x → IsBytes s := hv
      simp only [Val.chr?]
      rw [if_pos trivial]
      refine (chrMarkSortedUniques_ok hts (by omega) (by omega) hb).mono ?_
      rintro r ⟨V, h1, h2⟩
      exact ⟨V, h1, fun s => (h2 s).trans ⟨fun h => h.1, fun h => ⟨h, h0 _⟩⟩⟩
    | .vec (.atom .int) x, _ => exact Ret.ok hts
    | .vec (.atom .lgl) x, _ => exact Ret.ok hts
    | .vec (.atom .dbl) x, _ => exact Ret.ok hts
    | .vec (.atom .cpl) x, _ => exact Ret.ok hts
  refine Ret.bind hmark ?_
  intro ts1 hts1
  -- groups
  generalize hgi : (if (i : Int) = ((ps.map (·.2.2)).length : Int) - 1 ∧ s.st.gi.force = false ∧ True then
    { s.st.gi with ignore := true } else s.st.gi) = gi1
  have hgi1 : Tracked n force gs gi1 ∧ (i + 1 < ps.length → gi1.ignore = false) ∧
      (force = true → gi1.ignore = false) := by
    rw [← hgi]
    split
    · rename_i hc
      obtain ⟨c1, c2, _⟩ := hc
      rw [List.length_map] at c1
      refine ⟨htr.setIgnore, fun hlt => by omega, fun hf => ?_⟩
      rw [htr.force, hf] at c2
      cases c2
    · exact ⟨htr, fun _ => hig, fun _ => hig⟩
  obtain ⟨ht1, hi1, hf1⟩ := hgi1
  obtain ⟨k, hk⟩ := colKeys_single (decreasing := p.1) (naLast := p.2.1)
    (nanDistinct := nanDistinct) hv hcpl
  obtain ⟨B, hB1, hB2, hB3, hB4, hB5⟩ := hord.refine
  have hBl : gs.length = B.length := by rw [hB2, List.length_map]
  have hfl : B.flatten.length = n := by
    have := hord.length
    rw [hB1, oneTo_length] at this
    exact this
  rw [hng, hBl]
  refine Ret.bind (tieLoop_ok (fun s : GroupLoop × Int => s.1) (fun q => q.2 = (i : Int) ∧
    q.1.ts = ts1 ∧ q.1.st.gi.ignore = gi1.ignore ∧ q.1.st.static = static) (B := B) (key2 := k)
    ?_ ?_ hB1 rfl ?_) ?_
  · rintro g b hgb q ⟨hJ1, hJ2, hJ3, hJ4⟩ ⟨pre, post, hso, hoff⟩ hoff2 hroom
    have hbB : b ∈ B := List.mem_of_getElem? hgb
    have hbpos : 0 < b.length := List.length_pos_iff.2 (hB3 b hbB)
    have hgs : gs[g]? = some b.length := by rw [hB2, List.getElem?_map, hgb]; rfl
    unfold dfGroup
    refine Ret.bind_eq (hgd g _ hgs) ?_
    split
    · rename_i h1
      refine Ret.bind (groupsSizeMaybePush_ok (by omega) (hroom.mono (by omega))) ?_
      intro gi' hgi'
      refine Ret.ok ⟨⟨hJ1, hJ2, by
        have := hgi'.static.ignore
        dsimp only; rw [this]; exact hJ3, hJ4⟩, by dsimp only; rw [h1], rfl, b, [1], ?_, ?_, hgi'⟩
      · have := Ordered.const (· < ·) (key := k) (w := b) (k := k (b.head (hB3 b hbB))) (by
            intro a ha
            obtain ⟨c, hc⟩ := List.length_eq_one_iff.1 h1
            subst hc
            simp at ha
            subst ha
            rfl) hbpos
        rwa [h1] at this
      · dsimp only
        rw [hso, putBack_mid hoff rfl]
    · rename_i h1
      have hwo : window q.1.o q.1.off b.length = .ok b := by
        rw [hso]; exact window_mid hoff rfl
      refine Ret.bind_eq hwo ?_
      have hble : b.length ≤ n := by
        rw [← hfl]
        exact (List.sublist_flatten_of_mem hbB).length_le
      refine Ret.bind (orderChunkSwitch_ok p.1 p.2.1 nanDistinct false hv hcpl hcl hn
        (by rw [hJ2]; exact hts1) hk (fun a ha => hB4 b hbB a ha) hble
        (by rw [hJ4]; exact hs) hroom) ?_
      rintro ⟨b', ts', st'⟩ ⟨hts', hs', gs', hob, hpb⟩
      refine Ret.ok ⟨⟨?_, ?_, ?_, ?_⟩, rfl, hs', b', gs', hob, rfl, hpb⟩
      · simp [hJ1]
      · exact hts'.trans hJ2
      · exact hpb.static.ignore.trans hJ3
      · exact hs'.trans hJ4
  · exact ⟨rfl, rfl, groupsSwap_ignore _, hst⟩
  · rw [hfl]; exact ht1.swap.room
  · rintro ⟨q, qi⟩ ⟨⟨hJ1, hJ2, hJ3, hJ4⟩, hsr, Cs, hCs, hro, hpr⟩
    dsimp only at hJ1 hJ2 hJ3 hJ4 hsr hro hpr ⊢
    have hreset : Ret (match p.2.2.chr? with
        | some _ => if true = true then truelengthReset q.ts else .ok q.ts
        | none => .ok q.ts : C TlState) (TlClean tl0 n) := by
      rw [hJ2]
      unfold MarksFor at hts1
      split
      · rename_i x hx
        rw [hx] at hts1
        obtain ⟨V, hV, _⟩ := hts1
        rw [if_pos rfl]
        exact truelengthReset_ok hV.saved
      · rename_i hx
        rw [hx] at hts1
        exact Ret.ok hts1
    refine Ret.bind hreset ?_
    intro ts2 hts2
    refine Ret.ok ⟨hJ1, rfl, hts2, hJ4, ⟨_, ?_, ht1.swap.pushed hpr⟩, ?_, ?_, ?_, ?_⟩
    · dsimp only
      have hge : ps[i] = p := (List.getElem?_eq_some_iff.1 hp).2
      have : dfKeys nanDistinct (ps.take (i + 1)) = dfKeys nanDistinct (ps.take i) ++ [k] := by
        rw [List.take_succ_eq_append_getElem hil, hge]
        unfold dfKeys
        rw [List.flatMap_append, List.flatMap_singleton, hk]
      rw [this, hro]
      exact hB5 _ Cs hCs
    · intro hlt
      dsimp only
      rw [hJ3]
      exact hi1 hlt
    · intro hf
      dsimp only
      rw [hJ3]
      exact hf1 hf
    · intro h1
      dsimp only
      rcases hdec with he | ⟨d, he, hall⟩
      · rw [he, List.length_map] at h1
        have : i = 0 := by omega
        subst this
        rw [he, List.getElem?_map, hp]
        rfl
      · rw [he, hall p.1 (List.mem_map_of_mem (List.mem_of_getElem? hp))]
        rfl
    · intro h1
      dsimp only
      rcases hnal with he | ⟨d, he, hall⟩
      · rw [he, List.length_map] at h1
        have : i = 0 := by omega
        subst this
        rw [he, List.getElem?_map, hp]
        rfl
      · rw [he, hall p.2.1 (List.mem_map_of_mem (f := fun q : DfCol => q.2.1)
          (List.mem_of_getElem? hp))]
        rfl

/-- What the loop over the columns gives. -/
def DfDone (n : Nat) (force nanDistinct : Bool) (tl0 : TL) (static : List Nat) (ps : List DfCol)
    (o : List Int) (ts : TlState) (st : OrdState) : Prop :=
  TlClean tl0 n ts ∧ st.static = static ∧ (force = true → st.gi.ignore = false) ∧
    ∃ gs, LexOrdered (dfKeys nanDistinct ps) (oneTo n) o gs ∧ Tracked n force gs st.gi

theorem dfLoop_ok {n countsLen : Nat} {nanDistinct force : Bool} {tl0 : TL} {static : List Nat}
    {ps : List DfCol} {decreasing naLast : List Bool} (hn : n ≤ intMax) (h0 : ∀ u, 0 ≤ tl0 u)
    (hs : StaticOk static) (hdec : ArgFor decreasing (ps.map (·.1)))
    (hnal : ArgFor naLast (ps.map (·.2.1)))
    (hv : ∀ p ∈ ps, ColOk n p.2.2) (hcl : ∀ p ∈ ps, CountsOk countsLen p.2.2)
    (hcpl : ∀ (i : Nat) (p : DfCol), 0 < i → ps[i]? = some p → p.2.2.isCpl = false) :
    ∀ (fuel i : Nat) (s : DfLoop), 0 < i → i ≤ ps.length → ps.length < fuel + i →
      DfInv n force nanDistinct tl0 static ps decreasing naLast i s →
      Ret (dfLoop nanDistinct true n countsLen (ps.map (·.2.2)) decreasing naLast fuel (i : Int) s)
        (fun r => DfDone n force nanDistinct tl0 static ps r.o r.ts r.st) := by
  intro fuel
  induction fuel with
  | zero => intro i s h1 h2 h3; omega
  | succ fuel ih =>
    intro i s hi hil hf h
    unfold dfLoop
    rw [List.length_map]
    split
    · rename_i hlt
      have hlt' : i < ps.length := by omega
      have hp : ps[i]? = some ps[i] := List.getElem?_eq_getElem hlt'
      obtain ⟨gs, hord, htr⟩ := h.ord
      split
      · rename_i hall
        refine Ret.ok ⟨h.ts, h.static, h.ignF, gs, ?_, htr⟩
        rw [(htr.pre (h.ign hlt')).1] at hall
        have := hord.more (by rw [oneTo_length]; exact hall) (dfKeys nanDistinct (ps.drop i))
        have he : dfKeys nanDistinct ps =
            dfKeys nanDistinct (ps.take i) ++ dfKeys nanDistinct (ps.drop i) := by
          unfold dfKeys
          rw [← List.flatMap_append, List.take_append_drop]
        rw [he]
        exact this
      · refine Ret.bind (dfColumn_ok hn h0 hs hdec hnal hp (hv _ (List.getElem_mem hlt'))
          (hcpl i _ hi hp) (hcl _ (List.getElem_mem hlt')) h) ?_
        rintro ⟨s', i'⟩ ⟨hi', h'⟩
        dsimp only at hi' h' ⊢
        subst hi'
        have := ih (i + 1) s' (by omega) (by omega) (by omega) h'
        rw [Int.natCast_add] at this
        exact this
    · rename_i hge
      have : i = ps.length := by omega
      subst this
      obtain ⟨gs, hord, htr⟩ := h.ord
      rw [List.take_length] at hord
      exact Ret.ok ⟨h.ts, h.static, h.ignF, gs, hord, htr⟩

theorem dfOrderInternal_ok {n countsLen : Nat} {nanDistinct force : Bool} {tl0 : TL}
    {ps : List DfCol} {decreasing naLast : List Bool} (hn : n ≤ intMax) (h0 : ∀ u, 0 ≤ tl0 u)
    (hdec : ArgFor decreasing (ps.map (·.1))) (hnal : ArgFor naLast (ps.map (·.2.1)))
    (hv : ∀ p ∈ ps, ColOk n p.2.2) (hcl : ∀ p ∈ ps, CountsOk countsLen p.2.2)
    (hcpl : ∀ (i : Nat) (p : DfCol), 0 < i → ps[i]? = some p → p.2.2.isCpl = false)
    {ts : TlState} (hts : TlClean tl0 n ts) {st : OrdState} (hs : StaticOk st.static)
    (ht : Tracked n force [] st.gi) (hi : st.gi.ignore = false) {fuel : Nat}
    (hf : ps.length ≤ fuel) :
    Ret (dfOrderInternal fuel nanDistinct true n countsLen (ps.map (·.2.2)) decreasing naLast ts st)
      (fun r => DfDone n force nanDistinct tl0 st.static ps r.1 r.2.1 r.2.2) := by
  have hdl : ¬ (decreasing.length ≠ 1 ∧ decreasing.length ≠ (ps.map (·.2.2)).length) := by
    rintro ⟨h1, h2⟩
    rcases hdec with he | ⟨d, he, _⟩
    · rw [he] at h2; simp at h2
    · rw [he] at h1; simp at h1
  have hnl : ¬ (naLast.length ≠ 1 ∧ naLast.length ≠ (ps.map (·.2.2)).length) := by
    rintro ⟨h1, h2⟩
    rcases hnal with he | ⟨d, he, _⟩
    · rw [he] at h2; simp at h2
    · rw [he] at h1; simp at h1
  unfold dfOrderInternal
  rw [if_neg hdl, if_neg hnl]
  split
  · rename_i h00
    have hps : ps = [] := by simpa using h00
    subst hps
    refine Ret.bind_eq (intIncr_ok n) ?_
    by_cases hn0 : n = 0
    · subst hn0
      rw [if_neg (by simp)]
      refine Ret.ok ⟨hts, rfl, fun _ => hi, [], ?_, ht⟩
      exact Ordered.nil _ _
    · rw [if_pos hn0]
      refine Ret.bind (groupsSizeMaybePush_ok (by omega) (ht.room.mono (by omega))) ?_
      intro gi hgi
      refine Ret.ok ⟨hts, rfl, fun _ => hgi.static.ignore.trans hi, [n], ?_, ht.pushed hgi⟩
      have := Ordered.const LexLt (key := keysOf (dfKeys nanDistinct [])) (w := oneTo n) (k := [])
        (fun a _ => rfl) (by rw [oneTo_length]; omega)
      rw [oneTo_length] at this
      exact this
  · rename_i hne
    rw [List.length_map] at hne
    have hpos : 0 < ps.length := by omega
    have hp : ps[0]? = some ps[0] := List.getElem?_eq_getElem hpos
    have hcol : rd (ps.map (·.2.2)) 0 = .ok ps[0].2.2 :=
      rd_of_getElem? (by rw [List.getElem?_map, hp]; rfl)
    have hd0 : decreasing[0]? = some ps[0].1 := by
      rcases hdec with he | ⟨d, he, hall⟩
      · rw [he, List.getElem?_map, hp]; rfl
      · rw [he, hall ps[0].1 (List.mem_map_of_mem (List.getElem_mem hpos))]; rfl
    have hn0 : naLast[0]? = some ps[0].2.1 := by
      rcases hnal with he | ⟨d, he, hall⟩
      · rw [he, List.getElem?_map, hp]; rfl
      · rw [he, hall ps[0].2.1 (List.mem_map_of_mem (f := fun q : DfCol => q.2.1)
          (List.getElem_mem hpos))]; rfl
    refine Ret.bind_eq hcol ?_
    refine Ret.bind_eq (rd_of_getElem? hd0) ?_
    refine Ret.bind_eq (rd_of_getElem? hn0) ?_
    refine Ret.bind (orderBaseSwitch_ok ps[0].1 ps[0].2.1 nanDistinct (hv _ (List.getElem_mem hpos))
      (hcl _ (List.getElem_mem hpos)) hn hts h0 hs ht (ht.has hi)) ?_
    rintro ⟨o, ts1, st1⟩ ⟨hts1, hs1, hi1, gs, hL, ht1⟩
    dsimp only at hts1 hs1 hi1 hL ht1 ⊢
    rw [hi] at hi1
    have hinv : DfInv n force nanDistinct tl0 st.static ps decreasing naLast 1
        ⟨o, ts1, st1, false, ps[0].1, ps[0].2.1⟩ := by
      refine ⟨rfl, hts1, hs1, ⟨gs, ?_, ht1⟩, fun _ => hi1, fun _ => hi1, fun _ => hd0, fun _ => hn0⟩
      have : ps.take 1 = [ps[0]] := by
        rw [List.take_succ_eq_append_getElem hpos]; rfl
      rw [this]
      unfold dfKeys
      rw [List.flatMap_singleton]
      exact hL
    refine Ret.bind (dfLoop_ok hn h0 hs hdec hnal hv hcl hcpl fuel 1 _ (by omega) (by omega)
      (by omega) hinv) ?_
    intro r hr
    exact Ret.ok hr

theorem dfOrder_ok {n countsLen : Nat} {nanDistinct force : Bool} {tl0 : TL}
    {ps : List DfCol} {decreasing naLast : List Bool} (hn : n ≤ intMax) (h0 : ∀ u, 0 ≤ tl0 u)
    (hdec : ArgFor decreasing (ps.map (·.1))) (hnal : ArgFor naLast (ps.map (·.2.1)))
    (hv : ∀ p ∈ ps, ColOk n p.2.2) (hcl : ∀ p ∈ ps, CountsOk countsLen p.2.2)
    (hcpl : ∀ (i : Nat) (p : DfCol), 0 < i → ps[i]? = some p → p.2.2.isCpl = false)
    {ts : TlState} (hts : TlClean tl0 n ts) {st : OrdState} (hs : StaticOk st.static)
    (ht : Tracked n force [] st.gi) (hi : st.gi.ignore = false) {fuel : Nat}
    (hf : ps.length ≤ fuel) :
    Ret (dfOrder fuel nanDistinct true n countsLen (ps.map (·.2.2)) decreasing naLast ts st)
      (fun r => DfDone n force nanDistinct tl0 st.static ps r.1 r.2.1 r.2.2) := by
  unfold dfOrder
  refine Ret.bind (dfOrderInternal_ok hn h0 hdec hnal hv hcl hcpl hts hs ht hi hf) ?_
  rintro ⟨o, ts', st'⟩ ⟨h1, h2⟩
  refine Ret.bind (truelengthReset_ok h1.saved) ?_
  intro ts2 hts2
  exact Ret.ok ⟨hts2, h2⟩

end Vctrs
