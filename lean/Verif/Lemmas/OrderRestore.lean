import Verif.Lemmas.OrderTop

/-!
# Ordering restores the TRUELENGTHs, whatever they are
-/

namespace Vctrs

open Spec (leaves)

/-- If `c` returns, its value has `P`. -/
def Post {α : Type} (c : C α) (P : α → Prop) : Prop := ∀ a, c = .ok a → P a

theorem Post.ok {α : Type} {a : α} {P : α → Prop} (h : P a) : Post (.ok a) P := by
  rintro b hb; cases hb; exact h

theorem Post.error {α : Type} {e : Err} {P : α → Prop} : Post (.error e) P := by
  rintro b hb; cases hb

theorem Ret.post {α : Type} {c : C α} {P : α → Prop} (h : Ret c P) : Post c P := by
  obtain ⟨a, rfl, ha⟩ := h
  exact Post.ok ha

theorem Post.bind {α β : Type} {c : C α} {f : α → C β} {P : α → Prop} {Q : β → Prop}
    (h : Post c P) (hf : ∀ a, P a → Post (f a) Q) : Post (c >>= f) Q := by
  cases c with
  | error e => exact Post.error
  | ok a => exact hf a (h a rfl)

theorem Post.any {α : Type} (c : C α) : Post c (fun _ => True) := fun _ _ => trivial

theorem Post.seq {α β : Type} {c : C α} {f : α → C β} {Q : β → Prop}
    (hf : ∀ a, Post (f a) Q) : Post (c >>= f) Q := (Post.any c).bind (fun a _ => hf a)

theorem Post.mono {α : Type} {c : C α} {P Q : α → Prop} (h : Post c P) (hpq : ∀ a, P a → Q a) :
    Post c Q := fun a ha => hpq a (h a ha)

theorem Post.forFrom {σ : Type} {f : Nat → σ → C σ} (I : Nat → σ → Prop) :
    ∀ (rem i : Nat) (s : σ), I i s → (∀ j s, i ≤ j → j < i + rem → I j s → Post (f j s) (I (j + 1))) →
      Post (Vctrs.forFrom f i rem s) (I (i + rem))
  | 0, i, s, h0, _ => Post.ok h0
  | rem + 1, i, s, h0, hs => by
    refine Post.bind (hs i s (Nat.le_refl _) (by omega) h0) (fun a ha => ?_)
    have := Post.forFrom I rem (i + 1) a ha (fun j s h1 h2 => hs j s (by omega) (by omega))
    rwa [show i + 1 + rem = i + (rem + 1) by omega] at this

theorem Post.forN {σ : Type} {f : Nat → σ → C σ} {n : Nat} {s : σ} (I : Nat → σ → Prop)
    (h0 : I 0 s) (hs : ∀ i s, i < n → I i s → Post (f i s) (I (i + 1))) :
    Post (Vctrs.forN n f s) (I n) := by
  have := Post.forFrom I n 0 s h0 (fun j s _ h2 => hs j s (by omega))
  rwa [Nat.zero_add] at this

/-- The strings of a column are not more than `n`, of bytes. -/
def ChrFits (n : Nat) (v : Val) : Prop :=
  ∀ x, v.chr? = some x → x.length ≤ n ∧ ∀ s, some s ∈ x → IsBytes s

theorem chrOrder_post {tl0 : TL} {n : Nat} {ts : TlState} (hc : TlClean tl0 n ts) {x : List Name}
    (hx : x.length ≤ n) (hb : ∀ s, some s ∈ x → IsBytes s) {decreasing naLast : Bool}
    {countsLen : Nat} {st : OrdState} :
    Post (chrOrder decreasing naLast countsLen x ts st) (fun r => TlClean tl0 n r.2.1) := by
  unfold chrOrder
  refine Post.bind (P := fun r => ∃ U, TlSaved tl0 n U r.2.1) ?_ ?_
  · unfold chrOrderInternal
    refine Post.seq ?_
    rintro ⟨s, gi⟩
    dsimp only
    split
    · exact Post.seq (fun o => Post.ok ⟨[], hc.saved⟩)
    · refine Post.bind (chrMarkSortedUniques_ok hc hx (Nat.le_refl _) hb).post ?_
      rintro ts' ⟨V, hV, _⟩
      refine Post.seq (fun k => Post.seq ?_)
      rintro ⟨o, st'⟩
      exact Post.ok ⟨_, hV.saved⟩
  · rintro ⟨o, ts', st'⟩ ⟨U, hU⟩
    exact Post.bind (truelengthReset_ok hU).post (fun r hr => Post.ok hr)

/-! ## Order of appearance -/

theorem chrCount_post {tl0 : TL} {n : Nat} {ts : TlState} (hc : TlClean tl0 n ts)
    (h0 : ∀ u, 0 ≤ tl0 u) {x y : List Name} (hy : y.length ≤ n) (hx : ∀ u ∈ x, u ∈ y) :
    Ret (forN x.length (fun i s => do chrCountStep (← rd x i) s) ts) (fun r =>
      ∃ U, U.Nodup ∧ TlSaved tl0 n U r ∧ ∀ u, u ∈ U ↔ u ∈ x) := by
  refine (Ret.forN (fun i (r : TlState) => ∃ U, U.Nodup ∧ TlSaved tl0 n U r ∧
    (∀ u ∈ U, r.tl u < 0) ∧ ∀ u, u ∈ U ↔ u ∈ x.take i) ?_ ?_).mono ?_
  · exact ⟨[], List.nodup_nil, hc.saved, by simp, by simp⟩
  · rintro i r hi ⟨U, hn, hs, hneg, hU⟩
    have hxi : x[i]? = some x[i] := List.getElem?_eq_getElem hi
    refine Ret.bind_eq (rd_of_getElem? hxi) ?_
    have htk : ∀ u, u ∈ x.take (i + 1) ↔ u ∈ x.take i ∨ u = x[i] := by
      intro s
      rw [List.take_succ_eq_append_getElem hi, List.mem_append, List.mem_singleton]
    unfold chrCountStep
    dsimp only
    split
    · rename_i hlt
      have heU : x[i] ∈ U := by
        by_contra hc'
        have := hs.off _ hc'
        have := h0 x[i]
        omega
      refine Ret.ok ⟨U, hn, ⟨hs.uniq, hs.strs, hs.sizes, hs.nmax, ?_, hs.nonneg⟩, ?_, ?_⟩
      · intro u hu
        dsimp only
        unfold TL.set
        rw [if_neg (fun h : u = x[i] => hu (h ▸ heU))]
        exact hs.off u hu
      · intro u hu
        dsimp only
        unfold TL.set
        split
        · omega
        · exact hneg u hu
      · intro u
        rw [htk, ← hU]
        constructor
        · exact Or.inl
        · rintro (h | h)
          · exact h
          · exact h ▸ heU
    · rename_i hlt
      have heU : x[i] ∉ U := fun h => hlt (hneg _ h)
      have hlen : U.length < n := by
        have h2 := nodup_subset_length (x := y) (List.nodup_cons.2 ⟨heU, hn⟩) (by
          intro a ha
          rcases List.mem_cons.1 ha with h | h
          · exact hx a (h ▸ List.getElem_mem hi)
          · exact hx a (List.mem_of_mem_take ((hU a).1 h)))
        rw [List.length_cons] at h2
        omega
      refine TlSaved.save hs (h0 _) heU hlen (T := TlState) (fun strings uniques =>
        .ok ⟨r.tl.set x[i] (-1), { r.info with strings := strings, uniques := uniques }⟩) _ ?_
      intro strs uniqs hsv
      refine Ret.ok ⟨U ++ [x[i]], ?_, ?_, ?_, ?_⟩
      · rw [List.nodup_append]
        refine ⟨hn, by simp, ?_⟩
        intro a ha b hb
        have : b = x[i] := by simpa using hb
        subst this
        exact fun h => heU (h ▸ ha)
      · have := hsv (r.tl.set x[i] (-1)) r.info.sizes r.info.maxStringSize (by
          intro u hu
          rw [List.mem_append, not_or] at hu
          unfold TL.set
          rw [if_neg (by simpa using hu.2)]
          exact hs.off u hu.1) hs.sizes
        dsimp only
        rw [hs.nmax]
        exact this
      · intro u hu
        dsimp only
        unfold TL.set
        split
        · omega
        · rename_i hne
          rcases List.mem_append.1 hu with h | h
          · exact hneg u h
          · exact absurd (by simpa using h) hne
      · intro u
        rw [htk, ← hU, List.mem_append, List.mem_singleton]
  · rintro r ⟨U, h1, h2, _, h4⟩
    rw [List.take_length] at h4
    exact ⟨U, h1, h2, h4⟩

theorem chrAppearanceCounting_post {tl0 : TL} {n : Nat} {ts : TlState} (hc : TlClean tl0 n ts)
    (h0 : ∀ u, 0 ≤ tl0 u) {x y : List Name} (hy : y.length ≤ n) (hx : ∀ u ∈ x, u ∈ y) {cap : Nat}
    {o : Option (List Int)} {gi : GroupInfos} :
    Post (chrAppearanceCounting cap x o ts gi) (fun r => TlClean tl0 n r.2.1) := by
  unfold chrAppearanceCounting
  refine Post.bind (chrCount_post hc h0 hy hx).post ?_
  rintro r ⟨U, hn, hs, hU⟩
  refine Post.bind (Post.forN (fun i (s : TL × GroupInfos × Int) =>
    ∀ u, u ∉ U → s.1 u = tl0 u) hs.off ?_) ?_
  · rintro i s hi h
    rw [hs.uniq.1] at hi
    rw [rdU_ok (hs.uniq.get (List.getElem?_eq_getElem hi)), ok_bind]
    refine Post.seq (fun gi => Post.ok ?_)
    intro u hu
    dsimp only
    unfold TL.set
    rw [if_neg (fun h : u = U[i] => hu (h ▸ List.getElem_mem hi))]
    exact h u hu
  · rintro ⟨tl, gi', p⟩ h1
    dsimp only at h1 ⊢
    refine Post.bind (Post.forN (fun i (s : TL × List (Option Int)) =>
      ∀ u, u ∉ U → s.1 u = tl0 u) h1 ?_) ?_
    · rintro i s hi h
      rw [rd_of_getElem? (List.getElem?_eq_getElem hi), ok_bind]
      refine Post.seq (fun v => Post.seq (fun out => Post.ok ?_))
      intro u hu
      dsimp only
      unfold TL.set
      rw [if_neg (fun h : u = x[i] => hu ((hU u).2 (h ▸ List.getElem_mem hi)))]
      exact h u hu
    · rintro ⟨tl', out⟩ h2
      dsimp only at h2 ⊢
      refine Post.seq (fun out' => ?_)
      refine Post.bind (truelengthReset_ok (U := U) (tl0 := tl0) (n := n)
        (ts := ⟨tl', r.info⟩) ⟨hs.uniq, hs.strs, hs.sizes, hs.nmax, h2, hs.nonneg⟩).post (fun ts' h => Post.ok h)

/-! ## All types -/

/-- The TRUELENGTHs must not be negative where strings are ordered by appearance. -/
def TlAllowed (chrOrdered : Bool) (tl : TL) : Prop := chrOrdered = false → ∀ u, 0 ≤ tl u

theorem orderBaseSwitch_post {tl0 : TL} {n : Nat} {ts : TlState} (hc : TlClean tl0 n ts)
    {chrOrdered : Bool} (h0 : TlAllowed chrOrdered tl0) {v : Val} (hv : ChrFits n v)
    {decreasing naLast nanDistinct : Bool} {countsLen : Nat} {st : OrdState} :
    Post (orderBaseSwitch decreasing naLast nanDistinct chrOrdered countsLen v ts st)
      (fun r => TlClean tl0 n r.2.1) := by
  match v, hv with
  | .vec (.atom .int) (x : List Int), _ => exact Post.seq (fun a => Post.ok hc)
  | .vec (.atom .lgl) (x : List Int), _ => exact Post.seq (fun a => Post.ok hc)
  | .vec (.atom .dbl) (x : List Dbl), _ => exact Post.seq (fun a => Post.ok hc)
  | .vec (.atom .cpl) (x : List (Dbl × Dbl)), _ =>
    show Post (cplOrder _ _ _ _ x ts st) _
    unfold cplOrder
    refine Post.seq (fun re => Post.seq ?_)
    rintro ⟨o, st'⟩
    dsimp only
    generalize (if st.gi.ignore = true then
      { st'.gi with ignore := true } else st'.gi) = gi
    split
    · exact Post.ok hc
    · refine Post.seq (fun im => Post.bind (P := fun s : GroupLoop => s.ts = ts)
        (Post.forN (fun i (s : GroupLoop) => s.ts = ts) rfl ?_)
        (fun r hr => Post.ok (by show TlClean tl0 n r.ts; rw [hr]; exact hc)))
      rintro i s _ hs
      unfold cplGroup
      refine Post.seq (fun g => ?_)
      split
      · exact Post.seq (fun gi => Post.ok hs)
      · refine Post.seq (fun xw => Post.seq (fun ow => Post.seq ?_))
        rintro ⟨ow', st''⟩
        exact Post.ok hs
  | .vec (.atom .chr) (x : List Name), hv =>
    obtain ⟨h1, h2⟩ := hv x rfl
    show Post (if chrOrdered then chrOrder _ _ _ x ts st else _) _
    split
    · exact chrOrder_post hc h1 h2
    · rename_i hco
      refine Post.bind (P := fun r => TlClean tl0 n r.2.1) ?_ ?_
      · unfold chrAppearance
        refine Post.bind (chrAppearanceCounting_post hc (h0 (by simpa using hco)) h1 (fun u hu => hu)) ?_
        rintro ⟨o, ts', gi'⟩ h
        exact Post.bind (truelengthReset_ok h.saved).post (fun r hr => Post.ok hr)
      · rintro ⟨o, ts', gi'⟩ h
        exact Post.ok h
  | .vec (.atom .raw) x, _ => exact Post.error
  | .vec .list x, _ => exact Post.error
  | .df _ _, _ => exact Post.error

theorem orderChunkSwitch_post {tl0 : TL} {n : Nat} {ts : TlState} {chrOrdered : Bool}
    (hc : chrOrdered = false → TlClean tl0 n ts) (h0 : TlAllowed chrOrdered tl0) {v : Val}
    (hv : ChrFits n v)     {decreasing naLast nanDistinct re : Bool} {cap countsLen : Nat} {w : List Int}
    {st : OrdState} :
    Post (orderChunkSwitch decreasing naLast nanDistinct chrOrdered re cap countsLen v w ts st)
      (fun r => r.2.1 = ts ∨ (chrOrdered = false ∧ TlClean tl0 n r.2.1)) := by
  match v, hv with
  | .vec (.atom .int) (x : List Int), hv =>
    exact Post.seq (fun a => Post.seq (fun b => Post.ok (Or.inl rfl)))
  | .vec (.atom .lgl) (x : List Int), hv =>
    exact Post.seq (fun a => Post.seq (fun b => Post.ok (Or.inl rfl)))
  | .vec (.atom .dbl) (x : List Dbl), hv =>
    exact Post.seq (fun a => Post.seq (fun b => Post.ok (Or.inl rfl)))
  | .vec (.atom .cpl) (x : List (Dbl × Dbl)), hv =>
    exact Post.seq (fun a => Post.seq (fun b => Post.ok (Or.inl rfl)))
  | .vec (.atom .chr) (x : List Name), hv =>
    obtain ⟨hx, _⟩ := hv x rfl
    refine Post.bind (P := fun k : List Name => ∀ u ∈ k, u ∈ x) ?_ ?_
    · unfold extractChunk
      refine Post.bind (Post.forN (fun i (out : List (Option Name)) => ∀ u, some u ∈ out → u ∈ x)
        (by simp [alloc]) ?_) ?_
      · rintro i out hi h
        refine Post.seq (fun loc => Post.bind (P := fun e => e ∈ x) ?_ (fun e he => ?_))
        · intro e he
          unfold rdI at he
          split at he
          · cases he
          · exact List.mem_of_getElem? (rd_eq_ok.1 he)
        · intro out' ho u hu
          have hil : i < out.length := by
            by_contra hc'
            rw [wr_oob (by omega)] at ho
            cases ho
          rw [wr_ok hil] at ho
          cases ho
          rcases List.mem_or_eq_of_mem_set hu with h' | h'
          · exact h u h'
          · cases h'; exact he
      · rintro out h r hr u hu
        rw [initd_eq_ok] at hr
        exact h u (by rw [hr]; exact List.mem_map_of_mem hu)
    · rintro k hk
      show Post (if chrOrdered then _ else _) _
      split
      · exact Post.seq (fun a => Post.ok (Or.inl rfl))
      · rename_i hco
        have hco' : chrOrdered = false := by simpa using hco
        refine Post.bind (chrAppearanceCounting_post (hc hco') (h0 hco') hx hk) ?_
        rintro ⟨o, ts', gi'⟩ h
        exact Post.ok (Or.inr ⟨hco', h⟩)
  | .vec (.atom .raw) x, hv => exact Post.error
  | .vec .list x, hv => exact Post.error
  | .df _ _, hv => exact Post.error

/-! ## Data frames -/

theorem dfColumn_post {tl0 : TL} {n : Nat} {chrOrdered : Bool} (h0 : TlAllowed chrOrdered tl0)
    {cols : List Val} (hcols : ∀ v ∈ cols, ChrFits n v) {decreasing naLast : List Bool} {i : Int}
    {s : DfLoop} (hc : TlClean tl0 n s.ts) {nanDistinct : Bool} {countsLen : Nat} :
    Post (dfColumn nanDistinct chrOrdered n countsLen cols decreasing naLast i s)
      (fun r => TlClean tl0 n r.1.ts) := by
  unfold dfColumn
  refine Post.seq (fun dec => Post.seq (fun nal => Post.bind (P := fun v => v ∈ cols) ?_ ?_))
  · intro e he
    unfold rdI at he
    split at he
    · cases he
    · exact List.mem_of_getElem? (rd_eq_ok.1 he)
  intro col hcol
  have hv := hcols col hcol
  dsimp only
  generalize (if col.isCpl = true then !s.rerun else s.rerun) = rerun
  generalize (if i = (cols.length : Int) - 1 ∧ s.st.gi.force = false ∧ rerun = false then
    { s.st.gi with ignore := true } else s.st.gi) = gi
  refine Post.bind (P := fun ts => if chrOrdered = true ∧ col.chr? ≠ none then
    ∃ U, TlSaved tl0 n U ts else TlClean tl0 n ts) ?_ ?_
  · split
    · rename_i x hx
      split
      · rename_i hco
        rw [hco, hx]
        refine (chrMarkSortedUniques_ok hc (hv x hx).1 (hv x hx).1 (hv x hx).2).post.mono ?_
        rintro ts ⟨V, hV, _⟩
        rw [if_pos ⟨rfl, by simp⟩]
        exact ⟨_, hV.saved⟩
      · rename_i hco
        refine Post.ok ?_
        rw [if_neg (fun h => hco h.1)]
        exact hc
    · rename_i hx
      refine Post.ok ?_
      rw [if_neg (fun h => h.2 hx)]
      exact hc
  intro ts hts
  refine Post.bind (Post.forN (fun _ (r : GroupLoop × Int) => r.1.ts = ts ∨
    (chrOrdered = false ∧ TlClean tl0 n r.1.ts)) (Or.inl rfl) ?_) ?_
  · rintro j ⟨g, i'⟩ _ hg
    unfold dfGroup
    refine Post.seq (fun size => ?_)
    split
    · exact Post.seq (fun gi => Post.ok hg)
    · refine Post.seq (fun ow => Post.bind (orderChunkSwitch_post (tl0 := tl0) (n := n) ?_ h0 hv) ?_)
      · intro hco
        rw [if_neg (by simp [hco])] at hts
        rcases hg with h | h
        · dsimp only at h ⊢
          rw [h]; exact hts
        · exact h.2
      · rintro ⟨ow', ts', st'⟩ h
        dsimp only at h ⊢
        refine Post.ok ?_
        dsimp only
        rcases h with h | h
        · rw [h]; exact hg
        · exact Or.inr h
  · rintro ⟨g, i'⟩ hg
    dsimp only at hg ⊢
    refine Post.bind (P := TlClean tl0 n) ?_ (fun ts' h => Post.ok h)
    split
    · rename_i x hx
      split
      · rename_i hco
        rw [if_pos ⟨hco, by simp [hx]⟩] at hts
        obtain ⟨U, hU⟩ := hts
        rcases hg with h | h
        · rw [h]; exact (truelengthReset_ok hU).post
        · rw [hco] at h; simp at h
      · rename_i hco
        rw [if_neg (fun h => hco h.1)] at hts
        rcases hg with h | h
        · rw [h]; exact Post.ok hts
        · exact Post.ok h.2
    · rename_i hx
      rw [if_neg (fun h => h.2 hx)] at hts
      rcases hg with h | h
      · rw [h]; exact Post.ok hts
      · exact Post.ok h.2

theorem dfLoop_post {tl0 : TL} {n : Nat} {chrOrdered : Bool} (h0 : TlAllowed chrOrdered tl0)
    {cols : List Val} (hcols : ∀ v ∈ cols, ChrFits n v) {decreasing naLast : List Bool}
    {nanDistinct : Bool} {countsLen : Nat} : ∀ (fuel : Nat) (i : Int) (s : DfLoop),
    TlClean tl0 n s.ts →
    Post (dfLoop nanDistinct chrOrdered n countsLen cols decreasing naLast fuel i s)
      (fun r => TlClean tl0 n r.ts)
  | 0, _, _, _ => Post.error
  | fuel + 1, i, s, hc => by
    unfold dfLoop
    split
    · split
      · exact Post.ok hc
      · refine Post.bind (dfColumn_post h0 hcols hc) ?_
        rintro ⟨s', i'⟩ h
        exact dfLoop_post h0 hcols fuel _ _ h
    · exact Post.ok hc

theorem orderSwitch_post {tl0 : TL} {n : Nat} {ts : TlState} (hc : TlClean tl0 n ts)
    {chrOrdered : Bool} (h0 : TlAllowed chrOrdered tl0) {x : Val} (hx : ∀ v ∈ leaves x, ChrFits n v)
    (hl : ∀ k cols, x = .df k cols → leaves x = cols)
    {decreasing naLast : List Bool} {nanDistinct : Bool} {fuel countsLen : Nat} {st : OrdState} :
    Post (orderSwitch fuel nanDistinct chrOrdered n countsLen x decreasing naLast ts st)
      (fun r => TlClean tl0 n r.2.1) := by
  unfold orderSwitch
  split
  · rename_i k cols
    rw [hl k cols rfl] at hx
    unfold dfOrder
    refine Post.bind (P := fun r => TlClean tl0 n r.2.1) ?_ ?_
    · unfold dfOrderInternal
      split
      · exact Post.error
      split
      · exact Post.error
      split
      · exact Post.seq (fun o => Post.seq (fun gi => Post.ok hc))
      refine Post.bind (P := fun v => v ∈ cols)
        (fun e he => List.mem_of_getElem? (rd_eq_ok.1 he)) ?_
      intro col hcol
      refine Post.seq (fun dec => Post.seq (fun nal =>
        Post.bind (orderBaseSwitch_post hc h0 (hx col hcol)) ?_))
      rintro ⟨o, ts', st'⟩ h
      exact Post.bind (dfLoop_post h0 hx fuel _ _ h) (fun s hs => Post.ok hs)
    · rintro ⟨o, ts', st'⟩ h
      exact Post.bind (truelengthReset_ok h.saved).post (fun r hr => Post.ok hr)
  · rename_i t xs
    split
    · exact Post.error
    split
    · exact Post.error
    exact Post.seq (fun dec => Post.seq (fun nal =>
      orderBaseSwitch_post hc h0 (hx _ (by simp [leaves]))))

theorem leaves_of_pack {x : Val} {k : Nat} {cols : List Val}
    (h : packLeaves x.size (leaves x) = .df k cols) : leaves x = cols := by
  have hv := leaves_vec x
  match hl : leaves x, hv with
  | [], _ => rw [hl] at h; cases h; rfl
  | [.vec t xs], _ => rw [hl] at h; cases h
  | [.df m c], hv => exact absurd (hv (.df m c) (by simp)) (by simp [Val.isDf])
  | a :: b :: l, _ => rw [hl] at h; cases h; rfl

/-- Whatever the columns are, an ordering that returns has restored the TRUELENGTHs. -/
theorem vecOrderInfo_restores {chrOrdered : Bool} {tl : TL} (h0 : TlAllowed chrOrdered tl) {x : Val}
    (hz : ∀ v ∈ leaves x, v.size = x.size) (hx : ∀ v ∈ leaves x, ChrFits x.size v)
    {direction naValue : List Name} {nanDistinct groupSizes : Bool} {fuel : Nat}
    {static : List Nat} :
    Post (vecOrderInfo fuel x direction naValue nanDistinct chrOrdered groupSizes tl static)
      (fun r => r.2.1 = tl) := by
  unfold vecOrderInfo
  refine Post.seq (fun d => Post.seq (fun na => Post.seq ?_))
  rintro ⟨d1, n1⟩
  refine Post.seq ?_
  rintro ⟨d2, n2⟩
  refine Post.seq (fun nl => ?_)
  rw [proxyVal_ok, ok_bind]
  have hsz : (packLeaves x.size (leaves x)).size = x.size := by
    match hl : leaves x with
    | [] => rfl
    | [p] => exact hz p (by rw [hl]; simp)
    | a :: b :: l => rfl
  dsimp only
  rw [hsz]
  refine Post.seq (fun nb => Post.bind (orderSwitch_post (tlClean_new tl x.size) h0 (by
    rw [leaves_pack _ _ (leaves_vec x)]; exact hx) (by
    intro k cols h
    rw [leaves_pack _ _ (leaves_vec x)]
    exact leaves_of_pack h)) ?_)
  rintro ⟨o, ts, st⟩ h
  dsimp only at h ⊢
  split
  · exact Post.seq (fun sizes => Post.ok h.tl)
  · exact Post.ok h.tl

end Vctrs
