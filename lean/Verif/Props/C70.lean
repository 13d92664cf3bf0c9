import Verif.Lemmas.Sim
import Verif.Lemmas.RetOr
import Verif.Props.C18
import Verif.Props.C19
import Verif.Props.C69

/-!
# C70: the names of locations
-/

namespace Vctrs

open Spec

/-- Slicing another list with a logical vector computed from the elements. -/
theorem slice_mask {α β : Type} (na : β) {x : List α} {y : List β} (hx : x.length ≤ intMax) (hy : y.length = x.length)
    (f : α → Bool) :
    (do
      let loc ← lglAsLocation (x.map (fun v => some (f v))) x.length {}
      sliceBase na y (.locs loc)) = .ok (((x.zip y).filter (fun q => f q.1)).map Prod.snd) := by
  have h1 := lglAsLocation_full (x := x.map (fun v => some (f v))) (by simpa using hx) {} (by simp)
  rw [List.length_map] at h1
  rw [h1]
  simp only [ok_bind]
  have hz : x = (x.zip y).map Prod.fst := (List.map_fst_zip (by omega)).symm
  have hzy : y = (x.zip y).map Prod.snd := (List.map_snd_zip (by omega)).symm
  generalize x.zip y = z at hz hzy
  subst hz hzy
  rw [List.map_map]
  have h2 : whichLocs (z.map ((fun v => some (f v)) ∘ Prod.fst)) (decide True) =
      (kept (fun q : α × β => f q.1) z).map (fun v => (some (f v.1.1), v.2)) := by
    rw [whichLocs, kept_map]
    congr 2
    funext b
    simp only [Function.comp]
    rw [decide_true, if_pos rfl]
    have key : ∀ t : Bool, decide (some t ≠ some false) = t := by decide
    exact key _
  rw [h2, List.map_map]
  have hval : (kept (fun q : α × β => f q.1) z).map (whichVal ∘ fun v => (some (f v.1.1), v.2)) =
      (kept (fun q : α × β => f q.1) z).map (fun v => (v.2 : Int) + 1) := by
    refine List.map_congr_left (fun v _ => ?_)
    simp [whichVal]
  rw [hval]
  have hget : ∀ v ∈ kept (fun q : α × β => f q.1) z, z[v.2]? = some v.1 := by
    intro v hv
    exact (kept_mem.1 hv).1
  obtain ⟨out, h3, h4⟩ := sliceLocs_eq na (x := z.map Prod.snd)
    (l := (kept (fun q : α × β => f q.1) z).map (fun v => (v.2 : Int) + 1)) (by
    intro v hv
    obtain ⟨w, hw, rfl⟩ := List.mem_map.1 hv
    have := (List.getElem?_eq_some_iff.1 (hget w hw)).1
    rw [List.length_map]
    right; omega)
  rw [h3]
  congr 1
  refine List.map_injective_iff.2 (Option.some_injective β) ?_
  rw [h4, List.map_map, ← kept_map_fst (fun q : α × β => f q.1) z, List.map_map, List.map_map]
  refine List.map_congr_left (fun v hv => ?_)
  simp only [Function.comp, atLoc]
  rw [if_neg (by simp only [naInt]; omega), List.getElem?_map,
    show ((v.2 : Int) + 1 - 1).toNat = v.2 by omega, hget v hv]
  rfl

/-- What the loop of `chr_as_location()` leaves behind if it succeeds. -/
theorem chrLocLoop_inv (sub names : List RStr) (opts : LocOpts) :
    RetOr (chrLocLoop sub names opts) (fun s => s.1.length = sub.length ∧
      (∀ (i : Nat) e v, sub[i]? = some e → s.1[i]? = some v → (v = naInt ↔ e = none)) ∧
      (s.2 = true ↔ opts.missing = .remove ∧ none ∈ sub)) (fun _ => True) := by
  unfold chrLocLoop
  refine RetOr.mono (RetOr.forN (fun k (s : List Int × Bool) => s.1.length = sub.length ∧
    (∀ (i : Nat) e v, i < k → sub[i]? = some e → s.1[i]? = some v → (v = naInt ↔ e = none)) ∧
    (s.2 = true ↔ opts.missing = .remove ∧ none ∈ sub.take k)) ⟨by simp, by simp, by simp⟩ ?_) ?_
  · rintro k ⟨p, b⟩ hk ⟨h1, h2, h3⟩
    simp only at h1 h2 h3 ⊢
    rw [List.length_map] at hk
    refine RetOr.bind_eq (rd_ok hk) ?_
    have htake : sub.take (k + 1) = sub.take k ++ [sub[k]] := by simp
    by_cases he : sub[k] = some ""
    · rw [if_pos he]; exact Or.inr ⟨_, rfl, trivial⟩
    rw [if_neg he]
    by_cases hna : sub[k] = none
    · rw [if_pos hna]
      refine RetOr.bind_eq (wr_ok (by omega)) ?_
      have hset : ∀ (i : Nat) e v, i < k + 1 → sub[i]? = some e → (p.set k naInt)[i]? = some v →
          (v = naInt ↔ e = none) := by
        intro i e v hi hs hp
        by_cases hik : i = k
        · subst hik
          rw [List.getElem?_set_self (by omega)] at hp
          rw [List.getElem?_eq_getElem hk, hna] at hs
          simp_all
        · rw [List.getElem?_set_ne (by omega)] at hp
          exact h2 i e v (by omega) hs hp
      cases hm : opts.missing with
      | propagate =>
        refine RetOr.ok ⟨by simpa using h1, hset, ?_⟩
        rw [h3]; simp [hm]
      | remove =>
        refine RetOr.ok ⟨by simpa using h1, hset, ?_⟩
        rw [htake, hna]; simp
      | error => exact Or.inr ⟨_, rfl, trivial⟩
    · rw [if_neg hna]
      have hkp : k < p.length := by omega
      refine RetOr.bind_eq (rd_ok hkp) ?_
      by_cases hv : p[k] = naInt
      · rw [if_pos hv]; exact Or.inr ⟨_, rfl, trivial⟩
      rw [if_neg hv]
      refine RetOr.ok ⟨h1, ?_, ?_⟩
      · intro i e v hi hs hp
        by_cases hik : i = k
        · subst hik
          rw [List.getElem?_eq_getElem hkp] at hp
          rw [List.getElem?_eq_getElem hk] at hs
          cases hp; cases hs
          simp [hv, hna]
        · exact h2 i e v (by omega) hs hp
      · rw [h3, htake, List.mem_append]
        have : none ≠ sub[k] := fun h => hna h.symm
        simp [this]
  · rintro ⟨p, b⟩ ⟨h1, h2, h3⟩
    simp only at h1 h2 h3 ⊢
    rw [List.length_map] at h2 h3
    rw [List.take_length] at h3
    exact ⟨h1, fun i e v hs hp => h2 i e v (List.getElem?_eq_some_iff.1 hs).1 hs hp, h3⟩

theorem keep_zip_congr {α β γ : Type} {x : List α} {y : List β} {z : List γ} (hx : x.length = z.length)
    (hy : y.length = z.length) {f : α → Bool} {g : β → Bool}
    (h : ∀ (i : Nat) a b, x[i]? = some a → y[i]? = some b → f a = g b) :
    ((x.zip z).filter (fun q => f q.1)).map Prod.snd = ((y.zip z).filter (fun q => g q.1)).map Prod.snd := by
  induction z generalizing x y with
  | nil => simp
  | cons c z ih =>
    cases x with
    | nil => simp at hx
    | cons a x =>
      cases y with
      | nil => simp at hy
      | cons b y =>
        have h0 := h 0 a b rfl rfl
        have ih := ih (x := x) (y := y) (by simpa using hx) (by simpa using hy) (fun i a b ha hb => h (i + 1) a b ha hb)
        simp only [List.zip_cons_cons, List.filter_cons, h0]
        cases g b <;> simp [ih]

theorem map_of_sim {α β : Type} {c : C α} {d : C β} {g : α → β} (h : Sim c d (fun a b => b = g a)) : d = c.map g := by
  rcases h with ⟨a, b, rfl, rfl, rfl⟩ | ⟨e, rfl, rfl⟩ <;> rfl

/-- The locations of a converted subscript. -/
def bareLocN (nms : Option (List Name)) (n : Nat) (names : Option (List RStr)) (opts : LocOpts) :
    BareSub → C (List Int × Option (List Name))
  | .lgl x => lglAsLocationN x nms n opts
  | .int x => intAsLocationN x nms n opts
  | .chr x => chrAsLocationN x nms names opts

theorem intFilter_none_sim (l : List Int) (k : Nat) (value : Int) :
    Sim (do
        let (r, _) ← intFilter (ν := Unit) l none k value
        .ok r) (intFilter (ν := Name) l none k value) (fun out r => r = (out, none)) := by
  unfold intFilter
  by_cases hk : k > l.length
  · rw [if_pos hk, if_pos hk]
    exact Sim.err
  rw [if_neg hk, if_neg hk]
  simp only [bind_assoc]
  refine Sim.bind (Sim.forN (fun _ (s : List (Option Int) × List (Option Unit) × Nat)
    (t : List (Option Int) × List (Option Name) × Nat) => t.1 = s.1 ∧ t.2.2 = s.2.2) ⟨rfl, rfl⟩ ?_) ?_
  · rintro i ⟨o, u, j⟩ ⟨o', u', j'⟩ hi ⟨h1, h2⟩
    simp only at h1 h2 ⊢
    subst h1 h2
    refine Sim.bind (Sim.same _) (fun e _ he => ?_)
    subst he
    split
    · refine Sim.bind (Sim.same _) (fun e _ he => ?_)
      subst he
      exact Sim.ok ⟨rfl, rfl⟩
    · exact Sim.ok ⟨rfl, rfl⟩
  · rintro ⟨o, u, j⟩ ⟨o', u', j'⟩ ⟨h1, h2⟩
    simp only at h1 h2 ⊢
    subst h1 h2
    refine Sim.bind (Sim.same _) (fun e _ he => ?_)
    subst he
    exact Sim.ok rfl

theorem intFilterOob_none_sim (l : List Int) (n k : Nat) :
    Sim (intFilterOob l n k) (intFilterOobN l none n k) (fun out r => r = (out, none)) := by
  unfold intFilterOob intFilterOobN
  by_cases hk : k > l.length
  · rw [if_pos hk, if_pos hk]
    exact Sim.err
  rw [if_neg hk, if_neg hk]
  simp only
  refine Sim.bind (Sim.forN (fun _ (s : List (Option Int) × Nat)
    (t : List (Option Int) × List (Option Name) × Nat) => t.1 = s.1 ∧ t.2.2 = s.2) ⟨rfl, rfl⟩ ?_) ?_
  · rintro i ⟨o, j⟩ ⟨o', u', j'⟩ hi ⟨h1, h2⟩
    simp only at h1 h2 ⊢
    subst h1 h2
    refine Sim.bind (Sim.same _) (fun e _ he => ?_)
    subst he
    refine Sim.bind (Sim.same _) (fun a _ ha => ?_)
    subst ha
    split
    · refine Sim.bind (Sim.same _) (fun e _ he => ?_)
      subst he
      exact Sim.ok ⟨rfl, rfl⟩
    · exact Sim.ok ⟨rfl, rfl⟩
  · rintro ⟨o, j⟩ ⟨o', u', j'⟩ ⟨h1, h2⟩
    simp only at h1 h2 ⊢
    subst h1 h2
    cases initd o' with
    | error e => exact Sim.err
    | ok r => exact Sim.ok rfl

/-- A converted subscript, as in C18 to C22. -/
def bareR : BareSub → RSubscript
  | .lgl x => .lgl x
  | .int x => .int x
  | .chr x => .chr x

theorem vecAsLocationN_bare {x : SubObj} {nms : Option (List Name)} {dimN n : Nat} {names : Option (List RStr)}
    {topts : TypeOpts} {opts : LocOpts} {b : BareSub} (hb : vecAsSubscript x nms dimN topts = .ok (b, nms)) :
    vecAsLocationN x nms dimN n names topts opts = bareLocN nms n names opts b := by
  unfold vecAsLocationN
  rw [hb, ok_bind]
  cases b <;> rfl

/-- **C70** (integers): an integer subscript that does not invert has the same locations and errors with names as
without, and the names of the locations are those of the elements that the options do not drop, in order. -/
theorem C70_int {x : SubObj} {l : List Int} {nms : List Name} {dimN n : Nat} {names : Option (List RStr)}
    {topts : TypeOpts} {opts : LocOpts} (hb : vecAsSubscript x (some nms) dimN topts = .ok (.int l, some nms))
    (hl : nms.length = l.length) (h : ¬ Inverts opts l) :
    vecAsLocationN x (some nms) dimN n names topts opts = (vecAsLocation (.int l) n names opts).map (fun out =>
      (out, some (((l.zip nms).filter (fun q => decide (¬ DropLoc n opts q.1))).map Prod.snd))) := by
  rw [vecAsLocationN_bare hb]
  refine map_of_sim (Sim.mono (intAsLocationN_sim hl (not_inverts h)) (fun out r _ hr => ?_))
  rw [hr, keepNms]
  simp only [keepLoc_iff]

example : vecAsLocationN (.int [2, naInt, 0, 9, 1]) (some [some ['a'], some ['b'], some ['c'], some ['d'], some ['e']])
    1 3 none {} { oob := .remove, missing := .remove } = .ok ([2, 1], some [some ['a'], some ['e']]) :=
  (C70_int (x := .int [2, naInt, 0, 9, 1]) (l := [2, naInt, 0, 9, 1]) (by decide) (by decide)
    (by simp [Inverts, naInt])).trans (by decide)

/-- **C70** (inversion): a subscript that inverts selects other elements, and its locations have no names. -/
theorem C70_invert {x : SubObj} {l : List Int} {nms : List Name} {dimN n : Nat} {names : Option (List RStr)}
    {topts : TypeOpts} {opts : LocOpts} (hb : vecAsSubscript x (some nms) dimN topts = .ok (.int l, some nms))
    (h : Inverts opts l) :
    vecAsLocationN x (some nms) dimN n names topts opts =
      (vecAsLocation (.int l) n names opts).map (fun out => (out, none)) := by
  rw [vecAsLocationN_bare hb]
  obtain ⟨h1, e, he, h2, h3⟩ := h
  simp only [vecAsLocation, bareLocN]
  unfold intAsLocation intAsLocationN
  rcases intScan_inv (n := n) ⟨e, he, h2, h3, h1⟩ with ⟨s, hs, hi⟩ | ⟨hs, _⟩
  · rw [hs, ok_bind, ok_bind, if_pos hi, if_pos hi]
    cases intInvertLocation l n opts <;> rfl
  · rw [hs]
    rfl

example : vecAsLocationN (.int [-2]) (some [some ['a']]) 1 3 none {} {} = .ok ([1, 3], none) :=
  (C70_invert (x := .int [-2]) (l := [-2]) (by decide) (by simp [Inverts, naInt])).trans (by decide)

/-- **C70** (logical vectors of full size): the names of the elements selected. -/
theorem C70_lgl {x : SubObj} {l : List (Option Bool)} {nms : List Name} {dimN : Nat} {names : Option (List RStr)}
    {topts : TypeOpts} {opts : LocOpts} (hb : vecAsSubscript x (some nms) dimN topts = .ok (.lgl l, some nms))
    (hl : nms.length = l.length) (hn : l.length ≤ intMax) :
    vecAsLocationN x (some nms) dimN l.length names topts opts =
      (vecAsLocation (.lgl l) l.length names opts).map (fun out =>
        (out, some (maskKeep (decide (opts.missing = .propagate)) l nms))) := by
  rw [vecAsLocationN_bare hb]
  simp only [vecAsLocation, bareLocN]
  unfold lglAsLocation lglAsLocationN
  simp only
  rw [if_pos trivial, if_pos trivial]
  by_cases h : (decide (opts.missing = .error) && lglAnyNa l) = true
  · rw [if_pos h, if_pos h]
    rfl
  · rw [if_neg h, if_neg h, C18_names hn hl, lglWhich_none_ok hn, whichLocs_mask]
    rfl

example : vecAsLocationN (.lgl [some true, none, some false, some true])
    (some [some ['a'], some ['b'], some ['c'], some ['d']]) 1 4 none {} {} =
    .ok ([1, naInt, 4], some [some ['a'], some ['b'], some ['d']]) :=
  (C70_lgl (x := .lgl [some true, none, some false, some true]) (l := [some true, none, some false, some true])
    (by decide) (by decide) (by decide)).trans (by decide)

/-- **C70** (logical scalars): the one name is repeated for every location. -/
theorem C70_lgl_scalar {x : SubObj} {v : Option Bool} {nm : Name} {dimN n : Nat} {names : Option (List RStr)}
    {topts : TypeOpts} {opts : LocOpts} (hb : vecAsSubscript x (some [nm]) dimN topts = .ok (.lgl [v], some [nm]))
    (hn : n ≠ 1) :
    vecAsLocationN x (some [nm]) dimN n names topts opts =
      (vecAsLocation (.lgl [v]) n names opts).map (fun out => (out, some (out.map (fun _ => nm)))) := by
  rw [vecAsLocationN_bare hb]
  have h1 : ¬ 1 = n := fun h => hn h.symm
  have hr : ∀ k : Nat, (List.range k).map ((fun _ => nm) ∘ fun i : Nat => (i : Int) + 1) = List.replicate k nm := by
    intro k
    refine List.ext_getElem (by simp) (fun i _ _ => by simp)
  simp only [vecAsLocation, bareLocN]
  unfold lglAsLocation lglAsLocationN
  simp only [List.length_singleton, h1, if_false, if_true, rd_ok (show 0 < [v].length by simp),
    rd_ok (show 0 < [nm].length by simp), ok_bind, List.getElem_cons_zero]
  cases v with
  | none =>
    cases opts.missing with
    | propagate => simp [ok_bind, Except.map]
    | remove => simp [ok_bind, Except.map]
    | error => rfl
  | some b =>
    cases b with
    | true => simp [ok_bind, Except.map, hr]
    | false => simp [ok_bind, Except.map]

example : vecAsLocationN (.lgl [some true]) (some [some ['a']]) 1 3 none {} {} =
    .ok ([1, 2, 3], some [some ['a'], some ['a'], some ['a']]) :=
  (C70_lgl_scalar (x := .lgl [some true]) (v := some true) (by decide) (by decide)).trans (by decide)

/-- **C70** (character vectors): the names of the strings that are not removed as missing. -/
theorem C70_chr {x : SubObj} {l : List RStr} {nms : List Name} {dimN n : Nat} {names : Option (List RStr)}
    {topts : TypeOpts} {opts : LocOpts} (hb : vecAsSubscript x (some nms) dimN topts = .ok (.chr l, some nms))
    (hl : nms.length = l.length) (hn : l.length ≤ intMax) :
    vecAsLocationN x (some nms) dimN n names topts opts = (vecAsLocation (.chr l) n names opts).map (fun out =>
      (out, some (((l.zip nms).filter (fun q => decide (¬ (q.1 = none ∧ opts.missing = .remove)))).map Prod.snd))) := by
  rw [vecAsLocationN_bare hb]
  refine map_of_sim ?_
  simp only [vecAsLocation, bareLocN]
  cases names with
  | none => exact Sim.err
  | some names =>
    show Sim (chrLocLoop l names opts >>= _) (chrLocLoop l names opts >>= _) _
    rcases chrLocLoop_inv l names opts with ⟨⟨p, b⟩, h, h1, h2, h3⟩ | ⟨e, h, _⟩
    · rw [h, ok_bind, ok_bind]
      simp only at h1 h2 h3 ⊢
      by_cases hb : b = true
      · obtain ⟨hm, _⟩ := h3.1 hb
        rw [if_pos hb, if_pos hb, if_neg (by simp [hm]), if_neg (by simp [hm])]
        have e1 := slice_mask naInt (x := p) (y := p) (by omega) rfl (fun v => decide (v ≠ naInt))
        have e2 := slice_mask (some [] : Name) (x := p) (y := nms) (by omega) (by omega)
          (fun v => decide (v ≠ naInt))
        cases hloc : lglAsLocation (p.map (fun v => some (decide (v ≠ naInt)))) p.length {} with
        | error e => exact Sim.err
        | ok loc =>
          rw [hloc, ok_bind] at e1 e2
          rw [ok_bind, ok_bind, e1, ok_bind]
          unfold sliceNames
          simp only
          rw [e2, ok_bind, ok_bind]
          refine Sim.ok ?_
          congr 2
          refine keep_zip_congr (z := nms) (f := fun v => decide (v ≠ naInt))
            (g := fun w : RStr => decide (¬ (w = none ∧ opts.missing = .remove))) (by omega) (by omega) ?_
          intro i v w hv hw
          have := h2 i w v hw hv
          simp only [hm, and_true]
          by_cases hw0 : w = none
          · simp [hw0, this.2 hw0]
          · have hv0 : v ≠ naInt := fun h => hw0 (this.1 h)
            simp [hw0, hv0]
      · rw [if_neg hb, if_neg hb]
        refine Sim.ok ?_
        congr 2
        rw [List.filter_eq_self.2, List.map_snd_zip (by omega)]
        rintro ⟨e, nm⟩ he
        simp only [decide_eq_true_eq]
        rintro ⟨rfl, hm⟩
        exact hb (h3.2 ⟨hm, (List.of_mem_zip he).1⟩)
    · rw [h]
      exact Sim.err

example : vecAsLocationN (.chr [some "b", none, some "a"]) (some [some ['x'], some ['y'], some ['z']]) 1 2
    (some [some "a", some "b"]) {} { missing := .remove } = .ok ([2, 1], some [some ['x'], some ['z']]) :=
  (C70_chr (x := .chr [some "b", none, some "a"]) (l := [some "b", none, some "a"]) (by decide) (by decide)
    (by decide)).trans (by decide)

/-- **C70** (no names): a subscript without names gives the same locations, without names. -/
theorem C70_unnamed {x : SubObj} {b : BareSub} {dimN n : Nat} {names : Option (List RStr)} {topts : TypeOpts}
    {opts : LocOpts} (hb : vecAsSubscript x none dimN topts = .ok (b, none)) :
    vecAsLocationN x none dimN n names topts opts =
      (vecAsLocation (bareR b) n names opts).map (fun out => (out, none)) := by
  rw [vecAsLocationN_bare hb]
  refine map_of_sim ?_
  cases b with
  | lgl l =>
    show Sim (lglAsLocation l n opts) (lglAsLocationN l none n opts) _
    unfold lglAsLocation lglAsLocationN
    simp only
    by_cases h1 : l.length = n
    · rw [if_pos h1, if_pos h1]
      by_cases h : (decide (opts.missing = .error) && lglAnyNa l) = true
      · rw [if_pos h, if_pos h]
        exact Sim.err
      · rw [if_neg h, if_neg h]
        unfold lglWhich
        cases lglSum l (decide (opts.missing = .propagate)) with
        | error e => exact Sim.err
        | ok k =>
          simp only [ok_bind]
          by_cases hk : k > intMax
          · rw [if_pos hk, if_pos hk]
            exact Sim.err
          · rw [if_neg hk, if_neg hk]
            simp only [Option.isSome_none, Bool.false_eq_true, if_false]
            generalize (if decide (opts.missing = .propagate) = true then _ else _ : C (List (Option Int))) = c
            cases c with
            | error e => exact Sim.err
            | ok o =>
              simp only [ok_bind]
              cases initd o with
              | error e => exact Sim.err
              | ok r => exact Sim.ok rfl
    · rw [if_neg h1, if_neg h1]
      by_cases h2 : l.length = 1
      · rw [if_pos h2, if_pos h2, rd_ok (by omega : 0 < l.length)]
        simp only [ok_bind]
        cases l[0] with
        | none =>
          cases opts.missing with
          | propagate => exact Sim.ok rfl
          | remove => exact Sim.ok rfl
          | error => exact Sim.err
        | some b =>
          cases b with
          | true => exact Sim.ok rfl
          | false => exact Sim.ok rfl
      · rw [if_neg h2, if_neg h2]
        exact Sim.err
  | int l =>
    show Sim (intAsLocation l n opts) (intAsLocationN l none n opts) _
    unfold intAsLocation intAsLocationN
    refine Sim.bind (Sim.same _) (fun s _ hs => ?_)
    subst hs
    by_cases hi : s.inv = true
    · rw [if_pos hi, if_pos hi]
      cases intInvertLocation l n opts with
      | error e => exact Sim.err
      | ok r => exact Sim.ok rfl
    · rw [if_neg hi, if_neg hi]
      refine Sim.bind (R := fun out r => r = (out, none)) ?_ (fun o r hr => ?_)
      · split
        · exact intFilter_none_sim _ _ _
        · exact Sim.ok rfl
      subst hr
      refine Sim.bind (R := fun out r => r = (out, none)) ?_ (fun o r hr => ?_)
      · split
        · exact intFilter_none_sim _ _ _
        · exact Sim.ok rfl
      subst hr
      split
      · cases opts.oob with
        | error => exact Sim.err
        | extend => exact Sim.bind (Sim.same _) (fun _ _ _ => Sim.ok rfl)
        | remove => exact intFilterOob_none_sim _ _ _
      · exact Sim.ok rfl
  | chr l =>
    cases names with
    | none => exact Sim.err
    | some names =>
      show Sim (chrLocLoop l names opts >>= _) (chrLocLoop l names opts >>= _) _
      refine Sim.bind (Sim.same _) (fun s _ hs => ?_)
      subst hs
      obtain ⟨p, b⟩ := s
      simp only
      by_cases hb : b = true
      · rw [if_pos hb, if_pos hb]
        split
        · exact Sim.err
        · refine Sim.bind (Sim.same _) (fun loc _ hl => ?_)
          subst hl
          cases hs : sliceBase naInt p (.locs loc) with
          | error e => exact Sim.err
          | ok o => exact Sim.ok rfl
      · rw [if_neg hb, if_neg hb]
        exact Sim.ok rfl

example : vecAsLocationN (.chr [some "b", none, some "a"]) none 1 2
    (some [some "a", some "b"]) {} {} = .ok ([2, naInt, 1], none) :=
  (C70_unnamed (x := .chr [some "b", none, some "a"]) (b := .chr [some "b", none, some "a"]) (by decide)).trans
    (by decide)

end Vctrs
