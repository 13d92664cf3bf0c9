import Verif.Model.Chop
import Verif.Lemmas.Subscript
import Verif.Lemmas.Expand
import Verif.Props.C19
import Verif.Props.C46

namespace Vctrs

open Spec

variable {α : Type}

/-- A loop filling a fresh buffer from a vector, element by element. -/
theorem mapLoop_eq {A B : Type} (g : A → C B) (l : List A) :
    (do
      let out ← forN l.length (fun i (out : List (Option B)) => do
        let a ← rd l i
        let v ← g a
        wr out i (some v)) (alloc B l.length)
      initd out) = l.mapM g := by
  suffices h : ∀ (r p : List A) (q : List B), p.length = q.length →
      (do
        let out ← forFrom (fun i (out : List (Option B)) => do
          let a ← rd (p ++ r) i
          let v ← g a
          wr out i (some v)) p.length r.length (q.map some ++ alloc B r.length)
        initd out) = (do
          let v ← r.mapM g
          .ok (q ++ v)) by
    have := h l [] [] rfl
    simp only [List.nil_append, List.map_nil, List.length_nil] at this
    refine Eq.trans this ?_
    cases l.mapM g <;> rfl
  intro r
  induction r with
  | nil =>
    intro p q hp
    simp only [List.length_nil, forFrom, ok_bind, List.mapM_nil, pure_bind]
    rw [show alloc B 0 = [] from rfl, List.append_nil, initd_map_some]
    simp
  | cons a r ih =>
    intro p q hp
    simp only [List.length_cons, forFrom]
    rw [rd_of_getElem? (a := a) (by simp)]
    simp only [ok_bind, List.mapM_cons]
    cases hg : g a with
    | error e => rfl
    | ok v =>
      simp only [ok_bind]
      have hw : wr (q.map some ++ alloc B (r.length + 1)) p.length (some v) =
          .ok ((q ++ [v]).map some ++ alloc B r.length) := by
        rw [wr_ok (by simp; omega)]
        congr 1
        rw [List.set_append_right _ _ (by simp; omega)]
        simp [hp, alloc, List.replicate_succ]
      rw [hw]
      simp only [ok_bind]
      have := ih (p ++ [a]) (q ++ [v]) (by simp [hp])
      rw [List.append_assoc, List.singleton_append, List.length_append, List.length_singleton] at this
      rw [this]
      cases r.mapM g with
      | error e => rfl
      | ok vs => simp [pure, Except.pure]

theorem mapM_ok {A B : Type} {g : A → C B} {f : A → B} {l : List A} (h : ∀ a ∈ l, g a = .ok (f a)) :
    l.mapM g = .ok (l.map f) := by
  induction l with
  | nil => rfl
  | cons a l ih =>
    rw [List.mapM_cons, h a (by simp), ih (fun a ha => h a (by simp [ha]))]
    rfl

theorem mapM_abort {A B : Type} {g : A → C B} {l : List A} (h : ∀ a ∈ l, (∃ v, g a = .ok v) ∨ g a = .error .abort)
    (hx : ∃ a ∈ l, g a = .error .abort) : l.mapM g = .error .abort := by
  induction l with
  | nil => obtain ⟨a, ha, _⟩ := hx; simp at ha
  | cons a l ih =>
    rw [List.mapM_cons]
    rcases h a (by simp) with ⟨v, hv⟩ | hv
    · rw [hv]
      obtain ⟨b, hb, hbe⟩ := hx
      rcases List.mem_cons.1 hb with rfl | hb
      · rw [hbe] at hv; cases hv
      · rw [ok_bind, ih (fun a ha => h a (by simp [ha])) ⟨b, hb, hbe⟩]; rfl
    · rw [hv]; rfl

/-- A location is missing or within `1..n`. -/
def LocsOk (n : Nat) (l : List Int) : Prop := ∀ e ∈ l, e = naInt ∨ (1 ≤ e ∧ e ≤ (n : Int))

instance (n : Nat) (l : List Int) : Decidable (LocsOk n l) := by unfold LocsOk; infer_instance

theorem chopInt_eq (l : List Int) (n : Nat) :
    vecAsLocation (.int l) n none chopOpts = if LocsOk n l then .ok l else .error .abort := by
  split
  · rename_i h
    exact C19_in_bounds none (Or.inl rfl) h
  · rename_i h
    unfold LocsOk at h
    push Not at h
    obtain ⟨e, he, h1, h2⟩ := h
    refine C19_error none ⟨e, he, ?_⟩ (by rintro ⟨h, _⟩; cases h)
    by_cases h0 : e < 0
    · exact Or.inr (Or.inr (Or.inl ⟨h1, h0, rfl⟩))
    · by_cases hz : e = 0
      · exact Or.inr (Or.inl ⟨hz, rfl⟩)
      · exact Or.inr (Or.inr (Or.inr (Or.inr ⟨h2 (by omega), rfl⟩)))

/-- The integer vector an index of `vec_chop()` stands for. -/
def indexInts : RSubscript → Option (List Int)
  | .null => some []
  | .int l => some l
  | .lgl l => if l.all (fun v => v.isNone) then some (List.replicate l.length naInt) else none
  | .chr _ => none

theorem chopSubscript_eq (i : RSubscript) :
    chopSubscript i = (match indexInts i with
      | some l => .ok (.int l)
      | none => .error .abort) := by
  cases i with
  | lgl l =>
    simp only [chopSubscript, indexInts]
    by_cases h : (l.all fun v => v.isNone) = true
    · rw [if_pos h, if_pos h]
    · rw [if_neg h, if_neg h]
  | null => rfl
  | int l => rfl
  | chr l => rfl

theorem indexInts_length {i : RSubscript} {l : List Int} (h : indexInts i = some l) : indexLength i = l.length := by
  cases i with
  | null => simp [indexInts] at h; subst h; rfl
  | int l' => simp [indexInts] at h; subst h; rfl
  | chr l' => simp [indexInts] at h
  | lgl l' =>
    simp only [indexInts] at h
    split at h
    · injection h with h; subst h; simp [indexLength]
    · cases h

theorem listAsLocations_eq (indices : List RSubscript) (n : Nat) :
    listAsLocations indices n = indices.mapM (fun i => do
      let index ← chopSubscript i
      vecAsLocation index n none chopOpts) := by
  rw [← mapLoop_eq]
  unfold listAsLocations
  simp only [bind_assoc]

theorem listAsLocations_ok {indices : List RSubscript} {n : Nat} {locs : List (List Int)}
    (h : List.Forall₂ (fun i l => indexInts i = some l ∧ LocsOk n l) indices locs) :
    listAsLocations indices n = .ok locs := by
  rw [listAsLocations_eq]
  induction h with
  | nil => rfl
  | cons h _ ih =>
    rw [List.mapM_cons, ih, chopSubscript_eq, h.1]
    simp only [ok_bind]
    rw [chopInt_eq, if_pos h.2]
    rfl

theorem listAsLocations_err {indices : List RSubscript} {n : Nat}
    (h : ∃ i ∈ indices, ∀ l, indexInts i = some l → ¬ LocsOk n l) :
    listAsLocations indices n = .error .abort := by
  rw [listAsLocations_eq]
  refine mapM_abort ?_ ?_
  · intro i _
    rw [chopSubscript_eq]
    cases indexInts i with
    | none => exact Or.inr rfl
    | some l =>
      simp only [ok_bind]
      rw [chopInt_eq]
      split
      · exact Or.inl ⟨_, rfl⟩
      · exact Or.inr rfl
  · obtain ⟨i, hi, h⟩ := h
    refine ⟨i, hi, ?_⟩
    rw [chopSubscript_eq]
    cases hii : indexInts i with
    | none => rfl
    | some l =>
      simp only [ok_bind]
      rw [chopInt_eq, if_neg (h l hii)]

theorem listAsLocations_cases (indices : List RSubscript) (n : Nat) :
    (∃ locs, List.Forall₂ (fun i l => indexInts i = some l ∧ LocsOk n l) indices locs) ∨
    (∃ i ∈ indices, ∀ l, indexInts i = some l → ¬ LocsOk n l) := by
  induction indices with
  | nil => exact Or.inl ⟨[], List.Forall₂.nil⟩
  | cons i is ih =>
    rcases ih with ⟨locs, h⟩ | ⟨j, hj, h⟩
    · cases hi : indexInts i with
      | none => exact Or.inr ⟨i, by simp, by simp [hi]⟩
      | some l =>
        by_cases hl : LocsOk n l
        · exact Or.inl ⟨l :: locs, List.Forall₂.cons ⟨hi, hl⟩ h⟩
        · exact Or.inr ⟨i, by simp, by intro l' h'; rw [hi] at h'; injection h' with h'; subst h'; exact hl⟩
    · exact Or.inr ⟨j, by simp [hj], h⟩

/-- The `i`-th subscript produced by `indices_next()`. -/
def chopSub : ChopBy → Nat → Option Subscript
  | .indices l, i => l[i]?.map .locs
  | .sizes l, i => l[i]?.map (fun s => .seq (l.take i).sum s 1)
  | .each, i => some (.locs [(i : Int) + 1])

/-- State of `indices_next()` after `i` calls. -/
def ChopState (by_ : ChopBy) (i : Nat) (s : Nat × Int × Int) : Prop :=
  s.1 = i ∧ match by_ with
    | .sizes l => s.2.1 + s.2.2 = (l.take i).sum
    | _ => True

theorem indicesNext_ok {by_ : ChopBy} {i n : Nat} {s : Nat × Int × Int} (hs : ChopState by_ i s)
    (hi : i < indicesOutSize by_ n) :
    ∃ sub s', chopSub by_ i = some sub ∧ indicesNext by_ s = .ok (sub, s') ∧ ChopState by_ (i + 1) s' := by
  obtain ⟨loc, p0, p1⟩ := s
  obtain ⟨rfl, hs⟩ := hs
  cases by_ with
  | indices l =>
    simp only [indicesOutSize] at hi
    refine ⟨.locs l[loc], (loc + 1, p0, p1), by simp [chopSub, hi], ?_, ⟨rfl, trivial⟩⟩
    simp only [indicesNext]
    rw [rd_ok hi]; rfl
  | sizes l =>
    simp only [indicesOutSize] at hi
    simp only at hs
    refine ⟨.seq (l.take loc).sum l[loc] 1, (loc + 1, p0 + p1, l[loc]), by simp [chopSub, hi], ?_, ⟨rfl, ?_⟩⟩
    · simp only [indicesNext]
      rw [rd_ok hi, ← hs]; rfl
    · simp only
      rw [List.take_succ_eq_append_getElem hi, List.sum_append, hs]
      simp
  | each => exact ⟨_, _, rfl, rfl, ⟨rfl, trivial⟩⟩

theorem chop_ok {na : α} {x : List α} {by_ : ChopBy} {V : List (List α)}
    (hV : V.length = indicesOutSize by_ x.length)
    (h : ∀ (i : Nat) sub v, chopSub by_ i = some sub → V[i]? = some v → sliceBase na x sub = .ok v) :
    chop na x by_ = .ok V := by
  suffices hh : Ret (chop na x by_) (fun r => r = V) by
    obtain ⟨r, hr, rfl⟩ := hh; exact hr
  unfold chop
  simp only
  refine Ret.bind (Ret.forN (fun i (s : List (Option (List α)) × (Nat × Int × Int)) =>
    Wrote (V.take i) V.length s.1 ∧ ChopState by_ i s.2) ⟨by rw [← hV]; exact Wrote.start _, rfl, ?_⟩ ?_) ?_
  · cases by_ <;> simp
  · rintro i ⟨out, st⟩ hi ⟨h1, h2⟩
    simp only at h1 h2 ⊢
    obtain ⟨sub, st', h3, h4, h5⟩ := indicesNext_ok h2 hi
    refine Ret.bind_eq h4 ?_
    have hiV : i < V.length := by omega
    refine Ret.bind_eq (h i sub _ h3 (List.getElem?_eq_getElem hiV)) ?_
    obtain ⟨hw, hW⟩ := h1.step V[i] (k := i) (by simp; omega) hiV
    refine Ret.bind_eq hw (Ret.ok ⟨?_, h5⟩)
    rwa [List.take_succ_eq_append_getElem hiV]
  · rintro ⟨out, st⟩ ⟨h1, _⟩
    simp only at h1 ⊢
    rw [← hV, List.take_length] at h1
    exact Ret.of_eq (h1.done rfl) rfl

/-- Slicing with an increasing compact sequence. -/
theorem sliceSeq_eq (na : α) {x : List α} {start size : Nat} (h : start + size ≤ x.length) :
    sliceBase na x (.seq start size 1) = .ok ((x.drop start).take size) := by
  obtain ⟨out, h1, h2, h3⟩ := sliceBase_ok na (x := x) (s := .seq start size 1)
    ⟨by omega, Or.inl rfl, by omega, by omega, by intro j hj; omega⟩
  rw [h1]
  congr 1
  simp only [subscriptSize, Int.toNat_natCast, subscriptAt] at h2 h3
  refine List.ext_getElem? (fun i => ?_)
  by_cases hi : i < size
  · obtain ⟨loc, h4, h5⟩ := h3 i hi
    rw [if_pos (by omega)] at h4
    injection h4 with h4
    rw [h5, if_neg (by simp only [naInt]; omega), List.getElem?_take_of_lt hi, List.getElem?_drop]
    congr 1; omega
  · rw [List.getElem?_eq_none (by omega), List.getElem?_eq_none (by simp; omega)]

/-- Assignment to an increasing compact sequence replaces a segment. -/
theorem assignSeq_eq {x v : List α} {k : Nat} (h : k + v.length ≤ x.length) :
    assignBase x (.seq k v.length 1) v = .ok (x.take k ++ v ++ x.drop (k + v.length)) := by
  obtain ⟨out, h1, h2, h3, h4⟩ := C46_assign (x := x) (s := .seq k v.length 1) (value := v)
    ⟨by omega, Or.inl rfl, by omega, by omega, by intro j hj; omega⟩ trivial rfl
  rw [h1]
  congr 1
  refine List.ext_getElem? (fun p => ?_)
  by_cases hp : k ≤ p ∧ p < k + v.length
  · rw [h3 p (p - k) ⟨by omega, ?_, ?_⟩]
    · rw [List.getElem?_append_left (by simp; omega), List.getElem?_append_right (by simp; omega)]
      congr 1; simp; omega
    · simp only [subscriptAt]
      rw [if_pos (by omega)]; congr 1; omega
    · intro j hj hj' hc
      simp only [subscriptAt] at hc
      rw [if_pos (by omega)] at hc
      injection hc; omega
  · rw [h4 p]
    · by_cases hpk : p < k
      · rw [List.getElem?_append_left (by simp; omega), List.getElem?_append_left (by simp; omega),
          List.getElem?_take_of_lt hpk]
      · rw [List.getElem?_append_right (by simp; omega), List.getElem?_drop]
        congr 1; simp; omega
    · intro i hi hc
      simp only [subscriptAt] at hc
      rw [if_pos (by omega)] at hc
      injection hc; omega

theorem vecInit_ok (na : α) {n : Nat} (h : n ≤ intMax) : vecInit na [] n = .ok (List.replicate n na) := by
  unfold vecInit
  rw [if_neg (by omega)]
  have : compactRep naInt (n : Int) = .ok (.rep naInt n) := by
    unfold compactRep; rw [if_neg (by omega)]
  rw [this]
  simp only [ok_bind]
  obtain ⟨out, h1, h2, h3⟩ := sliceBase_ok na (x := ([] : List α)) (s := .rep naInt n) ⟨by omega, Or.inl rfl⟩
  rw [h1]
  congr 1
  simp only [subscriptSize, Int.toNat_natCast, subscriptAt] at h2 h3
  refine List.eq_replicate_iff.2 ⟨h2, fun b hb => ?_⟩
  obtain ⟨i, hi, rfl⟩ := List.getElem_of_mem hb
  obtain ⟨loc, h4, h5⟩ := h3 i (by omega)
  rw [if_pos (by omega)] at h4
  injection h4 with h4
  rw [← h4, if_pos rfl, List.getElem?_eq_getElem hi] at h5
  injection h5

/-- `vec_c()` concatenates. -/
theorem vecC_ok (na : α) {xs : List (Option (List α))} (hx : ∃ x ∈ xs, x ≠ none)
    (hn : (xs.filterMap id).flatten.length ≤ intMax) :
    vecC na xs = .ok (some (xs.filterMap id).flatten) := by
  suffices hh : Ret (vecC na xs) (fun r => r = some (xs.filterMap id).flatten) by
    obtain ⟨r, hr, rfl⟩ := hh; exact hr
  have hsz : ∀ i (hi : i < xs.length), ((xs.take (i + 1)).filterMap id).flatten.length =
      ((xs.take i).filterMap id).flatten.length + sizeOrZero xs[i] := by
    intro i hi
    rw [List.take_succ_eq_append_getElem hi, List.filterMap_append, List.flatten_append, List.length_append]
    cases xs[i] <;> simp [sizeOrZero]
  unfold vecC
  rw [if_neg]
  · refine Ret.bind (Ret.forN (fun i (s : List (Option Nat) × Nat) =>
      Wrote ((xs.take i).map sizeOrZero) xs.length s.1 ∧ s.2 = ((xs.take i).filterMap id).flatten.length)
      ⟨by simpa using Wrote.start _, by simp⟩ ?_) ?_
    · rintro i ⟨sizes, n⟩ hi ⟨h1, h2⟩
      simp only at h1 h2 ⊢
      refine Ret.bind_eq (rd_ok hi) ?_
      obtain ⟨hw, hW⟩ := h1.step (sizeOrZero xs[i]) (k := i) (by simp; omega) hi
      refine Ret.bind_eq hw (Ret.ok ⟨?_, ?_⟩)
      · rw [List.take_succ_eq_append_getElem hi, List.map_append]; exact hW
      · simp only; rw [hsz i hi, h2]
    · rintro ⟨sizes, n⟩ ⟨h1, h2⟩
      simp only at h1 h2 ⊢
      rw [List.take_length] at h1 h2
      subst h2
      refine Ret.bind_eq (vecInit_ok na hn) ?_
      refine Ret.bind (Ret.forN (fun i (s : List α × Nat) =>
        s.2 = ((xs.take i).filterMap id).flatten.length ∧
        s.1 = ((xs.take i).filterMap id).flatten ++
          List.replicate ((xs.filterMap id).flatten.length - s.2) na) ⟨by simp, by simp⟩ ?_) ?_
      · rintro i ⟨out, k⟩ hi ⟨h3, h4⟩
        simp only at h3 h4 ⊢
        refine Ret.bind_eq (rd_ok hi) ?_
        refine Ret.bind_eq (rdU_ok (h1.val i (sizeOrZero xs[i]) (by simp [hi]))) ?_
        by_cases h0 : sizeOrZero xs[i] = 0
        · rw [if_pos h0]
          have h5 := hsz i hi
          rw [h0] at h5
          have h6 : ((xs.take (i + 1)).filterMap id).flatten = ((xs.take i).filterMap id).flatten := by
            rw [List.take_succ_eq_append_getElem hi, List.filterMap_append, List.flatten_append]
            cases hxi : xs[i] with
            | none => simp
            | some x =>
              rw [hxi] at h0
              simp only [sizeOrZero] at h0
              simp [List.length_eq_zero_iff.1 h0]
          exact Ret.ok ⟨by rw [h6]; exact h3, by rw [h6]; exact h4⟩
        · rw [if_neg h0]
          cases hxi : xs[i] with
          | none => rw [hxi] at h0; exact absurd rfl h0
          | some x =>
            simp only
            have h5 := hsz i hi
            rw [hxi] at h5
            simp only [sizeOrZero] at h5 ⊢
            have hle : ((xs.take (i + 1)).filterMap id).flatten.length ≤ (xs.filterMap id).flatten.length := by
              conv_rhs => rw [← List.take_append_drop (i + 1) xs]
              rw [List.filterMap_append, List.flatten_append, List.length_append]; omega
            have hk : k + x.length ≤ out.length := by
              rw [h4, List.length_append, List.length_replicate]; omega
            refine Ret.bind_eq (assignSeq_eq hk) (Ret.ok ⟨by simp only; omega, ?_⟩)
            simp only
            rw [h4, List.take_append_of_le_length (by omega), List.take_of_length_le (by omega),
              List.drop_append, List.drop_of_length_le (by omega), List.nil_append, List.drop_replicate,
              List.take_succ_eq_append_getElem hi, List.filterMap_append, List.flatten_append, hxi]
            rw [show List.filterMap id [some x] = [x] from rfl, List.flatten_singleton]
            congr 2
            omega
      · rintro ⟨out, k⟩ ⟨h3, h4⟩
        simp only at h3 h4 ⊢
        rw [List.take_length] at h3 h4
        refine Ret.ok ?_
        rw [h4, h3]
        simp
  · rw [List.all_eq_true]
    intro h
    obtain ⟨x, hx, hne⟩ := hx
    have := h x hx
    cases x <;> simp at *

/-- One assignment of `ASSIGN_INDEX`. -/
def assignStep (out : List α) (p : Int × α) : C (List α) :=
  if p.1 ≠ naInt then wrI out (p.1 - 1) p.2 else .ok out

theorem assignIndex_fold {x : List α} {index : List Int} {value : List α} (h : index.length = value.length) :
    assignIndex x index value = (index.zip value).foldlM assignStep x := by
  unfold assignIndex
  rw [if_neg (by omega)]
  have := forN_rd_foldlM (fun (p : Int × α) (s : List α) => assignStep s p) (index.zip value) x
  rw [← this]
  have hl : (index.zip value).length = index.length := by simp [h]
  rw [hl]
  suffices hs : ∀ r i s, i + r = index.length →
      forFrom (fun i out => do
        let j ← rd index i
        if j ≠ naInt then do
          let v ← rd value i
          wrI out (j - 1) v
        else .ok out) i r s =
      forFrom (fun i s => do
        let a ← rd (index.zip value) i
        assignStep s a) i r s by
    exact hs index.length 0 x (by omega)
  intro r
  induction r with
  | zero => intros; rfl
  | succ r ih =>
    intro i s hir
    simp only [forFrom]
    have hi : i < index.length := by omega
    have hv : i < value.length := by omega
    rw [rd_ok hi, rd_ok (l := index.zip value) (by omega), rd_ok hv]
    simp only [ok_bind, List.getElem_zip, assignStep]
    congr 1
    funext s'
    exact ih (i + 1) s' (by omega)

theorem assignIndex_append {x : List α} {l1 l2 : List Int} {v1 v2 : List α} (h1 : l1.length = v1.length)
    (h2 : l2.length = v2.length) :
    assignIndex x (l1 ++ l2) (v1 ++ v2) = (do
      let y ← assignIndex x l1 v1
      assignIndex y l2 v2) := by
  rw [assignIndex_fold (by simp [h1, h2]), assignIndex_fold h1, List.zip_append h1, List.foldlM_append]
  congr 1
  funext y
  rw [assignIndex_fold h2]

/-- `y` is `x` recycled to size `n`. -/
def Recycles (x : List α) (n : Nat) (y : List α) : Prop :=
  (x.length = n ∧ y = x) ∨ ∃ a, x = [a] ∧ y = List.replicate n a

theorem Recycles.length {x y : List α} {n : Nat} (h : Recycles x n y) : y.length = n := by
  rcases h with ⟨h, rfl⟩ | ⟨a, rfl, rfl⟩
  · exact h
  · simp

theorem vecCheckRecycle_recycles (na : α) {x y : List α} {n : Nat} (h : Recycles x n y) :
    vecCheckRecycle na (.vec x) n = .ok (.vec y) := by
  rw [vecCheckRecycle_ok]
  rcases h with ⟨rfl, rfl⟩ | ⟨a, rfl, rfl⟩
  · split
    · rfl
    · simp
  · rfl

theorem vecCheckRecycle_fails (na : α) {x : List α} {n : Nat} (h : ∀ y, ¬ Recycles x n y) :
    vecCheckRecycle na (.vec x) n = .error .abort := by
  rw [vecCheckRecycle_ok]
  split
  · rename_i a
    exact absurd (Or.inr ⟨a, rfl, rfl⟩) (h (List.replicate n a))
  · rw [if_neg]
    intro hl
    exact h x (Or.inl ⟨hl, rfl⟩)

/-- The pairs of values and locations that are assigned: those of the non-`NULL` elements. -/
def unchopPairs (xs : List (Option (List α))) (locs : List (List Int)) : List (List α × List Int) :=
  (xs.zip locs).filterMap (fun p => p.1.map (fun x => (x, p.2)))

/-- The loop of `list_unchop()`. -/
def unchopStep (na : α) (proxy : List α) (p : Option (List α) × List Int) : C (List α) :=
  match p.1 with
  | none => .ok proxy
  | some x => do
    match ← vecCheckRecycle na (.vec x) p.2.length with
    | .vec x => assignBase proxy (.locs p.2) x
    | _ => .error .internal

theorem unchopLoop_fold (na : α) {xs : List (Option (List α))} {locs : List (List Int)}
    (h : xs.length = locs.length) (proxy : List α) :
    forN xs.length (fun i (proxy : List α) => do
      let x ← rd xs i
      unchopTurn na locs i proxy x) proxy = (xs.zip locs).foldlM (unchopStep na) proxy := by
  have := forN_rd_foldlM (fun (p : Option (List α) × List Int) (s : List α) => unchopStep na s p) (xs.zip locs) proxy
  rw [← this]
  have hl : (xs.zip locs).length = xs.length := by simp [h]
  rw [hl]
  unfold forN
  suffices hs : ∀ r i s, i + r = xs.length →
      forFrom (fun i (proxy : List α) => do
        let x ← rd xs i
        unchopTurn na locs i proxy x) i r s =
      forFrom (fun i s => do
        let a ← rd (xs.zip locs) i
        unchopStep na s a) i r s by
    exact hs xs.length 0 proxy (by omega)
  intro r
  induction r with
  | zero => intros; rfl
  | succ r ih =>
    intro i s hir
    simp only [forFrom]
    have hi : i < xs.length := by omega
    have hv : i < locs.length := by omega
    rw [rd_ok hi, rd_ok (l := xs.zip locs) (by omega)]
    simp only [ok_bind, List.getElem_zip]
    have hstep : unchopTurn na locs i s xs[i] = unchopStep na s (xs[i], locs[i]) := by
      unfold unchopTurn unchopStep
      cases xs[i] with
      | none => rfl
      | some x =>
        simp only
        rw [rd_ok hv]
        rfl
    rw [hstep]
    congr 1
    funext s'
    exact ih (i + 1) s' (by omega)

theorem unchopFold_ok (na : α) {ps : List (Option (List α) × List Int)} {vals : List (List α)} (proxy : List α)
    (h : List.Forall₂ (fun p v => Recycles p.1 p.2.length v)
      (ps.filterMap (fun p => p.1.map (fun x => (x, p.2)))) vals) :
    ps.foldlM (unchopStep na) proxy =
      assignIndex proxy ((ps.filterMap (fun p => p.1.map (fun x => (x, p.2)))).map Prod.snd).flatten vals.flatten := by
  induction ps generalizing proxy vals with
  | nil =>
    cases h
    rfl
  | cons p ps ih =>
    rw [List.foldlM_cons]
    obtain ⟨x, l⟩ := p
    cases x with
    | none =>
      simp only [List.filterMap_cons, Option.map_none, unchopStep, ok_bind] at h ⊢
      exact ih proxy h
    | some x =>
      simp only [List.filterMap_cons, Option.map_some, unchopStep] at h ⊢
      cases h with
      | @cons _ v _ vals h1 h2 =>
        simp only at h1
        rw [vecCheckRecycle_recycles na h1]
        simp only [ok_bind, List.map_cons, List.flatten_cons, assignBase]
        have hlen : ((ps.filterMap (fun p => p.1.map (fun x => (x, p.2)))).map Prod.snd).flatten.length =
            vals.flatten.length := by
          clear ih
          generalize ps.filterMap (fun p => p.1.map (fun x => (x, p.2))) = qs at h2
          induction h2 with
          | nil => rfl
          | cons h _ ih =>
            simp only [List.map_cons, List.flatten_cons, List.length_append]
            rw [ih, h.length]
        rw [assignIndex_append h1.length.symm hlen]
        congr 1
        funext y
        exact ih y h2

end Vctrs
