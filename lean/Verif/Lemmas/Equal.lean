import Verif.Lemmas.Object
import Verif.Lemmas.Rep

/-! # `vec_equal()`: the vector and data frame loops -/

namespace Vctrs

open Spec

variable {α β : Type}

/-! ## The short circuit loop -/

/-- The rows decided so far are those where `F` is `some`. -/
structure ScInv (n : Nat) (init : β) (F : Nat → Option β) (s : Sc β) : Prop where
  size : s.size = n
  olen : s.out.length = n
  klen : s.known.length = n
  out : ∀ i, i < n → s.out[i]? = some ((F i).getD init)
  known : ∀ i, i < n → s.known[i]? = some (F i).isSome
  rem : s.remaining = (s.known.count false : Nat)

theorem ScInv.new (init : β) (n : Nat) : ScInv n init (fun _ => none) (Sc.new init n) where
  size := rfl
  olen := by simp [Sc.new]
  klen := by simp [Sc.new]
  out i hi := by simp [Sc.new, hi]
  known i hi := by simp [Sc.new, hi]
  rem := by simp [Sc.new]

theorem ScInv.all {n : Nat} {init : β} {F : Nat → Option β} {s : Sc β} (h : ScInv n init F s)
    (h0 : s.remaining = 0) : ∀ i, i < n → (F i).isSome := by
  intro i hi
  have h1 := h.rem
  rw [h0] at h1
  have h2 : s.known.count false = 0 := by omega
  have hk := h.known i hi
  cases hb : (F i).isSome with
  | true => rfl
  | false =>
    rw [hb] at hk
    exact absurd (List.mem_of_getElem? hk) (List.count_eq_zero.1 h2)

theorem ScInv.congr {n : Nat} {init : β} {F G : Nat → Option β} {s : Sc β}
    (h : ScInv n init F s) (hg : ∀ i, i < n → F i = G i) : ScInv n init G s where
  size := h.size
  olen := h.olen
  klen := h.klen
  out i hi := by rw [← hg i hi]; exact h.out i hi
  known i hi := by rw [← hg i hi]; exact h.known i hi
  rem := h.rem

theorem count_set_true {l : List Bool} {i : Nat} (h : l[i]? = some false) :
    l.count false = (l.set i true).count false + 1 := by
  induction l generalizing i with
  | nil => simp at h
  | cons b l ih =>
    cases i with
    | zero =>
      simp only [List.getElem?_cons_zero, Option.some.injEq] at h
      subst h
      simp
    | succ i =>
      simp only [List.getElem?_cons_succ] at h
      have := ih h
      simp only [List.set_cons_succ, List.count_cons, this]
      omega

theorem ScInv.step {n i : Nat} {init e : β} {F : Nat → Option β} {s : Sc β}
    (h : ScInv n init F s) (hi : i < n) (hF : F i = none) :
    ScInv n init (fun j => if j = i then some e else F j)
      { s with out := s.out.set i e, known := s.known.set i true,
               remaining := s.remaining - 1 } where
  size := h.size
  olen := by simp [h.olen]
  klen := by simp [h.klen]
  out j hj := by
    simp only
    rw [getElem?_set' (by rw [h.olen]; exact hi)]
    by_cases hji : j = i
    · subst hji; simp
    · simp [hji, Ne.symm hji, h.out j hj]
  known j hj := by
    simp only
    rw [getElem?_set' (by rw [h.klen]; exact hi)]
    by_cases hji : j = i
    · subst hji; simp
    · simp [hji, Ne.symm hji, h.known j hj]
  rem := by
    simp only
    have hk := h.known i hi
    rw [hF] at hk
    have := count_set_true (by simpa using hk)
    have := h.rem
    omega

theorem decideCol_ret {f : α → α → C β} {decides : β → Bool} {x y : List α} {s : Sc β} {n : Nat}
    {init : β} {F : Nat → Option β} (g : Nat → β) (hs : ScInv n init F s)
    (hx : x.length = n) (hy : y.length = n)
    (hg : ∀ i a b, x[i]? = some a → y[i]? = some b → f a b = .ok (g i)) :
    Ret (decideCol f decides x y s) (ScInv n init
      (fun i => (F i).or (if decides (g i) then some (g i) else none))) := by
  unfold decideCol
  rw [hs.size]
  let F' : Nat → Option β := fun i => (F i).or (if decides (g i) then some (g i) else none)
  refine Ret.mono (Ret.forBrk
    (fun k (s : Sc β) => ScInv n init (fun i => if i < k then F' i else F i) s)
    (fun s => ScInv n init F' s) ?_ ?_ ?_) (fun s h => h)
  · refine hs.congr (fun i hi => ?_)
    simp
  · intro k t hk ht
    have hkx : k < x.length := by omega
    have hky : k < y.length := by omega
    refine Ret.bind_eq (rd_of_getElem? (ht.known k hk)) ?_
    simp only [Nat.lt_irrefl, if_false]
    by_cases hF : (F k).isSome = true
    · rw [if_pos hF]
      refine Ret.ok ?_
      simp only
      refine ht.congr (fun i hi => ?_)
      by_cases h1 : i < k
      · rw [if_pos h1, if_pos (by omega)]
      · rw [if_neg h1]
        by_cases h2 : i = k
        · subst h2
          rw [if_pos (by omega)]
          simp only [F']
          obtain ⟨v, hv⟩ := Option.isSome_iff_exists.1 hF
          simp [hv]
        · rw [if_neg (by omega)]
    · rw [if_neg hF]
      have hFn : F k = none := by simpa using hF
      refine Ret.bind_eq (rd_ok hkx) ?_
      refine Ret.bind_eq (rd_ok hky) ?_
      refine Ret.bind_eq (hg k _ _ (List.getElem?_eq_getElem hkx) (List.getElem?_eq_getElem hky)) ?_
      have stepF : ∀ i, i < n → (if i < k + 1 then F' i else F i) =
          if i = k then (if decides (g k) then some (g k) else none)
          else (if i < k then F' i else F i) := by
        intro i hi
        by_cases h2 : i = k
        · subst h2
          rw [if_pos (by omega), if_pos rfl]
          simp [F', hFn]
        · rw [if_neg h2]
          by_cases h1 : i < k
          · rw [if_pos h1, if_pos (by omega)]
          · rw [if_neg h1, if_neg (by omega)]
      by_cases hd : decides (g k) = true
      · rw [if_pos hd]
        have hstep := ht.step (e := g k) hk (by simp [hFn])
        refine Ret.bind_eq (wr_ok (by rw [ht.olen]; exact hk)) ?_
        refine Ret.bind_eq (wr_ok (by rw [ht.klen]; exact hk)) ?_
        have hnew : ScInv n init (fun i => if i < k + 1 then F' i else F i)
            { t with out := t.out.set k (g k), known := t.known.set k true,
                     remaining := t.remaining - 1 } := by
          refine hstep.congr (fun i hi => ?_)
          rw [stepF i hi, if_pos hd]
        by_cases hr : t.remaining - 1 = 0
        · rw [if_pos hr]
          refine Ret.ok ?_
          simp only
          refine hnew.congr (fun i hi => ?_)
          by_cases h1 : i < k + 1
          · rw [if_pos h1]
          · rw [if_neg h1]
            have := hnew.all hr i hi
            rw [if_neg h1] at this
            obtain ⟨v, hv⟩ := Option.isSome_iff_exists.1 this
            simp [F', hv]
        · rw [if_neg hr]
          exact Ret.ok hnew
      · rw [if_neg hd]
        refine Ret.ok ?_
        simp only
        refine ht.congr (fun i hi => ?_)
        rw [stepF i hi, if_neg hd]
        by_cases h2 : i = k
        · subst h2; simp [hFn]
        · simp [h2]
  · intro t ht
    refine ht.congr (fun i hi => ?_)
    rw [if_pos hi]

/-! ## One cell -/

/-- Result of comparing row `i` of two columns. -/
def cellEqual (naEqual : Bool) (x y : Val) (i : Nat) : C (Option Bool) :=
  match x, y with
  | .vec t xs, .vec u ys =>
    if h : t = u then do equalScalar naEqual u (← rd (h ▸ xs) i) (← rd ys i) else .error .ub
  | _, _ => .error .ub

theorem cellEqual_vec {naEqual : Bool} {t : VTy} {xs ys : List t.El} {i : Nat} {a b : t.El}
    (ha : xs[i]? = some a) (hb : ys[i]? = some b) :
    cellEqual naEqual (.vec t xs) (.vec t ys) i = equalScalar naEqual t a b := by
  simp only [cellEqual, dite_true]
  rw [rd_of_getElem? ha, ok_bind, rd_of_getElem? hb, ok_bind]

theorem equalCol_ret {naEqual : Bool} {n : Nat} {t : VTy} {xs ys : List t.El}
    {s : Sc (Option Bool)} {init : Option Bool} {F : Nat → Option (Option Bool)}
    (g : Nat → Option Bool) (hs : ScInv n init F s) (hx : xs.length = n) (hy : ys.length = n)
    (hg : ∀ i, i < n → cellEqual naEqual (.vec t xs) (.vec t ys) i = .ok (g i)) :
    Ret (equalCol naEqual (.vec t xs) (.vec t ys) s) (ScInv n init
      (fun i => (F i).or (if equalDecides (g i) then some (g i) else none))) := by
  simp only [equalCol, dite_true]
  refine decideCol_ret g hs hx hy ?_
  intro i a b ha hb
  have hi : i < n := by rw [← hx]; exact (List.getElem?_eq_some_iff.1 ha).1
  rw [← hg i hi, cellEqual_vec ha hb]

/-- The row result: the first deciding column, else equality. -/
def rowResult (rs : List (Option Bool)) : Option Bool :=
  (rs.find? equalDecides).getD (some true)

theorem dfEqual_ok {naEqual : Bool} {n : Nat} {x y : List Val} (G : Nat → Nat → Option Bool)
    (hl : x.length = y.length)
    (hG : ∀ (c i : Nat) (p q : Val), x[c]? = some p → y[c]? = some q → i < n →
      (∃ t xs ys, p = .vec t xs ∧ q = .vec t ys ∧ xs.length = n ∧ ys.length = n) ∧
      cellEqual naEqual p q i = .ok (G c i))
    (hT : ∀ (c : Nat) (p q : Val), x[c]? = some p → y[c]? = some q →
      ∃ t xs ys, p = .vec t xs ∧ q = .vec t ys ∧ xs.length = n ∧ ys.length = n) :
    dfEqual naEqual n x y = .ok ((List.range n).map fun i =>
      rowResult ((List.range x.length).map fun c => G c i)) := by
  suffices h : Ret (dfEqual naEqual n x y) (fun r => r = (List.range n).map fun i =>
      rowResult ((List.range x.length).map fun c => G c i)) by
    obtain ⟨r, hr, rfl⟩ := h; exact hr
  unfold dfEqual
  rw [if_neg (by simpa using hl)]
  let F : Nat → Nat → Option (Option Bool) := fun k i =>
    ((List.range k).map fun c => G c i).find? equalDecides
  have hF : ∀ k i, F (k + 1) i = (F k i).or (if equalDecides (G k i) then some (G k i) else none) := by
    intro k i
    simp only [F, List.range_succ, List.map_append, List.map_cons, List.map_nil,
      List.find?_append, List.find?_cons, List.find?_nil]
    cases equalDecides (G k i) <;> rfl
  refine Ret.bind (Ret.forBrk (fun k (s : Sc (Option Bool)) => ScInv n (some true) (F k) s)
    (fun s => ScInv n (some true) (F x.length) s) ?_ ?_ ?_) ?_
  · exact ScInv.new (some true) n
  · intro k s hk hs
    have hky : k < y.length := by omega
    obtain ⟨t, xs, ys, hp, hq, hlx, hly⟩ := hT k x[k] y[k] (List.getElem?_eq_getElem hk)
      (List.getElem?_eq_getElem hky)
    refine Ret.bind_eq (rd_ok hk) ?_
    refine Ret.bind_eq (rd_ok hky) ?_
    rw [hp, hq]
    refine Ret.bind (equalCol_ret (fun i => G k i) hs hlx hly ?_) ?_
    · intro i hi
      have := (hG k i x[k] y[k] (List.getElem?_eq_getElem hk) (List.getElem?_eq_getElem hky) hi).2
      rwa [hp, hq] at this
    · intro s' hs'
      have hs'' : ScInv n (some true) (F (k + 1)) s' := hs'.congr (fun i _ => (hF k i).symm)
      by_cases hr : s'.remaining = 0
      · rw [if_pos hr]
        refine Ret.ok ?_
        simp only
        refine hs''.congr (fun i hi => ?_)
        have := hs''.all hr i hi
        have hmono : ∀ m, k + 1 ≤ m → F m i = F (k + 1) i := by
          intro m hm
          induction m with
          | zero => omega
          | succ m ih =>
            rcases Nat.lt_or_ge k m with h1 | h1
            · rw [hF, ih (by omega)]
              obtain ⟨v, hv⟩ := Option.isSome_iff_exists.1 this
              simp [hv]
            · have : m = k := by omega
              rw [this]
        rw [hmono x.length (by omega)]
      · rw [if_neg hr]
        exact Ret.ok hs''
  · intro s hs; exact hs
  · intro s hs
    refine Ret.ok ?_
    apply List.ext_getElem?
    intro i
    by_cases hi : i < n
    · rw [hs.out i hi]
      simp [hi, rowResult, F]
    · rw [List.getElem?_eq_none (by rw [hs.olen]; omega), List.getElem?_eq_none (by simp; omega)]

theorem equalLoop_ok {eq : α → α → C (Option Bool)} {x y : List α} (g : Nat → Option Bool)
    (hl : x.length = y.length)
    (hg : ∀ i a b, x[i]? = some a → y[i]? = some b → eq a b = .ok (g i)) :
    equalLoop eq x.length x y = .ok ((List.range x.length).map g) := by
  suffices h : Ret (equalLoop eq x.length x y) (fun r => r = (List.range x.length).map g) by
    obtain ⟨r, hr, rfl⟩ := h; exact hr
  unfold equalLoop
  refine Ret.bind (Ret.forN (fun i (out : List (Option (Option Bool))) =>
    Filled (fun j v => v = g j) x.length i out) (Filled.start _ _) ?_) ?_
  · intro i out hi hf
    refine Ret.bind_eq (rd_ok hi) ?_
    refine Ret.bind_eq (rd_ok (by omega)) ?_
    refine Ret.bind_eq (hg i _ _ (List.getElem?_eq_getElem hi)
      (List.getElem?_eq_getElem (by omega))) ?_
    obtain ⟨h1, h2⟩ := hf.step hi rfl
    exact Ret.of_eq h1 h2
  · intro out hf
    refine hf.done_of.mono ?_
    rintro r ⟨hlen, hr⟩
    apply List.ext_getElem?
    intro i
    by_cases hi : i < x.length
    · obtain ⟨v, hv, rfl⟩ := hr i hi
      rw [hv]; simp [hi]
    · rw [List.getElem?_eq_none (by omega), List.getElem?_eq_none (by simp; omega)]

/-! ## Totality and the row by row characterisation -/

theorem supportedList_mem : {xs : List Obj} → SupportedList xs → ∀ x ∈ xs, Supported x
  | [], _, x, hx => by cases hx
  | y :: ys, h, x, hx => by
      simp only [SupportedList] at h
      rcases List.mem_cons.1 hx with rfl | hx
      · exact h.1
      · exact supportedList_mem h.2 x hx

theorem equalScalar_total (naEqual : Bool) : (t : VTy) → (a b : t.El) →
    (∀ o : Obj, HEq a o → t = .list → Supported o) → ∃ r, equalScalar naEqual t a b = .ok r
  | .atom t, a, b, _ => ⟨_, rfl⟩
  | .list, a, b, h => by
      have hs : Supported a := h a HEq.rfl rfl
      obtain ⟨r, hr⟩ := eqObj_total a b hs
      unfold equalScalar
      simp only [hr]
      cases naEqual
      · cases (objIsMissing a || objIsMissing b) <;> exact ⟨_, rfl⟩
      · exact ⟨_, rfl⟩

theorem cellEqual_total {naEqual : Bool} {t : VTy} {xs ys : List t.El} {i : Nat}
    (hx : i < xs.length) (hy : i < ys.length)
    (hs : ∀ l : List Obj, Val.vec t xs = .vec .list l → SupportedList l) :
    ∃ r, cellEqual naEqual (.vec t xs) (.vec t ys) i = .ok r := by
  rw [cellEqual_vec (List.getElem?_eq_getElem hx) (List.getElem?_eq_getElem hy)]
  apply equalScalar_total
  intro o ho ht
  subst ht
  have := hs xs rfl
  have he : xs[i] = o := eq_of_heq ho
  rw [← he]
  exact supportedList_mem this _ (List.getElem_mem hx)

/-- Every cell comparison of two compatible values returns. -/
def CellsTotal (naEqual : Bool) (x y : Val) : Prop :=
  ∀ (c i : Nat) (p q : Val), (columns x)[c]? = some p → (columns y)[c]? = some q →
    i < x.size → ∃ r, cellEqual naEqual p q i = .ok r

theorem cellsTotal_of_supported (naEqual : Bool) {x y : Val} (h : Compat x y)
    (hs : SupportedVal x) : CellsTotal naEqual x y := by
  intro c i p q hp hq hi
  have hpm := List.mem_of_getElem? hp
  obtain ⟨t, xs, ys, rfl, rfl, hlx, hly⟩ := h.cols c p q hp hq
  have hsz := h.size
  exact cellEqual_total (by omega) (by omega) (fun l hl => hs l (by rw [← hl]; exact hpm))

/-- `vec_equal()` row by row: `G c i` is the comparison of column `c` at row `i`. -/
theorem vecEqual_ok (naEqual : Bool) {x y : Val} (h : Compat x y)
    (ht : CellsTotal naEqual x y) :
    ∃ G : Nat → Nat → Option Bool,
      (∀ (c i : Nat) (p q : Val), (columns x)[c]? = some p → (columns y)[c]? = some q →
        i < x.size → cellEqual naEqual p q i = .ok (G c i)) ∧
      vecEqual naEqual x y = .ok ((List.range x.size).map fun i =>
        rowResult ((List.range (columns x).length).map fun c => G c i)) := by
  classical
  have tot : ∀ (c i : Nat), ∃ r : Option Bool, ∀ (p q : Val), (columns x)[c]? = some p →
      (columns y)[c]? = some q → i < x.size → cellEqual naEqual p q i = .ok r := by
    intro c i
    by_cases hc : c < (columns x).length ∧ i < x.size
    · have hcy : c < (columns y).length := by rw [← h.ncol]; exact hc.1
      obtain ⟨r, hr⟩ := ht c i _ _ (List.getElem?_eq_getElem hc.1) (List.getElem?_eq_getElem hcy)
        hc.2
      refine ⟨r, fun p q hp' hq' _ => ?_⟩
      rw [List.getElem?_eq_getElem hc.1] at hp'
      rw [List.getElem?_eq_getElem hcy] at hq'
      cases hp'; cases hq'
      exact hr
    · refine ⟨none, fun p q hp' _ hi => ?_⟩
      exact absurd ⟨(List.getElem?_eq_some_iff.1 hp').1, hi⟩ hc
  choose G hG using tot
  refine ⟨G, fun c i p q hp hq hi => hG c i p q hp hq hi, ?_⟩
  have hk := h.kind
  have hsz := h.size
  cases x with
  | vec t xs =>
    cases y with
    | df m ys => exact absurd hk (by simp [SameKind])
    | vec u ys =>
      obtain ⟨t', xs', ys', hp, hq, -, -⟩ := h.cols 0 (.vec t xs) (.vec u ys) rfl rfl
      cases hp; cases hq
      have hl : xs.length = ys'.length := hsz
      simp only [vecEqual, dite_true]
      rw [if_neg (by simpa using hl)]
      rw [equalLoop_ok (fun i => G 0 i) hl]
      · congr 1
        apply List.map_congr_left
        intro i _
        simp only [columns, List.length_cons, List.length_nil, List.range_succ, List.range_zero,
          List.map_append, List.map_nil, List.map_cons, List.nil_append, rowResult,
          List.find?_cons, List.find?_nil]
        cases hd : equalDecides (G 0 i)
        · simp only [equalDecides, decide_eq_false_iff_not, not_not] at hd
          rw [hd]; rfl
        · rfl
      · intro i a b ha hb
        rw [← cellEqual_vec (naEqual := naEqual) ha hb]
        exact hG 0 i _ _ rfl rfl (List.getElem?_eq_some_iff.1 ha).1
  | df n xs =>
    cases y with
    | vec u ys => exact absurd hk (by simp [SameKind])
    | df m ys =>
      have hnm : n = m := hsz
      subst hnm
      simp only [vecEqual]
      rw [if_neg (by simp)]
      exact dfEqual_ok G h.ncol (fun c i p q hp hq hi => ⟨h.cols c p q hp hq, hG c i p q hp hq hi⟩)
        (fun c p q hp hq => h.cols c p q hp hq)

theorem equalScalar_true (t : VTy) (a b : t.El) {r : Option Bool}
    (h : equalScalar true t a b = .ok r) : ∃ v, r = some v := by
  cases t with
  | atom t => simp only [equalScalar, if_true] at h; cases h; exact ⟨_, rfl⟩
  | list =>
    simp only [equalScalar, if_true] at h
    rcases he : eqObj a b with e | v
    · rw [he] at h; cases h
    · rw [he] at h; cases h; exact ⟨_, rfl⟩

theorem rowResult_true {rs : List (Option Bool)} (h : ∀ r ∈ rs, ∃ v, r = some v) :
    rowResult rs = some (decide (∀ r ∈ rs, r = some true)) := by
  unfold rowResult
  cases hf : rs.find? equalDecides with
  | none =>
    rw [List.find?_eq_none] at hf
    have : ∀ r ∈ rs, r = some true := by
      intro r hr
      have := hf r hr
      simpa [equalDecides] using this
    rw [decide_eq_true this]; rfl
  | some r =>
    have h1 := List.find?_some hf
    have h2 := List.mem_of_find?_eq_some hf
    obtain ⟨v, rfl⟩ := h r h2
    have h3 : v = false := by simpa [equalDecides] using h1
    subst h3
    have : ¬ ∀ r ∈ rs, r = some true := by
      intro hall
      have := hall _ h2
      simp at this
    simp [this]

/-- `vec_equal(na_equal = TRUE)` row by row. -/
theorem vecEqual_true {x y : Val} (h : Compat x y) (hs : CellsTotal true x y) :
    ∃ out : List Bool, vecEqual true x y = .ok (out.map some) ∧ out.length = x.size ∧
      ∀ i, i < x.size → (out[i]? = some true ↔ ∀ (c : Nat) (p q : Val),
        (columns x)[c]? = some p → (columns y)[c]? = some q →
        cellEqual true p q i = .ok (some true)) := by
  obtain ⟨G, hG, he⟩ := vecEqual_ok true h hs
  have hsome : ∀ i, i < x.size → ∀ r ∈ (List.range (columns x).length).map (fun c => G c i),
      ∃ v, r = some v := by
    intro i hi r hr
    obtain ⟨c, hc, rfl⟩ := List.mem_map.1 hr
    have hc := List.mem_range.1 hc
    have hcy : c < (columns y).length := by rw [← h.ncol]; exact hc
    have h1 := hG c i _ _ (List.getElem?_eq_getElem hc) (List.getElem?_eq_getElem hcy) hi
    obtain ⟨t, xs, ys, hp, hq, hlx, hly⟩ := h.cols c _ _ (List.getElem?_eq_getElem hc)
      (List.getElem?_eq_getElem hcy)
    have hsz := h.size
    rw [hp, hq, cellEqual_vec (List.getElem?_eq_getElem (by omega))
      (List.getElem?_eq_getElem (by omega))] at h1
    exact equalScalar_true t _ _ h1
  refine ⟨(List.range x.size).map fun i =>
    decide (∀ r ∈ (List.range (columns x).length).map (fun c => G c i), r = some true), ?_, ?_, ?_⟩
  · rw [he, List.map_map]
    congr 1
    apply List.map_congr_left
    intro i hi
    exact rowResult_true (hsome i (List.mem_range.1 hi))
  · simp
  · intro i hi
    rw [List.getElem?_map, List.getElem?_range hi]
    simp only [Option.map_some, Option.some.injEq, decide_eq_true_eq]
    constructor
    · intro hall c p q hp hq
      rw [hG c i p q hp hq hi]
      congr 1
      exact hall _ (List.mem_map.2 ⟨c, List.mem_range.2 (List.getElem?_eq_some_iff.1 hp).1, rfl⟩)
    · intro hall r hr
      obtain ⟨c, hc, rfl⟩ := List.mem_map.1 hr
      have hc := List.mem_range.1 hc
      have hcy : c < (columns y).length := by rw [← h.ncol]; exact hc
      have h1 := hG c i _ _ (List.getElem?_eq_getElem hc) (List.getElem?_eq_getElem hcy) hi
      rw [hall c _ _ (List.getElem?_eq_getElem hc) (List.getElem?_eq_getElem hcy)] at h1
      injection h1 with h1
      exact h1.symm

/-! ## Elements -/

theorem isNan_iff (x : Dbl) : isNan x = true ↔ IsNaN x := by
  simp only [isNan, dblMagBits, IsNaN, decide_eq_true_eq]
  have := x.isLt
  norm_num
  omega

theorem dblClassify_spec (x : Dbl) :
    (dblClassify x = .number ∧ ¬ IsNaN x ∧ ¬ IsNA x) ∨ (dblClassify x = .missing ∧ IsNaN x ∧ IsNA x) ∨
      (dblClassify x = .nan ∧ IsNaN x ∧ ¬ IsNA x) := by
  have h := isNan_iff x
  unfold dblClassify IsNA
  by_cases hn : IsNaN x
  · rw [h.2 hn]
    by_cases h2 : x.toNat % 2 ^ 32 = 1954
    · rw [if_pos h2]; exact .inr (.inl ⟨rfl, hn, hn, h2⟩)
    · rw [if_neg h2]; exact .inr (.inr ⟨rfl, hn, fun h => h2 h.2⟩)
  · have : isNan x = false := by simpa using fun e => hn (h.1 e)
    simp [hn, this]

theorem dblRep_eq_canon (x : Dbl) : dblRep x = canonDbl x := by
  unfold dblRep canonDbl
  rcases dblClassify_spec x with ⟨h, h1, h2⟩ | ⟨h, h1, h2⟩ | ⟨h, h1, h2⟩
  · rw [h, if_neg h2, if_neg h1]
    simp only
    have hx := dblClassify_number.1 h
    have h1 := dblEqOp_iff hx (y := 0#64) (by decide)
    have h0 : dblVal 0#64 = 0 := by decide
    rw [h0] at h1
    by_cases hv : dblVal x = 0
    · rw [if_pos hv, if_pos (h1.2 hv)]
    · rw [if_neg hv, if_neg (fun h => hv (h1.1 h))]
  · rw [h, if_pos h2]
  · rw [h, if_neg h2, if_pos h1]

theorem rep_eq_canon : (t : ATy) → (x : t.El) → rep t x = canonAtom t x
  | .lgl, _ => rfl
  | .int, _ => rfl
  | .dbl, x => dblRep_eq_canon x
  | .cpl, x => by
      show (dblRep x.1, dblRep x.2) = (canonDbl x.1, canonDbl x.2)
      rw [dblRep_eq_canon, dblRep_eq_canon]
  | .chr, _ => rfl
  | .raw, _ => rfl

theorem dblEqualNaEqual_same (x y : Dbl) : dblEqualNaEqual x y = true ↔ SameDbl x y := by
  unfold dblEqualNaEqual SameDbl
  rcases dblClassify_spec x with ⟨hx, hx1, hx2⟩ | ⟨hx, hx1, hx2⟩ | ⟨hx, hx1, hx2⟩ <;>
  rcases dblClassify_spec y with ⟨hy, hy1, hy2⟩ | ⟨hy, hy1, hy2⟩ | ⟨hy, hy1, hy2⟩ <;>
  rw [hx] <;> simp only [hx1, hx2, hy1, hy2, hy]
  · have hxn := dblClassify_number.1 hx
    have hyn := dblClassify_number.1 hy
    rw [if_neg (by simp [hyn]), dblEqOp_iff hxn hyn]
    simp
  · rw [if_pos ((isNan_iff y).2 hy1)]; simp
  · rw [if_pos ((isNan_iff y).2 hy1)]; simp
  all_goals simp

theorem equalNaEqual_same : (t : ATy) → (x y : t.El) → (equalNaEqual t x y = true ↔ SameAtom t x y)
  | .lgl, (x : Int), (y : Int) => decide_eq_true_iff (p := x = y)
  | .int, (x : Int), (y : Int) => decide_eq_true_iff (p := x = y)
  | .dbl, (x : Dbl), (y : Dbl) => dblEqualNaEqual_same x y
  | .cpl, (x : Dbl × Dbl), (y : Dbl × Dbl) => by
      show (dblEqualNaEqual x.1 y.1 && dblEqualNaEqual x.2 y.2) = true ↔
        SameDbl x.1 y.1 ∧ SameDbl x.2 y.2
      rw [Bool.and_eq_true, dblEqualNaEqual_same, dblEqualNaEqual_same]
  | .chr, (x : Name), (y : Name) => decide_eq_true_iff (p := x = y)
  | .raw, (x : BitVec 8), (y : BitVec 8) => decide_eq_true_iff (p := x = y)

theorem dblRep_idem (x : Dbl) : dblRep (dblRep x) = dblRep x := by
  unfold dblRep
  cases h : dblClassify x
  · simp only
    by_cases he : dblEqOp x 0#64 = true
    · rw [if_pos he]; decide
    · rw [if_neg he, h]; simp only; rw [if_neg he]
  · simp only; decide
  · simp only; decide

theorem rep_idem : (t : ATy) → (x : t.El) → rep t (rep t x) = rep t x
  | .lgl, _ => rfl
  | .int, _ => rfl
  | .dbl, x => dblRep_idem x
  | .cpl, x => by
      show (dblRep (dblRep x.1), dblRep (dblRep x.2)) = (dblRep x.1, dblRep x.2)
      rw [dblRep_idem, dblRep_idem]
  | .chr, _ => rfl
  | .raw, _ => rfl

mutual

theorem eqObj_canon : (x : Obj) → eqObj x (canon x) = .ok true ∧ nAttr (canon x) = nAttr x
  | .nil => by rw [canon]; exact ⟨eqObj_refl _, rfl⟩
  | .ref _ _ => by rw [canon]; exact ⟨eqObj_refl _, rfl⟩
  | .other _ _ => by rw [canon]; exact ⟨eqObj_refl _, rfl⟩
  | .vec t xs a => by
      have h1 := eqAttrs_canon a
      rw [canon]
      refine ⟨eqObj_vec_iff.2 ⟨_, _, rfl, eqPairs_attrib a h1.1, ?_⟩, ?_⟩
      · rw [List.map_map]
        apply List.map_congr_left
        intro e _
        simp only [Function.comp]
        rw [← rep_eq_canon, rep_idem]
      · simp only [nAttr]; exact h1.2
  | .list e xs a => by
      have h1 := eqAttrs_canon a
      have h2 := eqElts_canon xs
      rw [canon]
      refine ⟨eqObj_list_iff.2 ⟨_, _, rfl, eqPairs_attrib a h1.1, h2.1⟩, ?_⟩
      simp only [nAttr]; rw [h1.2, h2.2]
  | .node t g c d a => by
      have h1 := eqAttrs_canon a
      have h2 := eqObj_canon c
      have h3 := eqObj_canon d
      rw [canon]
      refine ⟨eqObj_node_iff.2 ⟨_, _, _, _, rfl, h1.1, h2.1, h3.1⟩, ?_⟩
      simp only [nAttr]; rw [h1.2, h2.2, h3.2]
  | .clo b e f a => by
      have h1 := eqAttrs_canon a
      have h2 := eqObj_canon b
      have h3 := eqObj_canon e
      have h4 := eqObj_canon f
      rw [canon]
      refine ⟨eqObj_clo_iff.2 ⟨_, _, _, _, rfl, h1.1, h2.1, h3.1, h4.1⟩, ?_⟩
      simp only [nAttr]; rw [h1.2, h2.2, h3.2, h4.2]

theorem eqElts_canon : (xs : List Obj) → eqElts xs (canonList xs) = .ok true ∧
    nAttrList (canonList xs) = nAttrList xs
  | [] => by rw [canonList]; exact ⟨eqElts_refl _, rfl⟩
  | x :: xs => by
      have h1 := eqObj_canon x
      have h2 := eqElts_canon xs
      rw [canonList]
      refine ⟨eqElts_cons_iff.2 ⟨_, _, rfl, h1.1, h2.1⟩, ?_⟩
      simp only [nAttrList]; rw [h1.2, h2.2]

theorem eqAttrs_canon : (a : Attrs) → eqPairs a (canonAttrs a) = .ok true ∧
    nAttrs (canonAttrs a) = nAttrs a
  | .nil => by rw [canonAttrs]; exact ⟨eqPairs_refl _, rfl⟩
  | .cons g v r => by
      have h1 := eqObj_canon v
      have h2 := eqAttrs_canon r
      rw [canonAttrs]
      refine ⟨eqPairs_cons_iff.2 ⟨_, _, _, rfl, h1.1, h2.1⟩, ?_⟩
      simp only [nAttrs]; rw [h1.2, h2.2]

end

theorem eqObj_of_canon {x y : Obj} (h : canon x = canon y) :
    eqObj x y = .ok true ∧ nAttr x = nAttr y := by
  have hx := eqObj_canon x
  have hy := eqObj_canon y
  have hn : nAttr x = nAttr y := by rw [← hx.2, ← hy.2, h]
  refine ⟨eqObj_trans x hx.1 ?_, hn⟩
  rw [h]
  exact (eqObj_symm y hy.1).2 (by omega)

mutual

theorem canon_of_eqObj : (x : Obj) → {y : Obj} → eqObj x y = .ok true → nAttr y ≤ nAttr x →
    canon x = canon y
  | .nil, y, h, _ => by rw [eqObj_nil_iff.1 h]
  | .ref _ _, y, h, _ => by rw [eqObj_ref_iff.1 h]
  | .other _ _, y, h, _ => by rw [eqObj_other_iff.1 h]
  | .vec t xs a, y, h, hl => by
      obtain ⟨ys, ay, rfl, ha, he⟩ := eqObj_vec_iff.1 h
      simp only [nAttr] at hl
      rw [canon, canon, canonAttrs_of_eq a ha hl]
      congr 1
      have : ∀ l : List t.El, l.map (canonAtom t) = l.map (rep t) := fun l =>
        List.map_congr_left (fun e _ => (rep_eq_canon t e).symm)
      rw [this, this, he]
  | .list _ xs a, y, h, hl => by
      obtain ⟨ys, ay, rfl, ha, he⟩ := eqObj_list_iff.1 h
      have h1 := eqAttrib_symm a ha
      have h2 := eqElts_symm xs he
      simp only [nAttr] at hl
      rw [canon, canon, canonAttrs_of_eq a ha (by omega), canonList_of_eq xs he (by omega)]
  | .node _ _ c d a, y, h, hl => by
      obtain ⟨_, _, _, _, rfl, ha, hc, hd⟩ := eqObj_node_iff.1 h
      have h1 := eqPairs_symm a ha
      have h2 := eqObj_symm c hc
      have h3 := eqObj_symm d hd
      simp only [nAttr] at hl
      rw [canon, canon, canonAttrs_of_eq a (eqPairs_attrib a ha) (by omega),
        canon_of_eqObj c hc (by omega), canon_of_eqObj d hd (by omega)]
  | .clo b e f a, y, h, hl => by
      obtain ⟨_, _, _, _, rfl, ha, hb, he, hf⟩ := eqObj_clo_iff.1 h
      have h1 := eqPairs_symm a ha
      have h2 := eqObj_symm b hb
      have h3 := eqObj_symm e he
      have h4 := eqObj_symm f hf
      simp only [nAttr] at hl
      rw [canon, canon, canonAttrs_of_eq a (eqPairs_attrib a ha) (by omega),
        canon_of_eqObj b hb (by omega), canon_of_eqObj e he (by omega),
        canon_of_eqObj f hf (by omega)]

theorem canonList_of_eq : (xs : List Obj) → {ys : List Obj} → eqElts xs ys = .ok true →
    nAttrList ys ≤ nAttrList xs → canonList xs = canonList ys
  | [], ys, h, _ => by rw [eqElts_nil_iff.1 h]
  | x :: xs, ys, h, hl => by
      obtain ⟨y, ys, rfl, he, ht⟩ := eqElts_cons_iff.1 h
      have h1 := eqObj_symm x he
      have h2 := eqElts_symm xs ht
      simp only [nAttrList] at hl
      rw [canonList, canonList, canon_of_eqObj x he (by omega), canonList_of_eq xs ht (by omega)]

theorem canonAttrs_of_eq : (a : Attrs) → {b : Attrs} → eqAttrib a b = .ok true →
    nAttrs b ≤ nAttrs a → canonAttrs a = canonAttrs b
  | .nil, b, _, hl => by
      cases b with
      | nil => rfl
      | cons g v r => simp only [nAttrs] at hl; omega
  | .cons _ v r, b, h, hl => by
      obtain ⟨_, _, _, rfl, hv, hr⟩ := eqAttrib_cons_iff.1 h
      have h1 := eqObj_symm v hv
      have h2 := eqAttrib_symm r hr
      simp only [nAttrs] at hl
      rw [canonAttrs, canonAttrs, canon_of_eqObj v hv (by omega),
        canonAttrs_of_eq r hr (by omega)]

end

theorem equalScalar_same : (t : VTy) → (a b : t.El) →
    (∀ a' b' : Obj, t = .list → HEq a a' → HEq b b' → nAttr b' ≤ nAttr a') →
    (equalScalar true t a b = .ok (some true) ↔ SameElt t a b)
  | .atom t, a, b, _ => by
      refine Iff.trans ?_ (equalNaEqual_same t a b)
      show (Except.ok (some (equalNaEqual t a b)) : C (Option Bool)) = .ok (some true) ↔ _
      constructor
      · intro h; injection h with h; injection h
      · intro h; rw [h]
  | .list, (a : Obj), (b : Obj), h => by
      have h' : nAttr b ≤ nAttr a := h a b rfl HEq.rfl HEq.rfl
      show equalScalar true .list a b = .ok (some true) ↔ canon a = canon b
      rw [show equalScalar true .list a b = (do .ok (some (← eqObj a b))) from rfl]
      constructor
      · intro he
        cases hr : eqObj a b with
        | error e => rw [hr] at he; cases he
        | ok r =>
          rw [hr] at he
          cases he
          exact canon_of_eqObj a hr h'
      · intro hc
        rw [(eqObj_of_canon hc).1]
        rfl

theorem cells_same {x y : Val} (h : Compat x y) {i : Nat} (hi : i < x.size)
    (ha : SameAttrCount x y i) :
    (∀ (c : Nat) (p q : Val), (columns x)[c]? = some p → (columns y)[c]? = some q →
      cellEqual true p q i = .ok (some true)) ↔ SameRow x i y i := by
  have hsz := h.size
  have key : ∀ (c : Nat) (t : VTy) (xs ys : List t.El) (a b : t.El),
      (columns x)[c]? = some (.vec t xs) → (columns y)[c]? = some (.vec t ys) → xs[i]? = some a →
      ys[i]? = some b → (equalScalar true t a b = .ok (some true) ↔ SameElt t a b) := by
    intro c t xs ys a b hp hq hxa hyb
    apply equalScalar_same
    intro a' b' ht hea heb
    subst ht
    cases hea
    cases heb
    exact (ha c xs ys _ _ hp hq hxa hyb).ge
  constructor
  · intro hc c t xs ys a b hp hq hxa hyb
    have := hc c _ _ hp hq
    rw [cellEqual_vec hxa hyb] at this
    exact (key c t xs ys a b hp hq hxa hyb).1 this
  · intro hc c p q hp hq
    obtain ⟨t, xs, ys, rfl, rfl, hlx, hly⟩ := h.cols c p q hp hq
    have hxa := List.getElem?_eq_getElem (l := xs) (i := i) (by omega)
    have hyb := List.getElem?_eq_getElem (l := ys) (i := i) (by omega)
    rw [cellEqual_vec hxa hyb]
    exact (key c t xs ys _ _ hp hq hxa hyb).2 (hc c t xs ys _ _ hp hq hxa hyb)

theorem equalScalar_list_refl (a : Obj) : equalScalar true .list a a = .ok (some true) := by
  rw [show equalScalar true .list a a = (do .ok (some (← eqObj a a))) from rfl, eqObj_refl]
  rfl

theorem equalScalar_trans : (t : VTy) → (a b c : t.El) →
    equalScalar true t a b = .ok (some true) → equalScalar true t b c = .ok (some true) →
    equalScalar true t a c = .ok (some true)
  | .atom t, a, b, c, h1, h2 => by
      have h1' : equalNaEqual t a b = true := by injection h1 with h; injection h
      have h2' : equalNaEqual t b c = true := by injection h2 with h; injection h
      exact congrArg (fun b => Except.ok (some b)) (equalNaEqual_trans t h1' h2')
  | .list, (a : Obj), (b : Obj), (c : Obj), h1, h2 => by
      have inv : ∀ u v : Obj, equalScalar true .list u v = .ok (some true) → eqObj u v = .ok true := by
        intro u v h
        rw [show equalScalar true .list u v = (do .ok (some (← eqObj u v))) from rfl] at h
        cases hr : eqObj u v with
        | error e => rw [hr] at h; cases h
        | ok r => rw [hr] at h; cases h; rfl
      rw [show equalScalar true .list a c = (do .ok (some (← eqObj a c))) from rfl,
        eqObj_trans a (inv a b h1) (inv b c h2)]
      rfl

theorem Spec.NoList.supported {x : Val} (h : NoList x) : SupportedVal x :=
  fun xs hx => absurd hx (h xs)

theorem Spec.NoList.sameAttrCount {x : Val} (h : NoList x) (y : Val) (i : Nat) : SameAttrCount x y i :=
  fun _ xs _ _ _ hp => absurd (List.mem_of_getElem? hp) (h xs)

theorem Spec.SameAttrCount.symm {x y : Val} {i : Nat} (h : SameAttrCount x y i) : SameAttrCount y x i :=
  fun c xs ys a b hp hq ha hb => (h c ys xs b a hq hp hb ha).symm

theorem Spec.Compat.symm {x y : Val} (h : Compat x y) : Compat y x where
  kind := by have := h.kind; cases x <;> cases y <;> first | trivial | exact this
  size := h.size.symm
  ncol := h.ncol.symm
  cols c p q hp hq := by
    obtain ⟨t, xs, ys, h1, h2, h3, h4⟩ := h.cols c q p hq hp
    exact ⟨t, ys, xs, h2, h1, h4, h3⟩

theorem Spec.Compat.trans {x y z : Val} (h : Compat x y) (h' : Compat y z) : Compat x z where
  kind := by
    have := h.kind
    have := h'.kind
    cases x <;> cases y <;> cases z <;> first | trivial | assumption
  size := h.size.trans h'.size
  ncol := h.ncol.trans h'.ncol
  cols c p q hp hq := by
    have hcy : c < (columns y).length := by
      rw [← h.ncol]; exact (List.getElem?_eq_some_iff.1 hp).1
    obtain ⟨t, xs, ys, rfl, h2, h3, h4⟩ := h.cols c p _ hp (List.getElem?_eq_getElem hcy)
    obtain ⟨u, ys', zs, h5, rfl, h6, h7⟩ := h'.cols c _ q (List.getElem?_eq_getElem hcy) hq
    rw [h2] at h5
    cases h5
    exact ⟨_, xs, zs, rfl, rfl, h3, h7⟩

theorem Spec.Compat.noList {x y : Val} (h : Compat x y) (hx : NoList x) : NoList y := by
  intro ys hy
  obtain ⟨c, hc⟩ := List.mem_iff_getElem?.1 hy
  have hcx : c < (columns x).length := by
    rw [h.ncol]; exact (List.getElem?_eq_some_iff.1 hc).1
  obtain ⟨t, xs, ys', h1, h2, -, -⟩ := h.cols c _ _ (List.getElem?_eq_getElem hcx) hc
  cases h2
  exact hx xs (h1 ▸ List.getElem_mem hcx)

theorem sameAtom_symm (t : ATy) (a b : t.El) (h : SameAtom t a b) : SameAtom t b a := by
  rw [← equalNaEqual_same] at h ⊢
  rwa [equalNaEqual_comm]

theorem sameElt_symm : (t : VTy) → (a b : t.El) → SameElt t a b → SameElt t b a
  | .atom t, a, b, h => sameAtom_symm t a b h
  | .list, _, _, h => Eq.symm h

theorem Spec.SameRow.symm {x y : Val} {i j : Nat} (h : SameRow x i y j) : SameRow y j x i :=
  fun c t xs ys a b hp hq ha hb => sameElt_symm t b a (h c t ys xs b a hq hp hb ha)

end Vctrs
