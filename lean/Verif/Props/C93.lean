import Verif.Model.ArrayNames
import Verif.Props.C67
import Verif.Props.C88
import Verif.Props.C46

/-!
# C93: names of dimensions stay with their rows
-/

namespace Vctrs.Spec

variable {α β : Type}

/-- The names of the rows of an array. -/
def rowNamesOf (x : AObj α β) : Option (List Name) :=
  match x.dimNames with
  | some (some nms :: _) => some nms.elts
  | _ => none

/-- The names of dimension `j`. -/
def dimNamesOf (x : AObj α β) (j : Nat) : Option ChrObj :=
  match x.dimNames with
  | some dn => dn[j]?.join
  | none => none

/-- An array of `d` rows, with dimensions `ds` after the first one, as R makes them. -/
structure IsArray (d : Nat) (ds : List Nat) (x : AObj α β) : Prop where
  ok : ArrayOk x
  dim : x.dim = some (d :: ds)
  cells : x.data.length = (d :: ds).prod
  noClass : x.isObject = false
  noRow : x.rowNames = none

/-- `y` is made of the rows of `x` at `locs`, `na` where they are missing, with their names; the names of other dimensions
and the other attributes are those of `x`. -/
structure SlicedArray (na : α) (locs : List (Option Nat)) (d : Nat) (ds : List Nat) (x y : AObj α β) : Prop where
  isArray : IsArray locs.length ds y
  cells : ∀ (i : Nat) js l, locs[i]? = some l → ValidIndex ds js →
    y.data[arrayOffset (locs.length :: ds) (i :: js)]? =
      match l with
      | none => some na
      | some p => x.data[arrayOffset (d :: ds) (p :: js)]?
  unnamed : rowNamesOf x = none → rowNamesOf y = none
  named : ∀ nms, rowNamesOf x = some nms → locs ≠ [] → ∃ nms', rowNamesOf y = some nms' ∧ nms'.length = locs.length ∧
    ∀ (i : Nat) l, locs[i]? = some l → nms'[i]? =
      match l with
      | none => some (some [])
      | some p => nms[p]?
  others : ∀ j, 0 < j → dimNamesOf y j = dimNamesOf x j
  rest : y.rest = x.rest

/-- The subscripts of the pieces of `vec_chop()`; `start` elements are before the first one. -/
def sizePieces : Int → List Int → List Subscript
  | _, [] => []
  | start, n :: ns => .seq start n 1 :: sizePieces (start + n) ns

/-- The subscripts of the pieces of `vec_chop()` for an object of size `n`. -/
def pieces (n : Nat) : ChopBy → List Subscript
  | .indices l => l.map .locs
  | .sizes l => sizePieces 0 l
  | .each => (List.range n).map fun (i : Nat) => .locs [(i : Int) + 1]

/-- `y` is `x` after the rows of `value` were assigned to the locations `loc 0`, ..., `loc (m - 1)`. -/
structure AssignedArray (loc : Nat → Option Int) (m d : Nat) (ds : List Nat) (x value y : AObj α β) : Prop where
  isArray : IsArray d ds y
  written : ∀ p js i, p < d → ValidIndex ds js → LastOccurrence loc m p i →
    y.data[arrayOffset (d :: ds) (p :: js)]? = value.data[arrayOffset (m :: ds) (i :: js)]?
  kept : ∀ p js, p < d → ValidIndex ds js → (∀ i, i < m → loc i ≠ some ((p : Int) + 1)) →
    y.data[arrayOffset (d :: ds) (p :: js)]? = x.data[arrayOffset (d :: ds) (p :: js)]?
  others : ∀ j, 0 < j → dimNamesOf y j = dimNamesOf x j
  rest : y.rest = x.rest

/-- The names of the rows after an assignment of names: those of rows that are not assigned to are kept, or empty. -/
structure AssignedNames (loc : Nat → Option Int) (m d : Nat) (old : Option (List Name)) (vn yn : List Name) : Prop where
  length : yn.length = d
  written : ∀ p i, LastOccurrence loc m p i → yn[p]? = vn[i]?
  kept : ∀ p, p < d → (∀ i, i < m → loc i ≠ some ((p : Int) + 1)) →
    yn[p]? = match old with
      | none => some (some [])
      | some nms => nms[p]?

end Vctrs.Spec

namespace Vctrs
open Spec

variable {α β : Type}

/-! ## Slices -/

theorem isArray_size {d : Nat} {ds : List Nat} {x : AObj α β} (hx : IsArray d ds x) : x.size = .ok d := by
  unfold AObj.size
  rw [hx.noRow, hx.dim]

theorem dropEmpty_id {v : Option ChrObj} (h : ∀ nms, v = some nms → 0 < nms.elts.length) : dropEmpty v = v := by
  cases v with
  | none => rfl
  | some nms => exact dropEmpty_some (by have := h nms rfl; omega)

theorem sliceChr_ok {d : Nat} {r : Option ChrObj} {s : Subscript} {locs : List (Option Nat)}
    (hr : ∀ nms, r = some nms → nms.elts.length = d) (hs : SubscriptOk d s) (hl : PointsAt s locs) :
    ∃ r', sliceChr r s = .ok r' ∧ (r = none → r' = none) ∧
      ∀ nms, r = some nms → ∃ l, r' = some ⟨l, none⟩ ∧ l.length = locs.length ∧
        ∀ (i : Nat) e, locs[i]? = some e → l[i]? =
          match e with
          | none => some (some [])
          | some p => nms.elts[p]? := by
  cases r with
  | none => exact ⟨none, rfl, fun _ => rfl, fun _ h => by cases h⟩
  | some nms =>
    obtain ⟨l, h1, h2, h3⟩ := sliceBase_ok (some [] : Name) (x := nms.elts) (s := s) (by rw [hr nms rfl]; exact hs)
    refine ⟨some ⟨l, none⟩, ?_, (by intro h; cases h), ?_⟩
    · unfold sliceChr
      dsimp only
      rw [h1]
      rfl
    · intro nms' hn
      injection hn with hn
      subst hn
      refine ⟨l, rfl, by rw [h2, hl.1], fun i e he => ?_⟩
      have hi := (List.getElem?_eq_some_iff.1 he).1
      obtain ⟨loc, h4, h5⟩ := h3 i (by rw [← hl.1]; exact hi)
      have h6 := hl.2 i loc hi h4
      rw [he] at h6
      injection h6 with h6
      subst h6
      rw [h5]
      by_cases hna : loc = naInt
      · rw [if_pos hna, if_pos hna]
      · rw [if_neg hna, if_neg hna]

/-- The names of dimensions of a slice. -/
theorem pokeSlice_ok {d : Nat} {ds : List Nat} {x y : AObj α β} (hx : IsArray d ds x) {s : Subscript}
    {locs : List (Option Nat)} (hs : SubscriptOk d s) (hl : PointsAt s locs) (hy : y.dim = some (locs.length :: ds))
    (hyn : y.dimNames = none) :
    ∃ dn dn', sliceDimNames x.dimNames s = .ok dn ∧ pokeDimNames y dn = .ok { y with dimNames := dn' } ∧
      (x.dimNames = none → dn' = none) ∧
      ∀ r tl, x.dimNames = some (r :: tl) → ∃ r', dn' = some (dropEmpty r' :: tl) ∧ tl.length = ds.length ∧ sliceChr r s = .ok r' := by
  cases hdn : x.dimNames with
  | none =>
    refine ⟨none, none, rfl, ?_, fun _ => rfl, fun _ _ h => by cases h⟩
    unfold pokeDimNames
    dsimp only
    rw [← hyn]
  | some dn =>
    obtain ⟨hlen, hval⟩ := hx.ok.dimNames _ dn hx.dim hdn
    match dn, hlen with
    | r :: tl, hlen =>
      obtain ⟨r', h1, h2, h3⟩ := sliceChr_ok (r := r) (d := d) (by
        intro nms hn
        exact (hval 0 d nms rfl (by rw [hn]; rfl)).1) hs hl
      have htl : tl.map dropEmpty = tl := by
        refine List.ext_getElem? (fun j => ?_)
        rw [List.getElem?_map]
        cases hj : tl[j]? with
        | none => rfl
        | some w =>
          rw [Option.map_some, dropEmpty_id]
          intro nms hn
          subst hn
          have hjl : j < ds.length := by
            have := (List.getElem?_eq_some_iff.1 hj).1
            simp at hlen
            omega
          have := hval (j + 1) _ nms (by rw [List.getElem?_cons_succ, List.getElem?_eq_getElem hjl]) hj
          omega
      refine ⟨some (r' :: tl), some (dropEmpty r' :: tl), ?_, ?_, (by intro h; cases h), ?_⟩
      · unfold sliceDimNames
        dsimp only
        rw [show rd (r :: tl) 0 = .ok r from rfl, ok_bind, h1, ok_bind]
        rfl
      · unfold pokeDimNames rSetDimNames
        dsimp only
        rw [hy]
        dsimp only
        rw [if_neg (by simpa using hlen), rDimNames_ok _ _ (by simpa using hlen.symm), ok_bind, List.map_cons, htl]
        intro j e v he hv
        refine rDimName_ok (fun nms hn => ?_)
        subst hn
        cases j with
        | zero =>
          injection he with he
          injection hv with hv
          subst he
          cases hr : r with
          | none => rw [h2 hr] at hv; cases hv
          | some nms' =>
            obtain ⟨l, h4, h5, -⟩ := h3 nms' hr
            rw [h4] at hv
            injection hv with hv
            subst hv
            exact ⟨h5, rfl⟩
        | succ j =>
          have := hval (j + 1) e nms he hv
          exact ⟨this.1, this.2.2⟩
      · intro a b hab
        injection hab with hab
        injection hab with ha hb
        subst ha hb
        exact ⟨r', rfl, by simpa using hlen, h1⟩

theorem arrSlice_ok (na : α) {d : Nat} {ds : List Nat} {x : AObj α β} (hx : IsArray d ds x) (hfit : DimsFit (d :: ds))
    {s : Subscript} {locs : List (Option Nat)} (hs : SubscriptOk d s) (hl : PointsAt s locs)
    (hrep : ∀ i n, s = .rep i n → n.toNat * ds.prod ≤ intMax) :
    ∃ y, arrSlice na x (d :: ds) s = .ok y ∧ SlicedArray na locs d ds x y := by
  obtain ⟨out, h1, h2, h3⟩ := C49_slice_array_partial na hfit hx.cells hs hrep
  rw [← hl.1] at h1 h2 h3
  let y : AObj α β := ⟨out, none, some (locs.length :: ds), none, none, false, x.rest⟩
  obtain ⟨dn, dn', h4, h5, h6, h7⟩ := pokeSlice_ok (y := y) hx hs hl rfl rfl
  have hcells : ∀ (i : Nat) js l, locs[i]? = some l → ValidIndex ds js →
      out[arrayOffset (locs.length :: ds) (i :: js)]? =
      match l with
      | none => some na
      | some p => x.data[arrayOffset (d :: ds) (p :: js)]? := by
    intro i js l hi hjs
    have hil := (List.getElem?_eq_some_iff.1 hi).1
    obtain ⟨loc, h8, h9⟩ := h3 i js hil hjs
    have h10 := hl.2 i loc hil h8
    rw [hi] at h10
    injection h10 with h10
    subst h10
    rw [h9]
    by_cases hna : loc = naInt
    · rw [if_pos hna, if_pos hna]
    · rw [if_neg hna, if_neg hna]
  refine ⟨{ y with dimNames := dn' }, ?_, ?_⟩
  · unfold arrSlice
    rw [h1, ok_bind]
    dsimp only
    rw [h4, ok_bind]
    exact h5
  · cases hdn : x.dimNames with
    | none =>
      have := h6 hdn
      subst this
      refine ⟨⟨⟨?_, ?_, ?_⟩, rfl, by simpa using h2, rfl, rfl⟩, hcells, fun _ => rfl, ?_, ?_, rfl⟩
      · intro e he; injection he with he; subst he; simp
      · intro e dn he hd; cases hd
      · intro h; exact absurd rfl h
      · intro nms hn
        unfold rowNamesOf at hn
        rw [hdn] at hn
        cases hn
      · intro j hj
        unfold dimNamesOf
        rw [hdn]
    | some dn0 =>
      obtain ⟨hlen, hval⟩ := hx.ok.dimNames _ dn0 hx.dim hdn
      match dn0, hlen, hdn with
      | r :: tl, hlen, hdn =>
        obtain ⟨r', rfl, htl, hr'⟩ := h7 r tl hdn
        obtain ⟨r'', g1, g2, g3⟩ := sliceChr_ok (r := r) (d := d) (by
          intro nms hn
          exact (hval 0 d nms rfl (by rw [hn]; rfl)).1) hs hl
        rw [hr'] at g1
        injection g1 with g1
        subst g1
        refine ⟨⟨⟨?_, ?_, ?_⟩, rfl, by simpa using h2, rfl, rfl⟩, hcells, ?_, ?_, ?_, rfl⟩
        · intro e he; injection he with he; subst he; simp
        · intro e dn he hd
          injection he with he
          injection hd with hd
          subst he hd
          refine ⟨by simpa using htl, ?_⟩
          intro j e nms he hv
          cases j with
          | zero =>
            injection he with he
            injection hv with hv
            subst he
            cases hr : r with
            | none => rw [g2 hr] at hv; cases hv
            | some nms' =>
              obtain ⟨l, h4, h5, -⟩ := g3 nms' hr
              rw [h4] at hv
              unfold dropEmpty at hv
              dsimp only at hv
              by_cases h0 : l.length = 0
              · rw [if_pos h0] at hv; cases hv
              · rw [if_neg h0] at hv
                injection hv with hv
                subst hv
                exact ⟨h5, by omega, rfl⟩
          | succ j => exact hval (j + 1) e nms he hv
        · intro h; exact absurd rfl h
        · intro hn
          unfold rowNamesOf at hn
          rw [hdn] at hn
          cases r with
          | some _ => cases hn
          | none =>
            rw [g2 rfl]
            rfl
        · intro nms hn hne
          unfold rowNamesOf at hn
          rw [hdn] at hn
          cases r with
          | none => cases hn
          | some nms' =>
            injection hn with hn
            subst hn
            obtain ⟨l, h4, h5, h6⟩ := g3 nms' rfl
            have hl0 : l.length ≠ 0 := by
              intro h0
              exact hne (List.eq_nil_of_length_eq_zero (by omega))
            refine ⟨l, ?_, h5, h6⟩
            unfold rowNamesOf
            dsimp only
            rw [h4, dropEmpty_some hl0]
        · intro j hj
          unfold dimNamesOf
          rw [hdn]
          obtain ⟨k, rfl⟩ : ∃ k, j = k + 1 := ⟨j - 1, by omega⟩
          rfl

/-- **C93** (`vec_slice()` of an array): rows, their names, the names of the other dimensions and the other attributes. -/
theorem C93_slice (m : SliceMethods α β) (na : α) {d : Nat} {ds : List Nat} {x : AObj α β} (hx : IsArray d ds x)
    (hfit : DimsFit (d :: ds)) {s : Subscript} {locs : List (Option Nat)} (hs : SubscriptOk d s) (hl : PointsAt s locs)
    (hrep : ∀ i n, s = .rep i n → n.toNat * ds.prod ≤ intMax) :
    ∃ y, sliceObj m na x s = .ok y ∧ SlicedArray na locs d ds x y := by
  obtain ⟨y, h1, h2⟩ := arrSlice_ok na hx hfit hs hl hrep
  refine ⟨y, ?_, h2⟩
  unfold sliceObj
  rw [hx.noClass, if_neg (by decide), hx.dim]
  exact h1

/-! ## Pieces -/

theorem chopDimNames_eq {dn : Option (List (Option ChrObj))} {rn : Option ChrObj} (h : chopRowNames dn = .ok rn) (s : Subscript) :
    chopDimNames dn rn s = sliceDimNames dn s := by
  cases dn with
  | none => rfl
  | some dn =>
    match dn with
    | [] => cases h
    | r :: tl =>
      injection h with h
      subst h
      cases r with
      | none => rfl
      | some nms => rfl

theorem sizePieces_get : ∀ (l : List Int) (start : Int) (j : Nat),
    (sizePieces start l)[j]? = l[j]?.map (fun n => .seq (start + (l.take j).sum) n 1)
  | [], _, j => by simp [sizePieces]
  | n :: ns, start, 0 => by simp [sizePieces]
  | n :: ns, start, j + 1 => by
    simp only [sizePieces, List.getElem?_cons_succ, List.take_succ_cons, List.sum_cons]
    rw [sizePieces_get ns (start + n) j, Int.add_assoc]

theorem sizePieces_length : ∀ (l : List Int) (start : Int), (sizePieces start l).length = l.length
  | [], _ => rfl
  | n :: ns, start => by simp [sizePieces, sizePieces_length ns]

theorem pieces_length (n : Nat) (by_ : ChopBy) : (pieces n by_).length = indicesOutSize by_ n := by
  cases by_ with
  | indices l => simp [pieces, indicesOutSize]
  | sizes l => simp [pieces, indicesOutSize, sizePieces_length]
  | each => simp [pieces, indicesOutSize]

theorem pieces_get {n j : Nat} {by_ : ChopBy} (hj : j < indicesOutSize by_ n) : (pieces n by_)[j]? = chopSub by_ j := by
  cases by_ with
  | indices l => simp [pieces, chopSub]
  | sizes l =>
    simp only [pieces, chopSub, sizePieces_get]
    rw [Int.zero_add]
  | each =>
    simp only [indicesOutSize] at hj
    simp [pieces, chopSub, hj]

/-- A loop over the subscripts is a map over the pieces. -/
theorem fillN_pieces {γ : Type} (f : Subscript → C γ) (by_ : ChopBy) (n : Nat) :
    fillN (indicesOutSize by_ n) (fun _ (st : Nat × Int × Int) => do
      let (index, st) ← indicesNext by_ st
      let elt ← f index
      .ok (elt, st)) (0, 0, 0) = (pieces n by_).mapM f := by
  have key : ∀ (k : Nat) (i : Nat) (ys : List γ) (st : Nat × Int × Int), i + k = indicesOutSize by_ n → ys.length = i →
      ChopState by_ i st →
      (do
        let (out, _) ← forFrom (fun i (p : List (Option γ) × (Nat × Int × Int)) => do
          let (v, s) ← (do
            let (index, st) ← indicesNext by_ p.2
            let elt ← f index
            .ok (elt, st) : C (γ × (Nat × Int × Int)))
          let out ← wr p.1 i (some v)
          .ok (out, s)) i k (ys.map some ++ List.replicate k none, st)
        initd out) = (do
          let zs ← ((pieces n by_).drop i).mapM f
          .ok (ys ++ zs)) := by
    intro k
    induction k with
    | zero =>
      intro i ys st hi hy hst
      rw [List.drop_eq_nil_of_le (by rw [pieces_length]; omega)]
      simp only [List.replicate_zero, List.append_nil, List.mapM_nil]
      show initd (ys.map some) = _
      rw [initd_map_some]
      show _ = (Except.ok (ys ++ []) : C _)
      rw [List.append_nil]
    | succ k ih =>
      intro i ys st hi hy hst
      have hj : i < indicesOutSize by_ n := by omega
      obtain ⟨sub, st', h1, h2, h3⟩ := indicesNext_ok hst hj
      have hg := pieces_get hj
      rw [h1] at hg
      obtain ⟨hlt, hget⟩ := List.getElem?_eq_some_iff.1 hg
      rw [List.drop_eq_getElem_cons hlt, hget, List.mapM_cons]
      have hstep : ∀ (g : Nat → List (Option γ) × (Nat × Int × Int) → C (List (Option γ) × (Nat × Int × Int))) s,
          forFrom g i (k + 1) s = (do
            let s ← g i s
            forFrom g (i + 1) k s) := fun _ _ => rfl
      rw [hstep]
      dsimp only
      rw [h2, ok_bind]
      dsimp only
      cases hf : f sub with
      | error e => rfl
      | ok v =>
        rw [ok_bind, ok_bind]
        dsimp only
        have hwr : wr (ys.map some ++ List.replicate (k + 1) (none : Option γ)) i (some v) =
            .ok ((ys ++ [v]).map some ++ List.replicate k none) := by
          rw [wr_ok (by simp; omega)]
          congr 1
          rw [List.set_append_right _ _ (by simp; omega)]
          simp [hy, List.replicate_succ]
        rw [hwr, ok_bind]
        rw [ok_bind]
        have := ih (i + 1) (ys ++ [v]) st' (by omega) (by simp [hy]) h3
        rw [this]
        cases ((pieces n by_).drop (i + 1)).mapM f with
        | error e => rfl
        | ok zs =>
          show (Except.ok (ys ++ [v] ++ zs) : C _) = Except.ok (ys ++ (v :: zs))
          simp
  have := key (indicesOutSize by_ n) 0 [] (0, 0, 0) (by omega) rfl (chopState_start by_)
  rw [List.drop_zero] at this
  unfold fillN
  refine Eq.trans this ?_
  cases (pieces n by_).mapM f with
  | error e => rfl
  | ok zs => rfl

theorem sliceObj_class (m : SliceMethods α β) (na : α) {x : AObj α β} (ho : x.isObject = true) (hd : x.dim = none)
    (s : Subscript) : sliceObj m na x s = (do
      let i ← compactMaterialize s
      let out ← m.bracket x i
      if !m.isRestored out x then m.restore out x else .ok out) := by
  unfold sliceObj
  rw [ho, hd]
  rfl

theorem sliceObj_classShaped (m : SliceMethods α β) (na : α) {x : AObj α β} {dim : List Nat} (ho : x.isObject = true)
    (hd : x.dim = some dim) (s : Subscript) : sliceObj m na x s = (do
      let i ← compactMaterialize s
      let out ← m.shaped x i
      if !m.isRestored out x then m.restore out x else .ok out) := by
  unfold sliceObj
  rw [ho, hd]
  rfl

theorem sliceObj_plain (m : SliceMethods α β) (na : α) {x : AObj α β} (ho : x.isObject = false) (hd : x.dim = none)
    (s : Subscript) : sliceObj m na x s = plainSlice na x s := by
  unfold sliceObj
  rw [ho, hd]
  rfl

theorem sliceObj_array (m : SliceMethods α β) (na : α) {x : AObj α β} {dim : List Nat} (ho : x.isObject = false)
    (hd : x.dim = some dim) (s : Subscript) : sliceObj m na x s = arrSlice na x dim s := by
  unfold sliceObj
  rw [ho, hd]
  rfl

/-- **C93** (`vec_chop()`): the pieces are the slices of `x`, errors included, for arrays and vectors without a class and for
those of classes without a proxy.  The slices of an array of a class are taken to be restored by the method for slices. -/
theorem C93_chop (m : SliceMethods α β) (na : α) {x : AObj α β} {n : Nat} (hn : x.size = .ok n) (by_ : ChopBy)
    (hdn : ∀ dn, x.dimNames = some dn → dn ≠ [])
    (hres : x.isObject = true → x.dim ≠ none → ∀ i out, m.shaped x i = .ok out → m.isRestored out x = true) :
    chopObj m na x by_ = (pieces n by_).mapM (sliceObj m na x) := by
  rw [← fillN_pieces (sliceObj m na x) by_ n]
  unfold chopObj
  cases ho : x.isObject with
  | true =>
    rw [if_pos rfl]
    cases hd : x.dim with
    | none =>
      rw [if_neg (by simp)]
      unfold chopFallback
      rw [hn, ok_bind]
      simp only [sliceObj_class m na ho hd, bind_assoc]
    | some dim =>
      rw [if_pos (by rfl)]
      unfold chopFallbackShaped
      rw [hn, ok_bind]
      have : ∀ s, sliceObj m na x s = (do
          let i ← compactMaterialize s
          m.shaped x i) := by
        intro s
        rw [sliceObj_classShaped m na ho hd]
        refine congrArg _ ?_
        funext i
        cases hm : m.shaped x i with
        | error e => rfl
        | ok out => rw [ok_bind, hres ho (by rw [hd]; simp) i out hm]; rfl
      simp only [this, bind_assoc]
  | false =>
    rw [if_neg (by decide)]
    cases hd : x.dim with
    | none =>
      dsimp only
      unfold chopPlain
      rw [hn, ok_bind]
      simp only [sliceObj_plain m na ho hd]
    | some dim =>
      dsimp only
      unfold chopShaped
      have hr : ∃ rn, chopRowNames x.dimNames = .ok rn := by
        cases hx : x.dimNames with
        | none => exact ⟨none, rfl⟩
        | some dn =>
          match dn, hdn _ hx with
          | r :: _, _ => exact ⟨r, rfl⟩
          | [], h => exact absurd rfl h
      obtain ⟨rn, hr⟩ := hr
      rw [hr, ok_bind, hn, ok_bind]
      simp only [sliceObj_array m na ho hd, arrSlice, bind_assoc, chopDimNames_eq hr]

/-- Pieces of an array whose subscripts point at `L`. -/
theorem chopArray_ok (m : SliceMethods α β) (na : α) {d : Nat} {ds : List Nat} {x : AObj α β} (hx : IsArray d ds x)
    (hfit : DimsFit (d :: ds)) {by_ : ChopBy} {L : Nat → List (Option Nat)} (hL : ChopsAt by_ d L) :
    ∃ ys, chopObj m na x by_ = .ok ys ∧ ys.length = indicesOutSize by_ d ∧
      ∀ (j : Nat) y, ys[j]? = some y → SlicedArray na (L j) d ds x y := by
  rw [C93_chop m na (isArray_size hx) by_ (fun dn hdn hnil => by
      have := (hx.ok.dimNames _ dn hx.dim hdn).1
      rw [hnil] at this
      cases this)
    (fun ho => by rw [hx.noClass] at ho; cases ho)]
  have hstep : ∀ (j : Nat) sub, (pieces d by_)[j]? = some sub →
      ∃ y, sliceObj m na x sub = .ok y ∧ SlicedArray na (L j) d ds x y := by
    intro j sub hj
    have hlt : j < indicesOutSize by_ d := by
      rw [← pieces_length]
      exact (List.getElem?_eq_some_iff.1 hj).1
    obtain ⟨sub', h1, h2, h3, -⟩ := hL j hlt
    rw [pieces_get hlt, h1] at hj
    injection hj with hj
    subst hj
    refine C93_slice m na hx hfit h2 h3 (fun i n hrep => ?_)
    subst hrep
    cases by_ with
    | indices l =>
      simp only [chopSub, Option.map_eq_some_iff] at h1
      obtain ⟨_, _, h⟩ := h1
      cases h
    | sizes l =>
      simp only [chopSub, Option.map_eq_some_iff] at h1
      obtain ⟨_, _, h⟩ := h1
      cases h
    | each => cases h1
  rw [← pieces_length]
  generalize pieces d by_ = ps at hstep
  clear hL
  induction ps generalizing L with
  | nil => exact ⟨[], rfl, rfl, fun j y hy => by cases hy⟩
  | cons p ps ih =>
    obtain ⟨y, h1, h2⟩ := hstep 0 p rfl
    obtain ⟨ys, h3, h4, h5⟩ := ih (L := fun j => L (j + 1)) (fun j sub hj => hstep (j + 1) sub hj)
    refine ⟨y :: ys, ?_, by simp [h4], ?_⟩
    · rw [List.mapM_cons, h1, ok_bind, h3]
      rfl
    · intro j z hz
      cases j with
      | zero => injection hz with hz; subst hz; exact h2
      | succ j => exact h5 j z hz

/-- **C93** (`vec_chop(x, indices)` of an array): one piece for each index, with the rows and names at its locations. -/
theorem C93_indices (m : SliceMethods α β) (na : α) {d : Nat} {ds : List Nat} {x : AObj α β} (hx : IsArray d ds x)
    (hfit : DimsFit (d :: ds)) {indices : List RSubscript} {locs : List (List Int)}
    (hi : List.Forall₂ (IndexIs d) indices locs) (hl : ∀ l ∈ locs, l.length ≤ 2147483647) :
    ∃ ys, vecChopObj m na x (some indices) none = .ok ys ∧
      List.Forall₂ (fun l y => SlicedArray na (locations l) d ds x y) locs ys := by
  have hL : ChopsAt (.indices locs) d (fun j => locations ((locs[j]?).getD [])) := by
    intro j hj
    simp only [indicesOutSize] at hj
    have hg := List.getElem?_eq_getElem hj
    refine ⟨.locs locs[j], by simp [chopSub, hg], ?_, ?_, ?_⟩
    · have hm : locs[j] ∈ locs := List.getElem_mem hj
      obtain ⟨i, _, hh⟩ := forall₂_mem_right hi hm
      exact hh.2
    · dsimp only; rw [hg]; exact pointsAt_locs
    · dsimp only; rw [hg]; simpa [locations] using hl _ (List.getElem_mem hj)
  obtain ⟨ys, h1, h2, h3⟩ := chopArray_ok m na hx hfit hL
  refine ⟨ys, ?_, ?_⟩
  · unfold vecChopObj
    dsimp only
    rw [isArray_size hx, ok_bind, listAsLocations_ok (hi.imp (fun _ _ h => indexIs_iff.1 h)), ok_bind]
    exact h1
  · simp only [indicesOutSize] at h2
    rw [List.forall₂_iff_get]
    refine ⟨h2.symm, ?_⟩
    intro j hj hj'
    have := h3 j _ (List.getElem?_eq_getElem hj')
    rw [List.getElem?_eq_getElem hj] at this
    exact this

/-- Indices and sizes together are an error. -/
theorem C93_both (m : SliceMethods α β) (na : α) (x : AObj α β) (indices : List RSubscript) (sizes : List Int) :
    vecChopObj m na x (some indices) (some sizes) = .error .abort := rfl

/-- **C93** (`vec_chop(x, sizes = )` of an array): consecutive rows with their names. -/
theorem C93_sizes (m : SliceMethods α β) (na : α) {ns : List Nat} {ds : List Nat} {x : AObj α β} (hx : IsArray ns.sum ds x)
    (hfit : DimsFit (ns.sum :: ds)) (hn : ns.sum ≤ 2147483647) :
    ∃ ys, vecChopObj m na x none (some (ns.map (fun (k : Nat) => (k : Int)))) = .ok ys ∧ ys.length = ns.length ∧
      ∀ (j : Nat) k y, ns[j]? = some k → ys[j]? = some y →
        SlicedArray na ((List.range' (ns.take j).sum k).map some) ns.sum ds x y := by
  have hsum : ∀ l : List Nat, (l.map (fun (k : Nat) => (k : Int))).sum = (l.sum : Int) := by
    intro l
    induction l with
    | nil => rfl
    | cons a l ih => simp [ih]
  have hle : ∀ (j k : Nat), ns[j]? = some k → (ns.take j).sum + k ≤ ns.sum := by
    intro j k hk
    have := congrArg List.sum (List.take_append_drop j ns)
    rw [List.sum_append] at this
    obtain ⟨hj, rfl⟩ := List.getElem?_eq_some_iff.1 hk
    rw [List.drop_eq_getElem_cons hj, List.sum_cons] at this
    omega
  have hL : ChopsAt (.sizes (ns.map (fun (k : Nat) => (k : Int)))) ns.sum
      (fun j => (List.range' (ns.take j).sum ((ns[j]?).getD 0)).map some) := by
    intro j hj
    simp only [indicesOutSize, List.length_map] at hj
    have hg := List.getElem?_eq_getElem hj
    have hk := hle j _ hg
    refine ⟨.seq ((ns.take j).sum : Int) (ns[j] : Int) 1, ?_, ?_, ?_, ?_⟩
    · simp only [chopSub, List.getElem?_map, hg, Option.map_some, ← List.map_take, hsum]
    · refine ⟨by omega, Or.inl rfl, by omega, by omega, fun i hi => by omega⟩
    · dsimp only
      rw [hg]
      refine ⟨by simp [subscriptSize], ?_⟩
      intro i e hi he
      simp only [Option.getD_some, List.length_map, List.length_range'] at hi
      simp only [subscriptAt] at he
      rw [if_pos (by omega)] at he
      cases he
      rw [if_neg (by simp only [naInt]; omega)]
      simp only [Option.getD_some, List.getElem?_map, List.getElem?_range' hi, Option.map_some]
      congr 2
      omega
    · dsimp only; rw [hg]; simp; omega
  obtain ⟨ys, h1, h2, h3⟩ := chopArray_ok m na hx hfit hL
  refine ⟨ys, ?_, by simpa [indicesOutSize] using h2, ?_⟩
  · unfold vecChopObj
    dsimp only
    rw [isArray_size hx, ok_bind, chopSizes_eq, if_pos, ok_bind, h1]
    refine ⟨?_, hsum ns⟩
    intro s hs
    obtain ⟨k, _, rfl⟩ := List.mem_map.1 hs
    omega
  · intro j k y hk hy
    have := h3 j y hy
    rw [hk] at this
    exact this

/-- **C93** (`vec_chop(x)` of an array): one piece for each row. -/
theorem C93_each (m : SliceMethods α β) (na : α) {d : Nat} {ds : List Nat} {x : AObj α β} (hx : IsArray d ds x)
    (hfit : DimsFit (d :: ds)) : ∃ ys, vecChopObj m na x none none = .ok ys ∧ ys.length = d ∧
      ∀ (j : Nat) y, ys[j]? = some y → SlicedArray na [some j] d ds x y := by
  have hL : ChopsAt .each d (fun j => [some j]) := by
    intro j hj
    simp only [indicesOutSize] at hj
    refine ⟨.locs [(j : Int) + 1], rfl, ?_, ?_, by simp⟩
    · intro v hv
      simp only [List.mem_singleton] at hv
      subst hv
      exact Or.inr ⟨by omega, by omega⟩
    · have := pointsAt_locs (loc := [(j : Int) + 1])
      have e : locations [(j : Int) + 1] = [some j] := by
        simp only [locations, List.map_cons, List.map_nil]
        rw [if_neg (by simp only [naInt]; omega)]
        simp
      rwa [e] at this
  obtain ⟨ys, h1, h2, h3⟩ := chopArray_ok m na hx hfit hL
  exact ⟨ys, h1, h2, h3⟩

/-! ## Assignment -/

theorem assignShaped_ok {d m : Nat} {ds : List Nat} (hfit : DimsFit (d :: ds)) {x value : List α}
    (hx : x.length = (d :: ds).prod) {s : Subscript} (hs : SubscriptOk d s) (hr : NotRep s)
    (hval : value.length = (m :: ds).prod) (hm : (m : Int) = subscriptSize s) :
    ∃ out, assignShaped (d :: ds) x s value = .ok out ∧ out.length = x.length ∧
      ∀ p js, p < d → ValidIndex ds js →
        (∀ i, LastOccurrence (subscriptAt s) m p i →
          out[arrayOffset (d :: ds) (p :: js)]? = value[arrayOffset (m :: ds) (i :: js)]?) ∧
        ((∀ i, i < m → subscriptAt s i ≠ some ((p : Int) + 1)) →
          out[arrayOffset (d :: ds) (p :: js)]? = x[arrayOffset (d :: ds) (p :: js)]?) := by
  cases s with
  | rep i n => exact hr.elim
  | locs l =>
    have : m = l.length := by
      simp only [subscriptSize] at hm
      omega
    subst this
    exact C46_assign_array hfit hx hs hval
  | seq start n step =>
    have hn : n = (m : Int) := hm.symm
    subst hn
    have hok := dimOk_of_fit hfit
    rw [List.prod_cons] at hx hval
    obtain ⟨h0, h1, h2, h3, h4⟩ := hs
    obtain ⟨out, ho, g1, g2⟩ := assignShapedSeq_ok hok hx h1 h2 h3 (n := m)
      (fun j hj => h4 j (by omega)) hval
    refine ⟨out, ho, g1, fun p js hp hjs => ?_⟩
    have := g2 _ (offset_lt hjs) p hp
    rw [if_pos (offset_lt hjs)] at this
    simp only [arrayOffset]
    rw [Nat.add_comm p]
    refine ⟨fun i hi => ?_, this.2⟩
    rw [Nat.add_comm i]
    exact this.1 i hi

/-- The names of rows that `vec_names()` gives are those of the first dimension. -/
theorem namesImpl_array (ms : NameMethods α β) {d : Nat} {ds : List Nat} {x : AObj α β} (hx : IsArray d ds x) (proxy : Bool) :
    ∃ r, namesImpl ms x proxy = .ok r ∧ rowNamesOf x = r.map ChrObj.elts ∧
      ∀ nms, r = some nms → nms.elts.length = d ∧ nms.dim = none := by
  unfold namesImpl rowNamesOf
  rw [hx.noRow, hx.dim]
  dsimp only
  cases hdn : x.dimNames with
  | none => exact ⟨none, rfl, rfl, fun _ h => by cases h⟩
  | some dn =>
    obtain ⟨hlen, hval⟩ := hx.ok.dimNames _ dn hx.dim hdn
    match dn, hlen with
    | r :: tl, _ =>
      refine ⟨r, ?_, ?_, ?_⟩
      · dsimp only
        rw [if_neg (by simp)]
        rfl
      · cases r <;> rfl
      · intro nms hn
        have := hval 0 d nms rfl (by rw [hn]; rfl)
        exact ⟨this.1, this.2.2⟩

/-- Names of rows set on an array. -/
theorem setArrayNames_ok (h : List Name → BitVec 32) (ms : NameMethods α β) {d : Nat} {ds : List Nat} {x : AObj α β}
    (hx : IsArray d ds x) {l : List Name} (hl : l.length = d) (owned : Bool) :
    ∃ y z, setNamesImpl h ms true x (some ⟨l, none⟩) true owned true = .ok (y, z) ∧ IsArray d ds y ∧ y.data = x.data ∧
      y.rest = x.rest ∧ (∀ j, 0 < j → dimNamesOf y j = dimNamesOf x j) ∧
      rowNamesOf y = if d = 0 then none else some l := by
  obtain ⟨v, tl, hb, hset, htl⟩ := rSetDimNames_ok hx.ok hx.dim (n := d) rfl (names := some ⟨l, none⟩)
    (by intro nms hnms; injection hnms with hnms; subst hnms; exact ⟨hl, rfl⟩)
  have hbase : copyDimNames x = baseDimNames x (d :: ds) := by
    unfold copyDimNames baseDimNames
    rw [hx.dim]
    cases x.dimNames <;> rfl
  have hlen : tl.length = ds.length ∧ (∀ j, 0 < j → dimNamesOf x j = (v :: tl)[j]?.join) ∧
      ∀ (j : Nat) e nms, ds[j]? = some e → tl[j]? = some (some nms) → nms.elts.length = e ∧ 0 < e ∧ nms.dim = none := by
    unfold baseDimNames at hb
    unfold dimNamesOf
    cases hdn : x.dimNames with
    | none =>
      rw [hdn] at hb
      dsimp only at hb ⊢
      simp only [List.length_cons, List.replicate_succ] at hb
      injection hb with hb1 hb2
      subst hb1 hb2
      refine ⟨by simp, fun j hj => ?_, fun j e nms he hn => ?_⟩
      · obtain ⟨k, rfl⟩ : ∃ k, j = k + 1 := ⟨j - 1, by omega⟩
        rw [List.getElem?_cons_succ, List.getElem?_replicate]
        split <;> rfl
      · rw [List.getElem?_replicate] at hn
        split at hn <;> cases hn
    | some dn =>
      obtain ⟨h1, h2⟩ := hx.ok.dimNames _ dn hx.dim hdn
      rw [hdn] at hb
      dsimp only at hb ⊢
      subst hb
      exact ⟨by simpa using h1, fun j _ => rfl, fun j e nms he hn => h2 (j + 1) e nms he hn⟩
  obtain ⟨hlen, hdim, hval⟩ := hlen
  refine ⟨{ x with dimNames := some (dropEmpty (some ⟨l, none⟩) :: tl) },
    (afterClone owned true x { x with dimNames := some (dropEmpty (some ⟨l, none⟩) :: tl) }).2, ?_, ⟨⟨hx.ok.dims, ?_, ?_⟩, hx.dim, hx.cells,
    hx.noClass, hx.noRow⟩, rfl, rfl, ?_, ?_⟩
  · unfold setNamesImpl
    rw [checkNames_ok (isArray_size hx) (show ChrObj.size ⟨l, none⟩ = .ok d by unfold ChrObj.size; rw [hl]), ok_bind,
      hx.noRow]
    dsimp only
    rw [if_pos (by rw [hx.dim]; rfl)]
    unfold setRownames
    rw [if_neg (by simp)]
    dsimp only
    rw [ok_bind, if_neg (by decide), hbase, wr_ok (by rw [hb]; simp), ok_bind, hset, ok_bind, hx.noRow]
    rfl
  · intro e dn he hd
    have he' : some (d :: ds) = some e := by rw [← hx.dim]; exact he
    injection he' with he'
    injection hd with hd
    subst he' hd
    refine ⟨by simpa using hlen, fun j e nms he hn => ?_⟩
    cases j with
    | zero =>
      injection he with he
      injection hn with hn
      subst he
      unfold dropEmpty at hn
      dsimp only at hn
      by_cases h0 : l.length = 0
      · rw [if_pos h0] at hn; cases hn
      · rw [if_neg h0] at hn
        injection hn with hn
        subst hn
        exact ⟨hl, by omega, rfl⟩
    | succ j => exact hval j e nms he hn
  · intro hr; exact absurd hx.noRow hr
  · intro j hj
    rw [hdim j hj]
    obtain ⟨k, rfl⟩ : ∃ k, j = k + 1 := ⟨j - 1, by omega⟩
    rfl
  · unfold rowNamesOf
    dsimp only
    by_cases h0 : d = 0
    · rw [if_pos h0]
      rw [show dropEmpty (some ⟨l, none⟩) = none from if_pos (by dsimp only; omega)]
    · rw [if_neg h0, dropEmpty_some (by dsimp only; omega)]

theorem namesOrBlank_length {d : Nat} {r : Option ChrObj} (h : ∀ nms, r = some nms → nms.elts.length = d ∧ nms.dim = none) :
    ∃ l, namesOrBlank d r = ⟨l, none⟩ ∧ l.length = d ∧ ∀ p, p < d → l[p]? =
      match r.map ChrObj.elts with
      | none => some (some [])
      | some nms => nms[p]? := by
  cases r with
  | none =>
    refine ⟨List.replicate d (some []), rfl, by simp, fun p hp => ?_⟩
    rw [List.getElem?_replicate, if_pos hp]
    rfl
  | some nms =>
    obtain ⟨e, dim⟩ := nms
    obtain ⟨h1, h2⟩ := h _ rfl
    dsimp only at h1 h2
    subst h2
    exact ⟨e, rfl, h1, fun p _ => rfl⟩

/-- **C93** (assignment): an array without a class is assigned to at the locations of a subscript that is not a compact
repetition.  Rows that are assigned to get the cells of the last row of `value` for them; when names are assigned and `value`
has names of rows they get its name as well and rows that had no name get an empty one; otherwise the names stay. -/
theorem C93_assign (m : SliceMethods α β) (h : List Name → BitVec 32) (ms : NameMethods α β) {d k : Nat} {ds : List Nat}
    {x value : AObj α β} (hx : IsArray d ds x) (hv : IsArray k ds value) (hfit : DimsFit (d :: ds)) {s : Subscript}
    (hs : SubscriptOk d s) (hr : NotRep s) (hk : (k : Int) = subscriptSize s) (owned names : Bool) :
    ∃ y, assignObj m h ms x s value owned names = .ok y ∧ AssignedArray (subscriptAt s) k d ds x value y ∧
      (names = false ∨ rowNamesOf value = none → y.dimNames = x.dimNames) ∧
      (names = true → ∀ vn, rowNamesOf value = some vn → d ≠ 0 → ∃ yn, rowNamesOf y = some yn ∧
        AssignedNames (subscriptAt s) k d (rowNamesOf x) vn yn) := by
  obtain ⟨out, h1, h2, h3⟩ := assignShaped_ok hfit hx.cells hs hr hv.cells hk
  let y0 : AObj α β := { x with data := out }
  have hy0 : IsArray d ds y0 := ⟨⟨hx.ok.dims, hx.ok.dimNames, hx.ok.noDim⟩, hx.dim, h2.trans hx.cells, hx.noClass, hx.noRow⟩
  have ha : AssignedArray (subscriptAt s) k d ds x value y0 :=
    ⟨hy0, fun p js i hp hjs hi => (h3 p js hp hjs).1 i hi, fun p js hp hjs hi => (h3 p js hp hjs).2 hi, fun _ _ => rfl, rfl⟩
  have hrun : assignObj m h ms x s value owned names =
      if names then proxyAssignNames h ms y0 s value owned else .ok y0 := by
    unfold assignObj
    rw [hv.noClass, if_neg (by decide)]
    have : (match x.dim with
        | some dim => do .ok ({ x with data := ← assignShaped dim x.data s value.data }, s)
        | none => do .ok ({ x with data := ← assignBase x.data s value.data }, s) : C (AObj α β × Subscript)) = .ok (y0, s) := by
      split
      · rename_i dim hd
        rw [hx.dim] at hd
        injection hd with hd
        rw [← hd, h1]
        rfl
      · rename_i hd
        rw [hx.dim] at hd
        cases hd
    exact bind_eq_of this rfl
  rw [hrun]
  cases names with
  | false => exact ⟨y0, rfl, ha, fun _ => rfl, fun h => by cases h⟩
  | true =>
    rw [if_pos rfl]
    obtain ⟨vr, hvr, hvn, hvl⟩ := namesImpl_array ms hv false
    unfold proxyAssignNames
    rw [hvr, ok_bind]
    cases vr with
    | none =>
      refine ⟨y0, rfl, ha, fun _ => rfl, fun _ vn hvn' => ?_⟩
      rw [hvn] at hvn'
      cases hvn'
    | some vn =>
      dsimp only
      obtain ⟨pr, hpr, hpn, hpl⟩ := namesImpl_array ms hy0 true
      rw [hpr, ok_bind, isArray_size hy0, ok_bind]
      obtain ⟨pl, hb, hpd, hpg⟩ := namesOrBlank_length hpl
      rw [hb]
      dsimp only
      have hvk : vn.elts.length = k := (hvl vn rfl).1
      obtain ⟨new, g1, g2, g3, g4⟩ := C46_assign (x := pl) (s := s) (value := vn.elts) (by rw [hpd]; exact hs) hr
        (by rw [hvk]; exact hk)
      rw [hvk] at g3 g4
      rw [g1, ok_bind]
      obtain ⟨y, z, e1, e2, e3, e4, e5, e6⟩ := setArrayNames_ok h ms hy0 (l := new) (by omega) owned
      rw [e1, ok_bind]
      refine ⟨y, rfl, ⟨e2, ?_, ?_, e5, e4⟩, ?_, ?_⟩
      · rw [e3]; exact ha.written
      · rw [e3]; exact ha.kept
      · intro hor
        rcases hor with hor | hor
        · cases hor
        · rw [hvn] at hor; cases hor
      · intro _ vn' hvn' hd
        rw [hvn] at hvn'
        injection hvn' with hvn'
        subst hvn'
        rw [if_neg hd] at e6
        refine ⟨new, e6, by omega, g3, fun p hp hi => ?_⟩
        rw [g4 p hi, hpg p hp, ← hpn]
        rfl

/-! ## Examples -/

/-- A 2 × 3 matrix with names of rows and columns. -/
def C93_matrix : AObj Int Unit :=
  ⟨[1, 2, 3, 4, 5, 6], none, some [2, 3],
    some [some ⟨[some ['a'], some ['b']], none⟩, some ⟨[some ['x'], some ['y'], some ['z']], none⟩], none, false, ()⟩

/-- No classes. -/
def C93_none : SliceMethods Int Unit :=
  ⟨fun _ _ => .error .abort, fun _ _ => .error .abort, fun _ _ => true, fun x _ => .ok x, fun _ _ _ => .error .abort⟩

/-- A class whose methods keep one element. -/
def C93_class : SliceMethods Int Unit :=
  ⟨fun x i => .ok { x with data := i }, fun x i => .ok { x with data := i }, fun _ _ => true, fun x _ => .ok x,
    fun _ _ _ => .error .abort⟩

example : IsArray 2 [3] C93_matrix := by
  refine ⟨⟨?_, ?_, fun h => absurd rfl h⟩, rfl, rfl, rfl, rfl⟩
  · intro d hd; injection hd with hd; subst hd; decide
  · intro d dn hd hdn
    injection hd with hd
    injection hdn with hdn
    subst hd hdn
    refine ⟨rfl, ?_⟩
    intro j e nms he hv
    match j, he, hv with
    | 0, he, hv => injection he with he; injection hv with hv; injection hv with hv; subst he hv; exact ⟨rfl, by decide, rfl⟩
    | 1, he, hv => injection he with he; injection hv with hv; injection hv with hv; subst he hv; exact ⟨rfl, by decide, rfl⟩
    | j + 2, he, hv => cases he

example : DimsFit [2, 3] := dimsFit_of_pos (dim := [2, 3]) (by decide) (by decide)

example : sliceObj C93_none naInt C93_matrix (.locs [2, naInt, 2]) =
    .ok ⟨[2, naInt, 2, 4, naInt, 4, 6, naInt, 6], none, some [3, 3],
      some [some ⟨[some ['b'], some [], some ['b']], none⟩, some ⟨[some ['x'], some ['y'], some ['z']], none⟩], none, false, ()⟩ := by
  decide +kernel

example : vecChopObj C93_none naInt C93_matrix none (some [0, 2]) =
    .ok [⟨[], none, some [0, 3], some [none, some ⟨[some ['x'], some ['y'], some ['z']], none⟩], none, false, ()⟩, C93_matrix] := by
  decide +kernel

example : chopObj C93_class naInt { C93_matrix with isObject := true } .each =
    .ok [{ C93_matrix with isObject := true, data := [1] }, { C93_matrix with isObject := true, data := [2] }] := by
  decide +kernel

/-- Row 2 is assigned a row with a name. -/
example : assignObj C93_none (fun _ => 0) C88_ms { C93_matrix with dimNames := none } (.locs [2])
    ⟨[20, 40, 60], none, some [1, 3], some [some ⟨[some ['q']], none⟩, none], none, false, ()⟩ true true =
    .ok ⟨[1, 20, 3, 40, 5, 60], none, some [2, 3], some [some ⟨[some [], some ['q']], none⟩, none], none, false, ()⟩ := by
  decide +kernel

example : NotRep (.locs [2]) ∧ SubscriptOk 2 (.locs [2]) := by
  refine ⟨trivial, ?_⟩
  intro v hv
  simp at hv
  omega

end Vctrs
