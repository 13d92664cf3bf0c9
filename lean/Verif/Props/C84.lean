import Verif.Lemmas.Chop
import Verif.Model.ProxyKind
import Verif.Lemmas.Base
import Mathlib.Data.List.Forall2

/-!
# C84: proxies for equality, comparison and order
-/

namespace Vctrs.Spec

/-- A proxy is a vector, or a data frame whose columns are vectors, not just one. -/
def FlatProxy (y : PxObj) : Prop :=
  (∃ t c d xs, y = .vec t c d xs) ∨
  ∃ cls cols rows, y = .df cls cols rows ∧ cols.length ≠ 1 ∧ ∀ col ∈ cols, ∃ t c d xs, col = .vec t c d xs

/-- The generics whose methods may give a proxy, from the most specific on. -/
def genericsFor : PxKind → List PxKind
  | .equal => [.equal]
  | .compare => [.compare, .equal]
  | .order => [.order, .compare, .equal]

/-- What the methods make of an object with a class: the first method of the generics, or the one of
`vec_proxy()`, or the object itself. -/
def chosenProxy (E : PxEnv) (k : PxKind) (x : PxObj) : C PxObj :=
  match (genericsFor k).findSome? fun g => E.meth g x.cls with
  | some f => f x
  | none =>
    match E.proxy x.cls with
    | some f => f x
    | none => .ok x

/-- The columns which a proxy of a column contributes. -/
def partsOf : PxObj → List PxObj
  | .vec t c d xs => [.vec t c d xs]
  | .df _ cols _ => cols

/-- A data frame of proxies of columns, or the only column. -/
def assembled (cls : List Nat) (rows : Nat) (cols : List PxObj) : PxObj :=
  match cols.flatMap partsOf with
  | [x] => x
  | l => .df cls l rows

/-- The number of rows. -/
def pxRowCount : PxObj → Nat
  | .vec _ _ [] xs => xs.length
  | .vec _ _ (n :: _) _ => n
  | .df _ _ rows => rows

/-- Arrays have as many elements as their dimensions say, columns have the size of the data frame, and
unless the proxies are for equality there is no raw array without class. -/
inductive Nice (k : PxKind) : PxObj → Prop where
  | vec {t : PxType} {c d : List Nat} {xs : List (Option Int)} (hd : d ≠ [] → d.prod = xs.length)
      (hr : t = .raw → k ≠ .equal → c = [] → d.length ≤ 1) : Nice k (.vec t c d xs)
  | df {c : List Nat} {cols : List PxObj} {rows : Nat} (h : ∀ col ∈ cols, Nice k col)
      (hs : ∀ col ∈ cols, pxRowCount col = rows) : Nice k (.df c cols rows)

/-- Methods that keep the number of rows. -/
structure NiceEnv (k : PxKind) (E : PxEnv) : Prop where
  meth : ∀ g c f x y, E.meth g c = some f → Nice k x → f x = .ok y → Nice k y ∧ pxRowCount y = pxRowCount x
  proxy : ∀ c f x y, E.proxy c = some f → Nice k x → f x = .ok y → Nice k y ∧ pxRowCount y = pxRowCount x
  asDf : ∀ x y, Nice k x → E.asDf x = .ok y → Nice k y ∧ pxRowCount y = pxRowCount x

end Vctrs.Spec

namespace Vctrs
open Spec

mutual
theorem pxLeaves_vec : ∀ (x : PxObj), ∀ col ∈ x.leaves, ∃ t c d xs, col = .vec t c d xs
  | .vec t c d xs, col, h => by
    simp only [PxObj.leaves, List.mem_singleton] at h
    exact ⟨t, c, d, xs, h⟩
  | .df _ cols _, col, h => by
    simp only [PxObj.leaves] at h
    exact leavesCols_vec cols col h
theorem leavesCols_vec : ∀ (l : List PxObj), ∀ col ∈ leavesCols l, ∃ t c d xs, col = .vec t c d xs
  | [], _, h => by simp [leavesCols] at h
  | x :: l, col, h => by
    simp only [leavesCols, List.mem_append] at h
    rcases h with h | h
    · exact pxLeaves_vec x col h
    · exact leavesCols_vec l col h
end

theorem unwrap_flat (cls : List Nat) (cols : List PxObj) (rows : Nat) (h : ∀ col ∈ cols, ∃ t c d xs, col = PxObj.vec t c d xs) :
    FlatProxy (pxUnwrap (.df cls cols rows)) := by
  match cols, h with
  | [], h => exact Or.inr ⟨cls, [], rows, by simp [pxUnwrap], by simp, h⟩
  | [x], h =>
    obtain ⟨t, c, d, xs, rfl⟩ := h x (by simp)
    exact Or.inl ⟨t, c, d, xs, by simp [pxUnwrap]⟩
  | x :: y :: l, h => exact Or.inr ⟨cls, x :: y :: l, rows, by simp [pxUnwrap], by simp, h⟩

/-- **C84**: whatever the methods do, the result is a vector or a data frame of vectors with more or less
than one column. -/
theorem C84_flat {E : PxEnv} {fuel : Nat} {k : PxKind} {x y : PxObj} (h : pxFull E fuel k x = .ok y) : FlatProxy y := by
  cases fuel with
  | zero => simp only [pxFull] at h; cases h
  | succ fuel =>
    simp only [pxFull] at h
    cases h1 : pxImpl E (pxFull E fuel) k x with
    | error e => rw [h1] at h; cases h
    | ok out =>
      rw [h1, ok_bind] at h
      cases out with
      | vec t c d xs => simp only at h; cases h; exact Or.inl ⟨t, c, d, xs, rfl⟩
      | df cls cols rows =>
        simp only at h
        cases h2 : cols.mapM (pxFull E fuel k) with
        | error e => rw [h2] at h; cases h
        | ok cols' =>
          rw [h2, ok_bind] at h
          cases h
          exact unwrap_flat _ _ _ (leavesCols_vec _)

/-! ## Selection of methods -/

theorem findMethod_cls {E : PxEnv} {k : PxKind} {x : PxObj} (h : x.cls ≠ []) :
    pxFindMethod E k x = (E.meth k x.cls).map fun f => f x := by
  cases x with
  | vec t c d xs =>
    cases c with
    | nil => exact absurd rfl h
    | cons => rfl
  | df c cols rows =>
    cases c with
    | nil => exact absurd rfl h
    | cons => rfl

theorem pxImpl_chosen {E : PxEnv} {full : PxKind → PxObj → C PxObj} {k : PxKind} {x : PxObj} (hc : x.cls ≠ [])
    (hd : x.dimN ≤ 1) : pxImpl E full k x = chosenProxy E k x := by
  have hd' : ¬ x.dimN > 1 := by omega
  have e : ∀ g w, pxInvoke E full g x w = match E.meth g x.cls with | some f => f x | none => w x := by
    intro g w
    unfold pxInvoke
    rw [findMethod_cls hc]
    cases E.meth g x.cls with
    | some f => rfl
    | none => simp only [Option.map_none, if_neg hd', if_pos hc]
  cases k <;> simp only [pxImpl, e, chosenProxy, genericsFor, List.findSome?]
  · cases E.meth .equal x.cls <;> simp only [pxProxy] <;> cases E.proxy x.cls <;> rfl
  · cases E.meth .compare x.cls <;> cases E.meth .equal x.cls <;> simp only [pxProxy] <;> cases E.proxy x.cls <;> rfl
  · cases E.meth .order x.cls <;> cases E.meth .compare x.cls <;> cases E.meth .equal x.cls <;> simp only [pxProxy] <;>
      cases E.proxy x.cls <;> rfl

/-- **C84**: an object with a class which is no array is handed to the first method of the generics, from
the most specific on; a vector is then the proxy. -/
theorem C84_method {E : PxEnv} {fuel : Nat} {k : PxKind} {x : PxObj} {t : PxType} {c d : List Nat} {xs : List (Option Int)}
    (hc : x.cls ≠ []) (hd : x.dimN ≤ 1) (h : chosenProxy E k x = .ok (.vec t c d xs)) :
    pxFull E (fuel + 1) k x = .ok (.vec t c d xs) := by
  simp only [pxFull, pxImpl_chosen hc hd, h, ok_bind]

theorem mapM_of_forall₂ {α β : Type} {f : α → C β} {xs : List α} {ys : List β}
    (h : List.Forall₂ (fun x y => f x = .ok y) xs ys) : xs.mapM f = .ok ys := by
  induction h with
  | nil => rfl
  | cons h _ ih => rw [List.mapM_cons, h, ok_bind, ih]; rfl

theorem leaves_flat {y : PxObj} (h : FlatProxy y) : y.leaves = partsOf y := by
  have key : ∀ (l : List PxObj), (∀ col ∈ l, ∃ t c d xs, col = PxObj.vec t c d xs) → leavesCols l = l := by
    intro l
    induction l with
    | nil => intro _; rfl
    | cons a l ih =>
      intro h
      obtain ⟨t, c, d, xs, rfl⟩ := h a (by simp)
      simp only [leavesCols, PxObj.leaves]
      rw [ih fun col hm => h col (List.mem_cons_of_mem _ hm)]
      rfl
  rcases h with ⟨t, c, d, xs, rfl⟩ | ⟨cls, cols, rows, rfl, _, hv⟩
  · rfl
  · simp only [PxObj.leaves, partsOf]; exact key cols hv

theorem leavesCols_flat : ∀ {l : List PxObj}, (∀ y ∈ l, FlatProxy y) → leavesCols l = l.flatMap partsOf
  | [], _ => rfl
  | y :: l, h => by
    simp only [leavesCols, List.flatMap_cons]
    rw [leaves_flat (h y (by simp)), leavesCols_flat fun z hz => h z (List.mem_cons_of_mem _ hz)]

theorem unwrap_assembled {cls : List Nat} {rows : Nat} {l : List PxObj} (h : ∀ y ∈ l, FlatProxy y) :
    pxUnwrap (.df cls (leavesCols l) rows) = assembled cls rows l := by
  have hv := leavesCols_vec l
  rw [leavesCols_flat h] at hv ⊢
  unfold assembled
  match l.flatMap partsOf, hv with
  | [], _ => simp [pxUnwrap]
  | [x], hv =>
    obtain ⟨t, c, d, xs, rfl⟩ := hv x (by simp)
    simp [pxUnwrap]
  | x :: y :: l, _ => simp [pxUnwrap]

theorem pxFull_df {E : PxEnv} {fuel : Nat} {k : PxKind} {x : PxObj} {cls : List Nat} {cols cols' : List PxObj} {rows : Nat}
    (h : pxImpl E (pxFull E fuel) k x = .ok (.df cls cols rows))
    (hcols : List.Forall₂ (fun c c' => pxFull E fuel k c = .ok c') cols cols') :
    pxFull E (fuel + 1) k x = .ok (assembled cls rows cols') := by
  simp only [pxFull, h, ok_bind, mapM_of_forall₂ hcols]
  rw [unwrap_assembled]
  intro y hy
  have : ∃ c, pxFull E fuel k c = .ok y := by
    clear h
    induction hcols with
    | nil => simp at hy
    | cons h _ ih =>
      rcases List.mem_cons.1 hy with rfl | hy
      · exact ⟨_, h⟩
      · exact ih hy
  obtain ⟨c, hc⟩ := this
  exact C84_flat hc

/-- **C84**: if the method gives a data frame, or `x` is one without a method, the proxy is made of the proxies
of its columns for the same generic. -/
theorem C84_columns {E : PxEnv} {fuel : Nat} {k : PxKind} {x : PxObj} {cls : List Nat} {cols cols' : List PxObj} {rows : Nat}
    (h : (x.cls ≠ [] ∧ x.dimN ≤ 1 ∧ chosenProxy E k x = .ok (.df cls cols rows)) ∨ (cls = [] ∧ x = .df cls cols rows))
    (hcols : List.Forall₂ (fun c c' => pxFull E fuel k c = .ok c') cols cols') :
    pxFull E (fuel + 1) k x = .ok (assembled cls rows cols') := by
  refine pxFull_df ?_ hcols
  rcases h with ⟨hc, hd, h⟩ | ⟨rfl, rfl⟩
  · rw [pxImpl_chosen hc hd, h]
  · cases k <;> rfl

/-! ## Fuel -/

theorem mapM_mono {α β : Type} {f g : α → C β} (h : ∀ x y, f x = .ok y → g x = .ok y) :
    ∀ {xs : List α} {ys : List β}, xs.mapM f = .ok ys → xs.mapM g = .ok ys
  | [], _, e => e
  | x :: xs, ys, e => by
    rw [List.mapM_cons] at e ⊢
    cases h1 : f x with
    | error e' => rw [h1] at e; cases e
    | ok y =>
      rw [h1, ok_bind] at e
      rw [h x y h1, ok_bind]
      cases h2 : xs.mapM f with
      | error e' => rw [h2] at e; cases e
      | ok zs =>
        rw [h2, ok_bind] at e
        rw [mapM_mono h h2, ok_bind]
        exact e

theorem pxInvoke_mono {E : PxEnv} {f g : PxKind → PxObj → C PxObj} {k : PxKind} {x y : PxObj} {w v : PxObj → C PxObj}
    (h : ∀ k x y, f k x = .ok y → g k x = .ok y) (hw : ∀ x y, w x = .ok y → v x = .ok y)
    (e : pxInvoke E f k x w = .ok y) : pxInvoke E g k x v = .ok y := by
  unfold pxInvoke at e ⊢
  cases hm : pxFindMethod E k x with
  | some r => rw [hm] at e; exact e
  | none =>
    rw [hm] at e
    dsimp only at e ⊢
    by_cases hd : x.dimN > 1
    · rw [if_pos hd] at e ⊢
      cases ha : pxArrayDf E x with
      | error e' => rw [ha] at e; cases e
      | ok d =>
        rw [ha, ok_bind] at e
        rw [ok_bind]
        exact h _ _ _ e
    · rw [if_neg hd] at e ⊢
      by_cases hc : x.cls ≠ []
      · rw [if_pos hc] at e ⊢; exact hw _ _ e
      · rw [if_neg hc] at e ⊢; exact e

/-- **C84**: the result does not depend on the bound for the depth of calls. -/
theorem C84_fuel {E : PxEnv} : ∀ {fuel : Nat} {k : PxKind} {x y : PxObj}, pxFull E fuel k x = .ok y →
    ∀ more, pxFull E (fuel + more) k x = .ok y
  | 0, _, _, _, h, _ => by simp only [pxFull] at h; cases h
  | fuel + 1, k, x, y, h, more => by
    rw [show fuel + 1 + more = (fuel + more) + 1 by omega]
    have ih : ∀ k x y, pxFull E fuel k x = .ok y → pxFull E (fuel + more) k x = .ok y := fun _ _ _ h => C84_fuel h more
    simp only [pxFull] at h ⊢
    cases h1 : pxImpl E (pxFull E fuel) k x with
    | error e => rw [h1] at h; cases h
    | ok out =>
      have h2 : pxImpl E (pxFull E (fuel + more)) k x = .ok out := by
        cases k <;> simp only [pxImpl] at h1 ⊢
        · exact pxInvoke_mono ih (fun _ _ h => h) h1
        · exact pxInvoke_mono ih (fun _ _ h => pxInvoke_mono ih (fun _ _ h => h) h) h1
        · exact pxInvoke_mono ih (fun _ _ h => pxInvoke_mono ih (fun _ _ h => pxInvoke_mono ih (fun _ _ h => h) h) h) h1
      rw [h1, ok_bind] at h
      rw [h2, ok_bind]
      cases out with
      | vec t c d xs => exact h
      | df cls cols rows =>
        dsimp only at h ⊢
        cases h3 : cols.mapM (pxFull E fuel k) with
        | error e => rw [h3] at h; cases h
        | ok cols' =>
          rw [h3, ok_bind] at h
          rw [mapM_mono (ih k) h3, ok_bind]
          exact h

/-! ## Sizes -/

theorem mapM_len {α β : Type} {f : α → C β} : ∀ {xs : List α} {ys : List β}, xs.mapM f = .ok ys → ys.length = xs.length
  | [], ys, h => by rw [List.mapM_nil] at h; cases h; rfl
  | x :: xs, ys, h => by
    rw [List.mapM_cons] at h
    cases h1 : f x with
    | error e => rw [h1] at h; cases h
    | ok y =>
      rw [h1, ok_bind] at h
      cases h2 : xs.mapM f with
      | error e => rw [h2] at h; cases h
      | ok zs => rw [h2, ok_bind] at h; cases h; simp [mapM_len h2]

theorem mapM_mem {α β : Type} {f : α → C β} : ∀ {xs : List α} {ys : List β}, xs.mapM f = .ok ys →
    ∀ y ∈ ys, ∃ x ∈ xs, f x = .ok y
  | [], ys, h, y, hy => by rw [List.mapM_nil] at h; cases h; simp at hy
  | x :: xs, ys, h, y, hy => by
    rw [List.mapM_cons] at h
    cases h1 : f x with
    | error e => rw [h1] at h; cases h
    | ok z =>
      rw [h1, ok_bind] at h
      cases h2 : xs.mapM f with
      | error e => rw [h2] at h; cases h
      | ok zs =>
        rw [h2, ok_bind] at h; cases h
        rcases List.mem_cons.1 hy with rfl | hy
        · exact ⟨x, by simp, h1⟩
        · obtain ⟨x', hx', e⟩ := mapM_mem h2 y hy
          exact ⟨x', List.mem_cons_of_mem _ hx', e⟩

/-- What is kept by all steps. -/
def Kept (k : PxKind) (x : PxObj) (c : C PxObj) : Prop := ∀ y, c = .ok y → Nice k y ∧ pxRowCount y = pxRowCount x

theorem bareMethod_kept {k g : PxKind} {t : PxType} {d : List Nat} {xs : List (Option Int)}
    {f : List Nat → List (Option Int) → C PxObj} (hg : k = .equal → g = .equal) (hx : Nice k (.vec t [] d xs))
    (h : pxBareMethod g t = some f) : Kept k (.vec t [] d xs) (f d xs) := by
  cases hx with
  | vec hd hr =>
    have raw : t = .raw → g ≠ .equal → Kept k (.vec t [] d xs) (.ok (.vec .integer [] [] xs)) := by
      rintro rfl hne y hy
      cases hy
      have hle := hr rfl (fun e => hne (hg e)) rfl
      refine ⟨.vec (by simp) (by simp), ?_⟩
      match d, hd, hle with
      | [], _, _ => rfl
      | [n], hd, _ => simpa [pxRowCount] using (hd (by simp)).symm
      | _ :: _ :: _, _, hle => simp at hle
    cases g <;> cases t <;> simp only [pxBareMethod, reduceCtorEq, Option.some.injEq] at h <;> subst h
    · exact raw rfl (by simp)
    · intro y hy; cases hy
    · exact raw rfl (by simp)
    · intro y hy
      unfold pxListOrder at hy
      cases h1 : pxRows (pxSize d xs) xs with
      | error e => rw [h1] at hy; cases hy
      | ok rows =>
        rw [h1, ok_bind] at hy
        cases hy
        refine ⟨.vec (by simp) (by simp), ?_⟩
        have hlen : rows.length = pxSize d xs := by
          unfold pxRows at h1
          split at h1
          · rename_i h0; cases h1; rw [h0]; rfl
          · have := mapM_len h1; simpa using this
        show (rows.map _).length = _
        rw [List.length_map, hlen]
        cases d <;> rfl

theorem asDf_kept {k : PxKind} {t : PxType} {d : List Nat} {xs : List (Option Int)} :
    Kept k (.vec t [] d xs) (pxAsDf t d xs) := by
  intro y hy
  cases d with
  | nil => simp only [pxAsDf] at hy; cases hy
  | cons n rest =>
    simp only [pxAsDf] at hy
    cases h1 : pxCols n rest.prod xs with
    | error e => rw [h1] at hy; cases hy
    | ok cols =>
      rw [h1, ok_bind] at hy
      cases hy
      refine ⟨.df ?_ ?_, rfl⟩
      · intro col hm
        obtain ⟨c, _, rfl⟩ := List.mem_map.1 hm
        exact .vec (by simp) (by simp)
      · intro col hm
        obtain ⟨c, hc, rfl⟩ := List.mem_map.1 hm
        unfold pxCols at h1
        obtain ⟨j, _, hj⟩ := mapM_mem h1 c hc
        have := mapM_len hj
        simpa [pxRowCount] using this

theorem pxInvoke_kept {k g : PxKind} {E : PxEnv} (hE : NiceEnv k E) {full : PxKind → PxObj → C PxObj} {x : PxObj}
    (hg : k = .equal → g = .equal) (hfull : ∀ x, Nice k x → Kept k x (full g x)) (hx : Nice k x)
    {w : PxObj → C PxObj} (hw : Kept k x (w x)) : Kept k x (pxInvoke E full g x w) := by
  unfold pxInvoke
  cases hm : pxFindMethod E g x with
  | some r =>
    show Kept k x r
    have cls : x.cls ≠ [] → Kept k x r := by
      intro hc
      rw [findMethod_cls hc] at hm
      cases he : E.meth g x.cls with
      | none => rw [he] at hm; cases hm
      | some f => rw [he] at hm; cases hm; exact fun y hy => hE.meth g _ f x y he hx hy
    cases x with
    | vec t c d xs =>
      cases c with
      | nil =>
        simp only [pxFindMethod] at hm
        cases hb : pxBareMethod g t with
        | none => rw [hb] at hm; cases hm
        | some f => rw [hb] at hm; cases hm; exact bareMethod_kept hg hx hb
      | cons a c => exact cls (by simp [PxObj.cls])
    | df c cols rows =>
      cases c with
      | nil => simp only [pxFindMethod] at hm; cases hm
      | cons a c => exact cls (by simp [PxObj.cls])
  | none =>
    dsimp only
    by_cases hd : x.dimN > 1
    · rw [if_pos hd]
      intro y hy
      cases ha : pxArrayDf E x with
      | error e => rw [ha] at hy; cases hy
      | ok d =>
        rw [ha, ok_bind] at hy
        have hk : Nice k d ∧ pxRowCount d = pxRowCount x := by
          cases x with
          | vec t c dm xs =>
            cases c with
            | nil => exact asDf_kept d ha
            | cons a c => exact hE.asDf _ d hx ha
          | df c cols rows => exact hE.asDf _ d hx (by cases c <;> exact ha)
        obtain ⟨h1, h2⟩ := hfull d hk.1 y hy
        exact ⟨h1, h2.trans hk.2⟩
    · rw [if_neg hd]
      by_cases hc : x.cls ≠ []
      · rw [if_pos hc]; exact hw
      · rw [if_neg hc]; intro y hy; cases hy; exact ⟨hx, rfl⟩

theorem pxProxy_kept {k : PxKind} {E : PxEnv} (hE : NiceEnv k E) {x : PxObj} (hx : Nice k x) : Kept k x (pxProxy E x) := by
  unfold pxProxy
  cases h : E.proxy x.cls with
  | none => intro y hy; cases hy; exact ⟨hx, rfl⟩
  | some f => exact fun y hy => hE.proxy _ f x y h hx hy

mutual
theorem leaves_nice {k : PxKind} : ∀ (x : PxObj), Nice k x → ∀ col ∈ x.leaves, Nice k col ∧ pxRowCount col = pxRowCount x
  | .vec t c d xs, h, col, hc => by
    simp only [PxObj.leaves, List.mem_singleton] at hc
    subst hc; exact ⟨h, rfl⟩
  | .df cls cols rows, h, col, hc => by
    simp only [PxObj.leaves] at hc
    cases h with
    | df h hs => exact leavesCols_nice cols rows h hs col hc
theorem leavesCols_nice {k : PxKind} : ∀ (l : List PxObj) (rows : Nat), (∀ col ∈ l, Nice k col) →
    (∀ col ∈ l, pxRowCount col = rows) → ∀ col ∈ leavesCols l, Nice k col ∧ pxRowCount col = rows
  | [], _, _, _, _, hc => by simp [leavesCols] at hc
  | x :: l, rows, h, hs, col, hc => by
    simp only [leavesCols, List.mem_append] at hc
    rcases hc with hc | hc
    · obtain ⟨h1, h2⟩ := leaves_nice x (h x (by simp)) col hc
      exact ⟨h1, h2.trans (hs x (by simp))⟩
    · exact leavesCols_nice l rows (fun c hm => h c (List.mem_cons_of_mem _ hm))
        (fun c hm => hs c (List.mem_cons_of_mem _ hm)) col hc
end

theorem pxImpl_kept {k g : PxKind} {E : PxEnv} (hE : NiceEnv k E) {full : PxKind → PxObj → C PxObj} {x : PxObj}
    (hg : k = .equal → g = .equal)
    (hfull : ∀ g, (k = .equal → g = .equal) → ∀ x, Nice k x → Kept k x (full g x)) (hx : Nice k x) :
    Kept k x (pxImpl E full g x) := by
  have h1 : Kept k x (pxInvoke E full .equal x (pxProxy E)) :=
    pxInvoke_kept hE (by simp) (hfull _ (by simp)) hx (pxProxy_kept hE hx)
  cases g with
  | equal => exact h1
  | compare =>
    simp only [pxImpl]
    exact pxInvoke_kept hE hg (hfull _ hg) hx h1
  | order =>
    have hk : k = .equal → PxKind.compare = .equal := fun h => absurd (hg h) (by simp)
    simp only [pxImpl]
    exact pxInvoke_kept hE hg (hfull _ hg) hx (pxInvoke_kept hE hk (hfull _ hk) hx h1)

theorem pxFull_kept {k : PxKind} {E : PxEnv} (hE : NiceEnv k E) : ∀ (fuel : Nat) (g : PxKind),
    (k = .equal → g = .equal) → ∀ x, Nice k x → Kept k x (pxFull E fuel g x)
  | 0, _, _, _, _, y, h => by simp only [pxFull] at h; cases h
  | fuel + 1, g, hg, x, hx, y, h => by
    have hi := pxImpl_kept hE hg (fun g hg x hx => pxFull_kept hE fuel g hg x hx) hx
    simp only [pxFull] at h
    cases h1 : pxImpl E (pxFull E fuel) g x with
    | error e => rw [h1] at h; cases h
    | ok out =>
      obtain ⟨ho, hs⟩ := hi out h1
      rw [h1, ok_bind] at h
      cases out with
      | vec t c d xs => dsimp only at h; cases h; exact ⟨ho, hs⟩
      | df cls cols rows =>
        dsimp only at h
        cases h2 : cols.mapM (pxFull E fuel g) with
        | error e => rw [h2] at h; cases h
        | ok cols' =>
          rw [h2, ok_bind] at h
          cases h
          cases ho with
          | df hn hr =>
            have hcols : ∀ y ∈ cols', Nice k y ∧ pxRowCount y = rows := by
              intro y hy
              obtain ⟨c, hc, e⟩ := mapM_mem h2 y hy
              obtain ⟨a, b⟩ := pxFull_kept hE fuel g hg c (hn c hc) y e
              exact ⟨a, b.trans (hr c hc)⟩
            have hl := leavesCols_nice cols' rows (fun y hy => (hcols y hy).1) (fun y hy => (hcols y hy).2)
            have hv := leavesCols_vec cols'
            have hrx : rows = pxRowCount x := hs
            match leavesCols cols', hl, hv with
            | [], _, _ => simp only [pxUnwrap]; exact ⟨.df (by simp) (by simp), hs⟩
            | [z], hl, hv =>
              obtain ⟨t, c, d, xs, rfl⟩ := hv z (by simp)
              obtain ⟨a, b⟩ := hl (.vec t c d xs) (by simp)
              simp only [pxUnwrap]
              exact ⟨a, b.trans hrx⟩
            | z :: z' :: l, hl, _ =>
              simp only [pxUnwrap]
              exact ⟨.df (fun c hc => (hl c hc).1) (fun c hc => (hl c hc).2), hs⟩

/-- **C84**: a proxy has as many rows as the object, and so has every column, if the methods keep the
number of rows.  Missing: raw arrays, for which it is false (`C84_raw_size_wrong`). -/
theorem C84_size_partial {k : PxKind} {E : PxEnv} (hE : NiceEnv k E) {fuel : Nat} {x y : PxObj} (hx : Nice k x)
    (h : pxFull E fuel k x = .ok y) : Nice k y ∧ pxRowCount y = pxRowCount x :=
  pxFull_kept hE fuel k (fun h => h) x hx y h

/-! ## Plain values -/

/-- The proxy of a bare vector that is neither an array nor a list. -/
def leafProxy (k : PxKind) (t : PxType) (xs : List (Option Int)) : PxObj :=
  if t = .raw ∧ k ≠ .equal then .vec .integer [] [] xs else .vec t [] [] xs

/-- Bare vectors and data frames of them. -/
inductive PlainPx : PxObj → Prop where
  | vec {t : PxType} {xs : List (Option Int)} (h : t ≠ .list) : PlainPx (.vec t [] [] xs)
  | df {cols : List PxObj} {rows : Nat} (h : ∀ c ∈ cols, PlainPx c) : PlainPx (.df [] cols rows)

mutual
/-- The vectors in a value from left to right, as proxies. -/
def plainLeaves (k : PxKind) : PxObj → List PxObj
  | .vec t _ _ xs => [leafProxy k t xs]
  | .df _ cols _ => plainLeavesCols k cols
/-- The vectors in the columns. -/
def plainLeavesCols (k : PxKind) : List PxObj → List PxObj
  | [] => []
  | x :: l => plainLeaves k x ++ plainLeavesCols k l
end

mutual
/-- How deep data frames are nested. -/
def PxObj.depth : PxObj → Nat
  | .vec _ _ _ _ => 0
  | .df _ cols _ => depthCols cols + 1
/-- The greatest depth of a column. -/
def depthCols : List PxObj → Nat
  | [] => 0
  | x :: l => max x.depth (depthCols l)
end

/-- A vector, or the only vector, or all of them as a data frame. -/
def plainProxy (k : PxKind) (x : PxObj) : PxObj :=
  match plainLeaves k x with
  | [y] => y
  | l => .df [] l (pxRowCount x)

mutual
theorem plain_full {E : PxEnv} {k : PxKind} : ∀ (x : PxObj) (fuel : Nat), PlainPx x → x.depth ≤ fuel →
    pxFull E (fuel + 1) k x = .ok (plainProxy k x)
  | .vec t c d xs, fuel, h, _ => by
    cases h with
    | vec ht => cases k <;> cases t <;> first | rfl | exact absurd rfl ht
  | .df c cols rows, fuel, h, hd => by
    cases h with
    | df h =>
      simp only [PxObj.depth] at hd
      match fuel, hd with
      | fuel + 1, hd =>
        obtain ⟨cols', e1, e2⟩ := plain_fullCols (E := E) (k := k) cols fuel h (by omega)
        rw [pxFull_df (cls := []) (cols := cols) (rows := rows) (cols' := cols') (by cases k <;> rfl) e1]
        unfold assembled plainProxy
        rw [e2]
        rfl
theorem plain_fullCols {E : PxEnv} {k : PxKind} : ∀ (l : List PxObj) (fuel : Nat), (∀ c ∈ l, PlainPx c) → depthCols l ≤ fuel →
    ∃ l', List.Forall₂ (fun c c' => pxFull E (fuel + 1) k c = .ok c') l l' ∧ l'.flatMap partsOf = plainLeavesCols k l
  | [], _, _, _ => ⟨[], .nil, rfl⟩
  | x :: l, fuel, h, hd => by
    simp only [depthCols] at hd
    have hx := plain_full (E := E) (k := k) x fuel (h x (by simp)) (by omega)
    obtain ⟨l', e1, e2⟩ := plain_fullCols (E := E) (k := k) l fuel (fun c hc => h c (List.mem_cons_of_mem _ hc)) (by omega)
    refine ⟨plainProxy k x :: l', .cons hx e1, ?_⟩
    rw [List.flatMap_cons, e2]
    simp only [plainLeavesCols]
    congr 1
    have hf := C84_flat hx
    have hv : ∀ y ∈ plainLeaves k x, ∃ t c d xs, y = PxObj.vec t c d xs := plainLeaves_vec x
    unfold plainProxy
    match plainLeaves k x, hv with
    | [], _ => rfl
    | [y], hv => obtain ⟨t, c, d, xs, rfl⟩ := hv y (by simp); rfl
    | _ :: _ :: _, _ => rfl
theorem plainLeaves_vec {k : PxKind} : ∀ (x : PxObj), ∀ y ∈ plainLeaves k x, ∃ t c d xs, y = PxObj.vec t c d xs
  | .vec t _ _ xs, y, h => by
    simp only [plainLeaves, List.mem_singleton] at h
    subst h
    unfold leafProxy
    split <;> exact ⟨_, _, _, _, rfl⟩
  | .df _ cols _, y, h => by
    simp only [plainLeaves] at h
    exact plainLeavesCols_vec cols y h
theorem plainLeavesCols_vec {k : PxKind} : ∀ (l : List PxObj), ∀ y ∈ plainLeavesCols k l, ∃ t c d xs, y = PxObj.vec t c d xs
  | [], _, h => by simp [plainLeavesCols] at h
  | x :: l, y, h => by
    simp only [plainLeavesCols, List.mem_append] at h
    rcases h with h | h
    · exact plainLeaves_vec x y h
    · exact plainLeavesCols_vec l y h
end

/-- **C84**: the proxy of nested data frames of bare vectors consists of all the vectors in them, with
integers for raws unless it is for equality; calls are no deeper than the data frame. -/
theorem C84_plain {E : PxEnv} {k : PxKind} {x : PxObj} (h : PlainPx x) :
    pxFull E (x.depth + 1) k x = .ok (plainProxy k x) := plain_full x x.depth h (Nat.le_refl _)

/-! ## Arrays and lists

`cols` are the columns of an array with `n` rows, one after the other in `xs`. -/

theorem flatten_cell {α : Type} {cols : List (List α)} {n i : Nat} (h : ∀ c ∈ cols, c.length = n) (hi : i < n) :
    ∀ (j : Nat) (hj : j < cols.length), cols.flatten[i + j * n]? = cols[j][i]? := by
  induction cols with
  | nil => intro j hj; simp at hj
  | cons c cols ih =>
    intro j hj
    have hc := h c (by simp)
    rw [List.flatten_cons]
    rcases j with _ | j
    · rw [Nat.zero_mul, Nat.add_zero, List.getElem?_append_left (by omega)]
      rfl
    · rw [List.getElem?_append_right (by rw [Nat.succ_mul]; omega), hc,
        show i + (j + 1) * n - n = i + j * n by rw [Nat.succ_mul]; omega]
      exact ih (fun c hc => h c (by simp [hc])) j (by simpa using hj)

theorem flatten_len {α : Type} {cols : List (List α)} {n : Nat} (h : ∀ c ∈ cols, c.length = n) :
    cols.flatten.length = cols.length * n := by
  induction cols with
  | nil => simp
  | cons c cols ih =>
    rw [List.flatten_cons, List.length_append, h c (by simp), ih (fun c hc => h c (by simp [hc])), List.length_cons, Nat.succ_mul]
    omega

/-- Row `i` of the columns. -/
def pxRow (cols : List (List (Option Int))) (i : Nat) : List (Option Int) := cols.map fun c => (c[i]?).join

theorem pxCols_ok {cols : List (List (Option Int))} {n : Nat} (h : ∀ c ∈ cols, c.length = n) :
    pxCols n cols.length cols.flatten = .ok cols := by
  unfold pxCols
  have key : ∀ j ∈ List.range cols.length, ((List.range n).mapM fun i => rd cols.flatten (i + j * n)) =
      .ok ((cols[j]?).getD []) := by
    intro j hj
    have hj' : j < cols.length := by simpa using hj
    have hl : cols[j].length = n := h _ (List.getElem_mem hj')
    rw [List.getElem?_eq_getElem hj', Option.getD_some]
    have := mapM_ok (g := fun i => rd cols.flatten (i + j * n)) (f := fun i => (cols[j][i]?).join) (l := List.range n) (by
      intro i hi
      have hi' : i < n := by simpa using hi
      refine rd_of_getElem? ?_
      rw [flatten_cell h hi' j hj', List.getElem?_eq_getElem (by omega)]
      rfl)
    rw [this]
    congr 1
    refine List.ext_getElem (by simp [hl]) ?_
    intro i h1 h2
    rw [List.getElem_map, List.getElem_range, List.getElem?_eq_getElem h2]
    rfl
  rw [mapM_ok key]
  congr 1
  refine List.ext_getElem (by simp) ?_
  intro j h1 h2
  rw [List.getElem_map, List.getElem_range, List.getElem?_eq_getElem h2]
  rfl

theorem pxRows_ok {cols : List (List (Option Int))} {n : Nat} (h : ∀ c ∈ cols, c.length = n) :
    pxRows n cols.flatten = .ok ((List.range n).map (pxRow cols)) := by
  unfold pxRows
  by_cases h0 : n = 0
  · rw [if_pos h0, h0]
    rfl
  rw [if_neg h0, flatten_len h, Nat.mul_div_cancel _ (by omega)]
  refine mapM_ok ?_
  intro i hi
  have hi' : i < n := by simpa using hi
  rw [mapM_ok (f := fun j => ((cols[j]?).bind (·[i]?)).join)]
  · congr 1
    refine List.ext_getElem (by simp [pxRow]) ?_
    intro j h1 h2
    have hj : j < cols.length := by simpa using h1
    simp [pxRow, hj]
  · intro j hj
    have hj' : j < cols.length := by simpa using hj
    have hl : cols[j].length = n := h _ (List.getElem_mem hj')
    refine rd_of_getElem? ?_
    rw [flatten_cell h hi' j hj', List.getElem?_eq_getElem hj', Option.bind_some, List.getElem?_eq_getElem (by omega)]
    rfl

/-- The proxy of an array is a data frame of its columns, or the column itself if there is one only.  Lists
and raw vectors have other methods. -/
theorem C84_array {E : PxEnv} {fuel : Nat} {k : PxKind} {t : PxType} {n : Nat} {rest : List Nat} {xs : List (Option Int)}
    {cols : List (List (Option Int))} (hk : k = .equal ∨ (t ≠ .list ∧ t ≠ .raw)) (hr : rest ≠ []) (hx : xs = cols.flatten)
    (hn : ∀ c ∈ cols, c.length = n) (hc : cols.length = rest.prod) :
    pxFull E (fuel + 3) k (.vec t [] (n :: rest) xs) =
      .ok (assembled [] n (cols.map fun c => .vec t [] [] c)) := by
  have hm : pxBareMethod k t = none := by
    rcases hk with rfl | ⟨h1, h2⟩
    · cases t <;> rfl
    · cases k <;> cases t <;> first | rfl | exact absurd rfl h1 | exact absurd rfl h2
  have hdim : 1 < (PxObj.vec t [] (n :: rest) xs).dimN := by
    show 1 < (n :: rest).length
    have : 0 < rest.length := List.length_pos_iff.2 hr
    simp only [List.length_cons]
    omega
  have hinv : ∀ full w, pxInvoke E full k (.vec t [] (n :: rest) xs) w = full k (.df [] (cols.map fun c => .vec t [] [] c) n) := by
    intro full w
    unfold pxInvoke
    rw [show pxFindMethod E k (.vec t [] (n :: rest) xs) = none by rw [pxFindMethod, hm]; rfl]
    show (if 1 < _ then _ else _) = _
    rw [if_pos hdim, pxArrayDf, pxAsDf, ← hc, hx, pxCols_ok hn]
    rfl
  have himpl : ∀ full, pxImpl E full k (.vec t [] (n :: rest) xs) = full k (.df [] (cols.map fun c => .vec t [] [] c) n) := by
    intro full
    cases k <;> simp only [pxImpl, hinv]
  have hleaf : ∀ f c, pxFull E (f + 1) k (.vec t [] [] c) = .ok (.vec t [] [] c) := by
    intro f c
    rw [pxFull]
    have : pxImpl E (pxFull E f) k (.vec t [] [] c) = .ok (.vec t [] [] c) := by
      have h2 : ∀ w, pxInvoke E (pxFull E f) k (.vec t [] [] c) w = .ok (.vec t [] [] c) := by
        intro w
        unfold pxInvoke
        rw [show pxFindMethod E k (.vec t [] [] c) = none by rw [pxFindMethod, hm]; rfl]
        rfl
      cases k <;> simp only [pxImpl, h2]
    rw [this]
    rfl
  have hcols : ∀ (f : Nat) (l : List (List (Option Int))), List.Forall₂ (fun c c' => pxFull E (f + 1) k c = .ok c')
      (l.map fun c => .vec t [] [] c) (l.map fun c => .vec t [] [] c) := by
    intro f l
    induction l with
    | nil => exact .nil
    | cons c l ih => exact .cons (hleaf f c) ih
  have hdf : pxFull E (fuel + 2) k (.df [] (cols.map fun c => .vec t [] [] c) n) =
      .ok (assembled [] n (cols.map fun c => .vec t [] [] c)) := C84_columns (Or.inr ⟨rfl, rfl⟩) (hcols fuel cols)
  have hparts : (cols.map fun c => PxObj.vec t [] [] c).flatMap partsOf = cols.map fun c => .vec t [] [] c := by
    generalize cols = l
    induction l with
    | nil => rfl
    | cons c l ih => rw [List.map_cons, List.flatMap_cons, ih]; rfl
  have h3 := himpl (pxFull E (fuel + 2))
  rw [hdf] at h3
  by_cases h1 : ∃ c, cols = [c]
  · obtain ⟨c, rfl⟩ := h1
    rw [pxFull, h3]
    rfl
  · have e : assembled [] n (cols.map fun c => .vec t [] [] c) = .df [] (cols.map fun c => .vec t [] [] c) n := by
      unfold assembled
      rw [hparts]
      match cols, h1 with
      | [], _ => rfl
      | [c], h1 => exact absurd ⟨c, rfl⟩ h1
      | _ :: _ :: _, _ => rfl
    rw [e] at h3
    exact pxFull_df h3 (hcols (fuel + 1) cols)

/-- The order of a list is that of the first appearances of its elements (the rows of a list with dimensions);
missing elements are missing. -/
theorem C84_list {E : PxEnv} {fuel : Nat} {d : List Nat} {n : Nat} {xs : List (Option Int)} {cols : List (List (Option Int))}
    (hd : (d = [] ∧ n = xs.length) ∨ ∃ rest, d = n :: rest) (hx : xs = cols.flatten) (hn : ∀ c ∈ cols, c.length = n) :
    ∃ ys, pxFull E (fuel + 1) .order (.vec .list [] d xs) = .ok (.vec .integer [] [] ys) ∧ ys.length = n ∧
      ∀ i, i < n →
        ((∀ c ∈ cols, c[i]? = some none) ∧ ys[i]? = some none) ∨
        ((∃ c ∈ cols, c[i]? ≠ some none) ∧ ∃ k : Nat, ys[i]? = some (some (k + 1 : Int)) ∧ k ≤ i ∧ (∀ c ∈ cols, c[k]? = c[i]?) ∧
          ∀ j, j < k → ∃ c ∈ cols, c[j]? ≠ c[i]?) := by
  have hs : pxSize d xs = n := by
    rcases hd with ⟨rfl, rfl⟩ | ⟨rest, rfl⟩ <;> rfl
  let rows := (List.range n).map (pxRow cols)
  refine ⟨rows.map fun r => if r.all (·.isNone) then none else some ((rows.findIdx (· == r) : Nat) + 1 : Int), ?_, by simp [rows], ?_⟩
  · rw [pxFull, show pxImpl E (pxFull E fuel) .order (.vec .list [] d xs) = pxListOrder d xs from rfl, pxListOrder, hs, hx, pxRows_ok hn]
    rfl
  · intro i hi
    have hri : rows[i]? = some (pxRow cols i) := by simp [rows, hi]
    rw [List.getElem?_map, hri, Option.map_some]
    have hrow : ∀ j, j < n → (pxRow cols j = pxRow cols i ↔ ∀ c ∈ cols, c[j]? = c[i]?) := by
      intro j hj
      unfold pxRow
      rw [List.map_inj_left]
      refine forall₂_congr fun c hc => ?_
      have := hn c hc
      rw [List.getElem?_eq_getElem (l := c) (i := j) (by omega), List.getElem?_eq_getElem (l := c) (i := i) (by omega)]
      simp
    have hall : (pxRow cols i).all (·.isNone) = true ↔ ∀ c ∈ cols, c[i]? = some none := by
      unfold pxRow
      rw [List.all_map, List.all_eq_true]
      refine forall₂_congr fun c hc => ?_
      have := hn c hc
      have hg := List.getElem?_eq_getElem (l := c) (i := i) (by omega)
      simp [hg]
    by_cases ha : (pxRow cols i).all (·.isNone) = true
    · rw [if_pos ha]
      exact Or.inl ⟨hall.1 ha, rfl⟩
    · rw [if_neg ha]
      refine Or.inr ⟨?_, rows.findIdx (· == pxRow cols i), rfl, ?_, ?_, ?_⟩
      · by_contra hne
        refine ha (hall.2 fun c hc => ?_)
        by_contra h
        exact hne ⟨c, hc, h⟩
      · by_contra hlt
        have h1 := List.not_of_lt_findIdx (p := (· == pxRow cols i)) (xs := rows) (i := i) (by omega)
        obtain ⟨_, h2⟩ := List.getElem?_eq_some_iff.1 hri
        rw [h2] at h1
        simp at h1
      · have hlt : rows.findIdx (· == pxRow cols i) < rows.length :=
          List.findIdx_lt_length_of_exists ⟨_, List.mem_of_getElem? hri, by simp⟩
        have h1 := List.findIdx_getElem (p := (· == pxRow cols i)) (xs := rows) (w := hlt)
        have hl : rows.length = n := by simp [rows]
        refine (hrow _ (by omega)).1 ?_
        simpa [rows] using h1
      · intro j hj
        by_contra hne
        have hlt : rows.findIdx (· == pxRow cols i) < rows.length :=
          List.findIdx_lt_length_of_exists ⟨_, List.mem_of_getElem? hri, by simp⟩
        have hl : rows.length = n := by simp [rows]
        have h1 := List.not_of_lt_findIdx (p := (· == pxRow cols i)) (xs := rows) (i := j) hj
        have h2 := (hrow j (by omega)).2 (fun c hc => by
          by_contra h
          exact hne ⟨c, hc, h⟩)
        simp only [rows, List.getElem_map, List.getElem_range, h2, BEq.rfl] at h1
        exact absurd h1 (by decide)

/-! ## Examples and witnesses -/

/-- Class 1 has a method for equality and class 2 one for comparison, which give a data frame, and class 3 a method
for `vec_proxy()`. -/
def exPxEnv : PxEnv where
  meth k c :=
    match k, c with
    | .equal, [1] => some fun x => .ok (match x with | .vec _ _ d xs => .vec .integer [] d xs | x => x)
    | .compare, [2] => some fun x =>
      .ok (match x with | .vec _ _ [] xs => .df [] [.vec .raw [] [] xs, .vec .integer [1] [] xs] xs.length | x => x)
    | _, _ => none
  proxy c :=
    match c with
    | [3] => some fun x => .ok (match x with | .vec _ _ [] xs => .vec .integer [] [] xs | x => x)
    | _ => none
  asDf _ := .error .abort

-- The order proxy of class 1 is the one for equality, that of class 3 the one of `vec_proxy()`.
example : chosenProxy exPxEnv .order (.vec (.other 0) [1] [] [some 4]) = .ok (.vec .integer [] [] [some 4]) := rfl
example : pxFull exPxEnv 3 .order (.vec (.other 0) [3] [] [some 4]) = .ok (.vec .integer [] [] [some 4]) := rfl
-- Columns of the proxy get proxies for the same generic; data frames are flattened and unwrapped.
example : pxFull exPxEnv 3 .order (.df [] [.vec (.other 0) [2] [] [some 4], .df [] [.vec .raw [] [] [some 7]] 1] 1) =
    .ok (.df [] [.vec .integer [] [] [some 4], .vec .integer [] [] [some 4], .vec .integer [] [] [some 7]] 1) := rfl
-- A matrix becomes a data frame.
example : pxFull exPxEnv 3 .compare (.vec (.other 0) [] [2, 2] [some 1, some 2, some 3, some 4]) =
    .ok (.df [] [.vec (.other 0) [] [] [some 1, some 2], .vec (.other 0) [] [] [some 3, some 4]] 2) := rfl
-- A list is ordered by first appearance.
example : pxFull exPxEnv 3 .order (.vec .list [] [] [some 7, none, some 8, some 7]) =
    .ok (.vec .integer [] [] [some 1, none, some 3, some 1]) := rfl

-- The hypotheses of `C84_array` and `C84_list`: a matrix with two rows and three columns.
example : ([some 1, none, some 3, none, some 1, none] : List (Option Int)) = [[some 1, none], [some 3, none], [some 1, none]].flatten ∧
    (∀ c ∈ ([[some 1, none], [some 3, none], [some 1, none]] : List (List (Option Int))), c.length = 2) ∧ [3].prod = 3 := by decide
example : pxFull exPxEnv 1 .order (.vec .list [] [2, 3] [some 1, none, some 3, none, some 1, none]) =
    .ok (.vec .integer [] [] [some 1, none]) := rfl

theorem exPx_nice : NiceEnv .compare exPxEnv := by
  constructor
  · intro g c f x y hf hx h
    unfold exPxEnv at hf
    dsimp only at hf
    split at hf
    · cases hf
      cases x with
      | vec t c d xs =>
        cases h
        cases hx with
        | vec hd hr => exact ⟨.vec hd (by simp), by cases d <;> rfl⟩
      | df c cols rows => cases h; exact ⟨hx, rfl⟩
    · cases hf
      cases x with
      | vec t c d xs =>
        cases d with
        | nil =>
          cases h
          refine ⟨.df ?_ ?_, rfl⟩
          · intro col hc
            simp only [List.mem_cons, List.not_mem_nil, or_false] at hc
            rcases hc with rfl | rfl <;> exact .vec (by simp) (by simp)
          · intro col hc
            simp only [List.mem_cons, List.not_mem_nil, or_false] at hc
            rcases hc with rfl | rfl <;> rfl
        | cons => cases h; exact ⟨hx, rfl⟩
      | df c cols rows => cases h; exact ⟨hx, rfl⟩
    · cases hf
  · intro c f x y hf hx h
    unfold exPxEnv at hf
    dsimp only at hf
    split at hf
    · cases hf
      cases x with
      | vec t c d xs =>
        cases d with
        | nil => cases h; exact ⟨.vec (by simp) (by simp), rfl⟩
        | cons => cases h; exact ⟨hx, rfl⟩
      | df c cols rows => cases h; exact ⟨hx, rfl⟩
    · cases hf
  · intro x y _ h
    cases h

example : Nice .compare (.df [] [.vec (.other 0) [2] [] [some 4], .vec (.other 0) [] [1, 2] [some 4, some 5]] 1) :=
  .df (by simp only [List.mem_cons, List.not_mem_nil, or_false]; rintro col (rfl | rfl) <;> exact .vec (by simp) (by simp))
    (by simp only [List.mem_cons, List.not_mem_nil, or_false]; rintro col (rfl | rfl) <;> rfl)
example : PlainPx (.df [] [.vec .raw [] [] [some 4], .df [] [] 1] 1) :=
  .df (by simp only [List.mem_cons, List.not_mem_nil, or_false]; rintro col (rfl | rfl); exacts [.vec (by simp), .df (by simp)])

/-- **C84**, disagreement: the comparison proxy of a raw matrix has as many elements as the matrix instead
of one for each row. -/
theorem C84_raw_size_wrong : ∃ y, pxFull exPxEnv 3 .compare (.vec .raw [] [1, 2] [some 1, some 2]) = .ok y ∧
    pxRowCount y = 2 ∧ pxRowCount (.vec .raw [] [1, 2] [some 1, some 2]) = 1 := ⟨_, rfl, rfl, rfl⟩

/-- **C84**, disagreement: in a data frame, the rows of a raw matrix are then compared by the elements of its
first column only: these two rows differ in the second column of the matrix, but the first two elements
of the columns of the proxy are equal. -/
theorem C84_raw_rows_wrong :
    pxFull exPxEnv 3 .order (.df [] [.vec .integer [] [] [some 5, some 5], .vec .raw [] [2, 2] [some 1, some 1, some 2, some 3]] 2) =
      .ok (.df [] [.vec .integer [] [] [some 5, some 5], .vec .integer [] [] [some 1, some 1, some 2, some 3]] 2) := rfl

/-- **C84**, disagreement: for a matrix with a class, the method for equality is not used for comparison, while
it is for a vector of the same class. -/
theorem C84_array_wrong :
    pxFull exPxEnv 3 .equal (.vec (.other 0) [1] [2, 1] [some 1, some 2]) = .ok (.vec .integer [] [2, 1] [some 1, some 2]) ∧
    pxFull exPxEnv 3 .compare (.vec (.other 0) [1] [2, 1] [some 1, some 2]) = .error .abort ∧
    pxFull exPxEnv 3 .compare (.vec (.other 0) [1] [] [some 1, some 2]) = .ok (.vec .integer [] [] [some 1, some 2]) :=
  ⟨rfl, rfl, rfl⟩

end Vctrs
