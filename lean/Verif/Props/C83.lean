import Verif.Model.Fallback
import Verif.Props.C45

/-!
# C83: foreign columns of data frames are combined with `c()`
-/

namespace Vctrs.Spec

/-- The column at a path of positions in nested data frames. -/
def colAt : List Nat → FbCol → Option FbCol
  | [], x => some x
  | j :: path, .df _ cols _ => (cols[j]?).bind (colAt path)
  | _ :: _, _ => none

/-- The column at a nonempty path, starting from a list of columns. -/
def colsAt (path : List Nat) (cols : List FbCol) : Option FbCol :=
  match path with
  | [] => none
  | j :: rest => (cols[j]?).bind (colAt rest)

/-- The columns of several inputs at a path; `none` for `NULL` inputs. -/
def gather (path : List Nat) (xs : List (Option FbCol)) : List (Option FbCol) :=
  xs.map fun x => x.bind (colAt path)

/-- A data frame whose columns are vectors with an element for each row. -/
def PlainDf (d : Df FbCol) : Prop :=
  Tidy d ∧ ∀ col ∈ d.cols, ∃ k l, col = .vec k l ∧ l.length = d.size

/-- The elements an input has for the column `s`: missing values if it has no such column. -/
inductive NatPart (s : Name) : Option (Df FbCol) → List (Option Int) → Prop where
  | null : NatPart s none []
  | has {d : Df FbCol} {k : Option Nat} {l : List (Option Int)} (h : ColAt d s (.vec k l)) : NatPart s (some d) l
  | lacks {d : Df FbCol} (h : s ∉ d.names) : NatPart s (some d) (List.replicate d.size none)

/-- The argument that `c()` gets for an input and the column `s` of the class `k`. -/
inductive FgnPart (k : Nat) (s : Name) : Option (Df FbCol) → Option FbCol → Prop where
  | null : FgnPart k s none none
  | has {d : Df FbCol} {l : List (Option Int)} (h : ColAt d s (.vec (some k) l)) :
      FgnPart k s (some d) (some (.vec (some k) l))
  | lacks {d : Df FbCol} (h : s ∉ d.names) : FgnPart k s (some d) (some (.fb k (List.replicate d.size none)))

/-- `z` is what combining the rows of `xs` should give: all the columns of the inputs, those of native
type with the elements of the inputs one after the other, and those of a foreign class as `c()`
combines the columns of that name. -/
def CombinedCols (c : Nat → List (Option FbCol) → C FbCol) (xs : List (Option (Df FbCol))) (z : Df FbCol) : Prop :=
  z.size = (xs.map fbRows).sum ∧ (∀ d, some d ∈ xs → ∀ s ∈ d.names, s ∈ z.names) ∧
  ∀ s col, ColAt z s col →
    (∃ k parts, col = .vec k parts.flatten ∧ List.Forall₂ (NatPart s) xs parts) ∨
    (∃ k ys, c k ys = .ok col ∧ List.Forall₂ (FgnPart k s) xs ys)

end Vctrs.Spec

namespace Vctrs
open Spec

theorem listPluck_ok {i : Nat} : ∀ {xs ys : List (Option FbCol)}, listPluck xs i = .ok ys →
    ∀ path, gather path ys = gather (i :: path) xs
  | [], ys, h, path => by
    unfold listPluck at h
    rw [List.mapM_nil] at h
    cases h; rfl
  | x :: xs, ys, h, path => by
    unfold listPluck at h
    rw [List.mapM_cons] at h
    cases x with
    | none =>
      cases e : listPluck xs i with
      | error e' => unfold listPluck at e; rw [e] at h; cases h
      | ok zs =>
        have ih := listPluck_ok e path
        unfold listPluck at e; rw [e] at h
        cases h
        simp only [gather, List.map_cons] at ih ⊢
        rw [ih]; rfl
    | some v =>
      cases v with
      | vec _ _ => cases h
      | fb _ _ => cases h
      | df nm cols r =>
        cases hr : rd cols i with
        | error e' => simp only [hr] at h; cases h
        | ok w =>
          simp only [hr] at h
          have hw : cols[i]? = some w := by
            unfold rd at hr
            split at hr
            · injection hr with hr; rw [← hr]; assumption
            · cases hr
          cases e : listPluck xs i with
          | error e' => unfold listPluck at e; simp only [ok_bind, e] at h; cases h
          | ok zs =>
            have ih := listPluck_ok e path
            unfold listPluck at e; simp only [ok_bind, e] at h
            cases h
            simp only [gather, List.map_cons] at ih ⊢
            rw [ih]
            simp [colAt, hw]

/-- The loop treats every column on its own. -/
theorem fallbackCols_get {c : Nat → List (Option FbCol) → C FbCol} {xs : List (Option FbCol)} {n : Nat} :
    ∀ {ps cols out : List FbCol} {i : Nat}, fallbackCols c xs n i ps cols = .ok out →
      ∀ j p, ps[j]? = some p → ∃ col o, cols[j]? = some col ∧ out[j]? = some o ∧
        fallbackCol c xs n (i + j) p col = .ok o
  | [], _, _, _, _, j, p, hp => by simp at hp
  | _ :: _, [], _, _, h, _, _, _ => by rw [fallbackCols] at h; cases h
  | p :: ps, col :: cols, out, i, h, j, q, hq => by
    rw [fallbackCols] at h
    cases h1 : fallbackCol c xs n i p col with
    | error e => rw [h1] at h; cases h
    | ok o =>
      rw [h1, ok_bind] at h
      cases h2 : fallbackCols c xs n (i + 1) ps cols with
      | error e => rw [h2] at h; cases h
      | ok rest =>
        rw [h2, ok_bind] at h
        cases h
        cases j with
        | zero =>
          simp only [List.getElem?_cons_zero, Option.some.injEq] at hq
          subst hq
          exact ⟨col, o, rfl, rfl, h1⟩
        | succ j =>
          obtain ⟨col', o', e1, e2, e3⟩ := fallbackCols_get h2 j q (by simpa using hq)
          exact ⟨col', o', by simpa using e1, by simpa using e2, by rw [← e3]; congr 1; omega⟩

mutual
/-- A data frame with a sentinel somewhere needs the fallback. -/
theorem needs_of_colAt : ∀ (x : FbCol) (path : List Nat) (k : Nat) (l : List (Option Int)),
    colAt path x = some (.fb k l) → x.needs = true
  | .vec _ _, [], _, _, h => by simp [colAt] at h
  | .vec _ _, _ :: _, _, _, h => by simp [colAt] at h
  | .fb _ _, _, _, _, _ => by simp [FbCol.needs]
  | .df _ cols _, [], _, _, h => by simp [colAt] at h
  | .df _ cols _, j :: path, k, l, h => by
    simp only [FbCol.needs]
    exact needsCols_of_colsAt cols (j :: path) k l h
theorem needsCols_of_colsAt : ∀ (cols : List FbCol) (path : List Nat) (k : Nat) (l : List (Option Int)),
    colsAt path cols = some (.fb k l) → needsCols cols = true
  | [], [], _, _, h => by simp [colsAt] at h
  | [], j :: _, _, _, h => by simp [colsAt] at h
  | _ :: _, [], _, _, h => by simp [colsAt] at h
  | x :: cols, 0 :: path, k, l, h => by
    simp only [needsCols, Bool.or_eq_true]
    exact Or.inl (needs_of_colAt x path k l (by simpa [colsAt] using h))
  | x :: cols, (j + 1) :: path, k, l, h => by
    simp only [needsCols, Bool.or_eq_true]
    exact Or.inr (needsCols_of_colsAt cols (j :: path) k l (by simpa [colsAt] using h))
end

/-- The columns of the output of the fallback: where the type has a sentinel for the class `k`, at any
depth, the output has what `c()` makes of the columns of the inputs at the same place. -/
theorem C83_fallback {c : Nat → List (Option FbCol) → C FbCol} {n : Nat} :
    ∀ (path : List Nat) {xs : List (Option FbCol)} {i : Nat} {ps cols out : List FbCol},
    fallbackCols c xs n i ps cols = .ok out →
    (∀ q a b r, colsAt q ps = some (.df a b r) → ∃ a' b' r', colsAt q cols = some (.df a' b' r')) →
    ∀ j k l, colsAt (j :: path) ps = some (.fb k l) →
    ∃ o, colsAt (j :: path) out = some o ∧ o.size = n ∧ c k (gather ((i + j) :: path) xs) = .ok o
  | [], xs, i, ps, cols, out, h, hsh, j, k, l, hk => by
    simp only [colsAt] at hk
    cases hp : ps[j]? with
    | none => rw [hp] at hk; cases hk
    | some p =>
      rw [hp] at hk
      simp only [Option.bind_some, colAt, Option.some.injEq] at hk
      subst hk
      obtain ⟨col, o, e1, e2, e3⟩ := fallbackCols_get h j _ hp
      refine ⟨o, by simp [colsAt, e2, colAt], ?_⟩
      cases col with
      | df _ _ _ => simp only [fallbackCol] at e3; cases e3
      | vec _ _ | fb _ _ =>
        simp only [fallbackCol] at e3
        cases hpl : listPluck xs (i + j) with
        | error e => rw [hpl] at e3; cases e3
        | ok ys =>
          rw [hpl, ok_bind] at e3
          cases hc : c k ys with
          | error e => rw [hc] at e3; cases e3
          | ok w =>
            rw [hc, ok_bind] at e3
            split at e3
            · cases e3
            · rename_i hsz
              cases e3
              refine ⟨by simpa using hsz, ?_⟩
              have := listPluck_ok hpl []
              rw [← this]
              have e : gather [] ys = ys := by
                unfold gather
                conv => rhs; rw [← List.map_id ys]
                apply List.map_congr_left
                intro x _
                cases x <;> rfl
              rw [e]
              exact hc
  | j' :: path, xs, i, ps, cols, out, h, hsh, j, k, l, hk => by
    simp only [colsAt] at hk
    cases hp : ps[j]? with
    | none => rw [hp] at hk; cases hk
    | some p =>
      rw [hp] at hk
      simp only [Option.bind_some] at hk
      cases p with
      | vec _ _ => simp [colAt] at hk
      | fb _ _ => simp [colAt] at hk
      | df pn pcols pr =>
        obtain ⟨col, o, e1, e2, e3⟩ := fallbackCols_get h j _ hp
        obtain ⟨a', b', r', hdf⟩ := hsh [j] pn pcols pr (by simp [colsAt, hp, colAt])
        have : col = .df a' b' r' := by simpa [colsAt, e1, colAt] using hdf
        subst this
        have hne : needsCols pcols = true := needsCols_of_colsAt pcols (j' :: path) k l (by simpa [colAt, colsAt] using hk)
        simp only [fallbackCol, hne, if_true] at e3
        cases hpl : listPluck xs (i + j) with
        | error e => rw [hpl] at e3; cases e3
        | ok ys =>
          rw [hpl, ok_bind] at e3
          split at e3
          · cases e3
          · cases hr : fallbackCols c ys n 0 pcols b' with
            | error e => rw [hr] at e3; cases e3
            | ok out' =>
              rw [hr, ok_bind] at e3
              cases e3
              obtain ⟨o', f1, f2, f3⟩ := C83_fallback path hr (by
                intro q a b r hq
                have := hsh (j :: q) a b r (by
                  cases q with
                  | nil => simp [colsAt] at hq
                  | cons q0 q => simpa [colsAt, hp, colAt] using hq)
                obtain ⟨x1, x2, x3, hx⟩ := this
                refine ⟨x1, x2, x3, ?_⟩
                cases q with
                | nil => simp [colsAt] at hq
                | cons q0 q => simpa [colsAt, e1, colAt] using hx) j' k l (by simpa [colAt, colsAt] using hk)
              refine ⟨o', ?_, f2, ?_⟩
              · simp only [colsAt, e2, Option.bind_some, colAt]
                simpa [colsAt] using f1
              · rw [← listPluck_ok hpl (j' :: path)]
                simpa using f3

/-! ## The common type -/

theorem mapM_forall₂ {α β : Type} {f : α → C β} : ∀ {xs : List α} {ys : List β},
    xs.mapM f = .ok ys → List.Forall₂ (fun x y => f x = .ok y) xs ys
  | [], ys, h => by rw [List.mapM_nil] at h; cases h; exact .nil
  | x :: xs, ys, h => by
    rw [List.mapM_cons] at h
    cases h1 : f x with
    | error e => rw [h1] at h; cases h
    | ok y =>
      rw [h1, ok_bind] at h
      cases h2 : xs.mapM f with
      | error e => rw [h2] at h; cases h
      | ok zs =>
        rw [h2, ok_bind] at h
        cases h
        exact .cons h1 (mapM_forall₂ h2)

/-- The number of names of an input. -/
def widthOf (x : Option (Df FbCol)) : Nat :=
  match x with
  | none => 0
  | some d => d.names.length

/-- The class of a column. -/
def FbCol.kind : FbCol → Option Nat
  | .vec k _ => k
  | .fb k _ => some k
  | .df _ _ _ => none

/-- What the fold keeps: names are distinct and come from the inputs. -/
structure TypeInv (seen : List (Option (Df FbCol))) (p : Df FbCol) : Prop where
  len : p.names.length = p.cols.length
  nodup : p.names.Nodup
  short : p.names.length ≤ (seen.map widthOf).sum
  all : ∀ d, some d ∈ seen → ∀ s ∈ d.names, s ∈ p.names
  same : ∀ nm, (∀ d, some d ∈ seen → d.names = nm) → p.names = nm
  flat : ∀ col ∈ p.cols, (∃ k, col = .vec k []) ∨ ∃ k, col = .fb k []
  kind : ∀ d, some d ∈ seen → ∀ s a b, ColAt d s a → ColAt p s b → a.kind = b.kind

theorem fbOps_flat {ops : ColOps FbCol} (hops : ops = fbOps) {x y : Df FbCol} {s : Name} {col : FbCol}
    (h : CommonCol ops x y s (.ok col)) : (∃ k, col = .vec k []) ∨ ∃ k, col = .fb k [] := by
  subst hops
  rcases h with ⟨a, b, _, _, h⟩ | ⟨a, _, _, h⟩ | ⟨a, _, _, h⟩
  · rcases a with (_ | k) | k | _ <;> rcases b with (_ | j) | j | _ <;> simp only [fbOps] at h <;>
      (try split at h) <;> cases h <;> simp
  · rcases a with (_ | k) | k | _ <;> simp only [fbOps] at h <;> cases h <;> simp
  · rcases a with (_ | k) | k | _ <;> simp only [fbOps] at h <;> cases h <;> simp

theorem fbOps_kind {x y : Df FbCol} {s : Name} {col : FbCol} (h : CommonCol fbOps x y s (.ok col)) (hx : Tidy x)
    (hy : Tidy y) : (∀ a, ColAt x s a → a.kind = col.kind) ∧ (∀ b, ColAt y s b → b.kind = col.kind) := by
  rcases h with ⟨a, b, ha, hb, h⟩ | ⟨a, ha, hb, h⟩ | ⟨a, ha, hb, h⟩
  · refine ⟨fun a' h' => ?_, fun b' h' => ?_⟩
    · rw [colAt_unique hx h' ha]
      rcases a with (_ | k) | k | _ <;> rcases b with (_ | j) | j | _ <;> simp only [fbOps] at h <;>
        (try split at h) <;> cases h <;> rfl
    · rw [colAt_unique hy h' hb]
      rcases a with (_ | k) | k | _ <;> rcases b with (_ | j) | j | _ <;> simp only [fbOps] at h <;>
        (try split at h) <;> cases h <;> first | rfl | (subst_vars; rfl)
  · refine ⟨fun a' h' => ?_, fun b' h' => absurd (colAt_mem h') hb⟩
    rw [colAt_unique hx h' ha]
    rcases a with (_ | k) | k | _ <;> simp only [fbOps] at h <;> cases h <;> rfl
  · refine ⟨fun a' h' => absurd (colAt_mem h') ha, fun b' h' => ?_⟩
    rw [colAt_unique hy h' hb]
    rcases a with (_ | k) | k | _ <;> simp only [fbOps] at h <;> cases h <;> rfl

theorem nodup_union {a b : List Name} (ha : a.Nodup) (hb : b.Nodup) :
    (a ++ b.filter (fun s => decide (s ∉ a))).Nodup := by
  refine List.nodup_append.2 ⟨ha, hb.filter _, ?_⟩
  rintro s hs t ht rfl
  simpa [hs] using (List.mem_filter.1 ht).2

theorem typeInv_step {hash : Name → BitVec 32} {seen : List (Option (Df FbCol))} {p z y : Df FbCol}
    {x : Option (Df FbCol)} (hp : TypeInv seen p) (hy : Tidy y) (hs : ∃ d, some d ∈ seen)
    (hx : x = some y ∨ x = none ∧ y = p) (hb : ((seen ++ [x]).map widthOf).sum ≤ 2147483647)
    (h : dfPtype2 hash fbOps p y = .ok z) : TypeInv (seen ++ [x]) z := by
  have hsum : ((seen ++ [x]).map widthOf).sum = (seen.map widthOf).sum + widthOf x := by
    simp
  have hps := hp.short
  have hpt : Tidy p := ⟨⟨hp.len, by omega⟩, hp.nodup⟩
  rcases C45_ptype2 hash fbOps hpt.1 hy.1 with ⟨z', h1, h2, h3, _, h5⟩ | ⟨e, h1, _⟩
  · rw [h] at h1; cases h1
    refine ⟨h3.symm, by rw [h2]; exact nodup_union hpt.2 hy.2, ?_, ?_, ?_, ?_, ?_⟩
    · rw [h2, List.length_append, hsum]
      rcases hx with rfl | ⟨rfl, rfl⟩
      · have := List.length_filter_le (fun s => decide (s ∉ p.names)) y.names
        simp only [widthOf]; omega
      · have : y.names.filter (fun s => decide (s ∉ y.names)) = [] := List.filter_eq_nil_iff.2 (by simp)
        rw [this]; simp only [List.length_nil]; omega
    · intro d hd s hsd
      rw [h2, List.mem_append, List.mem_filter]
      rcases List.mem_append.1 hd with hd | hd
      · exact Or.inl (hp.all d hd s hsd)
      · rcases hx with rfl | ⟨rfl, rfl⟩
        · simp only [List.mem_singleton, Option.some.injEq] at hd
          subst hd
          by_cases hm : s ∈ p.names
          · exact Or.inl hm
          · exact Or.inr ⟨hsd, by simpa using hm⟩
        · simp at hd
    · intro nm hnm
      have e1 : p.names = nm := hp.same nm fun d hd => hnm d (List.mem_append_left _ hd)
      have e2 : y.names = nm := by
        rcases hx with rfl | ⟨rfl, rfl⟩
        · exact hnm y (by simp)
        · exact e1
      rw [h2, e1, e2, List.filter_eq_nil_iff.2 (by simp), List.append_nil]
    · intro col hcol
      obtain ⟨i, hi, rfl⟩ := List.getElem_of_mem hcol
      exact fbOps_flat rfl (h5 (z.names[i]'(by omega)) _ ⟨i, List.getElem?_eq_getElem _, List.getElem?_eq_getElem _⟩)
    · intro d hd s a b ha hb
      obtain ⟨k1, k2⟩ := fbOps_kind (h5 s b hb) hpt hy
      rcases List.mem_append.1 hd with hd | hd
      · obtain ⟨b', hb'⟩ := colAt_of_mem hp.len.symm (hp.all d hd s (colAt_mem ha))
        rw [hp.kind d hd s a b' ha hb', k1 b' hb']
      · rcases hx with rfl | ⟨rfl, rfl⟩
        · simp only [List.mem_singleton, Option.some.injEq] at hd
          subst hd
          exact k2 a ha
        · simp at hd
  · rw [h] at h1; cases h1

theorem fbType_inv {hash : Name → BitVec 32} : ∀ (xs seen : List (Option (Df FbCol))) (cur out : Option (Df FbCol)),
    (∀ d, some d ∈ xs → PlainDf d) → ((seen ++ xs).map widthOf).sum ≤ 2147483647 →
    (∀ p, cur = some p → TypeInv seen p ∧ ∃ d, some d ∈ seen) → (cur = none → ∀ d, some d ∉ seen) →
    xs.foldlM (fbTypeStep hash) cur = .ok out →
    ∀ p, out = some p → TypeInv (seen ++ xs) p ∧ ∃ d, some d ∈ seen ++ xs
  | [], seen, cur, out, _, _, hc, _, h, p, hp => by
    rw [List.foldlM_nil] at h
    cases h
    rw [List.append_nil]
    exact hc p hp
  | x :: xs, seen, cur, out, ht, hb, hc, hn, h, p, hp => by
    rw [List.foldlM_cons] at h
    cases h1 : fbTypeStep hash cur x with
    | error e => rw [h1] at h; cases h
    | ok nxt =>
      rw [h1, ok_bind] at h
      have hb' : ((seen ++ [x]).map widthOf).sum ≤ 2147483647 := by
        simp only [List.map_append, List.map_cons, List.sum_append, List.sum_cons, List.map_nil, List.sum_nil] at hb ⊢
        omega
      rw [show seen ++ x :: xs = (seen ++ [x]) ++ xs by simp] at hb ⊢
      refine fbType_inv xs (seen ++ [x]) nxt out (fun d hd => ht d (List.mem_cons_of_mem _ hd)) hb ?_ ?_ h p hp
      · intro q hq
        subst hq
        cases cur with
        | none =>
          cases x with
          | none => simp only [fbTypeStep] at h1; cases h1
          | some d =>
            simp only [fbTypeStep] at h1
            cases h1
            have hd := ht d (by simp)
            refine ⟨⟨by simpa using hd.1.1.1, hd.1.2, by simp [widthOf], ?_, ?_, ?_, ?_⟩, d, by simp⟩
            · intro d' hd' s hs
              rcases List.mem_append.1 hd' with h' | h'
              · exact absurd h' (hn rfl d')
              · simp only [List.mem_singleton, Option.some.injEq] at h'
                subst h'; exact hs
            · intro nm hnm
              exact hnm d (by simp)
            · intro col hcol
              obtain ⟨col', hc', rfl⟩ := List.mem_map.1 hcol
              obtain ⟨k, l, rfl, _⟩ := hd.2 col' hc'
              exact Or.inl ⟨k, rfl⟩
            · intro d' hd' s a b ha hb
              rcases List.mem_append.1 hd' with h' | h'
              · exact absurd h' (hn rfl d')
              · simp only [List.mem_singleton, Option.some.injEq] at h'
                subst h'
                obtain ⟨i, hi, hci⟩ := hb
                rw [List.getElem?_map] at hci
                cases hci' : d'.cols[i]? with
                | none => rw [hci'] at hci; cases hci
                | some a' =>
                  rw [hci', Option.map_some, Option.some.injEq] at hci
                  rw [colAt_unique hd.1 ha ⟨i, hi, hci'⟩, ← hci]
                  cases a' with
                  | df _ _ _ =>
                    obtain ⟨k, l, he, _⟩ := hd.2 _ (List.mem_of_getElem? hci')
                    cases he
                  | vec _ _ => rfl
                  | fb _ _ => rfl
        | some r =>
          obtain ⟨hr, d0, hd0⟩ := hc r rfl
          have hrs := hr.short
          have hsum : ((seen ++ [x]).map widthOf).sum = (seen.map widthOf).sum + widthOf x := by simp
          cases x with
          | none =>
            simp only [fbTypeStep] at h1
            cases h2 : dfPtype2 hash fbOps r r with
            | error e => rw [h2] at h1; cases h1
            | ok z =>
              rw [h2, ok_bind] at h1
              cases h1
              exact ⟨typeInv_step hr ⟨⟨hr.len, by omega⟩, hr.nodup⟩ ⟨d0, hd0⟩ (Or.inr ⟨rfl, rfl⟩) hb' h2,
                d0, List.mem_append_left _ hd0⟩
          | some d =>
            simp only [fbTypeStep] at h1
            cases h2 : dfPtype2 hash fbOps r d with
            | error e => rw [h2] at h1; cases h1
            | ok z =>
              rw [h2, ok_bind] at h1
              cases h1
              exact ⟨typeInv_step hr (ht d (by simp)).1 ⟨d0, hd0⟩ (Or.inl rfl) hb' h2, d, by simp⟩
      · intro hq d hd
        subst hq
        cases cur with
        | some r =>
          exfalso
          cases x with
          | none =>
            simp only [fbTypeStep] at h1
            cases h2 : dfPtype2 hash fbOps r r <;> rw [h2] at h1 <;> cases h1
          | some d =>
            simp only [fbTypeStep] at h1
            cases h2 : dfPtype2 hash fbOps r d <;> rw [h2] at h1 <;> cases h1
        | none =>
          cases x with
          | some d' => simp only [fbTypeStep] at h1; cases h1
          | none =>
            rcases List.mem_append.1 hd with h' | h'
            · exact hn rfl d h'
            · simp at h'

/-! ## Combining rows -/

/-- `y` is the input `x` cast to `p`, or dropped because it has no rows. -/
def CastTo (hash : Name → BitVec 32) (p : Df FbCol) (x y : Option (Df FbCol)) : Prop :=
  (x = none ∧ y = none) ∨ (∃ d, x = some d ∧ y = none ∧ d.size = 0) ∨
  (∃ d d', x = some d ∧ y = some d' ∧ dfCast hash fbOps d p = .ok d')

/-- The `j`-th column of a cast input. -/
theorem cast_col {hash : Name → BitVec 32} {p d d' : Df FbCol} (hd : Tidy d) (hp : Tidy p)
    (h : dfCast hash fbOps d p = .ok d') {j : Nat} {s : Name} {pc : FbCol} (hs : p.names[j]? = some s)
    (hc : p.cols[j]? = some pc) : d'.size = d.size ∧ ∃ col, d'.cols[j]? = some col ∧
      ((∃ a, ColAt d s a ∧ fbOps.cast a pc = .ok col) ∨ (s ∉ d.names ∧ fbOps.init pc d.size = .ok col)) := by
  rcases dfCast_ok hash fbOps hd hp with ⟨z, h1, _, h2, h3, h4, h5⟩ | ⟨e, h1, _⟩
  · rw [h] at h1; cases h1
    have hj : j < d'.cols.length := by
      rw [h3, h2]; exact (List.getElem?_eq_some_iff.1 hs).1
    refine ⟨h4, d'.cols[j], List.getElem?_eq_getElem hj, ?_⟩
    obtain ⟨s', e1, e2⟩ := h5 j _ (List.getElem?_eq_getElem hj)
    rw [hs] at e1; cases e1
    have hps : ColAt p s pc := ⟨j, hs, hc⟩
    rcases e2 with ⟨a, b, ha, hb, hcast⟩ | ⟨b, hn, hb, hi⟩
    · rw [colAt_unique hp hb hps] at hcast
      exact Or.inl ⟨a, ha, hcast⟩
    · rw [colAt_unique hp hb hps] at hi
      exact Or.inr ⟨hn, hi⟩
  · rw [h] at h1; cases h1

theorem natPart_of_cast {hash : Name → BitVec 32} {p : Df FbCol} (hp : Tidy p) {j : Nat} {s : Name}
    {k : Option Nat} (hs : p.names[j]? = some s) (hc : p.cols[j]? = some (.vec k [])) :
    ∀ {xs casted : List (Option (Df FbCol))} {parts : List (List (Option Int))},
    (∀ d, some d ∈ xs → PlainDf d) → List.Forall₂ (CastTo hash p) xs casted →
    List.Forall₂ (fun x y => fbElts j x = .ok y) casted parts → List.Forall₂ (NatPart s) xs parts
  | _, _, _, _, .nil, .nil => .nil
  | x :: xs, y :: casted, part :: parts, hd, .cons h hr, .cons g gr => by
    refine .cons ?_ (natPart_of_cast hp hs hc (fun d hm => hd d (List.mem_cons_of_mem _ hm)) hr gr)
    rcases h with ⟨rfl, rfl⟩ | ⟨d, rfl, rfl, h0⟩ | ⟨d, d', rfl, rfl, h⟩
    · simp only [fbElts] at g; cases g; exact .null
    · simp only [fbElts] at g; cases g
      have hpl := hd d (by simp)
      by_cases hm : s ∈ d.names
      · obtain ⟨col, hcol⟩ := colAt_of_mem hpl.1.1.1.symm hm
        obtain ⟨i, hi, hci⟩ := hcol
        obtain ⟨k', l, rfl, hl⟩ := hpl.2 col (List.mem_of_getElem? hci)
        rw [h0] at hl
        obtain rfl := List.length_eq_zero_iff.1 hl
        exact .has ⟨i, hi, hci⟩
      · have := NatPart.lacks hm
        rw [h0] at this
        exact this
    · obtain ⟨_, col, e1, e2⟩ := cast_col (hd d (by simp)).1 hp h hs hc
      simp only [fbElts, rd_of_getElem? e1, ok_bind] at g
      rcases e2 with ⟨a, ha, e2⟩ | ⟨hn, e2⟩
      · rcases a with (_ | k') | k' | _ <;> rcases k with _ | k <;> simp only [fbOps] at e2 <;> (try split at e2) <;>
          cases e2
        · cases g; exact .has ha
        · cases g; exact .has ha
      · simp only [fbOps] at e2
        cases e2
        cases g
        exact .lacks hn

theorem fgnPart_of_cast {hash : Name → BitVec 32} {p : Df FbCol} (hp : Tidy p) {j : Nat} {s : Name}
    {k : Nat} (hs : p.names[j]? = some s) (hc : p.cols[j]? = some (.fb k [])) :
    ∀ {xs casted : List (Option (Df FbCol))},
    (∀ d, some d ∈ xs → PlainDf d) → List.Forall₂ (fun x y => fbCastAll hash p x = .ok y) xs casted →
    List.Forall₂ (FgnPart k s) xs (gather [j] (casted.map (·.map Df.asCol)))
  | _, _, _, .nil => .nil
  | x :: xs, y :: casted, hd, .cons h hr => by
    refine .cons ?_ (fgnPart_of_cast hp hs hc (fun d hm => hd d (List.mem_cons_of_mem _ hm)) hr)
    cases x with
    | none => simp only [fbCastAll] at h; cases h; exact .null
    | some d =>
      simp only [fbCastAll] at h
      cases h1 : dfCast hash fbOps d p with
      | error e => rw [h1] at h; cases h
      | ok d' =>
        rw [h1, ok_bind] at h
        cases h
        obtain ⟨_, col, e1, e2⟩ := cast_col (hd d (by simp)).1 hp h1 hs hc
        simp only [Option.map_some, Option.bind_some, Df.asCol, colAt, e1]
        rcases e2 with ⟨a, ha, e2⟩ | ⟨hn, e2⟩
        · rcases a with (_ | k') | k' | _ <;> simp only [fbOps] at e2 <;> (try split at e2) <;> cases e2
          rename_i hk
          subst hk
          exact .has ha
        · simp only [fbOps] at e2
          cases e2
          exact .lacks hn

theorem fbOutCols_get {casted : List (Option (Df FbCol))} {n : Nat} {ps out : List FbCol}
    (h : fbOutCols casted n ps = .ok out) {j : Nat} {pc : FbCol} (hj : ps[j]? = some pc) :
    ∃ o, out[j]? = some o ∧ fbOutCol casted n pc j = .ok o := by
  unfold fbOutCols at h
  have hf := mapM_forall₂ h
  have hz : (ps.zipIdx)[j]? = some (pc, j) := by simp [List.getElem?_zipIdx, hj]
  obtain ⟨hlt, e⟩ := List.getElem?_eq_some_iff.1 hz
  have hlen := hf.length_eq
  have := hf.get hlt (by omega)
  simp only [List.get_eq_getElem, e] at this
  exact ⟨out[j]'(by omega), List.getElem?_eq_getElem _, this⟩

/-- The columns of the output, given that `c()` gets the columns `ys` for a foreign column. -/
theorem combine_cols {hash : Name → BitVec 32} {c : Nat → List (Option FbCol) → C FbCol}
    {xs casted : List (Option (Df FbCol))} {raw : List (Option FbCol)} {p : Df FbCol} {n : Nat} {out0 out : List FbCol}
    (hd : ∀ d, some d ∈ xs → PlainDf d) (hp : Tidy p) (hflat : ∀ col ∈ p.cols, (∃ k, col = .vec k []) ∨ ∃ k, col = .fb k [])
    (hcast : List.Forall₂ (CastTo hash p) xs casted) (h0 : fbOutCols casted n p.cols = .ok out0)
    (h1 : dfCFallback c raw n p.cols out0 = .ok out)
    (hraw : ∀ j s k, p.names[j]? = some s → p.cols[j]? = some (.fb k []) → List.Forall₂ (FgnPart k s) xs (gather [j] raw)) :
    ∀ s col, ColAt ⟨p.names, out, n⟩ s col →
      (∃ k parts, col = .vec k parts.flatten ∧ List.Forall₂ (NatPart s) xs parts) ∨
      (∃ k ys, c k ys = .ok col ∧ List.Forall₂ (FgnPart k s) xs ys) := by
  rintro s col ⟨j, hs, hcol⟩
  dsimp only at hs hcol
  have hjp : j < p.cols.length := by rw [← hp.1.1]; exact (List.getElem?_eq_some_iff.1 hs).1
  have hpc := List.getElem?_eq_getElem hjp
  unfold dfCFallback at h1
  split at h1
  · cases h1
  · obtain ⟨o0, e0, hcols⟩ := fbOutCols_get h0 hpc
    obtain ⟨o0', o, g0, g1, g2⟩ := fallbackCols_get h1 j _ hpc
    rw [hcol] at g1; cases g1
    rw [e0] at g0; cases g0
    rcases hflat _ (List.getElem_mem hjp) with ⟨k, hk⟩ | ⟨k, hk⟩
    · left
      rw [hk] at hcols hpc g2
      simp only [fbOutCol] at hcols
      cases hm : casted.mapM (fbElts j) with
      | error e => rw [hm] at hcols; cases hcols
      | ok parts =>
        rw [hm, ok_bind] at hcols
        cases hcols
        simp only [fallbackCol] at g2
        cases g2
        exact ⟨k, parts, rfl, natPart_of_cast hp hs hpc hd hcast (mapM_forall₂ hm)⟩
    · right
      rw [hk] at hpc
      obtain ⟨o', f1, _, f3⟩ := C83_fallback [] h1 (by
        intro q a b r hq
        exfalso
        cases q with
        | nil => simp [colsAt] at hq
        | cons q0 q =>
          simp only [colsAt] at hq
          cases hq0 : p.cols[q0]? with
          | none => rw [hq0] at hq; cases hq
          | some pc =>
            rw [hq0, Option.bind_some] at hq
            rcases hflat pc (List.mem_of_getElem? hq0) with ⟨k, rfl⟩ | ⟨k, rfl⟩ <;> cases q <;> simp [colAt] at hq)
        j k [] (by simp [colsAt, hpc, colAt])
      simp only [colsAt, hcol, Option.bind_some, colAt, Option.some.injEq] at f1
      subst f1
      rw [Nat.zero_add] at f3
      exact ⟨k, _, f3, hraw j s k hs hpc⟩

theorem fbType_ok {hash : Name → BitVec 32} {xs : List (Option (Df FbCol))} {p : Df FbCol}
    (hd : ∀ d, some d ∈ xs → PlainDf d) (hb : (xs.map widthOf).sum ≤ 2147483647)
    (h : fbType hash xs = .ok (some p)) : TypeInv xs p ∧ Tidy p := by
  have := (fbType_inv xs [] none (some p) hd hb (by simp) (by simp) h p rfl).1
  rw [List.nil_append] at this
  have hs := this.short
  exact ⟨this, ⟨this.len, by omega⟩, this.nodup⟩

/-- **C83**: `vec_rbind()` combines the columns of the same name, wherever they are, and gives `c()` the
columns of the foreign class. -/
theorem C83_rbind {hash : Name → BitVec 32} {c : Nat → List (Option FbCol) → C FbCol}
    {xs : List (Option (Df FbCol))} {z : Df FbCol} (hd : ∀ d, some d ∈ xs → PlainDf d)
    (hb : (xs.map widthOf).sum ≤ 2147483647) (h : vecRbindFb hash c xs = .ok (some z)) : CombinedCols c xs z := by
  unfold vecRbindFb at h
  cases h1 : fbType hash xs with
  | error e => rw [h1] at h; cases h
  | ok t =>
    cases t with
    | none => rw [h1] at h; cases h
    | some p =>
      rw [h1, ok_bind] at h
      dsimp only at h
      obtain ⟨hinv, hp⟩ := fbType_ok hd hb h1
      cases h2 : xs.mapM (fbCastAll hash p) with
      | error e => rw [h2] at h; cases h
      | ok casted =>
        rw [h2, ok_bind] at h
        have hf := mapM_forall₂ h2
        cases h3 : fbOutCols casted (casted.map fbRows).sum p.cols with
        | error e => rw [h3] at h; cases h
        | ok out0 =>
          rw [h3, ok_bind] at h
          cases h4 : dfCFallback c (casted.map (·.map Df.asCol)) (casted.map fbRows).sum p.cols out0 with
          | error e => rw [h4] at h; cases h
          | ok out =>
            rw [h4, ok_bind] at h
            cases h
            have hct : List.Forall₂ (CastTo hash p) xs casted := by
              refine hf.imp ?_
              intro x y hxy
              cases x with
              | none => simp only [fbCastAll] at hxy; cases hxy; exact Or.inl ⟨rfl, rfl⟩
              | some d =>
                simp only [fbCastAll] at hxy
                cases hc : dfCast hash fbOps d p with
                | error e => rw [hc] at hxy; cases hxy
                | ok d' => rw [hc, ok_bind] at hxy; cases hxy; exact Or.inr (Or.inr ⟨d, d', rfl, rfl, hc⟩)
            refine ⟨?_, fun d hm s hs => hinv.all d hm s hs, combine_cols hd hp hinv.flat hct h3 h4
              fun j s k hs hk => fgnPart_of_cast hp hs hk hd hf⟩
            have : ∀ {xs casted : List (Option (Df FbCol))}, (∀ d, some d ∈ xs → PlainDf d) →
                List.Forall₂ (CastTo hash p) xs casted → casted.map fbRows = xs.map fbRows := by
              intro xs casted hd hct
              induction hct with
              | nil => rfl
              | cons hh _ ih =>
                rw [List.map_cons, List.map_cons, ih (fun d hm => hd d (List.mem_cons_of_mem _ hm))]
                congr 1
                rcases hh with ⟨rfl, rfl⟩ | ⟨d, rfl, rfl, h0⟩ | ⟨d, d', rfl, rfl, h⟩
                · rfl
                · exact h0.symm
                · rcases dfCast_ok hash fbOps (hd d (by simp)).1 hp with ⟨z, g1, _, _, _, g4, _⟩ | ⟨e, g1, _⟩
                  · rw [h] at g1; cases g1; exact g4
                  · rw [h] at g1; cases g1
            show (casted.map fbRows).sum = _
            rw [this hd hct]

theorem fgnPart_raw {p : Df FbCol} {all : List (Option (Df FbCol))} (hinv : TypeInv all p) {j : Nat} {s : Name} {k : Nat}
    (hs : p.names[j]? = some s) (hc : p.cols[j]? = some (.fb k [])) {nm : List Name} (hnm : ∀ d, some d ∈ all → d.names = nm)
    (hd : ∀ d, some d ∈ all → PlainDf d) :
    ∀ {xs : List (Option (Df FbCol))}, (∀ d, some d ∈ xs → some d ∈ all) →
    List.Forall₂ (FgnPart k s) xs (gather [j] (xs.map (·.map Df.asCol)))
  | [], _ => .nil
  | x :: xs, hsub => by
    refine .cons ?_ (fgnPart_raw hinv hs hc hnm hd (fun d hm => hsub d (List.mem_cons_of_mem _ hm)))
    cases x with
    | none => exact .null
    | some d =>
      have hm := hsub d (by simp)
      have hpn : p.names = nm := hinv.same nm hnm
      have hds : d.names[j]? = some s := by rw [hnm d hm, ← hpn]; exact hs
      have hj : j < d.cols.length := by rw [← (hd d hm).1.1.1]; exact (List.getElem?_eq_some_iff.1 hds).1
      have hcol : ColAt d s d.cols[j] := ⟨j, hds, List.getElem?_eq_getElem hj⟩
      have hkind := hinv.kind d hm s _ _ hcol ⟨j, hs, hc⟩
      obtain ⟨k', l, he, _⟩ := (hd d hm).2 _ (List.getElem_mem hj)
      simp only [Option.map_some, Option.bind_some, Df.asCol, colAt, List.getElem?_eq_getElem hj]
      rw [he] at hkind hcol ⊢
      simp only [FbCol.kind] at hkind
      subst hkind
      exact .has hcol

/-- **C83**: the same for `vec_c()` of data frames with the same names in the same order.  Missing:
other inputs, for which it is false (`C83_order_wrong`, `C83_missing_ub`). -/
theorem C83_vec_c_partial {hash : Name → BitVec 32} {c : Nat → List (Option FbCol) → C FbCol}
    {xs : List (Option (Df FbCol))} {z : Df FbCol} {nm : List Name} (hd : ∀ d, some d ∈ xs → PlainDf d)
    (hb : (xs.map widthOf).sum ≤ 2147483647) (hnm : ∀ d, some d ∈ xs → d.names = nm)
    (h : vecCDf hash c xs = .ok (some z)) : CombinedCols c xs z := by
  unfold vecCDf at h
  cases h1 : fbType hash xs with
  | error e => rw [h1] at h; cases h
  | ok t =>
    cases t with
    | none => rw [h1] at h; cases h
    | some p =>
      rw [h1, ok_bind] at h
      dsimp only at h
      obtain ⟨hinv, hp⟩ := fbType_ok hd hb h1
      cases h2 : xs.mapM (fbCast hash p) with
      | error e => rw [h2] at h; cases h
      | ok casted =>
        rw [h2, ok_bind] at h
        have hf := mapM_forall₂ h2
        cases h3 : fbOutCols casted (xs.map fbRows).sum p.cols with
        | error e => rw [h3] at h; cases h
        | ok out0 =>
          rw [h3, ok_bind] at h
          cases h4 : dfCFallback c (xs.map (·.map Df.asCol)) (xs.map fbRows).sum p.cols out0 with
          | error e => rw [h4] at h; cases h
          | ok out =>
            rw [h4, ok_bind] at h
            cases h
            have hct : List.Forall₂ (CastTo hash p) xs casted := by
              refine hf.imp ?_
              intro x y hxy
              cases x with
              | none => simp only [fbCast] at hxy; cases hxy; exact Or.inl ⟨rfl, rfl⟩
              | some d =>
                simp only [fbCast] at hxy
                split at hxy
                · rename_i h0
                  cases hxy; exact Or.inr (Or.inl ⟨d, rfl, rfl, h0⟩)
                · cases hc : dfCast hash fbOps d p with
                  | error e => rw [hc] at hxy; cases hxy
                  | ok d' => rw [hc, ok_bind] at hxy; cases hxy; exact Or.inr (Or.inr ⟨d, d', rfl, rfl, hc⟩)
            exact ⟨rfl, fun d hm s hs => hinv.all d hm s hs, combine_cols hd hp hinv.flat hct h3 h4
              fun j s k hs hk => fgnPart_raw hinv hs hk hnm hd (fun _ h => h)⟩

/-! ## Witnesses -/

/-- A `c()` method that puts the elements one after the other. -/
def exC (k : Nat) (xs : List (Option FbCol)) : C FbCol := do
  let parts ← xs.mapM fun x =>
    match x with
    | none => .ok []
    | some (.vec _ l) => .ok l
    | some (.fb _ l) => .ok l
    | some (.df _ _ _) => .error .abort
  .ok (.vec (some k) parts.flatten)

/-- `data_frame(a = 1, f = foreign(10))`. -/
def exAF : Df FbCol := ⟨[some ['a'], some ['f']], [.vec none [some 1], .vec (some 9) [some 10]], 1⟩
/-- `data_frame(f = foreign(20), a = 2)`. -/
def exFA : Df FbCol := ⟨[some ['f'], some ['a']], [.vec (some 9) [some 20], .vec none [some 2]], 1⟩
/-- `data_frame(a = 2, f = foreign(20))`. -/
def exAF2 : Df FbCol := ⟨[some ['a'], some ['f']], [.vec none [some 2], .vec (some 9) [some 20]], 1⟩
/-- `data_frame(a = 3)`. -/
def exA : Df FbCol := ⟨[some ['a']], [.vec none [some 3]], 1⟩

theorem exAF_plain : PlainDf exAF := by
  refine ⟨⟨⟨rfl, by decide⟩, by decide⟩, ?_⟩
  intro col h
  simp only [exAF, List.mem_cons, List.not_mem_nil, or_false] at h
  rcases h with rfl | rfl <;> exact ⟨_, _, rfl, rfl⟩

theorem exFA_plain : PlainDf exFA := by
  refine ⟨⟨⟨rfl, by decide⟩, by decide⟩, ?_⟩
  intro col h
  simp only [exFA, List.mem_cons, List.not_mem_nil, or_false] at h
  rcases h with rfl | rfl <;> exact ⟨_, _, rfl, rfl⟩

theorem exAF2_plain : PlainDf exAF2 := by
  refine ⟨⟨⟨rfl, by decide⟩, by decide⟩, ?_⟩
  intro col h
  simp only [exAF2, List.mem_cons, List.not_mem_nil, or_false] at h
  rcases h with rfl | rfl <;> exact ⟨_, _, rfl, rfl⟩

theorem exA_plain : PlainDf exA := by
  refine ⟨⟨⟨rfl, by decide⟩, by decide⟩, ?_⟩
  intro col h
  simp only [exA, List.mem_cons, List.not_mem_nil, or_false] at h
  rcases h with rfl; exact ⟨_, _, rfl, rfl⟩

-- `vec_rbind()` with columns in another order, a missing column and `NULL`.
example : vecRbindFb (fun _ => 0#32) exC [some exAF, none, some exFA, some exA] =
    .ok (some ⟨[some ['a'], some ['f']],
      [.vec none [some 1, some 2, some 3], .vec (some 9) [some 10, some 20, none]], 3⟩) := by rfl
-- `vec_c()` with the columns in the same order.
example : vecCDf (fun _ => 0#32) exC [some exAF, none, some exAF2] =
    .ok (some ⟨[some ['a'], some ['f']], [.vec none [some 1, some 2], .vec (some 9) [some 10, some 20]], 2⟩) := by rfl
-- Nested data frames.
example : fallbackCols exC [some (.df [some ['d']] [.df [some ['f']] [.vec (some 9) [some 1]] 1] 1),
      some (.df [some ['d']] [.df [some ['f']] [.vec (some 9) [some 2]] 1] 1)] 2 0
    [.df [some ['f']] [.fb 9 []] 0] [.df [some ['f']] [.fb 9 [none, none]] 2] =
    .ok [.df [some ['f']] [.vec (some 9) [some 1, some 2]] 2] := by rfl

/-- **C83**, disagreement: `vec_c()` of data frames with the columns in another order combines the wrong
columns: here `f` is 10 and 2 instead of 10 and 20. -/
theorem C83_order_wrong : vecCDf (fun _ => 0#32) exC [some exAF, some exFA] =
      .ok (some ⟨[some ['a'], some ['f']], [.vec none [some 1, some 2], .vec (some 9) [some 10, some 2]], 2⟩) ∧
    ∀ z, vecCDf (fun _ => 0#32) exC [some exAF, some exFA] = .ok (some z) → ¬ CombinedCols exC [some exAF, some exFA] z := by
  have e : vecCDf (fun _ => 0#32) exC [some exAF, some exFA] =
      .ok (some ⟨[some ['a'], some ['f']], [.vec none [some 1, some 2], .vec (some 9) [some 10, some 2]], 2⟩) := rfl
  refine ⟨e, ?_⟩
  rintro z hz ⟨_, _, h⟩
  rw [e] at hz
  cases hz
  have hf : ∀ col, ColAt exFA (some ['f']) col → col = .vec (some 9) [some 20] := fun col hc =>
    colAt_unique exFA_plain.1 hc ⟨0, rfl, rfl⟩
  have hf1 : ∀ col, ColAt exAF (some ['f']) col → col = .vec (some 9) [some 10] := fun col hc =>
    colAt_unique exAF_plain.1 hc ⟨1, rfl, rfl⟩
  rcases h (some ['f']) (.vec (some 9) [some 10, some 2]) ⟨1, rfl, rfl⟩ with ⟨k, parts, h1, h2⟩ | ⟨k, ys, h1, h2⟩
  · cases h2 with
    | cons p1 h2 =>
      cases h2 with
      | cons p2 h2 =>
        cases h2
        cases p1 with
        | lacks hn => exact absurd (show some ['f'] ∈ exAF.names by decide) hn
        | has g1 =>
          cases p2 with
          | lacks hn => exact absurd (show some ['f'] ∈ exFA.names by decide) hn
          | has g2 =>
            have a1 := hf1 _ g1
            have a2 := hf _ g2
            cases a1; cases a2
            simp at h1
  · cases h2 with
    | cons p1 h2 =>
      cases h2 with
      | cons p2 h2 =>
        cases h2
        cases p1 with
        | lacks hn => exact absurd (show some ['f'] ∈ exAF.names by decide) hn
        | has g1 =>
          cases p2 with
          | lacks hn => exact absurd (show some ['f'] ∈ exFA.names by decide) hn
          | has g2 =>
            have a1 := hf1 _ g1
            have a2 := hf _ g2
            cases a1; cases a2
            have : exC 9 [some (.vec (some 9) [some 10]), some (.vec (some 9) [some 20])] =
              .ok (.vec (some 9) [some 10, some 20]) := rfl
            rw [this] at h1
            simp at h1

/-- **C83**, disagreement: `vec_c()` of data frames of which the second lacks the foreign column reads
past the end of the second, where `vec_rbind()` gives a missing value. -/
theorem C83_missing_ub : vecCDf (fun _ => 0#32) exC [some exAF, some exA] = .error .ub ∧
    vecRbindFb (fun _ => 0#32) exC [some exAF, some exA] =
      .ok (some ⟨[some ['a'], some ['f']], [.vec none [some 1, some 3], .vec (some 9) [some 10, none]], 2⟩) :=
  ⟨rfl, rfl⟩

/-- **C83**, disagreement: `list_unchop()` of two data frames to the locations 2 and 1 puts only the native
columns there: the rows (1, 10) and (2, 20) become (2, 10) and (1, 20). -/
theorem C83_unchop_wrong : unchopDf (fun _ => 0#32) exC [some exAF, some exAF2] [[1], [0]] =
      .ok (some ⟨[some ['a'], some ['f']], [.vec none [some 2, some 1], .vec (some 9) [some 10, some 20]], 2⟩) :=
  rfl

/-- **C83**, disagreement: `NULL` after a single data frame turns the class into a sentinel, `NULL` before
it does not. -/
theorem C83_null_asymmetric :
    fbType (fun _ => 0#32) [some exAF, none] = .ok (some ⟨[some ['a'], some ['f']], [.vec none [], .fb 9 []], 0⟩) ∧
    fbType (fun _ => 0#32) [none, some exAF] = .ok (some ⟨[some ['a'], some ['f']], [.vec none [], .vec (some 9) []], 0⟩) :=
  ⟨rfl, rfl⟩

end Vctrs
