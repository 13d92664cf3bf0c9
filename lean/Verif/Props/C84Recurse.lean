import Verif.Model.ProxyRecurse
import Verif.Lemmas.Base

/-!
# C84: restoring a recursive proxy

`vec_c()`, `list_unchop()` and `vec_rbind()` fill a recursive proxy and restore it.  If the methods of each class
give an object back from its proxy, is a nested object given back from its recursive proxy?  Not for all classes of
data frames: the columns of the proxy are restored one by one to the columns of the data frame itself.
-/

namespace Vctrs

namespace Spec

/-- What classes are to be like: an object comes back from its proxy.  Without attributes there is no class; only
lists have the class of data frames. -/
structure LawfulMethods (E : RecEnv) : Prop where
  bare : ∀ l, E.kind l 0 = .bare
  lists : ∀ a, E.kind false a ≠ .bareDf ∧ E.kind false a ≠ .tibble ∧ E.kind false a ≠ .df
  factor : ∀ x : RTree, x.kind E = .factor → E.proxyM x.attrs = none
  date : ∀ (x p : RTree), x.kind E = .date → proxyOnce E x = .ok p →
    isDfTree E p = false ∧ restoreOnce E p x = .ok x
  other : ∀ (x p : RTree), x.kind E = .other → proxyOnce E x = .ok p → restoreOnce E p x = .ok x
  df : ∀ (x p : RTree), x.kind E = .df ∨ x.kind E = .tibble → proxyOnce E x = .ok p → restoreOnce E p x = .ok x

/-- The proxies of data frames are data frames with the same columns in the same order. -/
def KeepColumns (E : RecEnv) : Prop :=
  ∀ a i cols p, E.kind true a = .df ∨ E.kind true a = .tibble → proxyOnce E (.list a i cols) = .ok p →
    isDfTree E p = true ∧ ∃ b j, p = .list b j cols

end Spec

open Spec

theorem columns_back (E : RecEnv) (fuel : Nat)
    (ih : ∀ x p, proxyRec E fuel x = .ok p → restoreRec E fuel p x = .ok x) :
    ∀ (xs ps : List RTree), proxyColumns (proxyRec E fuel) xs = .ok ps →
      ps.length = xs.length ∧ restoreColumns (restoreRec E fuel) ps xs = .ok xs
  | [], ps, h => by
    cases h
    exact ⟨rfl, rfl⟩
  | x :: xs, ps, h => by
    unfold proxyColumns at h
    cases hx : proxyRec E fuel x with
    | error e => rw [hx] at h; cases h
    | ok p =>
      rw [hx, ok_bind] at h
      cases hxs : proxyColumns (proxyRec E fuel) xs with
      | error e => rw [hxs] at h; cases h
      | ok qs =>
        rw [hxs, ok_bind] at h
        cases h
        obtain ⟨h1, h2⟩ := columns_back E fuel ih xs qs hxs
        refine ⟨by simp [h1], ?_⟩
        unfold restoreColumns
        rw [ih x p hx, ok_bind, h2, ok_bind]

theorem dfProxyRec_list {f : RTree → C RTree} {a i : Nat} {cols : List RTree} {p : RTree}
    (h : dfProxyRec f (.list a i cols) = .ok p) : ∃ qs, proxyColumns f cols = .ok qs ∧ p = .list a i qs := by
  simp only [dfProxyRec] at h
  cases hc : proxyColumns f cols with
  | error e => rw [hc] at h; cases h
  | ok qs =>
    rw [hc, ok_bind] at h
    cases h
    exact ⟨qs, rfl, rfl⟩

theorem df_restore_columns (E : RecEnv) {f : RTree → RTree → C RTree} {a i ta ti : Nat} {qs cols : List RTree}
    (hdf : isDfTree E (.list ta ti cols) = true) (h0 : ta ≠ 0) (hl : qs.length = cols.length)
    (hc : restoreColumns f qs cols = .ok cols) :
    dfRestoreTree E true f (.list a i qs) (.list ta ti cols) = .ok (.list ta i cols) := by
  simp only [dfRestoreTree, hdf, if_true, ok_bind]
  rw [if_neg (by simp [hl]), hc, ok_bind]
  unfold restoreTree
  rw [if_neg (by exact h0)]
  rfl

theorem isDfTree_attrs {E : RecEnv} {a i : Nat} {cols : List RTree} (h0 : ∀ l, E.kind l 0 = .bare)
    (h : isDfTree E (.list a i cols) = true) : a ≠ 0 := by
  rintro rfl
  simp only [isDfTree, h0] at h
  cases h

theorem restoreTree_self (x : RTree) : restoreTree x x = x := by
  unfold restoreTree
  split
  · rfl
  · cases x <;> rfl

/-- An object comes back from its recursive proxy if the methods of each class give their objects back, and the
proxies of data frames of other classes have the columns of the data frame.  (What is missing: other proxies of data
frames, for which it is false.) -/
theorem C84_recurse_partial (E : RecEnv) (hE : LawfulMethods E) (hk : KeepColumns E) (fuel : Nat) :
    ∀ x p, proxyRec E fuel x = .ok p → restoreRec E fuel p x = .ok x := by
  induction fuel with
  | zero => intro x p h; cases h
  | succ fuel ih =>
    intro x p h
    unfold proxyRec at h
    unfold restoreRec restoreStep
    cases hkind : x.kind E with
    | bare =>
      rw [hkind] at h
      cases h
      simp only [restoreTree_self]
    | factor =>
      rw [hkind] at h
      simp only [proxyInvoke, hE.factor _ hkind, ok_bind] at h ⊢
      have hd : isDfTree E x = false := by
        cases x with
        | atom a d => rfl
        | list a i cols =>
          have hkind : E.kind true a = .factor := hkind
          simp only [isDfTree, hkind]
      rw [hd] at h
      cases h
      rw [restoreTree_self]
    | date =>
      rw [hkind] at h
      simp only at h ⊢
      cases hp : proxyInvoke E x with
      | error e => rw [hp] at h; cases h
      | ok q =>
        obtain ⟨h1, h2⟩ := hE.date x q hkind (by simp only [proxyOnce, hkind, hp])
        rw [hp, ok_bind, h1] at h
        cases h
        simpa only [restoreOnce, restoreStep, hkind] using h2
    | bareDf =>
      rw [hkind] at h
      simp only at h ⊢
      cases x with
      | atom a d => cases h
      | list a i cols =>
        have hkind : E.kind true a = .bareDf := hkind
        have hdf : isDfTree E (.list a i cols) = true := by simp only [isDfTree, hkind]
        obtain ⟨qs, h1, rfl⟩ := dfProxyRec_list h
        obtain ⟨h2, h3⟩ := columns_back E fuel ih cols qs h1
        exact df_restore_columns E hdf (isDfTree_attrs hE.bare hdf) h2 h3
    | tibble =>
      rw [hkind] at h
      simp only at h ⊢
      cases x with
      | atom a d => exact absurd hkind (hE.lists a).2.1
      | list a i cols =>
        have hkind' : E.kind true a = .tibble := hkind
        have hdf : isDfTree E (.list a i cols) = true := by simp only [isDfTree, hkind']
        cases hp : proxyInvoke E (.list a i cols) with
        | error e => rw [hp] at h; cases h
        | ok q =>
          have hp' : proxyOnce E (.list a i cols) = .ok q := by simp only [proxyOnce, hkind, hp]
          obtain ⟨k1, b, j, rfl⟩ := hk a i cols q (.inr hkind') hp'
          have h4 := hE.df _ _ (.inr hkind) hp'
          rw [hp, ok_bind, k1, if_pos rfl] at h
          obtain ⟨qs, h1, rfl⟩ := dfProxyRec_list h
          obtain ⟨h2, h3⟩ := columns_back E fuel ih cols qs h1
          have h0 := isDfTree_attrs hE.bare hdf
          rw [df_restore_columns E hdf h0 h2 h3]
          simpa only [restoreOnce, restoreStep, hkind, dfRestoreTree, hdf, if_true, ok_bind, restoreTree,
            RTree.attrs, h0, if_false, Bool.false_eq_true] using h4
    | df =>
      rw [hkind] at h
      simp only at h ⊢
      cases x with
      | atom a d => exact absurd hkind (hE.lists a).2.2
      | list a i cols =>
        have hkind' : E.kind true a = .df := hkind
        have hdf : isDfTree E (.list a i cols) = true := by simp only [isDfTree, hkind']
        cases hp : proxyInvoke E (.list a i cols) with
        | error e => rw [hp] at h; cases h
        | ok q =>
          have hp' : proxyOnce E (.list a i cols) = .ok q := by simp only [proxyOnce, hkind, hp]
          obtain ⟨k1, b, j, rfl⟩ := hk a i cols q (.inl hkind') hp'
          have h4 := hE.df _ _ (.inl hkind) hp'
          rw [hp, ok_bind, k1, if_pos rfl] at h
          obtain ⟨qs, h1, rfl⟩ := dfProxyRec_list h
          obtain ⟨h2, h3⟩ := columns_back E fuel ih cols qs h1
          have h0 := isDfTree_attrs hE.bare hdf
          rw [df_restore_columns E hdf h0 h2 h3, ok_bind]
          simpa only [restoreOnce, restoreStep, hkind, dfRestoreTree, hdf, if_true, ok_bind, restoreTree,
            RTree.attrs, h0, if_false, Bool.false_eq_true] using h4
    | other =>
      rw [hkind] at h
      simp only at h ⊢
      cases hp : proxyInvoke E x with
      | error e => rw [hp] at h; cases h
      | ok q =>
        rw [hp, ok_bind] at h
        have hq : E.restoreM q x = .ok x := by
          have := hE.other x q hkind (by simp only [proxyOnce, hkind, hp])
          simpa only [restoreOnce, restoreStep, hkind, Bool.false_and, Bool.false_eq_true, if_false] using this
        cases hd : isDfTree E q with
        | false =>
          rw [hd] at h
          cases h
          rw [hd]
          exact hq
        | true =>
          rw [hd, if_pos rfl] at h
          cases q with
          | atom a d => cases hd
          | list a i cols =>
            obtain ⟨qs, h1, rfl⟩ := dfProxyRec_list h
            obtain ⟨h2, h3⟩ := columns_back E fuel ih cols qs h1
            have hd' : isDfTree E (.list a i qs) = true := hd
            have hx : isDfTree E x = false := by
              cases x with
              | atom a d => rfl
              | list a i cols =>
                have hkind : E.kind true a = .other := hkind
                simp only [isDfTree, hkind]
            rw [hd', Bool.and_true, if_pos rfl]
            have e : dfRestoreTree E true (restoreRec E fuel) (.list a i qs) x = .ok (.list a i cols) := by
              rw [← df_restore_columns E (f := restoreRec E fuel) (a := a) (i := i) hd
                (isDfTree_attrs hE.bare hd) h2 h3]
              simp only [dfRestoreTree, proxyOnce, hx, hkind, hp, ok_bind, hd, if_true, Bool.false_eq_true,
                if_false]
            rw [e, ok_bind]
            exact hq

/-! ## Examples, and where it is false -/

/-- Classes: 1 is a bare data frame and 4 a date.  3 is a record, a list whose proxy is a data frame.  2 and 5 are
classes of data frames: without methods; or, if `bad`, the proxy of class 2 has one more column, which
`vec_restore()` drops, and that of class 5 has the columns in reverse, which `vec_restore()` reverses again. -/
def exRecEnv (bad : Bool) : RecEnv where
  kind
    | true, 1 => .bareDf
    | true, 2 => .df
    | true, 3 => .other
    | true, 5 => .df
    | false, 4 => .date
    | _, _ => .bare
  proxyM
    | 2 => if bad then some (fun x => match x with
        | .list _ i cols => .ok (.list 1 i (.atom 0 99 :: cols))
        | .atom _ _ => .error .abort) else none
    | 3 => some (fun x => match x with
        | .list _ i cols => .ok (.list 1 i cols)
        | .atom _ _ => .error .abort)
    | 5 => if bad then some (fun x => match x with
        | .list _ i cols => .ok (.list 1 i cols.reverse)
        | .atom _ _ => .error .abort) else none
    | _ => none
  restoreM x dest := match bad, dest.attrs, x with
    | true, 2, .list _ i (_ :: cols) => .ok (.list 2 i cols)
    | true, 5, .list _ i cols => .ok (.list 5 i cols.reverse)
    | _, _, x => .ok (restoreTree x dest)
  validate := .ok

theorem exRec_kind {bad : Bool} {x : RTree} {k : RKind} (h : x.kind (exRecEnv bad) = k) (hk : k ≠ .bare) :
    (∃ d, x = .atom 4 d ∧ k = .date) ∨ ∃ a i cols, x = .list a i cols ∧
      (a = 1 ∧ k = .bareDf ∨ a = 2 ∧ k = .df ∨ a = 3 ∧ k = .other ∨ a = 5 ∧ k = .df) := by
  subst h
  cases x with
  | atom a d =>
    by_cases ha : a = 4
    · subst ha
      exact .inl ⟨d, rfl, rfl⟩
    · refine absurd ?_ hk
      simp [RTree.kind, exRecEnv, ha]
  | list a i cols =>
    refine .inr ⟨a, i, cols, rfl, ?_⟩
    by_cases h1 : a = 1
    · subst h1; exact .inl ⟨rfl, rfl⟩
    by_cases h2 : a = 2
    · subst h2; exact .inr (.inl ⟨rfl, rfl⟩)
    by_cases h3 : a = 3
    · subst h3; exact .inr (.inr (.inl ⟨rfl, rfl⟩))
    by_cases h5 : a = 5
    · subst h5; exact .inr (.inr (.inr ⟨rfl, rfl⟩))
    refine absurd ?_ hk
    simp [RTree.kind, exRecEnv, h1, h2, h3, h5]

/-- All these classes give objects back from their proxies. -/
theorem exRec_lawful (bad : Bool) : LawfulMethods (exRecEnv bad) where
  bare l := by cases l <;> rfl
  lists a := by
    by_cases ha : a = 4
    · subst ha
      refine ⟨?_, ?_, ?_⟩ <;> intro h <;> cases h
    · have : (exRecEnv bad).kind false a = .bare := by simp [exRecEnv, ha]
      rw [this]
      refine ⟨?_, ?_, ?_⟩ <;> intro h <;> cases h
  factor x h := by
    rcases exRec_kind h (by decide) with ⟨_, _, h2⟩ | ⟨_, _, _, _, h2⟩
    · cases h2
    · simp at h2
  date x p h hp := by
    rcases exRec_kind h (by decide) with ⟨d, rfl, _⟩ | ⟨_, _, _, _, h2⟩
    · cases hp
      exact ⟨rfl, rfl⟩
    · simp at h2
  other x p h hp := by
    rcases exRec_kind h (by decide) with ⟨_, _, h2⟩ | ⟨a, i, cols, rfl, h2⟩
    · cases h2
    · simp at h2
      subst h2
      cases hp
      cases bad <;> rfl
  df x p h hp := by
    rcases h with h | h
    · rcases exRec_kind h (by decide) with ⟨_, _, h2⟩ | ⟨a, i, cols, rfl, h2⟩
      · cases h2
      · simp at h2
        rcases h2 with rfl | rfl <;> cases bad <;> cases hp
        · rfl
        · rfl
        · rfl
        · show Except.ok (RTree.list 5 i cols.reverse.reverse) = _
          rw [List.reverse_reverse]
    · rcases exRec_kind h (by decide) with ⟨_, _, h2⟩ | ⟨a, i, cols, rfl, h2⟩
      · cases h2
      · simp at h2

/-- Without methods, data frames keep their columns. -/
theorem exRec_keep : KeepColumns (exRecEnv false) := by
  intro a i cols p h hp
  have hx : a = 2 ∨ a = 5 := by
    rcases h with h | h
    · rcases exRec_kind (x := .list a i cols) h (by decide) with ⟨_, h', _⟩ | ⟨_, _, _, h', h⟩
      · cases h'
      · cases h'
        simpa using h
    · rcases exRec_kind (x := .list a i cols) h (by decide) with ⟨_, h', _⟩ | ⟨_, _, _, h', h⟩
      · cases h'
      · simp at h
  rcases hx with rfl | rfl <;> cases hp <;> exact ⟨rfl, _, _, rfl⟩

/-- A data frame of class 2 with a record of a date and of a bare data frame: its recursive proxy consists of bare
data frames and dates, and it comes back. -/
example : proxyRec (exRecEnv false) 4 (.list 2 7 [.list 3 8 [.atom 4 1, .list 1 9 [.atom 0 2]], .atom 0 3]) =
      .ok (.list 2 7 [.list 1 8 [.atom 4 1, .list 1 9 [.atom 0 2]], .atom 0 3]) ∧
    restoreRec (exRecEnv false) 4 (.list 2 7 [.list 1 8 [.atom 4 1, .list 1 9 [.atom 0 2]], .atom 0 3])
      (.list 2 7 [.list 3 8 [.atom 4 1, .list 1 9 [.atom 0 2]], .atom 0 3]) =
      .ok (.list 2 7 [.list 3 8 [.atom 4 1, .list 1 9 [.atom 0 2]], .atom 0 3]) :=
  ⟨rfl, rfl⟩

/-- A class of data frames whose proxy has another column: `vec_restore()` gives objects back from their proxies,
but the recursive restoration in `vec_c()`, `list_unchop()` and `vec_rbind()` is an internal error, however deep
the recursion may go. -/
theorem C84_recurse_extra : LawfulMethods (exRecEnv true) ∧ ∀ (fuel i d : Nat),
    proxyOnce (exRecEnv true) (.list 2 i [.atom 0 d]) = .ok (.list 1 i [.atom 0 99, .atom 0 d]) ∧
    restoreOnce (exRecEnv true) (.list 1 i [.atom 0 99, .atom 0 d]) (.list 2 i [.atom 0 d]) =
      .ok (.list 2 i [.atom 0 d]) ∧
    proxyRec (exRecEnv true) (fuel + 2) (.list 2 i [.atom 0 d]) = .ok (.list 1 i [.atom 0 99, .atom 0 d]) ∧
    restoreRec (exRecEnv true) (fuel + 2) (.list 1 i [.atom 0 99, .atom 0 d]) (.list 2 i [.atom 0 d]) =
      .error .internal :=
  ⟨exRec_lawful true, fun _ _ _ => ⟨rfl, rfl, rfl, rfl⟩⟩

/-- A class of data frames whose proxy has the columns in another order: the recursive restoration gives a column
without a class the class of another one, here that of a date. -/
theorem C84_recurse_moved : LawfulMethods (exRecEnv true) ∧ ∀ (fuel i d e : Nat),
    proxyRec (exRecEnv true) (fuel + 2) (.list 5 i [.atom 0 d, .atom 4 e]) =
      .ok (.list 1 i [.atom 4 e, .atom 0 d]) ∧
    restoreRec (exRecEnv true) (fuel + 2) (.list 1 i [.atom 4 e, .atom 0 d]) (.list 5 i [.atom 0 d, .atom 4 e]) =
      .ok (.list 5 i [.atom 4 d, .atom 4 e]) :=
  ⟨exRec_lawful true, fun _ _ _ _ => ⟨rfl, rfl⟩⟩

/-- A data frame cannot be restored to an object whose proxy is no data frame: this is an internal error before any
method for `vec_restore()` is called. -/
theorem C84_recurse_target (E : RecEnv) (fuel : Nat) {x dest p : RTree} (hx : isDfTree E x = true)
    (hd : dest.kind E = .other) (hp : proxyOnce E dest = .ok p) (hn : isDfTree E p = false) :
    restoreRec E (fuel + 1) x dest = .error .internal := by
  have h1 : isDfTree E dest = false := by
    cases dest with
    | atom a d => rfl
    | list a i cols =>
      unfold isDfTree
      dsimp only
      rw [show E.kind true a = .other from hd]
  unfold restoreRec restoreStep
  rw [hd]
  dsimp only
  rw [hx, Bool.and_true, if_pos rfl]
  unfold dfRestoreTree
  cases x with
  | atom a d => rfl
  | list a i cols =>
    dsimp only
    rw [h1, if_neg (by decide), hp, ok_bind, hn]
    rfl

-- The record without its method for `vec_proxy()` is a list, to which no data frame is restored.
example (E : RecEnv) (hE : E = { exRecEnv false with proxyM := fun _ => none }) :
    isDfTree E (.list 1 0 [.atom 0 1]) = true ∧ (RTree.list 3 0 [.atom 0 5]).kind E = .other ∧
    proxyOnce E (.list 3 0 [.atom 0 5]) = .ok (.list 3 0 [.atom 0 5]) ∧ isDfTree E (.list 3 0 [.atom 0 5]) = false := by
  subst hE
  exact ⟨rfl, rfl, rfl, rfl⟩

end Vctrs
