import Verif.Lemmas.DfType

/-!
# C45: common type and cast of data frames

What is done to one column is arbitrary (`ColOps`), so that columns may be data frames.  Spec:
SpecDfType.lean.  `Tidy` asks for distinct names, without which a name does
not determine a column; `C45_duplicate_names` shows what then happens.
-/

namespace Vctrs
open Spec
variable {β : Type}

/-- Columns for the examples: `some n` stands for a vector of type `n`, `none` for one that fits nothing. -/
def exColOps : ColOps (Option Nat) where
  ptype2 := fun a b => match a, b with
    | some m, some n => .ok (some (max m n))
    | _, _ => .error .abort
  ptype := fun a => .ok a
  cast := fun a b => match a, b with
    | some m, some n => if m ≤ n then .ok (some n) else .error .abort
    | _, _ => .error .abort
  init := fun b _ => .ok b

/-- **C45**: the common type has the columns of `x` in order, then those only in `y` in order; shared
columns get the common type of the two columns.  If it fails, a column fails with the same error. -/
theorem C45_ptype2 (hash : Name → BitVec 32) (ops : ColOps β) {x y : Df β} (hx : Named x) (hy : Named y) :
    (∃ z, dfPtype2 hash ops x y = .ok z ∧ z.names = x.names ++ y.names.filter (fun s => decide (s ∉ x.names)) ∧
      z.cols.length = z.names.length ∧ z.size = 0 ∧
      ∀ s c, ColAt z s c → CommonCol ops x y s (.ok c)) ∨
    (∃ e, dfPtype2 hash ops x y = .error e ∧ ∃ s, CommonCol ops x y s (.error e)) := by
  rcases dfPtype2_ok hash ops hx hy with ⟨z, h1, h2, h3, h4, h5⟩ | h
  · refine Or.inl ⟨z, h1, h2, h3, h4, ?_⟩
    rintro s c ⟨i, hi, hc⟩
    obtain ⟨s', hs', hcc⟩ := h5 i c hc
    rw [hi] at hs'; cases hs'
    exact hcc
  · exact Or.inr h

example : dfPtype2 (fun _ => 7#32) exColOps ⟨[some ['a'], some ['b']], [some 1, some 5], 3⟩
    ⟨[some ['c'], some ['b'], some ['d']], [some 2, some 6, some 3], 4⟩ =
    .ok ⟨[some ['a'], some ['b'], some ['c'], some ['d']], [some 1, some 6, some 2, some 3], 0⟩ := by decide +kernel
example : Tidy (⟨[some ['a'], some ['b']], [some 1, some 5], 3⟩ : Df (Option Nat)) := by
  refine ⟨⟨rfl, by decide⟩, by decide⟩

theorem colAt_unique {d : Df β} (h : Tidy d) {s : Name} {a b : β} (ha : ColAt d s a) (hb : ColAt d s b) : a = b := by
  obtain ⟨i, h1, h2⟩ := ha
  obtain ⟨j, h3, h4⟩ := hb
  obtain ⟨hi, h1⟩ := List.getElem?_eq_some_iff.1 h1
  obtain ⟨hj, h3⟩ := List.getElem?_eq_some_iff.1 h3
  have : i = j := (List.Nodup.getElem_inj_iff h.2 (hi := hi) (hj := hj)).1 (h1.trans h3.symm)
  subst this
  rw [h2] at h4; exact Option.some.inj h4

theorem colAt_mem {d : Df β} {s : Name} {a : β} (ha : ColAt d s a) : s ∈ d.names := by
  obtain ⟨i, h1, _⟩ := ha; exact List.mem_of_getElem? h1

theorem colAt_of_mem {d : Df β} (h : d.cols.length = d.names.length) {s : Name} (hs : s ∈ d.names) :
    ∃ c, ColAt d s c := by
  obtain ⟨i, hi, rfl⟩ := List.getElem_of_mem hs
  exact ⟨d.cols[i]'(by omega), i, List.getElem?_eq_getElem hi, List.getElem?_eq_getElem _⟩

theorem commonCol_unique {ops : ColOps β} {x y : Df β} (hx : Tidy x) (hy : Tidy y) {s : Name} {r r' : C β}
    (h : CommonCol ops x y s r) (h' : CommonCol ops x y s r') : r = r' := by
  rcases h with ⟨a, b, ha, hb, h⟩ | ⟨a, ha, hb, h⟩ | ⟨b, ha, hb, h⟩ <;>
    rcases h' with ⟨a', b', ha', hb', h'⟩ | ⟨a', ha', hb', h'⟩ | ⟨b', ha', hb', h'⟩
  · rw [← h, ← h', colAt_unique hx ha ha', colAt_unique hy hb hb']
  · exact absurd (colAt_mem hb) hb'
  · exact absurd (colAt_mem ha) ha'
  · exact absurd (colAt_mem hb') hb
  · rw [← h, ← h', colAt_unique hx ha ha']
  · exact absurd (colAt_mem ha) ha'
  · exact absurd (colAt_mem ha') ha
  · exact absurd (colAt_mem ha') ha
  · rw [← h, ← h', colAt_unique hy hb hb']

theorem commonCol_mem {ops : ColOps β} {x y : Df β} {s : Name} {r : C β} (h : CommonCol ops x y s r) :
    s ∈ x.names ++ y.names.filter (fun s => decide (s ∉ x.names)) := by
  rw [List.mem_append, List.mem_filter]
  rcases h with ⟨a, b, ha, hb, h⟩ | ⟨a, ha, hb, h⟩ | ⟨b, ha, hb, h⟩
  · exact Or.inl (colAt_mem ha)
  · exact Or.inl (colAt_mem ha)
  · exact Or.inr ⟨colAt_mem hb, by simpa using ha⟩

/-- **C45**: there is no common type exactly when some column has none. -/
theorem C45_ptype2_fails (hash : Name → BitVec 32) (ops : ColOps β) {x y : Df β} (hx : Tidy x) (hy : Tidy y) :
    (∃ e, dfPtype2 hash ops x y = .error e) ↔ ∃ s e, CommonCol ops x y s (.error e) := by
  rcases C45_ptype2 hash ops hx.1 hy.1 with ⟨z, h1, h2, h3, _, h5⟩ | ⟨e, h1, s, h2⟩
  · refine ⟨fun ⟨e, he⟩ => by rw [h1] at he; simp at he, ?_⟩
    rintro ⟨s, e, hs⟩
    obtain ⟨c, hc⟩ := colAt_of_mem h3 (s := s) (by rw [h2]; exact commonCol_mem hs)
    have := commonCol_unique hx hy hs (h5 s c hc)
    simp at this
  · exact ⟨fun _ => ⟨s, e, h2⟩, fun _ => ⟨e, h1⟩⟩

example : dfPtype2 (fun _ => 7#32) exColOps ⟨[some ['a'], some ['b']], [some 1, none], 3⟩
    ⟨[some ['b'], some ['d']], [some 6, some 3], 4⟩ = .error .abort := by decide +kernel

/-- **C45**: exchanging the arguments leaves the set of columns as it is, and if the common type of
columns does not depend on the order, every column too. -/
theorem C45_order (hash : Name → BitVec 32) (ops : ColOps β) {x y z w : Df β} (hx : Tidy x) (hy : Tidy y)
    (h : dfPtype2 hash ops x y = .ok z) (h' : dfPtype2 hash ops y x = .ok w) :
    (∀ s, s ∈ z.names ↔ s ∈ w.names) ∧ z.names.Nodup ∧ w.names.Nodup ∧
    ((∀ a b, ops.ptype2 a b = ops.ptype2 b a) → ∀ s c, ColAt z s c ↔ ColAt w s c) := by
  obtain ⟨z', h1, h2, h3, _, h5⟩ : ∃ z, dfPtype2 hash ops x y = .ok z ∧ z.names = x.names ++ y.names.filter (fun s => decide (s ∉ x.names)) ∧
      z.cols.length = z.names.length ∧ z.size = 0 ∧ ∀ s c, ColAt z s c → CommonCol ops x y s (.ok c) := by
    rcases C45_ptype2 hash ops hx.1 hy.1 with h1 | ⟨e, h1, _⟩
    · exact h1
    · rw [h] at h1; simp at h1
  obtain ⟨w', g1, g2, g3, _, g5⟩ : ∃ z, dfPtype2 hash ops y x = .ok z ∧ z.names = y.names ++ x.names.filter (fun s => decide (s ∉ y.names)) ∧
      z.cols.length = z.names.length ∧ z.size = 0 ∧ ∀ s c, ColAt z s c → CommonCol ops y x s (.ok c) := by
    rcases C45_ptype2 hash ops hy.1 hx.1 with h1 | ⟨e, h1, _⟩
    · exact h1
    · rw [h'] at h1; simp at h1
  have e1 : z' = z := by rw [h] at h1; exact (Except.ok.inj h1).symm
  have e2 : w' = w := by rw [h'] at g1; exact (Except.ok.inj g1).symm
  subst e1 e2
  have mem : ∀ s, s ∈ z'.names ↔ s ∈ w'.names := by
    intro s
    rw [h2, g2]
    simp only [List.mem_append, List.mem_filter, decide_eq_true_eq]
    by_cases ha : s ∈ x.names <;> by_cases hb : s ∈ y.names <;> simp [ha, hb]
  have nodup : ∀ {a b : List Name}, a.Nodup → b.Nodup → (a ++ b.filter (fun s => decide (s ∉ a))).Nodup := by
    intro a b ha hb
    refine List.nodup_append.2 ⟨ha, hb.filter _, ?_⟩
    rintro s hs t ht rfl
    simpa [hs] using (List.mem_filter.1 ht).2
  refine ⟨mem, by rw [h2]; exact nodup hx.2 hy.2, by rw [g2]; exact nodup hy.2 hx.2, ?_⟩
  intro hsym
  have swap : ∀ s r, CommonCol ops y x s r → CommonCol ops x y s r := by
    rintro s r (⟨a, b, ha, hb, h⟩ | ⟨a, ha, hb, h⟩ | ⟨b, ha, hb, h⟩)
    · exact Or.inl ⟨b, a, hb, ha, by rw [hsym]; exact h⟩
    · exact Or.inr (Or.inr ⟨a, hb, ha, h⟩)
    · exact Or.inr (Or.inl ⟨b, hb, ha, h⟩)
  intro s c
  constructor
  · intro hc
    obtain ⟨c', hc'⟩ := colAt_of_mem g3 ((mem s).1 (colAt_mem hc))
    have := commonCol_unique hx hy (h5 s c hc) (swap s _ (g5 s c' hc'))
    cases this; exact hc'
  · intro hc
    obtain ⟨c', hc'⟩ := colAt_of_mem h3 ((mem s).2 (colAt_mem hc))
    have := commonCol_unique hx hy (h5 s c' hc') (swap s _ (g5 s c hc))
    cases this; exact hc'

example : dfPtype2 (fun _ => 7#32) exColOps ⟨[some ['c'], some ['b'], some ['d']], [some 2, some 6, some 3], 4⟩
    ⟨[some ['a'], some ['b']], [some 1, some 5], 3⟩ =
    .ok ⟨[some ['c'], some ['b'], some ['d'], some ['a']], [some 2, some 6, some 3, some 1], 0⟩ := by decide +kernel

/-- **C45**: if every column of `x` is in `to`, the cast has exactly the columns of `to` in order, as
many rows as `x`, the shared ones cast and the others missing; it only fails if a column fails. -/
theorem C45_cast (hash : Name → BitVec 32) (ops : ColOps β) {x ty : Df β} (hx : Tidy x) (ht : Tidy ty)
    (hall : ∀ s ∈ x.names, s ∈ ty.names) :
    (∃ z, dfCast hash ops x ty = .ok z ∧ z.names = ty.names ∧ z.cols.length = z.names.length ∧
      z.size = x.size ∧ ∀ s c, ColAt z s c → CastCol ops x ty s (.ok c)) ∨
    (∃ e, dfCast hash ops x ty = .error e ∧ ∃ s, CastCol ops x ty s (.error e)) := by
  rcases dfCast_ok hash ops hx ht with ⟨z, h1, _, h2, h3, h4, h5⟩ | ⟨e, h1, h2 | ⟨⟨s, hs, hm⟩, _⟩⟩
  · refine Or.inl ⟨z, h1, h2, h3, h4, ?_⟩
    rintro s c ⟨i, hi, hc⟩
    obtain ⟨s', hs', hcc⟩ := h5 i c hc
    rw [← h2, hi] at hs'; cases hs'
    exact hcc
  · exact Or.inr ⟨e, h1, h2⟩
  · exact absurd (hall s hs) hm

example : dfCast (fun _ => 7#32) exColOps ⟨[some ['b'], some ['a']], [some 1, some 5], 3⟩
    ⟨[some ['a'], some ['d'], some ['b']], [some 7, some 2, some 6], 0⟩ =
    .ok ⟨[some ['a'], some ['d'], some ['b']], [some 7, some 2, some 6], 3⟩ := by decide +kernel

/-- **C45**: if `x` has a column that `to` lacks the cast fails, and if no column fails by itself it is
the error about lost columns.  Missing: names that occur twice, for which it is false
(`C45_duplicate_names`). -/
theorem C45_cast_lossy_partial (hash : Name → BitVec 32) (ops : ColOps β) {x ty : Df β} (hx : Tidy x) (ht : Tidy ty)
    (hex : ∃ s ∈ x.names, s ∉ ty.names) :
    ∃ e, dfCast hash ops x ty = .error e ∧ ((∀ s e', ¬ CastCol ops x ty s (.error e')) → e = .abort) := by
  rcases dfCast_ok hash ops hx ht with ⟨z, _, hall, _⟩ | ⟨e, h1, ⟨s, h2⟩ | ⟨_, h2⟩⟩
  · obtain ⟨s, hs, hm⟩ := hex
    exact absurd (hall s hs) hm
  · exact ⟨e, h1, fun hno => absurd h2 (hno s e)⟩
  · exact ⟨e, h1, fun _ => h2⟩

example : dfCast (fun _ => 7#32) exColOps ⟨[some ['b'], some ['a']], [some 1, some 5], 3⟩
    ⟨[some ['a'], some ['d']], [some 7, some 2], 0⟩ = .error .abort := by decide +kernel

/-- **C45**, disagreement: with a name twice in `to`, the column `b` of `x` is dropped without error:
the number of extra columns, two less two, is taken for zero (src/type-data-frame.c:763). -/
theorem C45_duplicate_names :
    ∃ x ty z : Df (Option Nat), (∃ s ∈ x.names, s ∉ ty.names) ∧ x.names.Nodup ∧
      (∀ s e, ¬ CastCol exColOps x ty s (.error e)) ∧
      dfCast (fun _ => 7#32) exColOps x ty = .ok z ∧ z.names = ty.names := by
  refine ⟨⟨[some ['a'], some ['b']], [some 1, some 5], 3⟩, ⟨[some ['a'], some ['a']], [some 7, some 2], 0⟩,
    ⟨[some ['a'], some ['a']], [some 7, some 2], 3⟩, ⟨some ['b'], by decide, by decide⟩, by decide, ?_,
    by decide +kernel, rfl⟩
  rintro s e (⟨a, b, ⟨i, hi, ha⟩, ⟨j, hj, hb⟩, h⟩ | ⟨b, hs, ⟨j, hj, hb⟩, h⟩)
  · have hi2 := (List.getElem?_eq_some_iff.1 hi).1
    have hj2 := (List.getElem?_eq_some_iff.1 hj).1
    have ci : i = 0 ∨ i = 1 := by simp only [List.length_cons, List.length_nil] at hi2; omega
    have cj : j = 0 ∨ j = 1 := by simp only [List.length_cons, List.length_nil] at hj2; omega
    rcases ci with rfl | rfl <;> rcases cj with rfl | rfl <;> simp at hi hj ha hb <;> subst hi ha hb <;>
      simp [exColOps] at h hj
  · simp [exColOps] at h

end Vctrs
