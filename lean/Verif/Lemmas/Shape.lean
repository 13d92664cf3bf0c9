import Verif.Model.Shape
import Verif.SpecShape
import Verif.Lemmas.Base

/-!
# Lemmas on common shapes
-/

namespace Vctrs

open Spec

/-- The common size of an axis, as an option. -/
def dim2 (a b : Int) : Option Int :=
  if a = b then some a else if a = 1 then some b else if b = 1 then some a else none

/-- The common sizes of the axes after the first, as an option. -/
def zipLong : List Int → List Int → Option (List Int)
  | [], y => some y
  | a :: x, [] => some (a :: x)
  | a :: x, b :: y =>
    match dim2 a b with
    | none => none
    | some c =>
      match zipLong x y with
      | none => none
      | some r => some (c :: r)

theorem vecDimension2_eq (a b : Int) :
    vecDimension2 a b = (match dim2 a b with | some c => .ok c | none => .error .abort) := by
  unfold vecDimension2 dim2
  split
  · rfl
  · split
    · rfl
    · split <;> rfl

theorem dim2_comm (a b : Int) : dim2 a b = dim2 b a := by
  unfold dim2
  split <;> split <;> (try split) <;> (try split) <;> (try split) <;> (try split) <;>
    first | rfl | (simp_all; done) | (exfalso; omega)

theorem dim2_assoc (a b c : Int) :
    (dim2 a b).bind (fun d => dim2 d c) = (dim2 b c).bind (fun d => dim2 a d) := by
  have key : ∀ a b c : Int, dim2 a b = some c ↔ (a = b ∧ c = a) ∨ (a = 1 ∧ c = b) ∨ (b = 1 ∧ c = a) := by
    intro a b c
    unfold dim2
    split
    · rename_i h; simp; omega
    · split
      · rename_i h; simp; omega
      · split
        · rename_i h; simp; omega
        · simp; omega
  apply Option.ext
  intro d
  simp only [Option.bind_eq_some_iff, key]
  constructor
  · rintro ⟨e, h1, h2⟩
    by_cases h : b = 1
    · exact ⟨c, by omega, by omega⟩
    · exact ⟨b, by omega, by omega⟩
  · rintro ⟨e, h1, h2⟩
    by_cases h : b = 1
    · exact ⟨a, by omega, by omega⟩
    · exact ⟨b, by omega, by omega⟩

theorem dim2_self (a : Int) : dim2 a a = some a := by simp [dim2]

theorem zipLong_nil (x : List Int) : zipLong x [] = some x := by cases x <;> rfl

theorem zipLong_comm : ∀ x y : List Int, zipLong x y = zipLong y x
  | [], y => by rw [zipLong_nil]; rfl
  | a :: x, [] => rfl
  | a :: x, b :: y => by
    rw [zipLong, zipLong, dim2_comm, zipLong_comm x y]

theorem zipLong_self : ∀ x : List Int, zipLong x x = some x
  | [] => rfl
  | a :: x => by rw [zipLong, dim2_self, zipLong_self x]

theorem zipLong_assoc : ∀ x y z : List Int,
    (zipLong x y).bind (fun d => zipLong d z) = (zipLong y z).bind (fun d => zipLong x d)
  | [], y, z => by
    show zipLong y z = (zipLong y z).bind some
    cases zipLong y z <;> rfl
  | a :: x, [], z => by simp [zipLong_nil, zipLong]
  | a :: x, b :: y, [] => by
    rw [zipLong_nil]
    show _ = zipLong (a :: x) (b :: y)
    cases h : zipLong (a :: x) (b :: y) with
    | none => rfl
    | some r => simp [zipLong_nil]
  | a :: x, b :: y, c :: z => by
    have hd := dim2_assoc a b c
    have ih := zipLong_assoc x y z
    have e : ∀ (a : Int) (x : List Int) (b : Int) (y : List Int), zipLong (a :: x) (b :: y) =
        (dim2 a b).bind (fun c => (zipLong x y).bind (fun r => some (c :: r))) := by
      intro a x b y
      rw [zipLong]
      cases dim2 a b <;> cases zipLong x y <;> rfl
    rw [e, e]
    cases h1 : dim2 a b <;> cases h2 : dim2 b c <;> cases h3 : zipLong x y <;>
      cases h4 : zipLong y z <;> rw [h1, h2] at hd <;> rw [h3, h4] at ih <;>
      simp only [Option.bind_none, Option.bind_some] at hd ih ⊢ <;>
      (try simp only [e]) <;> first | rfl | (simp [hd, ih]; done) | (simp [← ih]; done) |
        (simp [← hd]; done)

/-- What the list of common sizes holds. -/
theorem zipLong_some : ∀ {x y r : List Int}, zipLong x y = some r →
    r.length = max x.length y.length ∧
      (∀ (i : Nat) (a b c : Int), x[i]? = some a → y[i]? = some b → r[i]? = some c →
        dim2 a b = some c) ∧
      (∀ i : Nat, x.length ≤ i → r[i]? = y[i]?) ∧ (∀ i : Nat, y.length ≤ i → r[i]? = x[i]?)
  | [], y, r, h => by
    cases h
    refine ⟨by simp, by simp, by simp, ?_⟩
    intro i hi
    simp [hi]
  | a :: x, [], r, h => by
    cases h
    refine ⟨by simp, by simp, ?_, by simp⟩
    intro i hi
    simp at hi ⊢
    omega
  | a :: x, b :: y, r, h => by
    rw [zipLong] at h
    cases h1 : dim2 a b with
    | none => rw [h1] at h; cases h
    | some c =>
      rw [h1] at h
      cases h2 : zipLong x y with
      | none => rw [h2] at h; cases h
      | some q =>
        rw [h2] at h
        cases h
        obtain ⟨k1, k2, k3, k4⟩ := zipLong_some h2
        refine ⟨by simp [k1], ?_, ?_, ?_⟩
        · intro i a' b' c' ha hb hc
          cases i with
          | zero => simp at ha hb hc; subst ha hb hc; exact h1
          | succ i => exact k2 i a' b' c' (by simpa using ha) (by simpa using hb) (by simpa using hc)
        · intro i hi
          cases i with
          | zero => simp at hi
          | succ i => simpa using k3 i (by simpa using hi)
        · intro i hi
          cases i with
          | zero => simp at hi
          | succ i => simpa using k4 i (by simpa using hi)

/-- Without common sizes, there is a first axis that fails. -/
theorem zipLong_none : ∀ {x y : List Int}, zipLong x y = none →
    ∃ (k : Nat) (a b : Int), x[k]? = some a ∧ y[k]? = some b ∧ dim2 a b = none ∧
      ∀ (j : Nat) (a b : Int), j < k → x[j]? = some a → y[j]? = some b → dim2 a b ≠ none
  | [], y, h => by cases h
  | a :: x, [], h => by cases h
  | a :: x, b :: y, h => by
    rw [zipLong] at h
    cases h1 : dim2 a b with
    | none => exact ⟨0, a, b, rfl, rfl, h1, by intro j; omega⟩
    | some c =>
      rw [h1] at h
      cases h2 : zipLong x y with
      | none =>
        obtain ⟨k, a', b', k1, k2, k3, k4⟩ := zipLong_none h2
        refine ⟨k + 1, a', b', by simpa using k1, by simpa using k2, k3, ?_⟩
        intro j u v hj hu hv
        cases j with
        | zero => simp at hu hv; subst hu hv; rw [h1]; simp
        | succ j => exact k4 j u v (by omega) (by simpa using hu) (by simpa using hv)
      | some q => rw [h2] at h; cases h

theorem shapeStep_ok {x y : List Int} {i : Nat} {a b c : Int} {out : List (Option Int)}
    (ha : x[i]? = some a) (hb : y[i]? = some b) (hc : dim2 a b = some c) :
    shapeStep x y i out = wr out i (some c) := by
  unfold shapeStep
  rw [rd_of_getElem? ha, ok_bind, rd_of_getElem? hb, ok_bind, vecDimension2_eq, hc]
  rfl

theorem shapeStep_err {x y : List Int} {i : Nat} {a b : Int} {out : List (Option Int)}
    (ha : x[i]? = some a) (hb : y[i]? = some b) (hc : dim2 a b = none) :
    shapeStep x y i out = .error .abort := by
  unfold shapeStep
  rw [rd_of_getElem? ha, ok_bind, rd_of_getElem? hb, ok_bind, vecDimension2_eq, hc]
  rfl

/-- The loops over the axes compute the list of common sizes. -/
theorem vecShape2_eq (a b : Int) (x y : List Int) :
    vecShape2 (some (a :: x)) (some (b :: y)) =
      (match zipLong x y with | some r => .ok (some (0 :: r)) | none => .error .abort) := by
  unfold vecShape2
  dsimp only
  rw [if_neg (by split <;> simp)]
  have hmax : (if (a :: x).length ≥ (b :: y).length then (a :: x).length else (b :: y).length)
      = max x.length y.length + 1 := by
    simp only [List.length_cons]; split <;> omega
  have hmin : (if (a :: x).length ≥ (b :: y).length then (b :: y).length else (a :: x).length)
      = min x.length y.length + 1 := by
    simp only [List.length_cons]; split <;> omega
  rw [hmax, hmin]
  have hi : (if 1 < min x.length y.length + 1 then min x.length y.length + 1 else 1)
      = min x.length y.length + 1 := by split <;> omega
  rw [hi]
  have e1 : max x.length y.length + 1 - (min x.length y.length + 1)
      = max x.length y.length - min x.length y.length := by omega
  rw [e1, Nat.add_sub_cancel]
  cases hz : zipLong x y with
  | some r =>
    dsimp only
    obtain ⟨k1, k2, k3, k4⟩ := zipLong_some hz
    suffices H : Ret _ (fun q => q = some (0 :: r)) by
      obtain ⟨q, hq, rfl⟩ := H; exact hq
    let R : Nat → Int → Prop := fun j v => (0 :: r)[j]? = some v
    obtain ⟨s1, s2⟩ := (Filled.start R (max x.length y.length + 1)).step (r := 0)
      (by omega) (by rfl)
    refine Ret.bind_eq s1 ?_
    refine Ret.bind (P := fun out => Filled R (max x.length y.length + 1)
      (min x.length y.length + 1) out) ?_ ?_
    · refine (Ret.forFrom (i := 1) (fun i out => Filled R (max x.length y.length + 1) i out)
        s2 ?_).mono (fun _ h => by rwa [Nat.add_comm 1] at h)
      intro i out h1 h2 hf
      have hxi : i - 1 < x.length := by omega
      have hyi : i - 1 < y.length := by omega
      have hri : i - 1 < r.length := by omega
      obtain ⟨j, rfl⟩ : ∃ j, i = j + 1 := ⟨i - 1, by omega⟩
      simp only [Nat.add_sub_cancel] at hxi hyi hri
      obtain ⟨t1, t2⟩ := hf.step (r := r[j]) (by omega) (by show (0 :: r)[j + 1]? = _; simp [hri])
      refine Ret.of_eq ((shapeStep_ok (a := x[j]) (b := y[j]) (c := r[j]) (by simp [hxi])
        (by simp [hyi]) (k2 j _ _ _ (by simp [hxi]) (by simp [hyi]) (by simp [hri]))).trans t1) t2
    · intro out hf
      refine Ret.bind (P := fun out => Filled R (max x.length y.length + 1)
        (max x.length y.length + 1) out) ?_ ?_
      · refine (Ret.forFrom (i := min x.length y.length + 1)
          (fun i out => Filled R (max x.length y.length + 1) i out) hf ?_).mono
          (fun _ h => by
            have e : min x.length y.length + 1 + (max x.length y.length - min x.length y.length)
              = max x.length y.length + 1 := by omega
            rwa [e] at h)
        intro i out h1 h2 hf
        obtain ⟨j, rfl⟩ : ∃ j, i = j + 1 := ⟨i - 1, by omega⟩
        have hri : j < r.length := by omega
        obtain ⟨t1, t2⟩ := hf.step (r := r[j]) (by omega)
          (by show (0 :: r)[j + 1]? = _; simp [hri])
        refine Ret.of_eq ?_ t2
        unfold shapeRest
        have hm : (if (a :: x).length ≥ (b :: y).length then a :: x else b :: y)[j + 1]?
            = some r[j] := by
          split
          · rename_i hle
            simp only [List.length_cons] at hle
            have := k4 j (by omega)
            simp only [List.getElem?_cons_succ]
            rw [← this]; simp [hri]
          · rename_i hle
            simp only [List.length_cons] at hle
            have := k3 j (by omega)
            simp only [List.getElem?_cons_succ]
            rw [← this]; simp [hri]
        rw [rd_of_getElem? hm, ok_bind]
        exact t1
      · intro out hf
        have : initd out = .ok (0 :: r) := by
          refine initd_ok (by rw [hf.len]; simp [k1]) ?_
          intro i hi
          obtain ⟨v, v1, v2⟩ := hf.val i (by simp [k1] at hi; omega)
          have v2' : (0 :: r)[i]? = some v := v2
          rw [List.getElem?_eq_getElem hi] at v2'
          rw [v1, Option.some.inj v2']
        refine Ret.bind_eq this (Ret.ok rfl)
  | none =>
    dsimp only
    obtain ⟨k, u, v, k1, k2, k3, k4⟩ := zipLong_none hz
    have hkx : k < x.length := by
      rcases Nat.lt_or_ge k x.length with h | h
      · exact h
      · rw [List.getElem?_eq_none h] at k1; cases k1
    have hky : k < y.length := by
      rcases Nat.lt_or_ge k y.length with h | h
      · exact h
      · rw [List.getElem?_eq_none h] at k2; cases k2
    rw [wr_ok (by simp), ok_bind]
    refine bind_err_of ?_
    refine forFrom_err (fun _ (out : List (Option Int)) => out.length = max x.length y.length + 1)
      _ 1 (k + 1) _ (by omega) (by omega) (by simp) ?_ ?_
    · intro j out h1 h2 hl
      obtain ⟨j, rfl⟩ : ∃ i, j = i + 1 := ⟨j - 1, by omega⟩
      have hxi : j < x.length := by omega
      have hyi : j < y.length := by omega
      obtain ⟨c, hc⟩ := Option.ne_none_iff_exists'.mp
        (k4 j x[j] y[j] (by omega) (by simp [hxi]) (by simp [hyi]))
      refine ⟨out.set (j + 1) (some c), ?_, by simpa using hl⟩
      rw [shapeStep_ok (a := x[j]) (b := y[j]) (c := c) (by simp [hxi]) (by simp [hyi]) hc]
      exact wr_ok (by omega)
    · intro out _
      exact shapeStep_err (by simpa using k1) (by simpa using k2) k3

theorem dim2_some {a b c : Int} :
    dim2 a b = some c ↔ (a = b ∧ c = a) ∨ (a = 1 ∧ c = b) ∨ (b = 1 ∧ c = a) := by
  unfold dim2
  split
  · rename_i h; simp; omega
  · split
    · rename_i h; simp; omega
    · split
      · rename_i h; simp; omega
      · simp; omega

theorem dim2_none {a b : Int} : dim2 a b = none ↔ a ≠ b ∧ a ≠ 1 ∧ b ≠ 1 := by
  unfold dim2
  split
  · simp; omega
  · split
    · simp; omega
    · split
      · simp; omega
      · simp; omega

/-- The list of common sizes is a common shape. -/
theorem isCommonShape_of_zipLong {a b : Int} {x y r : List Int} (h : zipLong x y = some r) :
    IsCommonShape (a :: x) (b :: y) (0 :: r) := by
  obtain ⟨k1, k2, k3, k4⟩ := zipLong_some h
  refine ⟨by simp [k1], rfl, ?_⟩
  intro i u v c hi hu hv hc
  obtain ⟨j, rfl⟩ : ∃ j, i = j + 1 := ⟨i - 1, by omega⟩
  simp only [IsAxis, List.getElem?_cons_succ, List.length_cons] at hu hv hc
  unfold CommonAxis
  rcases hu with hu | ⟨hu1, rfl⟩
  · rcases hv with hv | ⟨hv1, rfl⟩
    · exact dim2_some.mp (k2 j u v c hu hv hc)
    · rw [k4 j (by omega), hu] at hc
      cases hc
      exact Or.inr (Or.inr ⟨rfl, rfl⟩)
  · rcases hv with hv | ⟨hv1, rfl⟩
    · rw [k3 j (by omega), hv] at hc
      cases hc
      exact Or.inr (Or.inl ⟨rfl, rfl⟩)
    · have : j < r.length := (List.getElem?_eq_some_iff.mp hc).1
      omega

theorem zipLong_eq_none {a b : Int} {x y : List Int} :
    zipLong x y = none ↔ Clash (a :: x) (b :: y) := by
  constructor
  · intro h
    obtain ⟨k, u, v, h1, h2, h3, _⟩ := zipLong_none h
    exact ⟨k + 1, u, v, by omega, Or.inl (by simpa using h1), Or.inl (by simpa using h2),
      dim2_none.mp h3⟩
  · rintro ⟨i, u, v, hi, hu, hv, hne⟩
    obtain ⟨j, rfl⟩ : ∃ j, i = j + 1 := ⟨i - 1, by omega⟩
    simp only [IsAxis, List.getElem?_cons_succ, List.length_cons] at hu hv
    have hu' : x[j]? = some u := by
      rcases hu with hu | ⟨_, rfl⟩
      · exact hu
      · exact absurd rfl hne.2.1
    have hv' : y[j]? = some v := by
      rcases hv with hv | ⟨_, rfl⟩
      · exact hv
      · exact absurd rfl hne.2.2
    cases h : zipLong x y with
    | none => rfl
    | some r =>
      obtain ⟨k1, k2, _⟩ := zipLong_some h
      have hj : j < r.length := by
        have := (List.getElem?_eq_some_iff.mp hu').1
        omega
      have := k2 j u v r[j] hu' hv' (by simp [hj])
      rw [dim2_none.mpr hne] at this
      cases this

/-- The dimensions of an R array: there is at least one. -/
def DimNonempty (d : Option (List Int)) : Prop := d ≠ some []

/-- The common shape of optional dimensions. -/
def shJoin : Option (List Int) → Option (List Int) → Option (Option (List Int))
  | none, d => some d
  | some d, none => some (some d)
  | some [], some y => some (some y)
  | some x, some [] => some (some x)
  | some (_ :: x), some (_ :: y) => (zipLong x y).map (fun r => some (0 :: r))

/-- Dimensions with the rows put to zero. -/
def shNorm : Option (List Int) → Option (List Int)
  | none => none
  | some [] => some []
  | some (_ :: x) => some (0 :: x)

theorem vecShape_eq {d : Option (List Int)} (h : DimNonempty d) : vecShape d = .ok (shNorm d) := by
  cases d with
  | none => rfl
  | some d =>
    cases d with
    | nil => exact absurd rfl h
    | cons a x => rfl

theorem vecShape2_join {x y : Option (List Int)} (hx : DimNonempty x) (hy : DimNonempty y) :
    vecShape2 x y = (match shJoin (shNorm x) (shNorm y) with
      | some r => .ok r | none => .error .abort) := by
  cases x with
  | none =>
    show vecShape y = _
    rw [vecShape_eq hy]
    rfl
  | some x =>
    cases x with
    | nil => exact absurd rfl hx
    | cons a x =>
      cases y with
      | none => rfl
      | some y =>
        cases y with
        | nil => exact absurd rfl hy
        | cons b y =>
          rw [vecShape2_eq]
          simp only [shNorm, shJoin]
          cases zipLong x y <;> rfl

theorem shJoin_comm (x y : Option (List Int)) : shJoin x y = shJoin y x := by
  rcases x with _ | _ | ⟨a, x⟩ <;> rcases y with _ | _ | ⟨b, y⟩ <;> try rfl
  simp only [shJoin]
  rw [zipLong_comm]

/-- Joining normal shapes gives a normal shape. -/
theorem shJoin_norm {x y r : Option (List Int)} (h : shJoin (shNorm x) (shNorm y) = some r) :
    (DimNonempty x → DimNonempty y → DimNonempty r) ∧ shNorm r = r := by
  rcases x with _ | _ | ⟨a, x⟩ <;> rcases y with _ | _ | ⟨b, y⟩ <;>
    simp only [shNorm, shJoin, Option.map_eq_some_iff, Option.some.injEq] at h
  all_goals first
    | (subst h; simp [DimNonempty, shNorm]; done)
    | (obtain ⟨q, _, rfl⟩ := h; simp [DimNonempty, shNorm]; done)

theorem shJoin_assoc (x y z : Option (List Int)) :
    ((shJoin (shNorm x) (shNorm y)).bind fun r => shJoin r (shNorm z)) =
      ((shJoin (shNorm y) (shNorm z)).bind fun r => shJoin (shNorm x) r) := by
  rcases x with _ | _ | ⟨a, x⟩ <;> rcases y with _ | _ | ⟨b, y⟩ <;> rcases z with _ | _ | ⟨c, z⟩
  all_goals simp only [shNorm, shJoin, Option.bind_some]
  all_goals first
    | done
    | (rw [Option.bind_map]; simp only [Function.comp_def, shJoin]; cases zipLong _ _ <;> rfl)
    | (have h := zipLong_assoc x y z
       cases h1 : zipLong x y <;> cases h2 : zipLong y z <;> rw [h1, h2] at h <;>
         simp only [Option.bind_none, Option.bind_some, Option.map_none, Option.map_some] at h ⊢ <;>
         first | rw [h] | rw [← h] | skip
       all_goals rfl)
    | (cases zipLong _ _ <;> rfl)

theorem dimNonempty_norm {x : Option (List Int)} (h : DimNonempty x) : DimNonempty (shNorm x) := by
  rcases x with _ | _ | ⟨a, x⟩
  · simp [DimNonempty, shNorm]
  · exact absurd rfl h
  · simp [DimNonempty, shNorm]

end Vctrs
