import Verif.Model.CastCommon
import Verif.Props.C42
import Verif.Props.C43

/-!
# C96: vec_cast_common() gives all inputs the common type and keeps their values
-/

namespace Vctrs

namespace Spec

/-- The largest type, in the order logical, integer, double, of the inputs that are not `NULL`.  Logical vectors
of missing values are as all others here: logical is the smallest type. -/
def CommonTy (xs : List (Option NumVec)) (ty : NumTy) : Prop :=
  (∃ x, some x ∈ xs) ∧ (ty = .dbl ↔ ∃ x, some (.dbl x) ∈ xs) ∧
    (ty = .int ↔ (∃ x, some (.int x) ∈ xs) ∧ ¬ ∃ x, some (.dbl x) ∈ xs)

/-- `NULL` stays, and other inputs are of type `ty` with the same values. -/
inductive CastElt (ty : NumTy) : Option NumVec → Option NumVec → Prop where
  | null : CastElt ty none none
  | vec {x y : NumVec} (h : KeepsCells x ty y) : CastElt ty (some x) (some y)

end Spec

open Spec

/-- The order of types without shape. -/
def numRank : Kind → Nat
  | .null => 0
  | .uns => 1
  | .lgl => 2
  | .int => 3
  | .dbl => 4
  | _ => 5

theorem kJoin_rank {a b : Kind} (ha : numRank a ≤ 4) (hb : numRank b ≤ 4) :
    kJoin a b = some (if numRank a ≤ numRank b then b else a) := by
  have key : ∀ a ∈ allKinds, ∀ b ∈ allKinds, numRank a ≤ 4 → numRank b ≤ 4 →
      kJoin a b = some (if numRank a ≤ numRank b then b else a) := by decide +kernel
  exact key a (mem_allKinds _) b (mem_allKinds _) ha hb

theorem fold_rank : ∀ (xs : List RObj) (k : Kind), numRank k ≤ 4 → (∀ x ∈ xs, numRank (kindOf x) ≤ 4 ∧ x.dim = none) →
    ∃ k', (xs.map sig).foldlM sigJoin (k, none) = some (k', none) ∧ numRank k ≤ numRank k' ∧
      (∀ x ∈ xs, numRank (kindOf x) ≤ numRank k') ∧ (k' = k ∨ ∃ x ∈ xs, kindOf x = k')
  | [], k, _, _ => ⟨k, rfl, Nat.le_refl _, nofun, Or.inl rfl⟩
  | x :: xs, k, hk, hx => by
    obtain ⟨h1, h2⟩ := hx x (by simp)
    have hj : sigJoin (k, none) (sig x) = some (if numRank k ≤ numRank (kindOf x) then kindOf x else k, none) := by
      unfold sigJoin sig
      dsimp only
      rw [kJoin_rank hk h1, h2]
      rfl
    obtain ⟨k', g1, g2, g3, g4⟩ := fold_rank xs (if numRank k ≤ numRank (kindOf x) then kindOf x else k)
      (by split <;> assumption) (fun y hy => hx y (by simp [hy]))
    refine ⟨k', ?_, ?_, ?_, ?_⟩
    · rw [List.map_cons, List.foldlM_cons, hj]
      exact g1
    · split at g2 <;> omega
    · intro y hy
      rcases List.mem_cons.1 hy with rfl | hy
      · split at g2 <;> omega
      · exact g3 y hy
    · rcases g4 with g4 | ⟨y, hy, g4⟩
      · split at g4
        · exact Or.inr ⟨x, by simp, g4.symm⟩
        · exact Or.inl g4
      · exact Or.inr ⟨y, by simp [hy], g4⟩

theorem numObj_kind (x : Option NumVec) : numRank (kindOf (numObj x)) ≤ 4 ∧ (numObj x).dim = none ∧
    (numRank (kindOf (numObj x)) = 0 ↔ x = none) ∧ (numRank (kindOf (numObj x)) = 3 ↔ ∃ v, x = some (.int v)) ∧
    (numRank (kindOf (numObj x)) = 4 ↔ ∃ v, x = some (.dbl v)) := by
  match x with
  | none => simp [numObj, kindOf, numRank, RObj.dim]
  | some (.lgl v) =>
    simp only [numObj, kindOf, RObj.dim]
    split <;> simp [numRank]
  | some (.int v) => simp [numObj, kindOf, numRank, RObj.dim]
  | some (.dbl v) => simp [numObj, kindOf, numRank, RObj.dim]

theorem flatDots_plain (xs : List (Option NumVec)) : flatDots (xs.map fun x => .plain (numObj x)) = xs.map numObj := by
  unfold flatDots
  induction xs with
  | nil => rfl
  | cons x xs ih => rw [List.map_cons, List.flatMap_cons, ih]; rfl

theorem common_type (xs : List (Option NumVec)) :
    ((∀ x ∈ xs, x = none) ∧ vecPtypeCommon .null (xs.map fun x => .plain (numObj x)) = .ok .null) ∨
    ∃ ty, CommonTy xs ty ∧ vecPtypeCommon .null (xs.map fun x => .plain (numObj x)) = .ok (tyObj (some ty)) := by
  have hd : ∀ x ∈ xs.map numObj, numRank (kindOf x) ≤ 4 ∧ x.dim = none := by
    intro x hx
    obtain ⟨y, _, rfl⟩ := List.mem_map.1 hx
    exact ⟨(numObj_kind y).1, (numObj_kind y).2.1⟩
  obtain ⟨k, h1, _, h3, h4⟩ := fold_rank (xs.map numObj) .null (by decide) hd
  have e : vecPtypeCommon .null (xs.map fun x => .plain (numObj x)) = .ok (vecPtypeFinalise (canon k none)) := by
    rw [vecPtypeCommon_eq (by
      rw [flatDots_plain]
      intro x hx
      rw [(hd x hx).2]
      simp [DimNonempty]), flatDots_plain, h1]
    rfl
  rw [e]
  have hle : ∀ x ∈ xs, numRank (kindOf (numObj x)) ≤ numRank k := fun x hx => h3 _ (List.mem_map_of_mem hx)
  have hint : (∃ v, some (.int v) ∈ xs) → 3 ≤ numRank k := fun ⟨v, hv⟩ => by
    have := hle _ hv
    rwa [(numObj_kind _).2.2.2.1.2 ⟨v, rfl⟩] at this
  have hdbl : (∃ v, some (.dbl v) ∈ xs) → 4 ≤ numRank k := fun ⟨v, hv⟩ => by
    have := hle _ hv
    rwa [(numObj_kind _).2.2.2.2.2 ⟨v, rfl⟩] at this
  rcases h4 with rfl | ⟨o, ho, h4⟩
  · refine Or.inl ⟨?_, rfl⟩
    intro x hx
    have := hle x hx
    exact (numObj_kind x).2.2.1.1 (by simpa [numRank] using this)
  · obtain ⟨x, hx, rfl⟩ := List.mem_map.1 ho
    have hk := numObj_kind x
    rw [h4] at hk
    obtain ⟨k1, -, k2, k3, k4⟩ := hk
    by_cases h0 : numRank k = 0
    · have : k = .null := by
        revert h0; cases k <;> simp [numRank]
      subst this
      refine Or.inl ⟨?_, rfl⟩
      intro y hy
      have := hle y hy
      exact (numObj_kind y).2.2.1.1 (by simpa [numRank] using this)
    · have hsome : ∃ v, some v ∈ xs := by
        cases x with
        | none => exact absurd (k2.2 rfl) h0
        | some v => exact ⟨v, hx⟩
      cases k with
      | null => exact absurd rfl h0
      | uns =>
        refine Or.inr ⟨.lgl, ⟨hsome, ⟨nofun, fun h => ?_⟩, ⟨nofun, fun h => ?_⟩⟩, rfl⟩
        · exact absurd (hdbl h) (by decide)
        · exact absurd (hint h.1) (by decide)
      | lgl =>
        refine Or.inr ⟨.lgl, ⟨hsome, ⟨nofun, fun h => ?_⟩, ⟨nofun, fun h => ?_⟩⟩, rfl⟩
        · exact absurd (hdbl h) (by decide)
        · exact absurd (hint h.1) (by decide)
      | int =>
        obtain ⟨v, rfl⟩ := k3.1 rfl
        refine Or.inr ⟨.int, ⟨hsome, ⟨nofun, fun h => ?_⟩, ⟨fun _ => ⟨⟨v, hx⟩, fun h => ?_⟩, fun _ => rfl⟩⟩, rfl⟩
        · exact absurd (hdbl h) (by decide)
        · exact absurd (hdbl h) (by decide)
      | dbl =>
        obtain ⟨v, rfl⟩ := k4.1 rfl
        refine Or.inr ⟨.dbl, ⟨hsome, ⟨fun _ => ⟨v, hx⟩, fun _ => rfl⟩, ⟨nofun, fun h => absurd ⟨v, hx⟩ h.2⟩⟩, rfl⟩
      | _ => exact absurd k1 (by decide)

theorem commonTy_unique {xs : List (Option NumVec)} {a b : NumTy} (ha : CommonTy xs a) (hb : CommonTy xs b) : a = b := by
  obtain ⟨-, a1, a2⟩ := ha
  obtain ⟨-, b1, b2⟩ := hb
  have h1 : a = .dbl ↔ b = .dbl := a1.trans b1.symm
  have h2 : a = .int ↔ b = .int := a2.trans b2.symm
  cases a <;> cases b <;> simp_all

/-- Widening never loses values. -/
theorem widen_ok {xs : List (Option NumVec)} {ty : NumTy} (hc : CommonTy xs ty) {x : NumVec} (hx : some x ∈ xs) :
    ∃ y, numCast x ty = .ok y := by
  unfold numCast
  by_cases hu : numUnspecified x = true
  · rw [if_pos hu]
    exact ⟨_, rfl⟩
  rw [if_neg hu]
  obtain ⟨-, h1, h2⟩ := hc
  cases x with
  | lgl v =>
    cases ty with
    | lgl => exact ⟨_, rfl⟩
    | int => exact ⟨_, rfl⟩
    | dbl => exact ⟨_, by unfold numCastNative; dsimp only; rw [intAsDbl_eq]; rfl⟩
  | int v =>
    cases ty with
    | lgl =>
      by_cases hd : ∃ x, some (.dbl x) ∈ xs
      · exact absurd (h1.2 hd) nofun
      · exact absurd (h2.2 ⟨⟨v, hx⟩, hd⟩) nofun
    | int => exact ⟨_, rfl⟩
    | dbl => exact ⟨_, by unfold numCastNative; dsimp only; rw [intAsDbl_eq]; rfl⟩
  | dbl v =>
    rw [h1.2 ⟨v, hx⟩]
    exact ⟨_, rfl⟩

/-- The loop of `vec_cast_common()`. -/
def commonLoop (xs : List (Option NumVec)) (type : Option NumTy) : C (List (Option NumVec)) :=
  forN xs.length (fun i (out : List (Option NumVec)) => do
    let elt ← rd xs i
    wr out i (← castOrNull elt type)) (List.replicate xs.length none)

theorem commonLoop_ok {xs ys : List (Option NumVec)} {type : Option NumTy}
    (h : List.Forall₂ (fun x y => castOrNull x type = .ok y) xs ys) : commonLoop xs type = .ok ys := by
  have hl := h.length_eq
  have hr : Ret (commonLoop xs type) (fun out => out = ys) := by
    unfold commonLoop
    refine (Ret.forN (fun i out => out = ys.take i ++ List.replicate (xs.length - i) none) (by simp) ?_).mono ?_
    · rintro i out hi rfl
      have hx := List.getElem?_eq_getElem hi
      have hy := List.getElem?_eq_getElem (l := ys) (i := i) (by omega)
      have hc : castOrNull xs[i] type = .ok ys[i] := by
        have := List.forall₂_iff_get.1 h
        exact this.2 i hi (by omega)
      refine ⟨_, ?_, rfl⟩
      rw [rd_of_getElem? hx, ok_bind, hc, ok_bind, wr_ok (by simp; omega)]
      congr 1
      rw [List.take_succ_eq_append_getElem (by omega), List.append_assoc,
        List.set_append_right _ _ (by simp), show i - (ys.take i).length = 0 by simp; omega,
        show xs.length - i = (xs.length - (i + 1)) + 1 by omega, List.replicate_succ]
      rfl
    · rintro out rfl
      simp [hl]
  obtain ⟨out, h1, rfl⟩ := hr
  exact h1

theorem commonLoop_err {xs : List (Option NumVec)} {type : Option NumTy} {k : Nat} {e : Err} (hk : k < xs.length)
    (hpre : ∀ i (h : i < k), ∃ z, castOrNull (xs[i]'(by omega)) type = .ok z) (he : castOrNull xs[k] type = .error e) :
    commonLoop xs type = .error e := by
  unfold commonLoop
  refine forN_err (fun _ (out : List (Option NumVec)) => out.length = xs.length) hk (by simp) ?_ ?_
  · intro i out hi ho
    obtain ⟨z, hz⟩ := hpre i hi
    refine ⟨out.set i z, ?_, by simpa using ho⟩
    rw [rd_of_getElem? (List.getElem?_eq_getElem (by omega)), ok_bind, hz, ok_bind, wr_ok (by omega)]
  · intro out _
    rw [rd_of_getElem? (List.getElem?_eq_getElem hk), ok_bind, he]
    rfl

/-- Either all elements can be cast, or there is a first that cannot. -/
theorem commonLoop_cases (xs : List (Option NumVec)) (ty : NumTy) (hok : ∀ x, some x ∈ xs → NumOk x) :
    (∃ ys, commonLoop xs (some ty) = .ok ys ∧ List.Forall₂ (CastElt ty) xs ys) ∨
      (commonLoop xs (some ty) = .error .abort ∧ ∃ x, some x ∈ xs ∧ ¬ ∃ y, KeepsCells x ty y) := by
  by_cases hall : ∀ x ∈ xs, ∃ y, castOrNull x (some ty) = .ok y
  · have : ∃ ys, List.Forall₂ (fun x y => castOrNull x (some ty) = .ok y) xs ys := by
      clear hok
      induction xs with
      | nil => exact ⟨[], .nil⟩
      | cons x xs ih =>
        obtain ⟨y, hy⟩ := hall x (by simp)
        obtain ⟨ys, hys⟩ := ih (fun z hz => hall z (by simp [hz]))
        exact ⟨y :: ys, .cons hy hys⟩
    obtain ⟨ys, hys⟩ := this
    refine Or.inl ⟨ys, commonLoop_ok hys, ?_⟩
    clear hall
    induction hys with
    | nil => exact .nil
    | @cons x y xs ys h _ ih =>
      refine .cons ?_ (ih fun z hz => hok z (by simp [hz]))
      cases x with
      | none => cases h; exact .null
      | some x =>
        unfold castOrNull at h
        dsimp only at h
        cases h1 : numCast x ty with
        | error e => rw [h1] at h; cases h
        | ok a =>
          rw [h1, ok_bind] at h
          cases h
          exact .vec (C43_keeps x ty (hok x (by simp)) h1)
  · right
    have hex : ∃ k, ∃ h : k < xs.length, ¬ ∃ y, castOrNull xs[k] (some ty) = .ok y := by
      by_contra hn
      apply hall
      intro x hx
      obtain ⟨k, hk, rfl⟩ := List.getElem_of_mem hx
      by_contra hc
      exact hn ⟨k, hk, hc⟩
    classical
    have hmin := fun i (hi : i < Nat.find hex) => Nat.find_min hex hi
    have hspec := Nat.find_spec hex
    generalize Nat.find hex = k at hmin hspec
    obtain ⟨hk, hbad⟩ := hspec
    have hpre : ∀ i (h : i < k), ∃ z, castOrNull (xs[i]'(by omega)) (some ty) = .ok z := by
      intro i hi
      by_contra hc
      exact hmin i hi ⟨by omega, hc⟩
    cases hx : xs[k] with
    | none => exact absurd ⟨none, by rw [hx]; rfl⟩ hbad
    | some x =>
      have hm : some x ∈ xs := hx ▸ List.getElem_mem hk
      rcases numCast_spec x ty (hok x hm) with ⟨y, h1, _⟩ | ⟨h1, h2⟩
      · exact absurd ⟨some y, by rw [hx]; unfold castOrNull; dsimp only; rw [h1]; rfl⟩ hbad
      · exact ⟨commonLoop_err hk hpre (by rw [hx]; unfold castOrNull; dsimp only; rw [h1]; rfl), x, hm, h2⟩

theorem objTy_tyObj (ty : Option NumTy) : objTy (tyObj ty) = .ok ty := by
  match ty with
  | none => rfl
  | some .lgl => rfl
  | some .int => rfl
  | some .dbl => rfl

theorem vecCastCommon_eq (xs : List (Option NumVec)) (names : Option (List Name)) {tg ty : Option NumTy}
    (h : vecPtypeCommon (tyObj tg) (xs.map fun x => .plain (numObj x)) = .ok (tyObj ty)) :
    vecCastCommon xs names tg = (do let out ← commonLoop xs ty; .ok (out, names)) := by
  unfold vecCastCommon commonLoop
  rw [h, ok_bind, objTy_tyObj, ok_bind]

/-- Without `.to`, the result has the largest type of the inputs, `NULL` stays `NULL`, no value is lost, and the
names of the list are kept.  This never fails. -/
theorem C96_common (xs : List (Option NumVec)) (names : Option (List Name)) (hok : ∀ x, some x ∈ xs → NumOk x)
    {ty : NumTy} (hty : CommonTy xs ty) :
    ∃ ys, vecCastCommon xs names none = .ok (ys, names) ∧ List.Forall₂ (CastElt ty) xs ys := by
  rcases common_type xs with ⟨h, _⟩ | ⟨ty', h, he⟩
  · obtain ⟨⟨x, hx⟩, _⟩ := hty
    exact absurd (h _ hx) nofun
  · cases commonTy_unique h hty
    rw [vecCastCommon_eq xs names (tg := none) (ty := some ty) he]
    rcases commonLoop_cases xs ty hok with ⟨ys, h1, h2⟩ | ⟨_, x, hx, h2⟩
    · exact ⟨ys, by rw [h1]; rfl, h2⟩
    · obtain ⟨y, hy⟩ := widen_ok hty hx
      exact absurd ⟨y, C43_keeps x ty (hok x hx) hy⟩ h2

/-- An integer vector, `NULL`, missing values, and a double. -/
example : CommonTy [some (.int [3, naInt]), none, some (.lgl [naInt]), some (.dbl [0x3FF8000000000000])] .dbl ∧
    vecCastCommon [some (.int [3, naInt]), none, some (.lgl [naInt]), some (.dbl [0x3FF8000000000000])] none none =
      .ok ([some (.dbl [0x4008000000000000, naReal]), none, some (.dbl [naReal]), some (.dbl [0x3FF8000000000000])],
        none) := by
  refine ⟨⟨⟨_, List.mem_cons_self⟩, ⟨fun _ => ⟨[0x3FF8000000000000], by simp⟩, fun _ => rfl⟩, ⟨nofun, fun h => ?_⟩⟩, by decide +kernel⟩
  exact absurd ⟨[0x3FF8000000000000], by simp⟩ h.2

/-- Whatever the inputs, there is a common type unless all are `NULL`. -/
theorem C96_exists (xs : List (Option NumVec)) (h : ∃ x, some x ∈ xs) : ∃ ty, CommonTy xs ty := by
  rcases common_type xs with ⟨h', _⟩ | ⟨ty, h', _⟩
  · obtain ⟨x, hx⟩ := h
    exact absurd (h' _ hx) nofun
  · exact ⟨ty, h'⟩

example : ∃ x, some x ∈ [none, some (NumVec.lgl [1])] := ⟨_, List.mem_cons_of_mem _ List.mem_cons_self⟩

/-- If all inputs are `NULL`, the list is returned as it is. -/
theorem C96_null (xs : List (Option NumVec)) (names : Option (List Name)) (h : ∀ x ∈ xs, x = none) :
    vecCastCommon xs names none = .ok (xs, names) := by
  rcases common_type xs with ⟨_, he⟩ | ⟨ty', ⟨⟨x, hx⟩, _⟩, _⟩
  · rw [vecCastCommon_eq xs names (tg := none) (ty := none) he, commonLoop_ok (ys := xs)]
    · rfl
    · refine List.forall₂_same.2 fun x hx => ?_
      rw [h x hx]
      rfl
  · exact absurd (h _ hx) nofun

example : vecCastCommon [none, none] (some [some ['a'], none]) none = .ok ([none, none], some [some ['a'], none]) := rfl

/-- With `.to` the result has that type and the same values, or this is an error and some input has values that do
not exist in that type. -/
theorem C96_to (xs : List (Option NumVec)) (names : Option (List Name)) (tg : NumTy)
    (hok : ∀ x, some x ∈ xs → NumOk x) :
    (∃ ys, vecCastCommon xs names (some tg) = .ok (ys, names) ∧ List.Forall₂ (CastElt tg) xs ys) ∨
      (vecCastCommon xs names (some tg) = .error .abort ∧ ∃ x, some x ∈ xs ∧ ¬ ∃ y, KeepsCells x tg y) := by
  have he : vecPtypeCommon (tyObj (some tg)) (xs.map fun x => .plain (numObj x)) = .ok (tyObj (some tg)) := by
    cases tg <;> rfl
  rw [vecCastCommon_eq xs names he]
  rcases commonLoop_cases xs tg hok with ⟨ys, h1, h2⟩ | ⟨h1, h2⟩
  · exact Or.inl ⟨ys, by rw [h1]; rfl, h2⟩
  · exact Or.inr ⟨by rw [h1]; rfl, h2⟩

/-- A double that is whole becomes an integer, and one that is not is an error. -/
example : vecCastCommon [some (.dbl [0x4008000000000000]), none, some (.lgl [1])] none (some .int) =
      .ok ([some (.int [3]), none, some (.int [1])], none) ∧
    vecCastCommon [some (.lgl [1]), some (.dbl [0x3FF8000000000000])] none (some .int) = .error .abort :=
  ⟨by decide +kernel, by decide +kernel⟩

theorem commonTy_perm {xs ys : List (Option NumVec)} (h : xs.Perm ys) {ty : NumTy} (hc : CommonTy xs ty) :
    CommonTy ys ty := by
  unfold CommonTy at hc ⊢
  simpa only [h.mem_iff] using hc

/-- The output of one cast that succeeds. -/
def castFn (type : Option NumTy) (x : Option NumVec) : Option NumVec :=
  match castOrNull x type with
  | .ok y => y
  | .error _ => none

theorem castCommon_map (xs : List (Option NumVec)) (names : Option (List Name)) :
    ∃ ty, (∀ ys, xs.Perm ys → vecCastCommon ys names none = .ok (ys.map (castFn ty), names)) := by
  rcases common_type xs with ⟨h, _⟩ | ⟨ty, hty, _⟩
  · refine ⟨none, fun ys hp => ?_⟩
    have hys : ∀ y ∈ ys, y = none := fun y hy => h y (hp.mem_iff.2 hy)
    rw [C96_null ys names hys]
    congr 2
    refine (List.map_id ys).symm.trans (List.map_congr_left fun y hy => ?_)
    rw [hys y hy]
    rfl
  · refine ⟨some ty, fun ys hp => ?_⟩
    have hc := commonTy_perm hp hty
    rcases common_type ys with ⟨h', _⟩ | ⟨ty', h', he⟩
    · obtain ⟨⟨x, hx⟩, _⟩ := hc
      exact absurd (h' _ hx) nofun
    · cases commonTy_unique h' hc
      rw [vecCastCommon_eq ys names (tg := none) (ty := some ty) he, commonLoop_ok (ys := ys.map (castFn (some ty)))]
      · rfl
      · refine List.forall₂_map_right_iff.2 (List.forall₂_same.2 fun y hy => ?_)
        cases y with
        | none => rfl
        | some y =>
          obtain ⟨z, hz⟩ := widen_ok hc hy
          have : castOrNull (some y) (some ty) = .ok (some z) := by
            unfold castOrNull
            dsimp only
            rw [hz]
            rfl
          unfold castFn
          rw [this]

/-- The order of the inputs does not matter: if they are rearranged, so are the results. -/
theorem C96_order {xs ys : List (Option NumVec)} (names : Option (List Name)) (h : xs.Perm ys) :
    ∃ rs ss, vecCastCommon xs names none = .ok (rs, names) ∧ vecCastCommon ys names none = .ok (ss, names) ∧
      (xs.zip rs).Perm (ys.zip ss) := by
  obtain ⟨ty, hm⟩ := castCommon_map xs names
  refine ⟨_, _, hm xs (List.Perm.refl _), hm ys h, ?_⟩
  have e : ∀ l : List (Option NumVec), l.zip (l.map (castFn ty)) = l.map fun x => (x, castFn ty x) := by
    intro l
    induction l with
    | nil => rfl
    | cons a l ih => rw [List.map_cons, List.map_cons, List.zip_cons_cons, ih]
  rw [e, e]
  exact h.map _

example : [some (NumVec.lgl [1]), none, some (.int [7])].Perm [some (.int [7]), some (.lgl [1]), none] := by decide

theorem numCast_self {x : NumVec} (hx : NumOk x) {ty : NumTy} (h : numTy x = ty) : numCast x ty = .ok x := by
  subst h
  unfold numCast
  by_cases hu : numUnspecified x = true
  · rw [if_pos hu]
    cases x with
    | lgl v =>
      simp only [numUnspecified, Bool.and_eq_true, List.all_eq_true, decide_eq_true_eq] at hu
      have := List.eq_replicate_iff.mpr ⟨rfl, hu.2⟩
      congr 1
      exact (congrArg NumVec.lgl this).symm
    | int v => simp [numUnspecified] at hu
    | dbl v => simp [numUnspecified] at hu
  · rw [if_neg hu]
    cases x <;> rfl

/-- Casting the results again changes nothing, not even the payloads of missing doubles. -/
theorem C96_again (xs : List (Option NumVec)) (names : Option (List Name)) (hok : ∀ x, some x ∈ xs → NumOk x)
    {ys : List (Option NumVec)} {nms : Option (List Name)} (h : vecCastCommon xs names none = .ok (ys, nms)) :
    vecCastCommon ys nms none = .ok (ys, nms) := by
  by_cases hn : ∃ x, some x ∈ xs
  · obtain ⟨ty, hty⟩ := C96_exists xs hn
    obtain ⟨zs, h1, h2⟩ := C96_common xs names hok hty
    rw [h] at h1
    cases h1
    have hall : ∀ y, some y ∈ ys → NumOk y ∧ numTy y = ty := by
      intro y hy
      clear h hty hok hn
      induction h2 with
      | nil => cases hy
      | cons h _ ih =>
        rcases List.mem_cons.1 hy with he | hy
        · cases h with
          | null => cases he
          | vec h => cases he; exact ⟨h.1, h.2.1⟩
        · exact ih hy
    have hsome : ∃ y, some y ∈ ys := by
      obtain ⟨x, hx⟩ := hn
      clear h hty hok hall
      induction h2 with
      | nil => cases hx
      | cons h _ ih =>
        rcases List.mem_cons.1 hx with he | hx
        · cases h with
          | null => cases he
          | @vec _ y h => exact ⟨y, by simp⟩
        · obtain ⟨y, hy⟩ := ih hx
          exact ⟨y, by simp [hy]⟩
    obtain ⟨ty', hty'⟩ := C96_exists ys hsome
    have ht : ty' = ty := by
      obtain ⟨y, hy⟩ := hsome
      obtain ⟨-, e1, e2⟩ := hty'
      cases y with
      | lgl v =>
        have := (hall _ hy).2
        cases this
        cases ty' with
        | lgl => rfl
        | int => obtain ⟨⟨v, hv⟩, _⟩ := e2.1 rfl; exact absurd (hall _ hv).2 nofun
        | dbl => obtain ⟨v, hv⟩ := e1.1 rfl; exact absurd (hall _ hv).2 nofun
      | int v =>
        have := (hall _ hy).2
        cases this
        refine e2.2 ⟨⟨v, hy⟩, ?_⟩
        rintro ⟨v, hv⟩
        exact absurd (hall _ hv).2 nofun
      | dbl v =>
        have := (hall _ hy).2
        cases this
        exact e1.2 ⟨v, hy⟩
    subst ht
    rcases common_type ys with ⟨h', _⟩ | ⟨ty'', h', he⟩
    · obtain ⟨y, hy⟩ := hsome
      exact absurd (h' _ hy) nofun
    · cases commonTy_unique h' hty'
      rw [vecCastCommon_eq ys names (tg := none) (ty := some ty') he, commonLoop_ok (ys := ys)]
      · rfl
      · refine List.forall₂_same.2 fun y hy => ?_
        cases y with
        | none => rfl
        | some y =>
          unfold castOrNull
          dsimp only
          rw [numCast_self (hall y hy).1 (hall y hy).2]
          rfl
  · have hnull : ∀ x ∈ xs, x = none := by
      intro x hx
      cases x with
      | none => rfl
      | some x => exact absurd ⟨x, hx⟩ hn
    rw [C96_null xs names hnull] at h
    cases h
    exact C96_null xs names hnull

example : vecCastCommon [some (.dbl [rNaN]), some (.int [naInt])] none none =
    .ok ([some (.dbl [rNaN]), some (.dbl [naReal])], none) := by decide +kernel

/-- Without a type to cast to, `vec_cast()` gives what it was given; `NULL` stays `NULL` whatever the type. -/
theorem C96_no_type (x : Option NumVec) (ty : Option NumTy) (h : x = none ∨ ty = none) : castOrNull x ty = .ok x := by
  rcases h with rfl | rfl
  · rfl
  · cases x <;> rfl

example : castOrNull (some (.int [1, 2])) none = .ok (some (.int [1, 2])) := rfl

end Vctrs
