import Verif.Lemmas.Cast

/-!
# C43: casts between logical, integer and double are lossless or fail
-/

namespace Vctrs

open Spec

/-- A cast that returns keeps the size and what every element stands for, and the elements are ones
the target type can hold. -/
theorem C43_keeps (x : NumVec) (ty : NumTy) (hx : NumOk x) {y : NumVec} (h : numCast x ty = .ok y) :
    KeepsCells x ty y := by
  rcases numCast_spec x ty hx with ⟨z, h1, h2⟩ | ⟨h1, h2⟩
  · rw [h] at h1
    cases h1
    exact h2
  · rw [h] at h1
    cases h1

example : numCast (.dbl [0x3FF0000000000000, 0xC000000000000000, naReal]) .int
    = .ok (.int [1, -2, naInt]) := by decide +kernel

/-- The cast returns whenever every element is exactly representable in the target type. -/
theorem C43_succeeds (x : NumVec) (ty : NumTy) (hx : NumOk x) (h : ∃ y, KeepsCells x ty y) :
    ∃ y, numCast x ty = .ok y := by
  rcases numCast_spec x ty hx with ⟨z, h1, h2⟩ | ⟨h1, h2⟩
  · exact ⟨z, h1⟩
  · exact absurd h h2

example : KeepsCells (.int [1, naInt, 0]) .lgl (.lgl [1, naInt, 0]) :=
  ⟨by unfold NumOk; decide, rfl, rfl⟩

/-- Otherwise a lossy cast error is raised: there is no other outcome. -/
theorem C43_lossy (x : NumVec) (ty : NumTy) (hx : NumOk x) (h : ¬ ∃ y, KeepsCells x ty y) :
    numCast x ty = .error .abort := by
  rcases numCast_spec x ty hx with ⟨z, h1, h2⟩ | ⟨h1, h2⟩
  · exact absurd ⟨z, h2⟩ h
  · exact h1

/-- 1.5 has no integer value, so the hypothesis is met and the cast fails. -/
example : ¬ ∃ y, KeepsCells (.dbl [0x3FF8000000000000]) .int y := by
  intro h
  obtain ⟨y, hy⟩ := C43_succeeds (.dbl [0x3FF8000000000000]) .int trivial h
  have : numCast (.dbl [0x3FF8000000000000]) .int = .error .abort := by decide +kernel
  rw [this] at hy
  cases hy

/-- Casting back after a successful cast succeeds, and the elements stand for the same again. -/
theorem C43_round_trip (x : NumVec) (ty : NumTy) (hx : NumOk x) {y : NumVec}
    (h : numCast x ty = .ok y) :
    ∃ z, numCast y (numTy x) = .ok z ∧ NumOk z ∧ numTy z = numTy x ∧ cells z = cells x := by
  obtain ⟨h1, h2, h3⟩ := C43_keeps x ty hx h
  obtain ⟨z, hz⟩ := C43_succeeds y (numTy x) h1 ⟨x, hx, rfl, h3.symm⟩
  obtain ⟨k1, k2, k3⟩ := C43_keeps y (numTy x) h1 hz
  exact ⟨z, hz, k1, k2, k3.trans h3⟩

example : numCast (.dbl [0x8000000000000000, rNaN, 0x3FF0000000000000]) .lgl
    = .ok (.lgl [0, naInt, 1]) := by decide +kernel
example : numCast (.lgl [0, naInt, 1]) .dbl
    = .ok (.dbl [0, naReal, 0x3FF0000000000000]) := by decide +kernel

theorem map_intCell_inj : ∀ {x z : List Int}, z.map intCell = x.map intCell → z = x
  | [], [], _ => rfl
  | [], _ :: _, h => by cases h
  | _ :: _, [], h => by cases h
  | a :: x, b :: z, h => by
    rw [List.map_cons, List.map_cons] at h
    obtain ⟨h1, h2⟩ := List.cons.inj h
    rw [intCell_inj h1, map_intCell_inj h2]

/-- Logical and integer vectors come back exactly. -/
theorem C43_round_trip_exact (x : NumVec) (ty : NumTy) (hx : NumOk x) (hd : numTy x ≠ .dbl)
    {y : NumVec} (h : numCast x ty = .ok y) : numCast y (numTy x) = .ok x := by
  obtain ⟨z, h1, h2, h3, h4⟩ := C43_round_trip x ty hx h
  rw [h1]
  congr 1
  cases x with
  | lgl x =>
    cases z with
    | lgl z => rw [map_intCell_inj h4]
    | int z => cases h3
    | dbl z => cases h3
  | int x =>
    cases z with
    | lgl z => cases h3
    | int z => rw [map_intCell_inj h4]
    | dbl z => cases h3
  | dbl x => exact absurd rfl hd

example : numCast (.int [2147483647, naInt, -2147483647]) .dbl
    = .ok (.dbl [0x41DFFFFFFFC00000, naReal, 0xC1DFFFFFFFC00000]) := by decide +kernel

/-- Exactly which doubles have an integer value. -/
theorem C43_double_to_integer (x : List Dbl) :
    (∃ y, numCast (.dbl x) .int = .ok y) ↔
      ∀ d ∈ x, IsNaN d ∨ ∃ n : Int, -2147483648 < n ∧ n ≤ 2147483647 ∧ dblVal d = n * 2 ^ 1074 := by
  have e : numCast (.dbl x) .int = (match (x.mapM intOfDbl).map NumVec.int with
      | none => .error .abort
      | some out => .ok out) := by
    unfold numCast
    rw [if_neg (by simp [numUnspecified])]
    unfold numCastNative
    dsimp only
    rw [dblAsInt_eq]
    rfl
  rw [e]
  have hna : naInt = -2147483648 := rfl
  have hmx : (intMax : Int) = 2147483647 := rfl
  cases h : x.mapM intOfDbl with
  | some r =>
    refine ⟨fun _ => ?_, fun _ => ⟨_, rfl⟩⟩
    intro d hd
    cases hf : intOfDbl d with
    | none => rw [mapM_none.mpr ⟨d, hd, hf⟩] at h; cases h
    | some n =>
      obtain ⟨h1, h2⟩ := (intOfDbl_iff d n).mp hf
      by_cases hn : isNan d = true
      · exact .inl ((isNan_iff d).mp hn)
      · obtain ⟨h3, h4⟩ := (intCell_dblCell_some (by simpa using hn)).mp h2
        exact .inr ⟨n, by omega, by omega, h4⟩
  | none =>
    constructor
    · rintro ⟨y, hy⟩; cases hy
    · intro ha
      exfalso
      obtain ⟨d, hd, hf⟩ := mapM_none.mp h
      rcases ha d hd with hn | ⟨n, h1, h2, h3⟩
      · unfold intOfDbl at hf
        rw [if_pos ((isNan_iff d).mpr hn)] at hf
        cases hf
      · by_cases hn : isNan d = true
        · unfold intOfDbl at hf
          rw [if_pos hn] at hf
          cases hf
        · rw [intOfDbl_some (by simpa using hn) h3 (by omega) (by omega)] at hf
          cases hf

example : dblVal 0x41DFFFFFFFC00000 = 2147483647 * 2 ^ 1074 := by decide +kernel
/-- 2^31 and -2^31 are out of range. -/
example : numCast (.dbl [0x41E0000000000000]) .int = .error .abort := by decide +kernel
example : numCast (.dbl [0xC1E0000000000000]) .int = .error .abort := by decide +kernel

/-- Casting to double always succeeds; missing values become the missing double and zero becomes
positive zero. -/
theorem C43_to_double (x : List Int) (hx : ∀ v ∈ x, naInt ≤ v ∧ v ≤ intMax) :
    ∃ y, numCast (.int x) .dbl = .ok (.dbl y) ∧ y.length = x.length ∧
      ∀ (i : Nat) v d, x[i]? = some v → y[i]? = some d →
        (v = naInt → IsNA d) ∧ (v ≠ naInt → ¬ IsNaN d ∧ dblVal d = v * 2 ^ 1074) ∧ (v = 0 → d = 0) := by
  refine ⟨x.map (fun v => if v = naInt then naReal else intToDbl v), ?_, ?_, ?_⟩
  · unfold numCast
    rw [if_neg (by simp [numUnspecified])]
    unfold numCastNative
    dsimp only
    rw [intAsDbl_eq]
    rfl
  · simp
  · intro i v d hv hd
    rw [List.getElem?_map, hv] at hd
    have hd : (if v = naInt then naReal else intToDbl v) = d := by simpa using hd
    have hm := hx v (List.mem_of_getElem? hv)
    refine ⟨?_, ?_, ?_⟩
    · intro hn
      rw [if_pos hn] at hd
      subst hd
      unfold IsNA IsNaN
      decide +kernel
    · intro hn
      have hb : v.natAbs < 2 ^ 53 := by
        have : naInt = -2147483648 := rfl
        have : (intMax : Int) = 2147483647 := rfl
        omega
      rw [if_neg hn] at hd
      subst hd
      refine ⟨?_, (intToDbl_spec hb).2⟩
      rw [← isNan_iff, (intToDbl_spec hb).1]
      simp
    · intro h0
      subst h0
      rw [← hd]
      decide +kernel

example : ∀ v ∈ [(3 : Int), naInt, -7], naInt ≤ v ∧ v ≤ intMax := by decide

/-- Strings: each becomes the logical value it spells, and any other string is a loss. -/
theorem C43_character (x : List Name) :
    (∃ y, chrAsLgl x = .ok (some y) ∧ y.length = x.length ∧
      ∀ (i : Nat) s v, x[i]? = some s → y[i]? = some v → strCell s v) ∨
    (chrAsLgl x = .ok none ∧ ∃ s ∈ x, ¬ ∃ v, strCell s v) := by
  let f : Name → Option Int := fun s => match s with
    | none => some naInt
    | some c => strAsLgl c
  have hf : ∀ s v, f s = some v ↔ strCell s v := by
    intro s v
    cases s with
    | none =>
      simp only [f, strCell, Option.some_inj]
      constructor
      · rintro rfl; exact .inl ⟨trivial, rfl⟩
      · rintro (⟨_, rfl⟩ | ⟨c, _, h, _⟩ | ⟨c, _, h, _⟩)
        · rfl
        · cases h
        · cases h
    | some c =>
      refine (strAsLgl_iff c v).trans ?_
      simp only [strCell]
      constructor
      · rintro (⟨h1, h2⟩ | ⟨h1, h2⟩)
        · exact .inr (.inl ⟨c, h1, rfl, h2⟩)
        · exact .inr (.inr ⟨c, h1, rfl, h2⟩)
      · rintro (⟨h, _⟩ | ⟨c', h1, h2, h3⟩ | ⟨c', h1, h2, h3⟩)
        · cases h
        · cases h2; exact .inl ⟨h1, h3⟩
        · cases h2; exact .inr ⟨h1, h3⟩
  have e : chrAsLgl x = .ok (x.mapM f) := by
    refine castLoop x f _ ?_
    intro i a out ha hi
    unfold chrAsLglStep
    dsimp only
    rw [rd_of_getElem? ha, ok_bind]
    cases a with
    | none =>
      dsimp only [f]
      rw [wr_ok hi]
      rfl
    | some c =>
      dsimp only [f]
      cases strAsLgl c with
      | none => rfl
      | some v =>
        dsimp only
        rw [wr_ok hi]
        rfl
  rw [e]
  cases h : x.mapM f with
  | some y =>
    obtain ⟨h1, h2⟩ := mapM_some.mp h
    exact .inl ⟨y, rfl, h1, fun i s v hs hv => (hf s v).mp (h2 i s v hs hv)⟩
  | none =>
    obtain ⟨s, hs, hn⟩ := mapM_none.mp h
    refine .inr ⟨rfl, s, hs, ?_⟩
    rintro ⟨v, hv⟩
    rw [(hf s v).mpr hv] at hn
    cases hn

example : chrAsLgl [some "T".toList, none, some "false".toList] = .ok (some [1, naInt, 0]) := by
  decide +kernel
example : chrAsLgl [some "T".toList, some "Tr".toList] = .ok none := by decide +kernel

end Vctrs
