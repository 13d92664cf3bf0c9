import Verif.Model.Dict
import Verif.Lemmas.Base
import Mathlib.Data.Fintype.EquivFin
import Mathlib.Data.Nat.ModEq
import Mathlib.Data.Nat.Prime.Basic
import Mathlib.Tactic.Ring

namespace Vctrs

/-! ## Probe sequence -/

/-- Triangular numbers are pairwise distinct modulo a power of two. -/
theorem tri_inj (m j k : Nat) (hjk : j < k) (hk : k < 2 ^ m)
    (h : (k * (k + 1) / 2) % 2 ^ m = (j * (j + 1) / 2) % 2 ^ m) : False := by
  have ek : 2 ∣ k * (k + 1) := by
    rcases Nat.mod_two_eq_zero_or_one k with h | h
    · exact Dvd.dvd.mul_right (Nat.dvd_of_mod_eq_zero h) _
    · exact Dvd.dvd.mul_left (Nat.dvd_of_mod_eq_zero (by omega)) _
  have ej : 2 ∣ j * (j + 1) := by
    rcases Nat.mod_two_eq_zero_or_one j with h | h
    · exact Dvd.dvd.mul_right (Nat.dvd_of_mod_eq_zero h) _
    · exact Dvd.dvd.mul_left (Nat.dvd_of_mod_eq_zero (by omega)) _
  obtain ⟨a, ha⟩ := ek
  obtain ⟨b, hb⟩ := ej
  rw [ha, hb, Nat.mul_div_cancel_left _ (by omega), Nat.mul_div_cancel_left _ (by omega)] at h
  have hab : b ≤ a := by
    have : j * (j + 1) ≤ k * (k + 1) := Nat.mul_le_mul (by omega) (by omega)
    omega
  have hd : 2 ^ m ∣ a - b := (Nat.modEq_iff_dvd' hab).1 h.symm
  have hprod : (k - j) * (k + j + 1) = 2 * (a - b) := by
    obtain ⟨d, rfl⟩ : ∃ d, k = j + d := ⟨k - j, by omega⟩
    have h1 : (j + d) * (j + d + 1) = j * (j + 1) + d * (j + d + j + 1) := by
      ring
    have : j + d - j = d := by omega
    rw [this]
    omega
  have hd2 : 2 ^ (m + 1) ∣ (k - j) * (k + j + 1) := by
    rw [hprod, Nat.pow_succ, Nat.mul_comm]
    exact Nat.mul_dvd_mul_left 2 hd
  rcases Nat.mod_two_eq_zero_or_one (k - j) with hpar | hpar
  · have hc : Nat.Coprime (2 ^ (m + 1)) (k + j + 1) := by
      apply Nat.Coprime.pow_left
      rw [Nat.coprime_two_left]
      exact Nat.odd_iff.2 (by omega)
    have := Nat.le_of_dvd (by omega) (hc.dvd_of_dvd_mul_right hd2)
    have : 2 ^ (m + 1) = 2 * 2 ^ m := by rw [Nat.pow_succ]; omega
    omega
  · have hc : Nat.Coprime (2 ^ (m + 1)) (k - j) := by
      apply Nat.Coprime.pow_left
      rw [Nat.coprime_two_left]
      exact Nat.odd_iff.2 hpar
    have := Nat.le_of_dvd (by omega) (hc.dvd_of_dvd_mul_left hd2)
    have : 2 ^ (m + 1) = 2 * 2 ^ m := by rw [Nat.pow_succ]; omega
    omega

/-- The 32-bit computation of the probe is `(hash + k(k+1)/2) mod size` despite the
wrap-around of `k * (k + 1)`. -/
theorem probe_eq (hash k m : Nat) (hm : m ≤ 31) (hk : k < 2 ^ m) :
    probe hash k (2 ^ m) = (hash + k * (k + 1) / 2) % 2 ^ m := by
  have hk32 : k < 2 ^ 31 := Nat.lt_of_lt_of_le hk (Nat.pow_le_pow_right (by omega) hm)
  have h1 : (k + 1) % 2 ^ 32 = k + 1 := Nat.mod_eq_of_lt (by omega)
  unfold probe
  rw [h1, Nat.and_two_pow_sub_one_eq_mod]
  have hdvd : 2 ^ m ∣ 2 ^ 32 := Nat.pow_dvd_pow 2 (by omega)
  have hdvd31 : 2 ^ m ∣ 2 ^ 31 := Nat.pow_dvd_pow 2 hm
  rw [Nat.mod_mod_of_dvd _ hdvd]
  have h2 : (k * (k + 1)) % 2 ^ 32 / 2 = (k * (k + 1) / 2) % 2 ^ 31 := by
    have : (2:Nat) ^ 32 = 2 * 2 ^ 31 := by decide
    rw [this, Nat.mod_mul_right_div_self]
  rw [h2, Nat.add_mod, Nat.mod_mod_of_dvd _ hdvd31, ← Nat.add_mod]

theorem probe_lt (hash k m : Nat) (hm : m ≤ 31) (hk : k < 2 ^ m) :
    probe hash k (2 ^ m) < 2 ^ m := by
  rw [probe_eq _ _ _ hm hk]; exact Nat.mod_lt _ (Nat.two_pow_pos m)

theorem probe_inj (hash j k m : Nat) (hm : m ≤ 31) (hj : j < 2 ^ m) (hk : k < 2 ^ m)
    (h : probe hash j (2 ^ m) = probe hash k (2 ^ m)) : j = k := by
  rw [probe_eq _ _ _ hm hk, probe_eq _ _ _ hm hj] at h
  have h' : (j * (j + 1) / 2) % 2 ^ m = (k * (k + 1) / 2) % 2 ^ m :=
    Nat.ModEq.add_left_cancel' hash h
  rcases Nat.lt_trichotomy j k with hlt | heq | hlt
  · exact (tri_inj m j k hlt hk h'.symm).elim
  · exact heq
  · exact (tri_inj m k j hlt hj h').elim

/-- Every slot is tried. -/
theorem probe_surj (hash m : Nat) (hm : m ≤ 31) (p : Nat) (hp : p < 2 ^ m) :
    ∃ k, k < 2 ^ m ∧ probe hash k (2 ^ m) = p := by
  let f : Fin (2 ^ m) → Fin (2 ^ m) := fun k => ⟨probe hash k (2 ^ m), probe_lt _ _ _ hm k.2⟩
  have hinj : Function.Injective f := by
    intro a b h
    exact Fin.ext (probe_inj hash a b m hm a.2 b.2 (by simpa [f] using h))
  obtain ⟨k, hk⟩ := Finite.injective_iff_surjective.1 hinj ⟨p, hp⟩
  exact ⟨k, k.2, by simpa [f] using congrArg Fin.val hk⟩

/-- The early exit of dictionary.c:131 never fires. -/
theorem probe_ne_hash (hash k m : Nat) (hm : m ≤ 31) (hk : k < 2 ^ m) (hk1 : 0 < k) :
    probe hash k (2 ^ m) ≠ hash := by
  intro h
  have h0 : hash < 2 ^ m := by rw [← h]; exact probe_lt _ _ _ hm hk
  have : probe hash 0 (2 ^ m) = hash := by
    rw [probe_eq _ _ _ hm (by omega)]
    simp [Nat.mod_eq_of_lt h0]
  have := probe_inj hash 0 k m hm (by omega) hk (by rw [this, h])
  omega

/-! ## Table size -/

/-- Smearing the highest bit: the core of `u32_safe_ceil2`. -/
theorem smear_eq (x : Nat) (hx : x ≠ 0) (hlt : x < 2 ^ 32) :
    (let x := x ||| (x >>> 1)
     let x := x ||| (x >>> 2)
     let x := x ||| (x >>> 4)
     let x := x ||| (x >>> 8)
     x ||| (x >>> 16)) = 2 ^ (x.log2 + 1) - 1 := by
  have hk : x.log2 < 32 := (Nat.log2_lt hx).2 hlt
  apply Nat.eq_of_testBit_eq
  intro i
  simp only [Nat.testBit_or, Nat.testBit_shiftRight, Nat.testBit_two_pow_sub_one]
  by_cases hi : i < x.log2 + 1
  · have htop : x.testBit x.log2 = true := Nat.testBit_log2 hx
    obtain ⟨d, hd⟩ : ∃ d, x.log2 = i + d := ⟨x.log2 - i, by omega⟩
    have hd32 : d < 32 := by omega
    simp only [hi, decide_true]
    rw [hd] at htop
    have h5 : d = 0 ∨ d = 1 ∨ d = 2 ∨ d = 3 ∨ d = 4 ∨ d = 5 ∨ d = 6 ∨ d = 7 ∨ d = 8 ∨ d = 9 ∨
      d = 10 ∨ d = 11 ∨ d = 12 ∨ d = 13 ∨ d = 14 ∨ d = 15 ∨ d = 16 ∨ d = 17 ∨ d = 18 ∨ d = 19 ∨
      d = 20 ∨ d = 21 ∨ d = 22 ∨ d = 23 ∨ d = 24 ∨ d = 25 ∨ d = 26 ∨ d = 27 ∨ d = 28 ∨ d = 29 ∨
      d = 30 ∨ d = 31 := by omega
    have e : ∀ a b : Nat, x.testBit (a + (b + i)) = x.testBit (i + (a + b)) := by
      intro a b; congr 1; omega
    have e1 : ∀ a : Nat, x.testBit (a + i) = x.testBit (i + a) := by
      intro a; congr 1; omega
    rcases h5 with h | h | h | h | h | h | h | h | h | h | h | h | h | h | h | h | h | h | h | h |
      h | h | h | h | h | h | h | h | h | h | h | h <;> subst h <;>
      simp [htop, Nat.add_assoc, Nat.add_comm, Nat.add_left_comm] <;>
      simp [Nat.add_comm, Nat.add_left_comm, Nat.add_assoc] at htop ⊢ <;> simp [htop]
  · have hz : ∀ a, x.testBit (i + a) = false := by
      intro a
      apply Nat.testBit_lt_two_pow
      apply Nat.lt_of_lt_of_le (Nat.lt_log2_self (n := x))
      exact Nat.pow_le_pow_right (by omega) (by omega)
    have h0 : x.testBit i = false := by simpa using hz 0
    simp only [hi, decide_false, h0]
    simp [Nat.add_assoc, Nat.add_comm, Nat.add_left_comm] at hz ⊢
    simp [hz, h0]

/-- `u32_safe_ceil2` returns a power of two that is at least its argument. -/
theorem u32SafeCeil2_ok (x : Nat) (hx : x ≤ 2 ^ 31) :
    ∃ m, m ≤ 31 ∧ u32SafeCeil2 x = .ok (2 ^ m) ∧ x ≤ 2 ^ m := by
  unfold u32SafeCeil2
  by_cases h01 : x ≤ 1
  · refine ⟨0, by omega, ?_, by simpa using h01⟩
    have : x = 0 ∨ x = 1 := by omega
    rcases this with rfl | rfl <;> decide
  · have hne : x - 1 ≠ 0 := by omega
    have hx0 : x ≠ 0 := by omega
    have hsm := smear_eq (x - 1) hne (by omega)
    have hlog : (x - 1).log2 < 31 := (Nat.log2_lt hne).2 (by omega)
    simp only [hx0, if_false, Nat.add_zero] at hsm ⊢
    rw [hsm]
    have hpos : 0 < 2 ^ ((x - 1).log2 + 1) := Nat.two_pow_pos _
    have hle : 2 ^ ((x - 1).log2 + 1) ≤ 2 ^ 31 := Nat.pow_le_pow_right (by omega) (by omega)
    have hmod : (2 ^ ((x - 1).log2 + 1) - 1 + 1) % 2 ^ 32 = 2 ^ ((x - 1).log2 + 1) := by
      rw [Nat.sub_add_cancel hpos]; exact Nat.mod_eq_of_lt (by omega)
    rw [hmod]
    refine ⟨(x - 1).log2 + 1, by omega, by simp, ?_⟩
    have := Nat.lt_log2_self (n := x - 1)
    omega

theorem dictKeySize_ok (n : Nat) (hn : n ≤ intMax) :
    ∃ m, m ≤ 31 ∧ dictKeySize n = .ok (2 ^ m) ∧ n < 2 ^ m := by
  unfold intMax at hn
  have key : ∀ y, y ≤ 2 ^ 31 → n ≤ y → (n = y → n < 16 ∨ y ≠ 2 ^ (y.log2)) →
      (∃ m, m ≤ 31 ∧ ((u32SafeCeil2 y >>= fun size =>
        let size := if size < 16 then 16 else size
        if n > size then (.error .internal : C Nat) else .ok size) = .ok (2 ^ m)) ∧ n < 2 ^ m) := by
    intro y hy hny hne
    obtain ⟨m, hm, h1, h2⟩ := u32SafeCeil2_ok y hy
    rw [h1]
    simp only [ok_bind]
    by_cases h16 : 2 ^ m < 16
    · refine ⟨4, by omega, ?_, ?_⟩
      · rw [if_pos h16, if_neg (by omega)]; rfl
      · show n < 16; omega
    · refine ⟨m, hm, ?_, ?_⟩
      · rw [if_neg h16, if_neg (by omega)]
      · rcases Nat.lt_or_ge n (2 ^ m) with h | h
        · exact h
        · have hyn : n = y := by omega
          have hy2 : y = 2 ^ m := by omega
          rcases hne hyn with h' | h'
          · omega
          · exfalso; apply h'; rw [hy2, Nat.log2_two_pow]
  unfold dictKeySize
  rw [if_neg (by unfold intMax; omega)]
  simp only []
  rw [if_neg (by omega)]
  by_cases hl : 2 * n > 2147483647
  · rw [if_pos hl]
    exact key 2147483647 (by decide) (by omega) (fun _ => Or.inr (by decide))
  · rw [if_neg hl]
    exact key (2 * n) (by omega) (by omega) (fun h => Or.inl (by omega))

/-! ## Table invariant -/

/-- What the hash based functions rely on: element equality is an equivalence and equal
elements have equal hashes. -/
structure EqvHash {α : Type _} (ops : PolyOps α) : Prop where
  refl : ∀ a, ops.eq a a = true
  symm : ∀ a b, ops.eq a b = true → ops.eq b a = true
  trans : ∀ a b c, ops.eq a b = true → ops.eq b c = true → ops.eq a c = true
  hash_eq : ∀ a b, ops.eq a b = true → ops.hash a = ops.hash b

variable {α : Type _} {ops : PolyOps α}

/-- Slot `p` holds index `idx`. -/
def Dict.At (d : Dict α) (p idx : Nat) : Prop := d.key[p]? = some (some idx)

/-- Table invariant; `L` lists the stored indices in insertion order. -/
structure DInv (ops : PolyOps α) (d : Dict α) (L : List Nat) : Prop where
  pow : ∃ m, m ≤ 31 ∧ d.key.length = 2 ^ m
  hash : d.hash = d.vec.map (fun a => (ops.hash a).toNat)
  mem : ∀ idx, (∃ p, d.At p idx) ↔ idx ∈ L
  bound : ∀ idx ∈ L, idx < d.vec.length
  reach : ∀ p idx a, d.At p idx → d.vec[idx]? = some a →
    ∃ k, k < d.key.length ∧ p = probe (ops.hash a).toNat k d.key.length ∧
      ∀ k', k' < k → ∃ j, d.At (probe (ops.hash a).toNat k' d.key.length) j
  uniq : ∀ p q i j a b, d.At p i → d.At q j → d.vec[i]? = some a → d.vec[j]? = some b →
    ops.eq a b = true → p = q
  used : d.used = L.length
  occ : (d.key.filter Option.isSome).length = L.length

theorem At_lt {d : Dict α} {p idx : Nat} (h : d.At p idx) : p < d.key.length := by
  unfold Dict.At at h
  exact (List.getElem?_eq_some_iff.1 h).1

theorem At_inj {d : Dict α} {p i j : Nat} (h1 : d.At p i) (h2 : d.At p j) : i = j := by
  unfold Dict.At at *
  rw [h1] at h2
  simpa using h2

/-- A fresh dictionary satisfies the invariant with nothing stored. -/
theorem newDict_ok (x : List α) (hn : x.length ≤ intMax) :
    ∃ d, newDict ops false x = .ok d ∧ d.vec = x ∧ DInv ops d [] ∧ x.length < d.key.length ∧
      (∀ p, p < d.key.length → d.key[p]? = some none) := by
  obtain ⟨m, hm, h1, h2⟩ := dictKeySize_ok x.length hn
  refine ⟨_, by simp [newDict, h1]; rfl, rfl, ?_, by simpa using h2, ?_⟩
  · constructor
    · exact ⟨m, hm, by simp⟩
    · rfl
    · intro idx
      simp [Dict.At, List.getElem?_replicate]
    · simp
    · intro p idx a h
      simp [Dict.At, List.getElem?_replicate] at h
    · intro p q i j a b h
      simp [Dict.At, List.getElem?_replicate] at h
    · rfl
    · simp
  · intro p hp
    simp at hp
    simp [List.getElem?_replicate, hp]

/-- A partial dictionary just carries the hashes. -/
theorem newDict_partial_ok (x : List α) :
    ∃ d, newDict ops true x = .ok d ∧ d.vec = x ∧
      d.hash = x.map (fun a => (ops.hash a).toNat) := by
  exact ⟨_, rfl, rfl, rfl⟩

/-- Outcome of a successful lookup of an element `y` with hash `h`: the slot is on the
probe sequence of `h`, all earlier slots of the sequence are occupied, and the slot either
holds an equal element, or is free and no stored element is equal. -/
structure Found (ops : PolyOps α) (d : Dict α) (L : List Nat) (y : α) (p : Nat) : Prop where
  lt : p < d.key.length
  path : ∃ k, k < d.key.length ∧ p = probe (ops.hash y).toNat k d.key.length ∧
      ∀ k', k' < k → ∃ j, d.At (probe (ops.hash y).toNat k' d.key.length) j
  res : (d.key[p]? = some none ∧ ∀ idx ∈ L, ∀ a, d.vec[idx]? = some a → ops.eq a y = false) ∨
    (∃ idx a, idx ∈ L ∧ d.At p idx ∧ d.vec[idx]? = some a ∧ ops.eq a y = true)

theorem exists_free {d : Dict α} {L : List Nat} (h : DInv ops d L)
    (hL : L.length < d.key.length) : ∃ p, p < d.key.length ∧ d.key[p]? = some none := by
  apply Classical.byContradiction
  intro hno
  have hall : ∀ x ∈ d.key, Option.isSome x = true := by
    intro x hx
    obtain ⟨p, hp, hxp⟩ := List.getElem_of_mem hx
    cases x with
    | some _ => rfl
    | none => exact absurd ⟨p, hp, by rw [List.getElem?_eq_getElem hp, hxp]⟩ hno
  have : d.key.filter Option.isSome = d.key := List.filter_eq_self.2 hall
  have hocc := h.occ
  rw [this] at hocc
  omega

theorem probeLoop_ok (he : EqvHash ops) {d : Dict α} {L : List Nat} (h : DInv ops d L)
    (hL : L.length < d.key.length) (y : α) :
    ∃ p, probeLoop ops d y (ops.hash y).toNat d.key.length 0 = .ok p ∧ Found ops d L y p := by
  obtain ⟨m, hm, hlen⟩ := h.pow
  obtain ⟨pf, hpf, hfree⟩ := exists_free h hL
  obtain ⟨kf, hkf, hkfp⟩ := probe_surj (ops.hash y).toNat m hm pf (by omega)
  have gen : ∀ rem k, k + rem = d.key.length → k ≤ kf →
      (∀ k', k' < k → ∃ j a, d.At (probe (ops.hash y).toNat k' d.key.length) j ∧
        d.vec[j]? = some a ∧ ops.eq a y = false) →
      ∃ p, probeLoop ops d y (ops.hash y).toNat rem k = .ok p ∧ Found ops d L y p := by
    intro rem
    induction rem with
    | zero => intro k hk hkk _; omega
    | succ rem ih =>
      intro k hk hkkf hpre
      have hklt : k < 2 ^ m := by omega
      have hplt : probe (ops.hash y).toNat k d.key.length < d.key.length := by
        rw [hlen]; exact probe_lt _ _ _ hm hklt
      have hnb : ¬ (k > 1 ∧ probe (ops.hash y).toNat k d.key.length = (ops.hash y).toNat) := by
        rintro ⟨h1, h2⟩
        rw [hlen] at h2
        exact probe_ne_hash _ _ _ hm hklt (by omega) h2
      have hpath : ∃ k0, k0 < d.key.length ∧
          probe (ops.hash y).toNat k d.key.length = probe (ops.hash y).toNat k0 d.key.length ∧
          ∀ k', k' < k0 → ∃ j, d.At (probe (ops.hash y).toNat k' d.key.length) j :=
        ⟨k, by omega, rfl, fun k' hk' => by
          obtain ⟨j, a, h1, _⟩ := hpre k' hk'; exact ⟨j, h1⟩⟩
      unfold probeLoop
      simp only []
      rw [if_neg hnb, rd_ok hplt]
      cases hkey : d.key[probe (ops.hash y).toNat k d.key.length] with
      | none =>
        refine ⟨_, by simp, hplt, hpath, Or.inl ⟨?_, ?_⟩⟩
        · rw [List.getElem?_eq_getElem hplt, hkey]
        · intro idx hidx a ha
          cases heq : ops.eq a y with
          | false => rfl
          | true =>
            exfalso
            obtain ⟨p1, hp1⟩ := (h.mem idx).2 hidx
            obtain ⟨k1, hk1, hpk1, hpre1⟩ := h.reach p1 idx a hp1 ha
            rw [he.hash_eq a y heq] at hpk1 hpre1
            rcases Nat.lt_trichotomy k1 k with hlt | heqk | hgt
            · obtain ⟨j, b, hj, hb, hne⟩ := hpre k1 hlt
              rw [← hpk1] at hj
              have := At_inj hj hp1
              subst this
              rw [ha] at hb
              simp at hb
              subst hb
              rw [heq] at hne
              simp at hne
            · subst heqk
              rw [hpk1] at hp1
              unfold Dict.At at hp1
              rw [List.getElem?_eq_getElem hplt, hkey] at hp1
              simp at hp1
            · obtain ⟨j, hj⟩ := hpre1 k hgt
              unfold Dict.At at hj
              rw [List.getElem?_eq_getElem hplt, hkey] at hj
              simp at hj
      | some idx =>
        have hAt : d.At (probe (ops.hash y).toNat k d.key.length) idx := by
          unfold Dict.At; rw [List.getElem?_eq_getElem hplt, hkey]
        have hidx : idx ∈ L := (h.mem idx).1 ⟨_, hAt⟩
        have hb := h.bound idx hidx
        simp only [ok_bind]
        rw [rd_ok hb]
        simp only [ok_bind]
        cases heq : ops.eq d.vec[idx] y with
        | true =>
          refine ⟨_, by simp, hplt, hpath, Or.inr ⟨idx, d.vec[idx], hidx, hAt, ?_, heq⟩⟩
          exact List.getElem?_eq_getElem hb
        | false =>
          simp only [Bool.false_eq_true, if_false]
          have hkne : k ≠ kf := by
            intro hkk
            subst hkk
            rw [← hlen] at hkfp
            unfold Dict.At at hAt
            rw [hkfp, hfree] at hAt
            simp at hAt
          apply ih (k + 1) (by omega) (by omega)
          intro k' hk'
          by_cases hkk : k' = k
          · subst hkk
            exact ⟨idx, d.vec[idx], hAt, List.getElem?_eq_getElem hb, heq⟩
          · exact hpre k' (by omega)
  exact gen d.key.length 0 (by omega) (by omega) (by intro k' hk'; omega)

/-- Lookup of element `i` of another (partial) dictionary. -/
theorem dictHashWith_ok (he : EqvHash ops) {d x : Dict α} {L : List Nat} (h : DInv ops d L)
    (hL : L.length < d.key.length) (hx : x.hash = x.vec.map (fun a => (ops.hash a).toNat))
    {i : Nat} {y : α} (hy : x.vec[i]? = some y) :
    ∃ p, dictHashWith ops d x i = .ok p ∧ Found ops d L y p := by
  have h1 : rd x.hash i = .ok (ops.hash y).toNat := by
    apply rd_of_getElem?; rw [hx]; simp [hy]
  have h2 : rd x.vec i = .ok y := rd_of_getElem? hy
  unfold dictHashWith
  simp only [h1, h2, ok_bind]
  exact probeLoop_ok he h hL y

theorem dictHashScalar_ok (he : EqvHash ops) {d : Dict α} {L : List Nat} (h : DInv ops d L)
    (hL : L.length < d.key.length) {i : Nat} {y : α} (hy : d.vec[i]? = some y) :
    ∃ p, dictHashScalar ops d i = .ok p ∧ Found ops d L y p :=
  dictHashWith_ok he h hL h.hash hy

/-- Storing index `i` in the free slot found for it. -/
theorem dictPut_ok (he : EqvHash ops) {d : Dict α} {L : List Nat} (h : DInv ops d L) {i : Nat}
    {y : α} (hy : d.vec[i]? = some y) {p : Nat} (hp : Found ops d L y p)
    (hfree : d.key[p]? = some none) :
    ∃ d', dictPut d p i = .ok d' ∧ d'.vec = d.vec ∧ d'.key = d.key.set p (some i) ∧
      DInv ops d' (L ++ [i]) := by
  have hplt := hp.lt
  have hno : ∀ idx ∈ L, ∀ a, d.vec[idx]? = some a → ops.eq a y = false := by
    rcases hp.res with h1 | ⟨idx, a, _, h2, _⟩
    · exact h1.2
    · unfold Dict.At at h2; rw [hfree] at h2; simp at h2
  refine ⟨{ d with key := d.key.set p (some i), used := d.used + 1 }, ?_, rfl, rfl, ?_⟩
  · simp [dictPut, wr_ok hplt]
  have hAt : ∀ q j, ({ d with key := d.key.set p (some i), used := d.used + 1 } : Dict α).At q j ↔
      (q = p ∧ j = i) ∨ (q ≠ p ∧ d.At q j) := by
    intro q j
    unfold Dict.At
    simp only [List.getElem?_set]
    by_cases hq : p = q
    · subst hq; simp [hplt, eq_comm]
    · simp [hq, Ne.symm hq, eq_comm]
  have hold : ∀ q j, d.At q j → q ≠ p := by
    intro q j hq hqp
    subst hqp
    unfold Dict.At at hq
    rw [hfree] at hq
    simp at hq
  constructor
  · simpa using h.pow
  · exact h.hash
  · intro idx
    constructor
    · rintro ⟨q, hq⟩
      rcases (hAt q idx).1 hq with ⟨_, rfl⟩ | ⟨_, h2⟩
      · simp
      · simp [(h.mem idx).1 ⟨q, h2⟩]
    · intro hidx
      rcases List.mem_append.1 hidx with h1 | h1
      · obtain ⟨q, hq⟩ := (h.mem idx).2 h1
        exact ⟨q, (hAt q idx).2 (Or.inr ⟨hold q idx hq, hq⟩)⟩
      · simp at h1
        exact ⟨p, (hAt p idx).2 (Or.inl ⟨rfl, h1⟩)⟩
  · intro idx hidx
    rcases List.mem_append.1 hidx with h1 | h1
    · exact h.bound idx h1
    · simp at h1; subst h1; exact (List.getElem?_eq_some_iff.1 hy).1
  · intro q idx a hq ha
    simp only [List.length_set]
    rcases (hAt q idx).1 hq with ⟨rfl, rfl⟩ | ⟨hqp, h2⟩
    · have : a = y := by
        simp only at ha; rw [hy] at ha; simpa using ha.symm
      subst this
      obtain ⟨k, hk, hpk, hpre⟩ := hp.path
      refine ⟨k, hk, hpk, fun k' hk' => ?_⟩
      obtain ⟨j, hj⟩ := hpre k' hk'
      exact ⟨j, (hAt _ _).2 (Or.inr ⟨hold _ _ hj, hj⟩)⟩
    · obtain ⟨k, hk, hpk, hpre⟩ := h.reach q idx a h2 ha
      refine ⟨k, hk, hpk, fun k' hk' => ?_⟩
      obtain ⟨j, hj⟩ := hpre k' hk'
      exact ⟨j, (hAt _ _).2 (Or.inr ⟨hold _ _ hj, hj⟩)⟩
  · intro q r i1 j1 a b hq hr ha hb hab
    simp only at ha hb
    rcases (hAt q i1).1 hq with ⟨rfl, rfl⟩ | ⟨hqp, h2⟩
    · rcases (hAt r j1).1 hr with ⟨rfl, rfl⟩ | ⟨hrp, h3⟩
      · rfl
      · rw [hy] at ha
        simp at ha
        subst ha
        have := hno j1 ((h.mem j1).1 ⟨r, h3⟩) b hb
        rw [he.symm _ _ hab] at this
        simp at this
    · rcases (hAt r j1).1 hr with ⟨rfl, rfl⟩ | ⟨hrp, h3⟩
      · rw [hy] at hb
        simp at hb
        subst hb
        have := hno i1 ((h.mem i1).1 ⟨q, h2⟩) a ha
        rw [hab] at this
        simp at this
      · exact h.uniq q r i1 j1 a b h2 h3 ha hb hab
  · simp [h.used]
  · simp only [List.length_append, List.length_singleton]
    have h1 : d.key = d.key.take p ++ none :: d.key.drop (p + 1) := by
      have : d.key[p] = none := by
        rw [List.getElem?_eq_getElem hplt] at hfree; simpa using hfree
      rw [← this, List.getElem_cons_drop, List.take_append_drop]
    have h2 : d.key.set p (some i) = d.key.take p ++ some i :: d.key.drop (p + 1) := by
      rw [List.set_eq_take_append_cons_drop, if_pos hplt]
    have hocc := h.occ
    rw [h1] at hocc
    rw [h2]
    simp only [List.filter_append, List.length_append] at hocc ⊢
    simp at hocc ⊢
    omega

end Vctrs
