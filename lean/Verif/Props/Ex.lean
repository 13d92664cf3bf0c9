import Verif.Lemmas.Slots

/-! # Concrete data for the examples beside the theorems -/

namespace Vctrs

/-- Numbers with a hash that collides for all numbers of the same parity. -/
def exOps : PolyOps Nat := ⟨fun a b => a == b, fun n => BitVec.ofNat 32 (n % 2)⟩

theorem exOps_eqv : EqvHash exOps where
  refl := by intro a; simp [exOps]
  symm := by intro a b; simp [exOps]; exact Eq.symm
  trans := by intro a b c; simp [exOps]; exact Eq.trans
  hash_eq := by intro a b; simp [exOps]; intro h; rw [h]

/-- Equality modulo 10: equal elements need not be identical. -/
def exOps10 : PolyOps Nat := ⟨fun a b => a % 10 == b % 10, fun n => BitVec.ofNat 32 (n % 10 % 3)⟩

theorem exOps10_eqv : EqvHash exOps10 where
  refl := by intro a; simp [exOps10]
  symm := by intro a b; simp [exOps10]; exact Eq.symm
  trans := by intro a b c; simp [exOps10]; exact Eq.trans
  hash_eq := by intro a b; simp [exOps10]; intro h; rw [h]

end Vctrs
