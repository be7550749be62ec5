import Verif.Common.ListPoly
import Verif.Bls.IsoConst
import Verif.Pair.Cert2
import Verif.Pair.Group1
/- The polynomials of `iso.rs` are isogenies onto the curves of BLS12-381. -/
namespace Verif.Bls
open Verif.ListPoly Spec.Sswu Verif.Pair Verif.Ecp2 Verif.Tower

variable {p : Nat} [hp : Fact p.Prime]

def ops1 (p : Nat) : NumOps Nat := ⟨fun a b => (a + b) % p, fun a b => a * b % p, 0⟩

def num1 (p : Nat) [Fact p.Prime] : Num Nat (ZMod p) where
  toNumOps := ops1 p
  φ a := a
  hadd a b := by simp [ops1]
  hmul a b := by simp [ops1]
  hzero := by simp [ops1]

def ops2 (p : Nat) : NumOps (Nat × Nat) := ⟨addP p, mulN2 p, (0, 0)⟩

def num2 (p : Nat) [Fact p.Prime] [Fact (p % 4 = 3)] : Num (Nat × Nat) (F2 p) where
  toNumOps := ops2 p
  φ := castN2 p
  hadd := castN2_add
  hmul := castN2_mul
  hzero := by ext <;> simp [castN2, ops2]

theorem iso11_cert : isoB (ops1 p381) [sswuB1, sswuA1, 0, 1] iso11Xnum iso11Xden iso11Ynum iso11Yden [4] = true := by decide +kernel

theorem iso3_cert : isoB (ops2 p381) [(1012, 1012), (0, 240), (0, 0), (1, 0)] iso3Xnum iso3Xden iso3Ynum iso3Yden [(4, 4)] = true := by decide +kernel
end Verif.Bls
