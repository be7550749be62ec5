import Verif.Rom.Model
import Verif.Spec.Field
/-
What it means for a ROM file to be consistent.
-/
namespace Verif.Rom
open Verif.Big Verif.Fp Spec

variable {C : Nat}

/-- numeric value of a constant of the ROM file -/
def Rom.val (r : Rom C) (w : Limbs C) : Int := limbsVal r.P.b w

/-- constants that depend on the type of the modulus: `MCONST = -1/p mod 2^BASEBITS` and
`R2MODP = R^2 mod p` for Montgomery arithmetic, `p = 2^MODBITS - MCONST` for pseudo-Mersenne moduli,
`p = 2^448 - 2^224 - 1` for Goldilocks -/
def Rom.modulusOk (r : Rom C) : Prop :=
  match r.P.modtype with
  | .NotSpecial => MontConsts r.P r.p
  | .PseudoMersenne => (r.p : Int) = 2 ^ r.P.modbits - r.P.mc.toInt ∧ 0 < r.P.mc.toInt
  | .GeneralisedMersenne => r.p = 2 ^ 448 - 2 ^ 224 - 1 ∧ r.P.modbits = 448
  | .MontgomeryFriendly => False

/-- the generator satisfies the equation of its curve modulo `p` -/
def Rom.generatorOk (r : Rom C) : Prop :=
  match r.ctype with
  | .weierstrass => r.val r.gy ^ 2 % r.p = (r.val r.gx ^ 3 + r.a * r.val r.gx + r.val r.bv) % r.p
  | .edwards => (r.a * r.val r.gx ^ 2 + r.val r.gy ^ 2) % r.p = (1 + r.val r.bv * r.val r.gx ^ 2 * r.val r.gy ^ 2) % r.p
  | .montgomery => ∃ y : Int, y ^ 2 % r.p = (r.val r.gx ^ 3 + r.a * r.val r.gx ^ 2 + r.val r.gx) % r.p

/-- Consistency of a ROM file. -/
structure Rom.Consistent (r : Rom C) : Prop where
  /-- number of limbs as computed in big.rs:33, and limb formats, bit length, excess bounds -/
  nlen : r.P.n = 1 + (8 * r.modbytes - 1) / r.P.b
  bytes : r.P.modbits ≤ 8 * r.modbytes
  consts : Consts r.P r.p
  modulus : r.modulusOk
  /-- the small constant `CURVE_B_I`, when used, is `CURVE_B` -/
  curveB : r.bI ≠ 0 → r.bI % r.p = r.val r.bv
  digits : Digits r.P.b r.bv ∧ Digits r.P.b r.gx ∧ Digits r.P.b r.gy ∧ Digits r.P.b r.order
  ranges : 0 ≤ r.val r.bv ∧ r.val r.bv < r.p ∧ 0 ≤ r.val r.gx ∧ r.val r.gx < r.p ∧ 0 ≤ r.val r.gy ∧ r.val r.gy < r.p
  generator : r.generatorOk
  /-- the group order is odd, larger than 2 and fits the scalar routines -/
  order : r.val r.order % 2 = 1 ∧ 2 < r.val r.order ∧ 2 * r.val r.order < 2 ^ (r.P.b * r.P.n)
  /-- `CURVE_COF_I`, when used, is the cofactor -/
  cofactor : r.cofI ≠ 0 → r.val r.cof = r.cofI
  /-- the only use of `MOD8` is the test `MOD8 == 5` -/
  mod8 : (r.P.mod8 = 5 ↔ r.p % 8 = 5)

end Verif.Rom
