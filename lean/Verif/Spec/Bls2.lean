import Verif.Spec.Bls
import Verif.Spec.Curve2
import Verif.Bls.ModelG2
/-
Specification of the BLS12-381 G2 encodings (the "Zcash" format).
-/
namespace Verif.Bls
open Verif.Big Verif.Fp Verif.Rom Verif.Curve Verif.Ecdh Verif.Tower Spec WeierstrassCurve

variable {C : Nat}

/-- What the theorems assume about the ROM file: a BLS curve over `Z/p`, and its twist over `Z/p[i]`. -/
structure G2Curve (K : PairRom C) [Fact K.rom.p.Prime] [Fact (K.rom.p % 4 = 3)] : Prop where
  bls : BlsCurve K.rom
  twist : Ecp2.TCurve K

/-- `y` is the larger of the two roots `y`, `-y`: imaginary parts are compared first -/
def larger2 {p : Nat} (y : F2 p) : Prop := larger y.im ∨ y.im = 0 ∧ larger y.re

instance {p : Nat} [Fact p.Prime] (y : F2 p) : Decidable (larger2 y) := inferInstanceAs (Decidable (_ ∨ _))

/-- the two parts of an abscissa or ordinate, imaginary part first -/
def part2 (n : Nat) {p : Nat} (x : F2 p) : List Byte := beBytes n x.im.val ++ beBytes n x.re.val

/-- the compressed form of a finite point, given the flag for the ordinate -/
def enc2F (n : Nat) {p : Nat} (x : F2 p) (f : Prop) [Decidable f] : List Byte :=
  beBytes n (2 ^ (8 * n - 1) + (if f then 2 ^ (8 * n - 3) else 0) + x.im.val) ++ beBytes n x.re.val

/-- Compressed form of a G2 point: the abscissa with the top bit set, the second bit for infinity, the third bit for the larger ordinate. -/
def enc2C {K : PairRom C} [Fact K.rom.p.Prime] [Fact (K.rom.p % 4 = 3)] : (Ecp2.curve2 K).Point → List Byte
  | .zero => beBytes (2 * K.rom.modbytes) (2 ^ (16 * K.rom.modbytes - 1) + 2 ^ (16 * K.rom.modbytes - 2))
  | .some x y _ => enc2F K.rom.modbytes x (larger2 y)

/-- Uncompressed form: the two coordinates, the second bit set for infinity. -/
def enc2U {K : PairRom C} [Fact K.rom.p.Prime] [Fact (K.rom.p % 4 = 3)] : (Ecp2.curve2 K).Point → List Byte
  | .zero => beBytes (4 * K.rom.modbytes) (2 ^ (32 * K.rom.modbytes - 2))
  | .some x y _ => part2 K.rom.modbytes x ++ part2 K.rom.modbytes y

/-- the ordinate has a non-zero real and a non-zero imaginary part (or the point is at infinity) -/
def Generic {K : PairRom C} [Fact K.rom.p.Prime] [Fact (K.rom.p % 4 = 3)] : (Ecp2.curve2 K).Point → Prop
  | .zero => True
  | .some _ y _ => y.re ≠ 0 ∧ y.im ≠ 0

/-- a zero is not held as a non-zero multiple of `p` -/
def Clean (P : Params C) (p : Nat) (a : Fp C) : Prop := residue P p a = 0 → limbsVal P.b a.x = 0

/-- The stored coordinates determine the printed ones: in a point with third coordinate 1, zeros are not held as non-zero multiples of `p`. -/
def Faithful2 (K : PairRom C) (s : Ecp2.Pt2 C) : Prop :=
  residue K.rom.P K.rom.p s.z.a = 1 ∧ residue K.rom.P K.rom.p s.z.b = 0 →
    Clean K.rom.P K.rom.p s.x.a ∧ Clean K.rom.P K.rom.p s.x.b ∧ Clean K.rom.P K.rom.p s.y.a ∧ Clean K.rom.P K.rom.p s.y.b

/-- the error code of a verdict -/
def Bad.err2 : Bad → H2c.Err
  | .size => .invalidG2Size
  | .yflag => .invalidYFlag
  | .point => .invalidPoint

/-- the string encodes the point -/
def Enc2 {K : PairRom C} [Fact K.rom.p.Prime] [Fact (K.rom.p % 4 = 3)] (bs : List Byte) (T : (Ecp2.curve2 K).Point) : Prop := bs = enc2C T ∨ bs = enc2U T

end Verif.Bls
