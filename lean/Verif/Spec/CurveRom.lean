import Verif.Spec.Curve
import Verif.Spec.Field
import Verif.Rom.Model
import Verif.Ecp.Model
import Verif.Fp.Arith
import Verif.Spec.Sha2
/-
The Weierstrass curve of a ROM file, and which of its points an `ECP` value denotes.
-/
namespace Verif.Ecp
open Verif.Big Verif.Fp Verif.Rom Verif.Curve Spec

variable {C : Nat}

/-- coefficient `B` of the curve, as a field element -/
def Bcoef (K : Rom C) : ZMod K.p := (limbsVal K.P.b K.bv : ZMod K.p)

/-- the curve `y^2 = x^3 + A x + B` of the ROM file -/
abbrev curve (K : Rom C) [Fact K.p.Prime] : WeierstrassCurve.Affine (ZMod K.p) := short (K.a : ZMod K.p) (Bcoef K)

/-- projective coordinates stored in an `ECP` value -/
def coords (K : Rom C) (s : Pt C) : Proj (ZMod K.p) := ⟨residue K.P K.p s.x, residue K.P K.p s.y, residue K.P K.p s.z⟩

/-- The coordinates are legal representatives: normalised, except that the ordinate may be an un-normalised
negation (as `new_bigint` leaves it). -/
structure Legal (K : Rom C) (s : Pt C) : Prop where
  x : ∃ v, Elem K.P K.p 0 1 s.x v
  y : ∃ v, Elem K.P K.p 1 1 s.y v
  z : ∃ v, Elem K.P K.p 0 1 s.z v

/-- `s` is a legal representative of the point `T` of the curve (`T = 0` is the point at infinity). -/
def IsPoint (K : Rom C) [Fact K.p.Prime] (s : Pt C) (T : (curve K).Point) : Prop := Legal K s ∧ Denotes (coords K s) T

/-- What the theorems assume about a Weierstrass ROM file: field arithmetic works (`Arith`), the coefficients are
consistent and small enough, and the curve has no point of order two. -/
structure WCurve (K : Rom C) [Fact K.p.Prime] : Prop where
  arith : Arith K.P K.p
  word : C ≤ 64
  type : K.ctype = .weierstrass
  a : K.a = 0 ∧ K.bI ≠ 0 ∨ K.a = -3
  bv : ∃ B : Nat, Rep K.P.b K.P.n K.bv B ∧ B < K.p
  bI : K.bI ≠ 0 → (K.bI : ZMod K.p) = Bcoef K
  bIs : |3 * K.bI| < 2 ^ K.P.b
  noTwo : NoTwoTorsion (K.a : ZMod K.p) (Bcoef K)

/-- SEC 1 uncompressed encoding `04 ‖ x ‖ y` of a finite point, big-endian coordinates of `MODBYTES` bytes -/
def sec1U (K : Rom C) (x y : ZMod K.p) : List (BitVec 8) := 0x04#8 :: (beBytes K.modbytes x.val ++ beBytes K.modbytes y.val)

/-- SEC 1 compressed encoding `02/03 ‖ x`: the tag is the parity of `y` -/
def sec1C (K : Rom C) (x y : ZMod K.p) : List (BitVec 8) := (if y.val % 2 = 1 then 0x03#8 else 0x02#8) :: beBytes K.modbytes x.val

/-- coordinates fit in `MODBYTES` bytes, which fit in a `Big` -/
structure BytesOk (K : Rom C) : Prop where
  room : 8 * K.modbytes ≤ K.P.b * K.P.n
  fits : K.p < 256 ^ K.modbytes

/-- `FP::sqrt` returns a square root of every square -/
def SqrtOk (P : Params C) (p : Nat) [Fact p.Prime] : Prop :=
  ∀ (k : Nat) (a : Fp C), Valid P p k a → Room P k → IsSquare (residue P p a) →
    Normed P p (Fp.sqrt P a) ∧ residue P p (Fp.sqrt P a) * residue P p (Fp.sqrt P a) = residue P p a

end Verif.Ecp
