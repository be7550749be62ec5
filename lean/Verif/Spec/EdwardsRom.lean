import Verif.Edwards.Group
import Verif.Spec.CurveRom
/-
The twisted Edwards curve `a x^2 + y^2 = 1 + d x^2 y^2` of a ROM file (`a = CURVE_A`, `d = CURVE_B`), and which of its
points an `ECP` value denotes.
-/
namespace Verif.Ecp
open Verif.Big Verif.Fp Verif.Rom Verif.Curve Spec

variable {C : Nat}

/-- points of the Edwards curve of the ROM file -/
abbrev EdPoint (K : Rom C) [Fact K.p.Prime] : Type := Edwards.Point (K.a : ZMod K.p) (Bcoef K)

/-- the addition law is complete on the curve of the ROM file -/
abbrev EdComplete (K : Rom C) [Fact K.p.Prime] : Prop := Edwards.Complete (K.a : ZMod K.p) (Bcoef K)

/-- `(X : Y : Z)` denotes the affine point `(X / Z, Y / Z)`. -/
def EdDenotes {F : Type} [Field F] {a d : F} (P : Proj F) (T : Edwards.Point a d) : Prop := P.z ≠ 0 ∧ P.x = T.x * P.z ∧ P.y = T.y * P.z

/-- `s` is a legal representative of the point `T` of the Edwards curve. -/
def IsPointE (K : Rom C) [Fact K.p.Prime] (s : Pt C) (T : EdPoint K) : Prop := Legal K s ∧ EdDenotes (coords K s) T

/-- What the theorems assume about an Edwards ROM file: field arithmetic works, the coefficients are consistent and
the addition law is complete. -/
structure EdCurve (K : Rom C) [Fact K.p.Prime] : Prop where
  arith : Arith K.P K.p
  word : C ≤ 64
  type : K.ctype = .edwards
  a : K.a = 1 ∨ K.a = -1
  bv : ∃ B : Nat, Rep K.P.b K.P.n K.bv B ∧ B < K.p
  complete : EdComplete K

end Verif.Ecp
