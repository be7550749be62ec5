import Verif.Spec.CurveRom
/-
Montgomery curves `y^2 = x^3 + A x^2 + x` with Mathlib's group law, and points known up to sign by the abscissa
`X / Z` only.
-/
namespace Verif.Curve

variable {F : Type} [Field F]

/-- `y^2 = x^3 + A x^2 + x` -/
def mont (A : F) : WeierstrassCurve.Affine F := { a₁ := 0, a₂ := A, a₃ := 0, a₄ := 1, a₆ := 0 }

/-- `X : Z` is the abscissa of the point `T`: `Z = 0` for the point at infinity, `X / Z = x` for a finite point `(x, y)`. -/
def XOf {A : F} (X Z : F) : (mont A).Point → Prop
  | .zero => Z = 0
  | .some x _ _ => Z ≠ 0 ∧ X = x * Z

/-- the abscissa of a finite point -/
def absc {A : F} : (mont A).Point → F
  | .zero => 0
  | .some x _ _ => x

end Verif.Curve

namespace Verif.Ecp
open Verif.Big Verif.Fp Verif.Rom Verif.Curve Spec

variable {C : Nat}

/-- points of the Montgomery curve of the ROM file -/
abbrev MoPoint (K : Rom C) [Fact K.p.Prime] : Type := (mont (K.a : ZMod K.p)).Point

/-- `s` is a legal representative of the pair `{T, -T}` of points of the Montgomery curve. -/
def IsPointM (K : Rom C) [Fact K.p.Prime] (s : Pt C) (T : MoPoint K) : Prop := Legal K s ∧ XOf (coords K s).x (coords K s).z T

/-- What the theorems assume about a Montgomery ROM file. -/
structure MoCurve (K : Rom C) [Fact K.p.Prime] : Prop where
  arith : Arith K.P K.p
  word : C ≤ 64
  type : K.ctype = .montgomery
  bv : ∃ B : Nat, Rep K.P.b K.P.n K.bv B ∧ B < K.p
  a4 : K.a % 4 = 2
  small : 0 < K.a ∧ K.a < 2 ^ K.P.b
  ne : (K.a : ZMod K.p) ≠ 2 ∧ (K.a : ZMod K.p) ≠ -2

/-- `s` prints the reduced abscissa `x` whenever its third coordinate is already 1 (`affine` then leaves it alone). -/
def PrintsX (K : Rom C) (s : Pt C) (x : ZMod K.p) : Prop :=
  residue K.P K.p s.z = 1 → Rep K.P.b K.P.n (redc K.P s.x) (x.val : Int)

/-- the encoding of a Montgomery point: the byte 6 and the big-endian abscissa -/
def sec1M (K : Rom C) (x : ZMod K.p) : List (BitVec 8) := 0x06#8 :: beBytes K.modbytes x.val

/-- a representative with `(X, Z) ≠ (0, 0)` -/
def Strict (K : Rom C) (s : Pt C) : Prop := (coords K s).x ≠ 0 ∨ (coords K s).z ≠ 0

end Verif.Ecp
