import Mathlib.AlgebraicGeometry.EllipticCurve.Affine.Point
import Mathlib.Tactic.FieldSimp
/-
Short Weierstrass curves `y^2 = x^3 + A x + B` with Mathlib's group law, and homogeneous projective
coordinates for their points.
-/
namespace Verif.Curve

variable {F : Type} [Field F]

/-- `y^2 = x^3 + A x + B` -/
def short (A B : F) : WeierstrassCurve.Affine F := { a₁ := 0, a₂ := 0, a₃ := 0, a₄ := A, a₆ := B }

/-- homogeneous coordinates `(X : Y : Z)` -/
structure Proj (F : Type) where
  x : F
  y : F
  z : F

/-- `(X : Y : Z)` denotes the point `T`: the point at infinity is `(0 : Y : 0)`, `Y ≠ 0`, and a finite point is
`(x Z : y Z : Z)`, `Z ≠ 0`. -/
def Denotes {W : WeierstrassCurve.Affine F} (P : Proj F) : W.Point → Prop
  | .zero => P.x = 0 ∧ P.y ≠ 0 ∧ P.z = 0
  | .some x y _ => P.z ≠ 0 ∧ P.x = x * P.z ∧ P.y = y * P.z

/-- The curve has no point of order two: no finite point has `y = 0`. -/
def NoTwoTorsion (A B : F) : Prop := ∀ x : F, x ^ 3 + A * x + B ≠ 0

end Verif.Curve
