import Mathlib.Algebra.Field.Basic
import Mathlib.Algebra.Group.Even
import Mathlib.Data.ZMod.Basic
/-
Specification of the simplified Shallue-van de Woestijne-Ulas map of RFC 9380, section 6.6.2, over an arbitrary field.
-/
namespace Spec.Sswu
variable {F : Type} [Field F]

/-- right-hand side of `y^2 = x^3 + A x + B` -/
def g (A B x : F) : F := x ^ 3 + A * x + B

open Classical in
/-- first candidate: `x1 = (-B / A) (1 + 1 / (Z^2 u^4 + Z u^2))`, or `B / (Z A)` if the denominator vanishes -/
noncomputable def x1 (A B Z u : F) : F :=
  if (Z * u ^ 2) ^ 2 + Z * u ^ 2 = 0 then B / (Z * A) else (-B / A) * (1 + 1 / ((Z * u ^ 2) ^ 2 + Z * u ^ 2))

open Classical in
/-- the abscissa: `x1` if `g(x1)` is a square, otherwise `x2 = Z u^2 x1` -/
noncomputable def absc (A B Z u : F) : F := if IsSquare (g A B (x1 A B Z u)) then x1 A B Z u else Z * u ^ 2 * x1 A B Z u

/-- the value at `x` of a polynomial given by its coefficients, from the constant one on -/
def ev (x : F) : List F → F
  | [] => 0
  | c :: t => c + x * ev x t

end Spec.Sswu
