import Mathlib.Algebra.Field.Basic
import Mathlib.Tactic.Ext
/-
Twisted Edwards curves `a x^2 + y^2 = 1 + d x^2 y^2` and their addition law (Bernstein, Birkner, Joye, Lange, Peters
2008; RFC 8032, section 5).  `Edwards/Group.lean` proves that the law is a commutative group law.
-/
namespace Verif.Edwards

variable {F : Type} [Field F]

/-- `a x^2 + y^2 = 1 + d x^2 y^2` -/
def OnCurve (a d x y : F) : Prop := a * x ^ 2 + y ^ 2 = 1 + d * x ^ 2 * y ^ 2

/-- Completeness condition: `a` is a non-zero square and `d` is not a square (and the characteristic is not two). -/
structure Complete (a d : F) : Prop where
  a : ∃ s : F, s ≠ 0 ∧ s ^ 2 = a
  d : ¬ ∃ s : F, s ^ 2 = d
  two : (2 : F) ≠ 0

/-- an affine point of the curve -/
@[ext] structure Point (a d : F) where
  x : F
  y : F
  on : OnCurve a d x y

/-- abscissa of the sum: `(x1 y2 + y1 x2) / (1 + d x1 x2 y1 y2)` -/
def sumX (d x1 y1 x2 y2 : F) : F := (x1 * y2 + y1 * x2) / (1 + d * x1 * x2 * y1 * y2)

/-- ordinate of the sum: `(y1 y2 - a x1 x2) / (1 - d x1 x2 y1 y2)` -/
def sumY (a d x1 y1 x2 y2 : F) : F := (y1 * y2 - a * x1 * x2) / (1 - d * x1 * x2 * y1 * y2)

end Verif.Edwards
