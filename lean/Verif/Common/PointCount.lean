import Mathlib.AlgebraicGeometry.EllipticCurve.Affine.Point
import Mathlib.Data.Set.Finite.Basic
import Mathlib.Algebra.Order.BigOperators.Group.Finset
import Mathlib.SetTheory.Cardinal.Finite
import Verif.Ecp.Weier
/- A curve over a field with `q` elements has at most `2 (q + 1)` points. -/
namespace Verif.Curve
open WeierstrassCurve

variable {F : Type} [Field F] [DecidableEq F] {A B : F}

/-- the abscissa of a point, `none` at infinity -/
def xOf : (short A B).Point → Option F
  | .zero => none
  | .some x _ _ => some x

/-- both coordinates of a point -/
def xyOf : (short A B).Point → Option (F × F)
  | .zero => none
  | .some x y _ => some (x, y)

omit [DecidableEq F] in
theorem xyOf_inj : Function.Injective (xyOf (A := A) (B := B)) := by
  rintro (_ | ⟨x, y, h⟩) (_ | ⟨x', y', h'⟩) e
  · rfl
  · cases e
  · cases e
  · simp only [xyOf, Option.some.injEq, Prod.mk.injEq] at e
    obtain ⟨rfl, rfl⟩ := e
    rfl

instance [Finite F] : Finite (short A B).Point := Finite.of_injective _ xyOf_inj

theorem xOf_eq {P Q : (short A B).Point} (h : xOf P = xOf Q) : P = Q ∨ P = -Q := by
  rcases P with _ | ⟨x, y, h1⟩ <;> rcases Q with _ | ⟨x', y', h2⟩
  · exact Or.inl rfl
  · cases h
  · cases h
  · simp only [xOf, Option.some.injEq] at h
    subst h
    rcases eq_or_ne y y' with rfl | hne
    · exact Or.inl rfl
    · right
      rw [Affine.Point.neg_some]
      have e1 := short_eq.mp h1.1
      have e2 := short_eq.mp h2.1
      have : (y - y') * (y + y') = 0 := by linear_combination e1 - e2
      have hy : y = -y' := by
        rcases mul_eq_zero.mp this with h | h
        · exact absurd (sub_eq_zero.mp h) hne
        · exact eq_neg_of_add_eq_zero_left h
      congr 1
      rw [short_negY]; exact hy

theorem card_points [Fintype F] : Nat.card (short A B).Point ≤ 2 * (Fintype.card F + 1) := by
  classical
  have : Fintype (short A B).Point := Fintype.ofFinite _
  rw [Nat.card_eq_fintype_card]
  have h := Finset.card_le_mul_card_image (s := (Finset.univ : Finset (short A B).Point)) (f := xOf) 2 (by
    intro a ha
    obtain ⟨Q, _, rfl⟩ := Finset.mem_image.mp ha
    refine le_trans (Finset.card_le_card (t := {Q, -Q}) ?_) Finset.card_le_two
    intro P hP
    rw [Finset.mem_filter] at hP
    rw [Finset.mem_insert, Finset.mem_singleton]
    exact xOf_eq hP.2)
  refine le_trans h ?_
  refine Nat.mul_le_mul_left 2 ?_
  refine le_trans (Finset.card_le_univ _) ?_
  rw [Fintype.card_option]

end Verif.Curve
