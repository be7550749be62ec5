import Verif.Bilin.Left
/-
The coordinates of three points of a line, and the reciprocity of two lines.
-/
namespace Verif.Ate
set_option linter.unusedSectionVars false
open Verif.Curve WeierstrassCurve

section
variable {F : Type} [Field F] [DecidableEq F] {A B : F}

/-- three points on a line -/
structure Col (A B l n : F) (x₁ x₂ x₃ y₁ y₂ y₃ : F) : Prop where
  l1 : y₁ = l * x₁ + n
  l2 : y₂ = l * x₂ + n
  l3 : y₃ = l * x₃ + n
  e1 : x₁ + x₂ + x₃ = l ^ 2
  e2 : x₁ * x₂ + x₁ * x₃ + x₂ * x₃ = A - 2 * l * n
  e3 : x₁ * x₂ * x₃ = n ^ 2 - B

theorem vieta {x₁ x₂ x₃ y₁ y₂ y₃ : F} {h₁ : (short A B).Nonsingular x₁ y₁} {h₂ : (short A B).Nonsingular x₂ y₂} {h₃ : (short A B).Nonsingular x₃ y₃}
    (hs : Affine.Point.some x₁ y₁ h₁ + Affine.Point.some x₂ y₂ h₂ = -Affine.Point.some x₃ y₃ h₃) :
    Col A B ((short A B).slope x₁ x₂ y₁ y₂) (y₁ - (short A B).slope x₁ x₂ y₁ y₂ * x₁) x₁ x₂ x₃ y₁ y₂ y₃ := by
  have hxy : ¬(x₁ = x₂ ∧ y₁ = (short A B).negY x₂ y₂) := fun h => by
    rw [Affine.Point.add_of_Y_eq h.1 h.2] at hs
    rw [Affine.Point.neg_some] at hs
    cases hs
  have hp := Affine.addPolynomial_slope h₁.1 h₂.1 hxy
  rw [Affine.Point.add_some hxy, Affine.Point.neg_some, Affine.Point.some.injEq, short_negY] at hs
  obtain ⟨hx, hy⟩ := hs
  have hl2 : y₂ = (short A B).slope x₁ x₂ y₁ y₂ * (x₂ - x₁) + y₁ := by
    by_cases hx : x₁ = x₂
    · have := Affine.Y_eq_of_Y_ne h₁.1 h₂.1 hx (fun h => hxy ⟨hx, h⟩)
      rw [hx, this]; ring
    · rw [Affine.slope_of_X_ne hx]
      have : x₁ - x₂ ≠ 0 := sub_ne_zero.2 hx
      field_simp
      ring
  rw [Affine.addPolynomial_eq, hx, neg_inj] at hp
  rw [Cubic.prod_X_sub_C_eq, Cubic.toPoly_injective] at hp
  generalize (short A B).slope x₁ x₂ y₁ y₂ = l at *
  simp only [Cubic.mk.injEq, short] at hp
  obtain ⟨_, p2, p3, p4⟩ := hp
  have hy' : y₃ = l * (x₃ - x₁) + y₁ := by
    rw [← hx]
    have := neg_eq_iff_eq_neg.2 hy
    rw [← this]
    simp [Affine.addX, Affine.addY, Affine.negAddY, Affine.negY, short]
  refine ⟨by ring, by rw [hl2]; ring, by rw [hy']; ring, ?_, ?_, ?_⟩
  · linear_combination p2
  · linear_combination -1 * p3
  · linear_combination p4

/-- reciprocity of two lines -/
theorem recip {L : Type*} [CommRing L] {b l n m k a₁ a₂ a₃ u₁ u₂ u₃ : L} (a1 : a₁ + a₂ + a₃ = l ^ 2) (a2 : a₁ * a₂ + a₁ * a₃ + a₂ * a₃ = -2 * l * n) (a3 : a₁ * a₂ * a₃ = n ^ 2 - b)
    (u1 : u₁ + u₂ + u₃ = m ^ 2) (u2 : u₁ * u₂ + u₁ * u₃ + u₂ * u₃ = -2 * m * k) (u3 : u₁ * u₂ * u₃ = k ^ 2 - b) :
    ((m - l) * u₁ + (k - n)) * ((m - l) * u₂ + (k - n)) * ((m - l) * u₃ + (k - n)) = -(((l - m) * a₁ + (n - k)) * ((l - m) * a₂ + (n - k)) * ((l - m) * a₃ + (n - k))) := by
  linear_combination (m - l) * (k - n) ^ 2 * u1 + (m - l) ^ 2 * (k - n) * u2 + (m - l) ^ 3 * u3 + (l - m) * (n - k) ^ 2 * a1 + (l - m) ^ 2 * (n - k) * a2 + (l - m) ^ 3 * a3
end
end Verif.Ate
