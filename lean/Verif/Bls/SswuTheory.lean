import Verif.Spec.Sswu
import Mathlib.NumberTheory.LegendreSymbol.QuadraticChar.Basic
import Mathlib.Tactic.FieldSimp
import Mathlib.Tactic.Ring
import Mathlib.Tactic.LinearCombination
/- The simplified SWU map: the second candidate is a square whenever the first one is not. -/
namespace Spec.Sswu
variable {F : Type} [Field F]

theorem g_mul {A B Z u : F} (hA : A ≠ 0) (hd : (Z * u ^ 2) ^ 2 + Z * u ^ 2 ≠ 0) :
    g A B (Z * u ^ 2 * x1 A B Z u) = (Z * u ^ 2) ^ 3 * g A B (x1 A B Z u) := by
  unfold x1
  rw [if_neg hd]
  generalize Z * u ^ 2 = t at hd ⊢
  have e : A * ((-B / A) * (1 + 1 / (t ^ 2 + t))) * (t ^ 2 + t) = -B * (t ^ 2 + t + 1) := by
    rw [mul_assoc, mul_assoc, add_mul, div_mul_cancel₀ _ hd, ← mul_assoc, mul_div_cancel₀ _ hA]
    ring
  generalize (-B / A) * (1 + 1 / (t ^ 2 + t)) = x at e ⊢
  unfold g
  linear_combination (1 - t) * e

variable [Fintype F] [DecidableEq F]

theorem nonsq_mul (h2 : ringChar F ≠ 2) {a b : F} (ha : ¬ IsSquare a) (hb : ¬ IsSquare b) : IsSquare (a * b) := by
  have ha0 : a ≠ 0 := by rintro rfl; exact ha ⟨0, by simp⟩
  have hb0 : b ≠ 0 := by rintro rfl; exact hb ⟨0, by simp⟩
  rw [← quadraticChar_one_iff_isSquare (mul_ne_zero ha0 hb0), map_mul, quadraticChar_neg_one_iff_not_isSquare.mpr ha, quadraticChar_neg_one_iff_not_isSquare.mpr hb]
  norm_num

/-- the second candidate is a square if the first one is not; and the other way round -/
theorem second (h2 : ringChar F ≠ 2) {A B Z u : F} (hA : A ≠ 0) (hZ : ¬ IsSquare Z) (hd : (Z * u ^ 2) ^ 2 + Z * u ^ 2 ≠ 0) :
    (¬ IsSquare (g A B (x1 A B Z u)) → IsSquare (g A B (Z * u ^ 2 * x1 A B Z u))) ∧
    (g A B (x1 A B Z u) ≠ 0 → IsSquare (g A B (x1 A B Z u)) → ¬ IsSquare (g A B (Z * u ^ 2 * x1 A B Z u))) := by
  rw [g_mul hA hd]
  generalize g A B (x1 A B Z u) = w
  have hu : Z * u ^ 2 ≠ 0 := fun e => hd (by rw [e]; ring)
  have hz : Z ≠ 0 := left_ne_zero_of_mul hu
  have hu' : u ≠ 0 := fun e => hu (by rw [e]; ring)
  have e : (Z * u ^ 2) ^ 3 * w = (Z * u ^ 3) ^ 2 * (Z * w) := by ring
  rw [e]
  constructor
  · intro hw
    exact (IsSquare.sq _).mul (nonsq_mul h2 hZ hw)
  · rintro hw ⟨a, ha⟩ ⟨b, hb⟩
    apply hZ
    have ha0 : a ≠ 0 := by rintro rfl; apply hw; rw [ha]; ring
    have h3 : Z * u ^ 3 ≠ 0 := mul_ne_zero hz (pow_ne_zero _ hu')
    refine ⟨b / (Z * u ^ 3 * a), ?_⟩
    rw [ha] at hb
    field_simp
    linear_combination hb

/-- the chosen ordinate exists, provided that it does for the exceptional arguments -/
theorem absc_sq (h2 : ringChar F ≠ 2) {A B Z : F} (hA : A ≠ 0) (hZ : ¬ IsSquare Z) (hx : IsSquare (g A B (B / (Z * A)))) (u : F) :
    IsSquare (g A B (absc A B Z u)) := by
  unfold absc
  split_ifs with c
  · exact c
  · refine (second h2 hA hZ ?_).1 c
    intro hd
    apply c
    unfold x1
    rw [if_pos hd]
    exact hx
end Spec.Sswu
