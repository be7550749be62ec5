import Verif.Ecp.Weier
import Mathlib.Tactic.LinearCombination
import Mathlib.Tactic.Abel
/-
Maps `(x, y) ↦ (u σ(x), v σ(y))` with `u^3 = v^2` respect the group law of a curve they preserve: the cube-root-of-unity endomorphism and the Frobenius
endomorphism of a sextic twist.
-/
namespace Verif.Curve
open WeierstrassCurve
set_option linter.unusedSectionVars false

variable {F : Type} [Field F] [DecidableEq F] {A B : F}

/-- `(x, y) ↦ (u σ(x), v σ(y))` maps the curve to itself -/
structure Preserves (σ : F →+* F) (u v A B : F) : Prop where
  hu : u ≠ 0
  hv : v ≠ 0
  uv : u ^ 3 = v ^ 2
  a : v ^ 2 * σ A = u * A
  b : v ^ 2 * σ B = B

variable {σ : F →+* F} {u v : F}

theorem Preserves.nonsingular (h : Preserves σ u v A B) {x y : F} (hh : (short A B).Nonsingular x y) : (short A B).Nonsingular (u * σ x) (v * σ y) := by
  have e := short_eq.mp hh.1
  have es := congrArg σ e
  simp only [map_pow, map_add, map_mul] at es
  have eq : (short A B).Equation (u * σ x) (v * σ y) := by
    rw [short_eq]
    linear_combination v ^ 2 * es - σ x ^ 3 * h.uv + σ x * h.a + h.b
  rw [Affine.nonsingular_iff] at hh ⊢
  refine ⟨eq, ?_⟩
  simp only [short] at hh ⊢
  rcases hh.2 with h1 | h1
  · left
    intro hc
    apply h1
    have h2 : v ^ 2 * (3 * σ x ^ 2 + σ A) = 0 := by linear_combination (-u) * hc - 3 * σ x ^ 2 * h.uv + h.a
    have h3 := (mul_eq_zero.mp h2).resolve_left (pow_ne_zero 2 h.hv)
    apply σ.injective
    simp only [map_mul, map_add, map_pow, map_ofNat, map_zero]
    linear_combination -h3
  · right
    intro hc
    apply h1
    have h2 : v * (σ y + σ y) = 0 := by linear_combination hc
    have h3 := (mul_eq_zero.mp h2).resolve_left h.hv
    apply σ.injective
    simp only [map_sub, map_neg, map_mul, map_zero]
    linear_combination h3

/-- the map on points -/
def endoFun (h : Preserves σ u v A B) : (short A B).Point → (short A B).Point
  | .zero => .zero
  | .some _ _ hh => .some _ _ (h.nonsingular hh)

theorem some_congr {x y x' y' : F} (h1 : (short A B).Nonsingular x y) (h2 : (short A B).Nonsingular x' y') (hx : x = x') (hy : y = y') :
    Affine.Point.some x y h1 = Affine.Point.some x' y' h2 := by subst hx hy; rfl

theorem endo_sum (h : Preserves σ u v A B) {x1 x2 y1 l l' : F} (hs : l' * u = v * σ l) :
    u * σ ((short A B).addX x1 x2 l) = (short A B).addX (u * σ x1) (u * σ x2) l' ∧
      v * σ ((short A B).addY x1 x2 y1 l) = (short A B).addY (u * σ x1) (u * σ x2) (v * σ y1) l' := by
  have hu := h.hu
  have hl : l' = v * σ l / u := by rw [← hs]; field_simp
  have hX : u * σ ((short A B).addX x1 x2 l) = (short A B).addX (u * σ x1) (u * σ x2) l' := by
    rw [hl]
    simp only [Affine.addX, short, map_sub, map_add, map_mul, map_pow, map_zero]
    field_simp
    linear_combination σ l ^ 2 * h.uv
  refine ⟨hX, ?_⟩
  simp only [Affine.addY, Affine.negAddY]
  rw [short_negY, short_negY, ← hX, hl, map_neg, map_add, map_mul, map_sub]
  field_simp

theorem endoFun_add (h : Preserves σ u v A B) (P Q : (short A B).Point) : endoFun h (P + Q) = endoFun h P + endoFun h Q := by
  have z : ∀ R : (short A B).Point, (Affine.Point.zero : (short A B).Point) + R = R := fun R => zero_add R
  have z' : ∀ R : (short A B).Point, R + (Affine.Point.zero : (short A B).Point) = R := fun R => add_zero R
  rcases P with _ | ⟨x1, y1, h1⟩
  · rw [z]; exact (z _).symm
  rcases Q with _ | ⟨x2, y2, h2⟩
  · rw [z']; exact (z' _).symm
  show endoFun h _ = Affine.Point.some _ _ (h.nonsingular h1) + Affine.Point.some _ _ (h.nonsingular h2)
  have hu := h.hu
  have hv := h.hv
  have uv := h.uv
  have ha := h.a
  by_cases hx : x1 = x2
  · by_cases hy : y1 = (short A B).negY x2 y2
    · rw [Affine.Point.add_of_Y_eq hx hy, Affine.Point.add_of_Y_eq (by rw [hx]) (by rw [hy, short_negY, short_negY, map_neg]; ring)]
      rfl
    · have hy' : v * σ y1 ≠ (short A B).negY (u * σ x2) (v * σ y2) := by
        rw [short_negY] at hy ⊢
        intro hc
        apply hy
        apply σ.injective
        rw [map_neg]
        apply mul_left_cancel₀ hv
        linear_combination hc
      have hyy : y1 = y2 := Affine.Y_eq_of_Y_ne h1.1 h2.1 hx hy
      have hx' : u * σ x1 = u * σ x2 := by rw [hx]
      rw [Affine.Point.add_some (by rintro ⟨_, e⟩; exact hy e), Affine.Point.add_some (by rintro ⟨_, e⟩; exact hy' e)]
      have hs : (short A B).slope (u * σ x1) (u * σ x2) (v * σ y1) (v * σ y2) * u = v * σ ((short A B).slope x1 x2 y1 y2) := by
        rw [Affine.slope_of_Y_ne hx hy, Affine.slope_of_Y_ne hx' hy', short_negY, short_negY]
        subst hx hyy
        rw [short_negY] at hy
        have h2y : y1 - -y1 ≠ 0 := sub_ne_zero.mpr hy
        have h2s : σ y1 - -σ y1 ≠ 0 := by rw [← map_neg, ← map_sub]; exact (map_ne_zero σ).mpr h2y
        have e1 : v * σ y1 - -(v * σ y1) = v * (σ y1 - -σ y1) := by ring
        rw [e1, map_div₀]
        simp only [short, map_sub, map_add, map_mul, map_pow, map_neg, map_ofNat, map_zero]
        generalize σ y1 - -σ y1 = w at h2s
        field_simp
        linear_combination 3 * σ x1 ^ 2 * uv - ha
      exact some_congr _ _ (endo_sum (y1 := y1) h hs).1 (endo_sum (y1 := y1) h hs).2
  · have hx' : u * σ x1 ≠ u * σ x2 := fun hc => hx (σ.injective (mul_left_cancel₀ hu hc))
    rw [Affine.Point.add_some (by rintro ⟨e, _⟩; exact hx e), Affine.Point.add_some (by rintro ⟨e, _⟩; exact hx' e)]
    have hs : (short A B).slope (u * σ x1) (u * σ x2) (v * σ y1) (v * σ y2) * u = v * σ ((short A B).slope x1 x2 y1 y2) := by
      rw [Affine.slope_of_X_ne hx, Affine.slope_of_X_ne hx', map_div₀, map_sub, map_sub]
      have hd : σ x1 - σ x2 ≠ 0 := by rw [← map_sub]; exact (map_ne_zero σ).mpr (sub_ne_zero.mpr hx)
      have e1 : u * σ x1 - u * σ x2 = u * (σ x1 - σ x2) := by ring
      have e2 : v * σ y1 - v * σ y2 = v * (σ y1 - σ y2) := by ring
      rw [e1, e2]
      field_simp
    exact some_congr _ _ (endo_sum (y1 := y1) h hs).1 (endo_sum (y1 := y1) h hs).2

/-- the map as a homomorphism -/
def endo (h : Preserves σ u v A B) : (short A B).Point →+ (short A B).Point where
  toFun := endoFun h
  map_zero' := rfl
  map_add' := endoFun_add h

theorem endo_some (h : Preserves σ u v A B) {x y : F} (hh : (short A B).Nonsingular x y) :
    endo h (.some x y hh) = .some (u * σ x) (v * σ y) (h.nonsingular hh) := rfl

/-- the coordinates of the image -/
theorem endo_denotes (h : Preserves σ u v A B) {P : Proj F} {T : (short A B).Point} (hd : Denotes P T) : Denotes ⟨u * σ P.x, v * σ P.y, σ P.z⟩ (endo h T) := by
  rcases T with _ | ⟨x, y, hh⟩
  · obtain ⟨h1, h2, h3⟩ := hd
    refine ⟨by simp [h1], mul_ne_zero h.hv ((map_ne_zero σ).mpr h2), by simp [h3]⟩
  · obtain ⟨h1, h2, h3⟩ := hd
    refine ⟨(map_ne_zero σ).mpr h1, ?_, ?_⟩
    · show u * σ P.x = _; rw [h2, map_mul]; ring
    · show v * σ P.y = _; rw [h3, map_mul]; ring

/-- Multiplying the abscissa by a primitive cube root of unity `w` satisfies `1 + φ + φ^2 = 0` (no point of order two). -/
theorem endo_cube {w : F} (hw : w ^ 2 + w + 1 = 0) (h3 : w ≠ 1) (hc : (2 : F) ≠ 0) (h2 : NoTwoTorsion A B) (h : Preserves (RingHom.id F) w 1 A B) (hA : A = 0)
    (T : (short A B).Point) : T + endo h T + endo h (endo h T) = 0 := by
  rcases T with _ | ⟨x, y, hh⟩
  · rfl
  rw [endo_some, endo_some]
  have hy := y_ne h2 hh.1
  have hy2 : y ≠ -y := by
    intro e
    have : 2 * y = 0 := by linear_combination e
    exact hy ((mul_eq_zero.mp this).resolve_left hc)
  rw [← eq_neg_iff_add_eq_zero, Affine.Point.neg_some]
  simp only [RingHom.id_apply]
  by_cases hx : x = 0
  · have e1 : x = w * x := by rw [hx, mul_zero]
    have e2 : ¬ y = (short A B).negY (w * x) (1 * y) := by rw [short_negY, one_mul]; exact hy2
    rw [Affine.Point.add_some (by rintro ⟨_, e⟩; exact e2 e)]
    have hs : (short A B).slope x (w * x) y (1 * y) = 0 := by
      rw [Affine.slope_of_Y_ne e1 e2]
      simp [short, hx, hA]
    refine some_congr _ _ ?_ ?_
    · rw [hs]; simp [Affine.addX, short, hx]
    · simp only [Affine.addY, Affine.negAddY]; rw [hs, short_negY, short_negY]; ring
  · have e1 : x ≠ w * x := by
      intro e
      have : (w - 1) * x = 0 := by linear_combination -e
      exact h3 (sub_eq_zero.mp ((mul_eq_zero.mp this).resolve_right hx))
    rw [Affine.Point.add_some (by rintro ⟨e, _⟩; exact e1 e)]
    have hs : (short A B).slope x (w * x) y (1 * y) = 0 := by
      rw [Affine.slope_of_X_ne e1, one_mul, sub_self, zero_div]
    refine some_congr _ _ ?_ ?_
    · rw [hs]; simp only [Affine.addX, short]; linear_combination (-x) * hw
    · simp only [Affine.addY, Affine.negAddY]; rw [hs, short_negY, short_negY]; ring

end Verif.Curve
