import Verif.Spec.Montgomery
import Verif.Ecp.Weier
/- The x-only formulas of Montgomery compute Mathlib's group law. -/
namespace Verif.Curve
open WeierstrassCurve
set_option linter.unusedSectionVars false

variable {F : Type} [Field F] [DecidableEq F] {A : F}

theorem mont_eq {x y : F} : (mont A).Equation x y ↔ y ^ 2 = x ^ 3 + A * x ^ 2 + x := by
  rw [Affine.equation_iff]; simp [mont]

theorem mont_negY (x y : F) : (mont A).negY x y = -y := by simp [Affine.negY, mont]

/-- every solution of the curve equation is a point -/
theorem mont_nonsingular (h2 : (2 : F) ≠ 0) (hA : A ≠ 2 ∧ A ≠ -2) {x y : F} (h : (mont A).Equation x y) : (mont A).Nonsingular x y := by
  rw [Affine.nonsingular_iff]
  refine ⟨h, ?_⟩
  have e := mont_eq.mp h
  by_contra hc
  rw [not_or, not_not, not_not] at hc
  obtain ⟨c1, c2⟩ := hc
  simp only [mont] at c1 c2
  have hy : y = 0 := by
    have : 2 * y = 0 := by linear_combination c2
    exact (mul_eq_zero.mp this).resolve_left h2
  subst hy
  have d1 : 3 * x ^ 2 + 2 * A * x + 1 = 0 := by linear_combination -c1
  have d2 : x * (x ^ 2 + A * x + 1) = 0 := by linear_combination -e
  rcases mul_eq_zero.mp d2 with hx | hx
  · rw [hx] at d1; simp at d1
  · -- 2 (x^2 + A x + 1) - (3 x^2 + 2 A x + 1) = 1 - x^2
    have d3 : (x - 1) * (x + 1) = 0 := by linear_combination d1 - 2 * hx
    rcases mul_eq_zero.mp d3 with h3 | h3
    · have : x = 1 := by linear_combination h3
      subst this; exact hA.2 (by linear_combination hx)
    · have : x = -1 := by linear_combination h3
      subst this; exact hA.1 (by linear_combination -hx)

/-- doubling; the abscissa `(X' : 0)` of the point at infinity has `X' ≠ 0` -/
theorem xDbl (h2 : (2 : F) ≠ 0) (hA : A ≠ 2 ∧ A ≠ -2) {a4 : F} (h4 : 4 * a4 = A + 2) {X Z : F} {T : (mont A).Point} (h : XOf X Z T) :
    XOf ((X ^ 2 - Z ^ 2) ^ 2) (4 * X * Z * ((X - Z) ^ 2 + a4 * (4 * X * Z))) (T + T) ∧
      (X ≠ 0 ∨ Z ≠ 0 → (X ^ 2 - Z ^ 2) ^ 2 ≠ 0 ∨ 4 * X * Z * ((X - Z) ^ 2 + a4 * (4 * X * Z)) ≠ 0) := by
  have hz : 4 * X * Z * ((X - Z) ^ 2 + a4 * (4 * X * Z)) = 4 * Z * (X ^ 3 + A * X ^ 2 * Z + X * Z ^ 2) := by
    linear_combination (4 * X ^ 2 * Z ^ 2) * h4
  rw [hz]
  cases T with
  | zero =>
    have hZ : Z = 0 := h
    subst hZ
    refine ⟨?_, fun hh => .inl ?_⟩
    · rw [← Affine.Point.zero_def, add_zero]
      show 4 * (0 : F) * _ = 0
      ring
    · rcases hh with hh | hh
      · simpa using hh
      · exact absurd rfl hh
  | some x y hn =>
    obtain ⟨hZ, rfl⟩ := h
    have e := mont_eq.mp hn.1
    have e1 : 4 * Z * ((x * Z) ^ 3 + A * (x * Z) ^ 2 * Z + x * Z * Z ^ 2) = (2 * y) ^ 2 * Z ^ 4 := by linear_combination (-4 * Z ^ 4) * e
    have e2 : (x * Z) ^ 2 - Z ^ 2 = (x ^ 2 - 1) * Z ^ 2 := by ring
    rw [e1, e2]
    by_cases hy : y = 0
    · subst hy
      have hneg : Affine.Point.some x 0 hn + Affine.Point.some x 0 hn = 0 := Affine.Point.add_of_Y_eq rfl (by rw [mont_negY]; simp)
      rw [hneg]
      refine ⟨?_, fun _ => .inl ?_⟩
      · show _ = (0 : F)
        ring
      · refine pow_ne_zero 2 (mul_ne_zero ?_ (pow_ne_zero 2 hZ))
        intro hx
        have d3 : (x - 1) * (x + 1) = 0 := by linear_combination hx
        rcases mul_eq_zero.mp d3 with h3 | h3
        · have : x = 1 := by linear_combination h3
          subst this; exact hA.2 (by linear_combination -e)
        · have : x = -1 := by linear_combination h3
          subst this; exact hA.1 (by linear_combination -e)
    · have h2y : 2 * y ≠ 0 := mul_ne_zero h2 hy
      have hyn : y ≠ (mont A).negY x y := by
        rw [mont_negY]
        intro hh
        exact h2y (by linear_combination hh)
      rw [Affine.Point.add_self_of_Y_ne hyn]
      have hzn : (2 * y) ^ 2 * Z ^ 4 ≠ 0 := mul_ne_zero (pow_ne_zero 2 h2y) (pow_ne_zero 4 hZ)
      have hs : (mont A).slope x x y y = (3 * x ^ 2 + 2 * A * x + 1) / (2 * y) := by
        rw [Affine.slope_of_Y_ne rfl hyn]
        simp only [Affine.negY, mont]
        congr 1 <;> ring
      refine ⟨⟨hzn, ?_⟩, fun _ => .inr hzn⟩
      rw [hs]
      simp only [Affine.addX, mont]
      field_simp
      linear_combination (8 * x + 4 * A) * e

/-- `x(P + Q) x(P - Q) = (x_P x_Q - 1)^2 / (x_P - x_Q)^2` -/
theorem diff_id {x1 y1 x2 y2 : F} (e1 : y1 ^ 2 = x1 ^ 3 + A * x1 ^ 2 + x1) (e2 : y2 ^ 2 = x2 ^ 3 + A * x2 ^ 2 + x2) (hx : x1 - x2 ≠ 0) :
    (((y1 - y2) / (x1 - x2)) ^ 2 - A - x1 - x2) * (((y1 + y2) / (x1 - x2)) ^ 2 - A - x1 - x2) * (x1 - x2) ^ 2 = (x1 * x2 - 1) ^ 2 := by
  have k : ((y1 - y2) ^ 2 - (A + x1 + x2) * (x1 - x2) ^ 2) * ((y1 + y2) ^ 2 - (A + x1 + x2) * (x1 - x2) ^ 2) = (x1 * x2 - 1) ^ 2 * (x1 - x2) ^ 2 := by
    linear_combination ((y1 ^ 2 - y2 ^ 2) + (x1 ^ 3 + A * x1 ^ 2 + x1 - (x2 ^ 3 + A * x2 ^ 2 + x2)) - 2 * (A + x1 + x2) * (x1 - x2) ^ 2) * e1
      + (-(y1 ^ 2 - y2 ^ 2) - (x1 ^ 3 + A * x1 ^ 2 + x1 - (x2 ^ 3 + A * x2 ^ 2 + x2)) - 2 * (A + x1 + x2) * (x1 - x2) ^ 2) * e2
  rw [div_pow, div_pow]
  have hd : (x1 - x2) ^ 2 ≠ 0 := pow_ne_zero 2 hx
  generalize (x1 - x2) ^ 2 = d at *
  field_simp
  linear_combination k

/-- differential addition: `D = P - Q` is finite with abscissa `xd ≠ 0` -/
theorem xAdd (h2 : (2 : F) ≠ 0) (hA : A ≠ 2 ∧ A ≠ -2) {X Z X' Z' : F} {P Q : (mont A).Point} (hP : XOf X Z P) (hQ : XOf X' Z' Q)
    (nP : X ≠ 0 ∨ Z ≠ 0) (nQ : X' ≠ 0 ∨ Z' ≠ 0) {xd : F} (hxd : xd ≠ 0) {D : (mont A).Point} (hD : P - Q = D) (hDx : XOf xd 1 D) :
    XOf (4 * (X * X' - Z * Z') ^ 2) (4 * xd * (X * Z' - Z * X') ^ 2) (P + Q) ∧
      (4 * (X * X' - Z * Z') ^ 2 ≠ 0 ∨ 4 * xd * (X * Z' - Z * X') ^ 2 ≠ 0) := by
  have h4 : (4 : F) ≠ 0 := by
    have : (4 : F) = 2 * 2 := by norm_num
    rw [this]; exact mul_ne_zero h2 h2
  cases P with
  | zero =>
    have hZ : Z = 0 := hP
    subst hZ
    have hX : X ≠ 0 := by simpa using nP
    rw [← Affine.Point.zero_def, zero_sub] at hD
    cases Q with
    | zero =>
      rw [← Affine.Point.zero_def, neg_zero] at hD
      subst hD
      exact absurd (show (1 : F) = 0 from hDx) one_ne_zero
    | some x y hn =>
      obtain ⟨hZ', rfl⟩ := hQ
      subst hD
      rw [Affine.Point.neg_some] at hDx
      obtain ⟨_, rfl⟩ := hDx
      rw [← Affine.Point.zero_def, zero_add]
      have hx : x ≠ 0 := by simpa using hxd
      have hzn : 4 * (x * 1) * (X * Z' - 0 * (x * Z')) ^ 2 ≠ 0 := by
        rw [zero_mul, sub_zero, mul_one]
        exact mul_ne_zero (mul_ne_zero h4 hx) (pow_ne_zero 2 (mul_ne_zero hX hZ'))
      exact ⟨⟨hzn, by ring⟩, .inr hzn⟩
  | some x1 y1 hn1 =>
    obtain ⟨hZ, rfl⟩ := hP
    cases Q with
    | zero =>
      have hZ' : Z' = 0 := hQ
      subst hZ'
      have hX' : X' ≠ 0 := by simpa using nQ
      rw [← Affine.Point.zero_def, sub_zero] at hD
      subst hD
      obtain ⟨_, rfl⟩ := hDx
      rw [← Affine.Point.zero_def, add_zero]
      have hx : x1 ≠ 0 := by simpa using hxd
      have hzn : 4 * (x1 * 1) * (x1 * Z * 0 - Z * X') ^ 2 ≠ 0 := by
        rw [mul_zero, zero_sub, mul_one]
        exact mul_ne_zero (mul_ne_zero h4 hx) (pow_ne_zero 2 (neg_ne_zero.mpr (mul_ne_zero hZ hX')))
      exact ⟨⟨hzn, by ring⟩, .inr hzn⟩
    | some x2 y2 hn2 =>
      obtain ⟨hZ', rfl⟩ := hQ
      have e1 := mont_eq.mp hn1.1
      have e2 := mont_eq.mp hn2.1
      have hneg : -Affine.Point.some x2 y2 hn2 = .some x2 ((mont A).negY x2 y2) ((Affine.nonsingular_neg _ _).mpr hn2) := rfl
      rw [sub_eq_add_neg, hneg] at hD
      by_cases hx : x1 = x2
      · subst hx
        by_cases hy : y1 = (mont A).negY x1 y2
        · -- P = -Q
          have hs : Affine.Point.some x1 y1 hn1 + Affine.Point.some x1 y2 hn2 = 0 := Affine.Point.add_of_Y_eq rfl hy
          rw [hs]
          refine ⟨?_, .inl ?_⟩
          · show _ = (0 : F)
            ring
          · have hyy : y1 ≠ (mont A).negY x1 ((mont A).negY x1 y2) := by
              intro hh
              rw [Affine.Point.add_of_Y_eq rfl hh] at hD
              subst hD
              exact absurd (show (1 : F) = 0 from hDx) one_ne_zero
            rw [mont_negY] at hy
            subst hy
            rw [mont_negY, mont_negY, neg_neg] at hyy
            have h2y : (2 : F) * y2 ≠ 0 := fun hh => hyy (by linear_combination -hh)
            have hyn : (-y2) ≠ (mont A).negY x1 (-y2) := by rw [mont_negY, neg_neg]; exact hyy
            have hse : Affine.Point.some x1 (-y2) hn1 + Affine.Point.some x1 ((mont A).negY x1 y2) ((Affine.nonsingular_neg _ _).mpr hn2)
                = Affine.Point.some x1 (-y2) hn1 + Affine.Point.some x1 (-y2) hn1 := by
              congr 1
              rw [Affine.Point.some.injEq]
              exact ⟨rfl, mont_negY _ _⟩
            rw [hse] at hD
            obtain ⟨hh, _⟩ := xDbl (A := A) (a4 := (A + 2) / 4) h2 hA (by field_simp) (X := x1) (Z := 1) (T := .some x1 (-y2) hn1) ⟨one_ne_zero, by ring⟩
            rw [hD] at hh
            cases D with
            | zero => exact absurd (show (1 : F) = 0 from hDx) one_ne_zero
            | some xD yD hnD =>
              obtain ⟨_, rfl⟩ := hDx
              obtain ⟨hz, hh⟩ := hh
              have hxD : xD ≠ 0 := by simpa using hxd
              have hne : (x1 ^ 2 - 1 ^ 2) ^ 2 ≠ 0 := by rw [hh]; exact mul_ne_zero hxD hz
              have hne' : x1 ^ 2 - 1 ≠ 0 := by
                intro hc; apply hne; rw [one_pow, hc]; ring
              have : 4 * (x1 * Z * (x1 * Z') - Z * Z') ^ 2 = 4 * ((x1 ^ 2 - 1) * (Z * Z')) ^ 2 := by ring
              rw [this]
              exact mul_ne_zero h4 (pow_ne_zero 2 (mul_ne_zero hne' (mul_ne_zero hZ hZ')))
        · -- P = Q
          have h1 := Affine.Y_eq_of_Y_ne hn1.1 hn2.1 rfl hy
          subst h1
          have : Affine.Point.some x1 y1 hn1 + Affine.Point.some x1 ((mont A).negY x1 y1) ((Affine.nonsingular_neg _ _).mpr hn2) = 0 :=
            Affine.Point.add_of_Y_eq rfl (by rw [Affine.negY_negY])
          rw [this] at hD
          subst hD
          exact absurd (show (1 : F) = 0 from hDx) one_ne_zero
      · have hd : x1 - x2 ≠ 0 := sub_ne_zero.mpr hx
        rw [Affine.Point.add_of_X_ne hx] at hD ⊢
        subst hD
        obtain ⟨_, rfl⟩ := hDx
        have hid := diff_id e1 e2 hd
        have ha1 : (mont A).addX x1 x2 ((mont A).slope x1 x2 y1 y2) = ((y1 - y2) / (x1 - x2)) ^ 2 - A - x1 - x2 := by
          rw [Affine.slope_of_X_ne hx]; simp only [Affine.addX, mont]; ring
        have ha2 : (mont A).addX x1 x2 ((mont A).slope x1 x2 y1 ((mont A).negY x2 y2)) = ((y1 + y2) / (x1 - x2)) ^ 2 - A - x1 - x2 := by
          rw [mont_negY, Affine.slope_of_X_ne hx, sub_neg_eq_add]; simp only [Affine.addX, mont]; ring
        rw [ha2] at hxd ⊢
        rw [← ha1] at hid
        have hxd' : ((y1 + y2) / (x1 - x2)) ^ 2 - A - x1 - x2 ≠ 0 := by simpa using hxd
        generalize ((y1 + y2) / (x1 - x2)) ^ 2 - A - x1 - x2 = w at *
        have ez : 4 * (w * 1) * (x1 * Z * Z' - Z * (x2 * Z')) ^ 2 = 4 * w * (x1 - x2) ^ 2 * (Z * Z') ^ 2 := by ring
        have hzn : 4 * w * (x1 - x2) ^ 2 * (Z * Z') ^ 2 ≠ 0 :=
          mul_ne_zero (mul_ne_zero (mul_ne_zero h4 hxd') (pow_ne_zero 2 hd)) (pow_ne_zero 2 (mul_ne_zero hZ hZ'))
        rw [ez]
        refine ⟨⟨hzn, ?_⟩, .inr hzn⟩
        linear_combination (-4 * (Z * Z') ^ 2) * hid
end Verif.Curve
