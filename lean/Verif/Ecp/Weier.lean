import Verif.Spec.Curve
/- The complete addition formulas of Renes, Costello and Batina compute Mathlib's group law. -/
namespace Verif.Curve
open WeierstrassCurve
set_option linter.unusedSectionVars false

variable {F : Type} [Field F] [DecidableEq F] {A B : F}

/-- complete addition -/
def rcb (A B : F) (P Q : Proj F) : Proj F :=
  let m := P.x * Q.y + Q.x * P.y
  let s := P.x * Q.z + Q.x * P.z
  let t := P.y * Q.z + Q.y * P.z
  let z := P.z * Q.z
  let u := A * (P.x * Q.x) + 3 * B * s - A ^ 2 * z
  { x := m * (P.y * Q.y - A * s - 3 * B * z) - t * u
    y := (3 * (P.x * Q.x) + A * z) * u + (P.y * Q.y + A * s + 3 * B * z) * (P.y * Q.y - A * s - 3 * B * z)
    z := t * (P.y * Q.y + A * s + 3 * B * z) + m * (3 * (P.x * Q.x) + A * z) }

theorem short_eq {x y : F} : (short A B).Equation x y ↔ y ^ 2 = x ^ 3 + A * x + B := by
  rw [Affine.equation_iff]; simp [short]

theorem y_ne (h2 : NoTwoTorsion A B) {x y : F} (h : (short A B).Equation x y) : y ≠ 0 := by
  rintro rfl
  exact h2 x (by rw [← short_eq.mp h]; simp)

theorem short_negY (x y : F) : (short A B).negY x y = -y := by simp [Affine.negY, short]

theorem rcb_scale (P Q : Proj F) (x1 y1 x2 y2 : F) (hx : P.x = x1 * P.z) (hy : P.y = y1 * P.z) (hx' : Q.x = x2 * Q.z) (hy' : Q.y = y2 * Q.z) :
    rcb A B P Q = { x := (rcb A B ⟨x1, y1, 1⟩ ⟨x2, y2, 1⟩).x * (P.z * Q.z) ^ 2, y := (rcb A B ⟨x1, y1, 1⟩ ⟨x2, y2, 1⟩).y * (P.z * Q.z) ^ 2,
                    z := (rcb A B ⟨x1, y1, 1⟩ ⟨x2, y2, 1⟩).z * (P.z * Q.z) ^ 2 } := by
  obtain ⟨a, b, c⟩ := P
  obtain ⟨a', b', c'⟩ := Q
  simp only at hx hy hx' hy'
  subst hx hy hx' hy'
  simp only [rcb, Proj.mk.injEq]
  refine ⟨?_, ?_, ?_⟩ <;> ring

/-- generic case of the formulas -/
theorem rcb_ne (h2 : NoTwoTorsion A B) {x1 y1 x2 y2 : F} (h1 : (short A B).Nonsingular x1 y1) (h2' : (short A B).Nonsingular x2 y2) (hx : x1 ≠ x2) :
    Denotes (rcb A B ⟨x1, y1, 1⟩ ⟨x2, y2, 1⟩) (Affine.Point.some x1 y1 h1 + Affine.Point.some x2 y2 h2') := by
  have e1 := short_eq.mp h1.1
  have e2 := short_eq.mp h2'.1
  have hd : x1 - x2 ≠ 0 := sub_ne_zero.mpr hx
  -- the ordinate of P - Q
  have hn : (short A B).Nonsingular x2 (-y2) := by rw [← short_negY (A := A) (B := B) x2 y2]; exact (Affine.nonsingular_neg _ _).mpr h2'
  have hm := y_ne h2 (Affine.nonsingular_add h1 hn (by intro hh; exact hx hh.1)).1
  rw [Affine.slope_of_X_ne hx] at hm
  have hz : (rcb A B ⟨x1, y1, 1⟩ ⟨x2, y2, 1⟩).z ≠ 0 := by
    have : (rcb A B ⟨x1, y1, 1⟩ ⟨x2, y2, 1⟩).z = -((short A B).addY x1 x2 y1 ((y1 - -y2) / (x1 - x2))) * (x1 - x2) ^ 3 := by
      simp only [rcb, Affine.addY, Affine.negAddY, Affine.addX, Affine.negY, short]
      field_simp
      linear_combination (-y1 - 2 * y2) * e1 + (-2 * y1 - y2) * e2
    rw [this]
    exact mul_ne_zero (neg_ne_zero.mpr hm) (pow_ne_zero _ hd)
  rw [Affine.Point.add_of_X_ne hx]
  refine ⟨hz, ?_, ?_⟩
  · rw [Affine.slope_of_X_ne hx]
    apply mul_right_cancel₀ (pow_ne_zero 2 hd)
    simp only [rcb, Affine.addX, short]
    field_simp
    linear_combination (-y1^2*y2+y1*y2^2-3*y1*B-y1*A*x1-2*y1*A*x2-3*y1*x1*x2^2+y2^3+2*y2*B-y2*A*x1+3*y2*A*x2-3*y2*x1^2*x2+3*y2*x1*x2^2+2*y2*x2^3) * e1 + (-y1*y2^2+3*y1*B+4*y1*A*x1-y1*A*x2+3*y1*x1^3+3*y1*x1^2*x2-3*y1*x1*x2^2-2*y2*B-y2*A*x1-y2*A*x2+y2*x1^3-3*y2*x1^2*x2) * e2
  · rw [Affine.slope_of_X_ne hx]
    apply mul_right_cancel₀ (pow_ne_zero 3 hd)
    simp only [rcb, Affine.addY, Affine.negAddY, Affine.addX, Affine.negY, short]
    field_simp
    linear_combination (y1^3*y2-2*y1^2*y2^2+3*y1^2*B+y1^2*A*x1+2*y1^2*A*x2+3*y1^2*x1*x2^2-5*y1*y2*B-5*y1*y2*A*x2+3*y1*y2*x1^2*x2-6*y1*y2*x1*x2^2-2*y1*y2*x2^3+2*y2^4-2*y2^2*B-5*y2^2*A*x1+3*y2^2*A*x2-15*y2^2*x1^2*x2+15*y2^2*x1*x2^2-2*y2^2*x2^3+3*B^2+4*B*A*x1+2*B*A*x2+12*B*x1*x2^2-6*B*x2^3+A^2*x1^2+2*A^2*x1*x2+6*A*x1^2*x2^2+4*A*x1*x2^3-4*A*x2^4+9*x1^2*x2^4-6*x1*x2^5) * e1 + (-y1*y2^3+5*y1*y2*B+5*y1*y2*A*x1+2*y1*y2*x1^3+6*y1*y2*x1^2*x2-3*y1*y2*x1*x2^2-y2^2*B-y2^2*A*x2+2*y2^2*x1^3-3*y2^2*x1^2*x2-3*B^2-7*B*A*x1+B*A*x2+6*B*x1^3-27*B*x1^2*x2+15*B*x1*x2^2-5*A^2*x1^2+3*A^2*x1*x2-A^2*x2^2-A*x1^4-14*A*x1^3*x2+9*A*x1^2*x2^2-9*x1^5*x2+6*x1^4*x2^2) * e2

/-- doubling case -/
theorem rcb_self (h2 : NoTwoTorsion A B) (hc : (2 : F) ≠ 0) {x y : F} (h : (short A B).Nonsingular x y) :
    Denotes (rcb A B ⟨x, y, 1⟩ ⟨x, y, 1⟩) (Affine.Point.some x y h + Affine.Point.some x y h) := by
  have e := short_eq.mp h.1
  have hy := y_ne h2 h.1
  have hyn : y ≠ (short A B).negY x y := by
    rw [short_negY]
    intro hh
    exact hy (by have : 2 * y = 0 := by linear_combination hh
                 exact (mul_eq_zero.mp this).resolve_left hc)
  have h2y : y - -y ≠ 0 := by
    have : y - -y = 2 * y := by ring
    rw [this]; exact mul_ne_zero hc hy
  have hs : (short A B).slope x x y y = (3 * x ^ 2 + A) / (2 * y) := by
    rw [Affine.slope_of_Y_ne rfl hyn]
    simp only [Affine.negY, short]
    congr 1 <;> ring
  have h2' : 2 * y ≠ 0 := mul_ne_zero hc hy
  rw [Affine.Point.add_self_of_Y_ne hyn]
  have hz : (rcb A B ⟨x, y, 1⟩ ⟨x, y, 1⟩).z = (2 * y) ^ 3 := by
    simp only [rcb]
    linear_combination (-6 * y) * e
  refine ⟨by rw [hz]; exact pow_ne_zero _ h2', ?_, ?_⟩
  · rw [hz, hs]
    simp only [rcb, Affine.addX, short]
    field_simp
    linear_combination (18 * x) * e
  · rw [hz, hs]
    simp only [rcb, Affine.addY, Affine.negAddY, Affine.addX, Affine.negY, short]
    field_simp
    linear_combination (9*y^2+9*B-3*A*x-27*x^3) * e

/-- opposite points -/
theorem rcb_neg (h2 : NoTwoTorsion A B) (hc : (2 : F) ≠ 0) {x y : F} (h : (short A B).Nonsingular x y) :
    (rcb A B ⟨x, y, 1⟩ ⟨x, -y, 1⟩).x = 0 ∧ (rcb A B ⟨x, y, 1⟩ ⟨x, -y, 1⟩).y ≠ 0 ∧ (rcb A B ⟨x, y, 1⟩ ⟨x, -y, 1⟩).z = 0 := by
  refine ⟨by simp only [rcb]; ring, ?_, by simp only [rcb]; ring⟩
  have e := short_eq.mp h.1
  have hd := rcb_self h2 hc h
  have hyy : (rcb A B ⟨x, y, 1⟩ ⟨x, -y, 1⟩).y = (rcb A B ⟨x, y, 1⟩ ⟨x, y, 1⟩).y := by
    simp only [rcb]
    linear_combination 0 * e
  rw [hyy]
  cases hT : Affine.Point.some x y h + Affine.Point.some x y h with
  | zero => rw [hT] at hd; exact hd.2.1
  | some x3 y3 h3 =>
    rw [hT] at hd
    rw [hd.2.2]
    exact mul_ne_zero (y_ne h2 h3.1) hd.1

theorem Denotes.zero_or {W : Affine F} {P : Proj F} {T : W.Point} (h : Denotes P T) :
    (T = 0 ∧ P.x = 0 ∧ P.y ≠ 0 ∧ P.z = 0) ∨ ∃ x y hh, T = .some x y hh ∧ P.z ≠ 0 ∧ P.x = x * P.z ∧ P.y = y * P.z := by
  cases T with
  | zero => exact .inl ⟨rfl, h⟩
  | some x y hh => exact .inr ⟨x, y, hh, rfl, h⟩

theorem Denotes.scale {W : Affine F} {P Q : Proj F} {T : W.Point} (h : Denotes P T) {c : F} (hc : c ≠ 0)
    (hx : Q.x = P.x * c) (hy : Q.y = P.y * c) (hz : Q.z = P.z * c) : Denotes Q T := by
  cases T with
  | zero =>
    obtain ⟨a, b, d⟩ := h
    exact ⟨by rw [hx, a, zero_mul], by rw [hy]; exact mul_ne_zero b hc, by rw [hz, d, zero_mul]⟩
  | some x y hh =>
    obtain ⟨a, b, d⟩ := h
    exact ⟨by rw [hz]; exact mul_ne_zero a hc, by rw [hx, hz, b, mul_assoc], by rw [hy, hz, d, mul_assoc]⟩

/-- The complete formulas compute the group law, for all pairs of points. -/
theorem rcb_add (h2 : NoTwoTorsion A B) (hc : (2 : F) ≠ 0) {P Q : Proj F} {S T : (short A B).Point} (hP : Denotes P S) (hQ : Denotes Q T) :
    Denotes (rcb A B P Q) (S + T) := by
  rcases hP.zero_or with ⟨rfl, p1, p2, p3⟩ | ⟨x1, y1, h1, rfl, p1, p2, p3⟩
  · rcases hQ.zero_or with ⟨rfl, q1, q2, q3⟩ | ⟨x2, y2, h2', rfl, q1, q2, q3⟩
    · rw [add_zero]
      refine ⟨by simp [rcb, p1, p3, q1, q3], ?_, by simp [rcb, p1, p3, q1, q3]⟩
      simp only [rcb, p1, p3, q1, q3]
      ring_nf
      exact mul_ne_zero (pow_ne_zero _ p2) (pow_ne_zero _ q2)
    · rw [zero_add]
      have hy := y_ne h2 h2'.1
      refine hQ.scale (c := P.y ^ 2 * Q.y) (mul_ne_zero (pow_ne_zero _ p2) (by rw [q3]; exact mul_ne_zero hy q1)) ?_ ?_ ?_ <;>
        (simp only [rcb, p1, p3]; ring)
  · rcases hQ.zero_or with ⟨rfl, q1, q2, q3⟩ | ⟨x2, y2, h2', rfl, q1, q2, q3⟩
    · rw [add_zero]
      have hy := y_ne h2 h1.1
      refine hP.scale (c := Q.y ^ 2 * P.y) (mul_ne_zero (pow_ne_zero _ q2) (by rw [p3]; exact mul_ne_zero hy p1)) ?_ ?_ ?_ <;>
        (simp only [rcb, q1, q3]; ring)
    · have hs := rcb_scale (A := A) (B := B) P Q x1 y1 x2 y2 p2 p3 q2 q3
      have hzz : (P.z * Q.z) ^ 2 ≠ 0 := pow_ne_zero _ (mul_ne_zero p1 q1)
      suffices Denotes (rcb A B ⟨x1, y1, 1⟩ ⟨x2, y2, 1⟩) (Affine.Point.some x1 y1 h1 + Affine.Point.some x2 y2 h2') from
        this.scale hzz (by rw [hs]) (by rw [hs]) (by rw [hs])
      by_cases hx : x1 = x2
      · subst hx
        have e1 := short_eq.mp h1.1
        have e2 := short_eq.mp h2'.1
        have : (y1 - y2) * (y1 + y2) = 0 := by linear_combination e1 - e2
        rcases mul_eq_zero.mp this with hh | hh
        · have : y1 = y2 := sub_eq_zero.mp hh
          subst this
          exact rcb_self h2 hc h1
        · have : y2 = -y1 := by linear_combination hh
          subst this
          rw [Affine.Point.add_of_Y_eq rfl (by rw [short_negY, neg_neg])]
          exact rcb_neg h2 hc h1
      · exact rcb_ne h2 h1 h2' hx

end Verif.Curve
