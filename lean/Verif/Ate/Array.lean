import Mathlib.AlgebraicGeometry.EllipticCurve.Affine.Point
/-
Functions on an elliptic curve: nine points in three rows and three columns, each summing to zero. The product of the lines through the rows is a constant times the
product of the lines through the columns.
-/
namespace Verif.Ate
open WeierstrassCurve WeierstrassCurve.Affine WeierstrassCurve.Affine.CoordinateRing Polynomial
open scoped Polynomial.Bivariate

variable {F : Type*} [Field F] [DecidableEq F] {W : WeierstrassCurve.Affine F}

/-- the ideal of the functions vanishing at a point -/
noncomputable def ptIdeal : W.Point → Ideal W.CoordinateRing
  | .zero => ⊤
  | .some x y _ => XYIdeal W x (C y)

/-- the line through two points, as a function on the curve -/
noncomputable def lineC : W.Point → W.Point → W.CoordinateRing
  | .some x₁ y₁ _, .some x₂ y₂ _ => YClass W (linePolynomial x₁ y₁ (W.slope x₁ x₂ y₁ y₂))
  | _, _ => 1

theorem lineC_ne (A B : W.Point) : lineC A B ≠ 0 := by
  rcases A with _ | ⟨x, y, h⟩
  · exact one_ne_zero
  · rcases B with _ | ⟨x', y', h'⟩
    · exact one_ne_zero
    · exact YClass_ne_zero _

/-- the divisor of a line -/
theorem line_ideal {A B : W.Point} (hA : A ≠ 0) (hB : B ≠ 0) (hAB : A + B ≠ 0) : ptIdeal A * ptIdeal B * ptIdeal (-(A + B)) = Ideal.span {lineC A B} := by
  rcases A with _ | ⟨x₁, y₁, h₁⟩
  · exact absurd rfl hA
  rcases B with _ | ⟨x₂, y₂, h₂⟩
  · exact absurd rfl hB
  have hxy : ¬(x₁ = x₂ ∧ y₁ = W.negY x₂ y₂) := fun h => hAB (Point.add_of_Y_eq h.1 h.2)
  rw [Point.add_some hxy, Point.neg_some]
  have e1 := XYIdeal_mul_XYIdeal h₁.1 h₂.1 hxy
  have e2 := XYIdeal_neg_mul (nonsingular_add h₁ h₂ hxy)
  unfold ptIdeal lineC
  dsimp only
  rw [XIdeal] at e1 e2
  apply (Ideal.span_singleton_mul_right_inj (XClass_ne_zero (W' := W) (W.addX x₁ x₂ (W.slope x₁ x₂ y₁ y₂)))).1
  rw [← mul_assoc, e1, mul_assoc, mul_comm (XYIdeal W _ _) (XYIdeal W _ _), e2, mul_comm]
  rfl

/-- the units are the constants -/
theorem unit_const (u : (W.CoordinateRing)ˣ) : ∃ c : F, c ≠ 0 ∧ (u : W.CoordinateRing) = mk W (C (C c)) := by
  obtain ⟨p, q, e⟩ := exists_smul_basis_eq (u : W.CoordinateRing)
  have hu : IsUnit (Algebra.norm F[X] (u : W.CoordinateRing)) := u.isUnit.map _
  have hd := degree_eq_zero_of_isUnit hu
  rw [← e, degree_norm_smul_basis] at hd
  have hq : q = 0 := by
    by_contra hq
    rw [degree_eq_natDegree hq] at hd
    have := le_of_max_le_right hd.le
    have h3 : (2 • (q.natDegree : WithBot ℕ) + 3) = ((2 * q.natDegree + 3 : ℕ) : WithBot ℕ) := by push_cast; rw [nsmul_eq_mul]; rfl
    rw [h3] at this
    have := WithBot.coe_le_coe.1 this
    exact absurd this (by simp)
  subst hq
  have hp : p.degree = 0 := by
    rcases eq_or_ne p 0 with rfl | hp
    · simp at hd
    · rw [degree_eq_natDegree hp] at hd ⊢
      simp only [degree_zero, nsmul_eq_mul] at hd
      have h3 : ((2 : ℕ) : WithBot ℕ) * (p.natDegree : WithBot ℕ) = ((2 * p.natDegree : ℕ) : WithBot ℕ) := by push_cast; rfl
      rw [h3] at hd
      have hb : max (((2 * p.natDegree : ℕ)) : WithBot ℕ) (2 * ⊥ + 3) = ((2 * p.natDegree : ℕ) : WithBot ℕ) := by
        have : (2 * ⊥ + 3 : WithBot ℕ) = ⊥ := by rfl
        rw [this]; exact max_bot_right _
      have hd' : ((2 * p.natDegree : ℕ) : WithBot ℕ) = ((0 : ℕ) : WithBot ℕ) := by rw [← hb]; exact hd
      have := WithBot.coe_eq_coe.1 hd'
      have : p.natDegree = 0 := by simpa using this
      rw [this]; rfl
  obtain ⟨c, hc⟩ : ∃ c, p = C c := ⟨_, eq_C_of_degree_eq_zero hp⟩
  refine ⟨c, ?_, ?_⟩
  · rintro rfl
    rw [hc] at hp
    simp at hp
  · rw [← e, hc, zero_smul, add_zero, CoordinateRing.smul, mul_one]

/-- nine points -/
theorem array {A₁ A₂ B₁ B₂ C₁ C₂ : W.Point} (hr : A₁ + B₁ + C₁ = 0) (hs : A₂ + B₂ + C₂ = 0) (a1 : A₁ ≠ 0) (a2 : A₂ ≠ 0) (b1 : B₁ ≠ 0) (b2 : B₂ ≠ 0) (c1 : C₁ ≠ 0) (c2 : C₂ ≠ 0)
    (a : A₁ + A₂ ≠ 0) (b : B₁ + B₂ ≠ 0) (c : C₁ + C₂ ≠ 0) :
    ∃ k : F, k ≠ 0 ∧ lineC A₁ A₂ * lineC B₁ B₂ * lineC C₁ C₂ = mk W (C (C k)) * (lineC A₁ B₁ * lineC A₂ B₂ * lineC (-(A₁ + A₂)) (-(B₁ + B₂))) := by
  have e1 : -(A₁ + B₁) = C₁ := neg_eq_of_add_eq_zero_right hr
  have e2 : -(A₂ + B₂) = C₂ := neg_eq_of_add_eq_zero_right hs
  have e3 : -(-(A₁ + A₂) + -(B₁ + B₂)) = -(C₁ + C₂) := by rw [← e1, ← e2]; abel
  have n1 : A₁ + B₁ ≠ 0 := fun h => c1 (by rw [← e1, h, neg_zero])
  have n2 : A₂ + B₂ ≠ 0 := fun h => c2 (by rw [← e2, h, neg_zero])
  have n3 : -(A₁ + A₂) + -(B₁ + B₂) ≠ 0 := fun h => c (by
    have := e3; rw [h, neg_zero] at this; exact neg_eq_zero.1 this.symm)
  have i1 := line_ideal a1 a2 a
  have i2 := line_ideal b1 b2 b
  have i3 := line_ideal c1 c2 c
  have j1 := line_ideal a1 b1 n1
  have j2 := line_ideal a2 b2 n2
  have j3 := line_ideal (neg_ne_zero.2 a) (neg_ne_zero.2 b) n3
  rw [e1] at j1
  rw [e2] at j2
  rw [e3] at j3
  have key : Ideal.span {lineC A₁ A₂ * lineC B₁ B₂ * lineC C₁ C₂} = Ideal.span {lineC A₁ B₁ * lineC A₂ B₂ * lineC (-(A₁ + A₂)) (-(B₁ + B₂))} := by
    rw [← Ideal.span_singleton_mul_span_singleton, ← Ideal.span_singleton_mul_span_singleton, ← Ideal.span_singleton_mul_span_singleton, ← Ideal.span_singleton_mul_span_singleton,
      ← i1, ← i2, ← i3, ← j1, ← j2, ← j3]
    ring
  obtain ⟨u, hu⟩ := (Ideal.span_singleton_eq_span_singleton.1 key).symm
  obtain ⟨k, hk, e⟩ := unit_const u
  exact ⟨k, hk, by rw [← hu, e, mul_comm]⟩

/-- evaluation at a point over an extension -/
noncomputable def evalC {L : Type*} [CommRing L] (f : F →+* L) (x y : L) (h : W.polynomial.eval₂ (eval₂RingHom f x) y = 0) : W.CoordinateRing →+* L :=
  AdjoinRoot.lift (eval₂RingHom f x) y h

/-- the line through two points at a point over an extension -/
noncomputable def lineE {L : Type*} [CommRing L] (f : F →+* L) (x y : L) : W.Point → W.Point → L
  | .some x₁ y₁ _, .some x₂ y₂ _ => y - (f (W.slope x₁ x₂ y₁ y₂) * (x - f x₁) + f y₁)
  | _, _ => 1

theorem evalC_line {L : Type*} [CommRing L] (f : F →+* L) (x y : L) (h : W.polynomial.eval₂ (eval₂RingHom f x) y = 0) (A B : W.Point) : evalC f x y h (lineC A B) = lineE f x y A B := by
  rcases A with _ | ⟨x₁, y₁, h₁⟩
  · exact map_one _
  rcases B with _ | ⟨x₂, y₂, h₂⟩
  · exact map_one _
  unfold lineC lineE evalC YClass CoordinateRing.mk
  dsimp only
  rw [AdjoinRoot.lift_mk]
  simp [linePolynomial]

theorem evalC_const {L : Type*} [CommRing L] (f : F →+* L) (x y : L) (h : W.polynomial.eval₂ (eval₂RingHom f x) y = 0) (k : F) : evalC f x y h (mk W (C (C k))) = f k := by
  unfold evalC CoordinateRing.mk
  rw [AdjoinRoot.lift_mk]
  simp

/-- nine points, at a point over an extension -/
theorem arrayE {L : Type*} [CommRing L] (f : F →+* L) (x y : L) (h : W.polynomial.eval₂ (eval₂RingHom f x) y = 0) {A₁ A₂ B₁ B₂ C₁ C₂ : W.Point} (hr : A₁ + B₁ + C₁ = 0) (hs : A₂ + B₂ + C₂ = 0)
    (a1 : A₁ ≠ 0) (a2 : A₂ ≠ 0) (b1 : B₁ ≠ 0) (b2 : B₂ ≠ 0) (c1 : C₁ ≠ 0) (c2 : C₂ ≠ 0) (a : A₁ + A₂ ≠ 0) (b : B₁ + B₂ ≠ 0) (c : C₁ + C₂ ≠ 0) :
    ∃ k : F, k ≠ 0 ∧ lineE f x y A₁ A₂ * lineE f x y B₁ B₂ * lineE f x y C₁ C₂ = f k * (lineE f x y A₁ B₁ * lineE f x y A₂ B₂ * lineE f x y (-(A₁ + A₂)) (-(B₁ + B₂))) := by
  obtain ⟨k, hk, e⟩ := array hr hs a1 a2 b1 b2 c1 c2 a b c
  refine ⟨k, hk, ?_⟩
  have := congrArg (evalC f x y h) e
  simpa only [map_mul, evalC_line, evalC_const] using this

end Verif.Ate
