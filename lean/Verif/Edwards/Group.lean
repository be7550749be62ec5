import Verif.Spec.Edwards
import Mathlib.Tactic.Ring
import Mathlib.Tactic.LinearCombination
import Mathlib.Tactic.FieldSimp
/- The twisted Edwards addition law is complete and makes the points a commutative group. -/
namespace Verif.Edwards

variable {F : Type} [Field F] {a d : F}

theorem assoc_x {x1 y1 x2 y2 x3 y3 : F} (h1 : a * x1 ^ 2 + y1 ^ 2 = 1 + d * x1 ^ 2 * y1 ^ 2) (h2 : a * x2 ^ 2 + y2 ^ 2 = 1 + d * x2 ^ 2 * y2 ^ 2) (h3 : a * x3 ^ 2 + y3 ^ 2 = 1 + d * x3 ^ 2 * y3 ^ 2) :
    ((x1*y2+y1*x2)*y3*(1-(d*x1*x2*y1*y2))+(y1*y2-a*x1*x2)*x3*(1+(d*x1*x2*y1*y2)))*((1+(d*x2*x3*y2*y3))*(1-(d*x2*x3*y2*y3))+d*x1*(x2*y3+y2*x3)*y1*(y2*y3-a*x2*x3)) =
      (x1*(y2*y3-a*x2*x3)*(1+(d*x2*x3*y2*y3))+y1*(x2*y3+y2*x3)*(1-(d*x2*x3*y2*y3)))*((1+(d*x1*x2*y1*y2))*(1-(d*x1*x2*y1*y2))+d*(x1*y2+y1*x2)*x3*(y1*y2-a*x1*x2)*y3) := by
  linear_combination (exp := 1) (-a^2*d*x1*x2^4*y2*x3^2*y3 -a^2*d*x1*x2^3*y2^2*x3^3 +a*d^2*x1*x2^4*y2^3*x3^2*y3 +a*d*x1*x2^3*y2^2*x3 -a*d*y1*x2^4*y2*x3*y3^2 +a*d*y1*x2^2*y2^3*x3^3 -d^2*x1*x2^3*y2^4*x3*y3^2 +d^2*y1*x2^4*y2^3*x3*y3^2 +d^2*y1*x2^3*y2^4*x3^2*y3 +d*x1*x2^2*y2^3*y3^3 -d*x1*x2^2*y2^3*y3 +d*x1*x2*y2^4*x3*y3^2 +d*y1*x2^3*y2^2*y3^3 -d*y1*x2^3*y2^2*y3 -d*y1*x2^2*y2^3*x3 -d*y1*x2*y2^4*x3^2*y3)*h1 + (-a^3*x1^3*x2*x3^3 +a^2*d*x1^3*x2^2*y2*x3^2*y3 +a^2*d*x1^3*x2*x3^3*y3^2 -a^2*x1^3*x2*x3*y3^2 +a^2*x1^3*x2*x3 +a^2*x1^3*y2*x3^2*y3 +a^2*x1^2*y1*x2*x3^2*y3 +a^2*x1^2*y1*y2*x3^3 -a^2*x1*y1^2*x2*x3^3 +a^2*x1*x2*x3^3 -a*d^2*x1^2*y1*x2^2*y2*x3^3*y3^2 -a*d*x1^3*x2*y2^2*x3*y3^2 -a*d*x1^3*y2*x3^2*y3^3 +a*d*x1^2*y1*x2^2*y2*x3*y3^2 +a*d*x1^2*y1*x2*y2^2*x3^2*y3 -a*d*x1^2*y1*x2*x3^2*y3^3 -a*d*x1^2*y1*y2*x3^3*y3^2 +a*d*x1*y1^2*x2^2*y2*x3^2*y3 +a*d*x1*y1^2*x2*x3^3*y3^2 -a*d*x1*x2^2*y2*x3^2*y3 -a*d*x1*x2*x3^3*y3^2 +a*x1^3*y2*y3^3 -a*x1^3*y2*y3 +a*x1^2*y1*x2*y3^3 -a*x1^2*y1*x2*y3 +a*x1^2*y1*y2*x3*y3^2 -a*x1^2*y1*y2*x3 -a*x1*y1^2*x2*x3*y3^2 +a*x1*y1^2*x2*x3 +a*x1*y1^2*y2*x3^2*y3 +a*x1*x2*x3*y3^2 -a*x1*x2*x3 -a*x1*y2*x3^2*y3 +a*y1^3*x2*x3^2*y3 +a*y1^3*y2*x3^3 -a*y1*x2*x3^2*y3 -a*y1*y2*x3^3 -d^2*x1^2*y1*x2*y2^2*x3^2*y3^3 -d^2*x1*y1^2*x2^2*y2*x3^2*y3^3 +d^2*x1*y1^2*x2*y2^2*x3^3*y3^2 -d*x1*y1^2*x2*y2^2*x3*y3^2 -d*x1*y1^2*y2*x3^2*y3^3 +d*x1*x2*y2^2*x3*y3^2 +d*x1*y2*x3^2*y3^3 +d*y1^3*x2^2*y2*x3*y3^2 +d*y1^3*x2*y2^2*x3^2*y3 -d*y1^3*x2*x3^2*y3^3 -d*y1^3*y2*x3^3*y3^2 -d*y1*x2^2*y2*x3*y3^2 -d*y1*x2*y2^2*x3^2*y3 +d*y1*x2*x3^2*y3^3 +d*y1*y2*x3^3*y3^2 +x1*y1^2*y2*y3^3 -x1*y1^2*y2*y3 -x1*y2*y3^3 +x1*y2*y3 +y1^3*x2*y3^3 -y1^3*x2*y3 +y1^3*y2*x3*y3^2 -y1^3*y2*x3 -y1*x2*y3^3 +y1*x2*y3 -y1*y2*x3*y3^2 +y1*y2*x3)*h2 + (a^3*x1^3*x2^3*x3 -a^2*x1^3*x2^2*y2*y3 +a^2*x1^3*x2*y2^2*x3 -a^2*x1^3*x2*x3 -a^2*x1^2*y1*x2^3*y3 -a^2*x1^2*y1*x2^2*y2*x3 +a^2*x1*y1^2*x2^3*x3 -a^2*x1*x2^3*x3 +a*d*x1^2*y1*x2^2*y2*x3 -a*x1^3*y2^3*y3 +a*x1^3*y2*y3 -a*x1^2*y1*x2*y2^2*y3 +a*x1^2*y1*x2*y3 -a*x1^2*y1*y2^3*x3 +a*x1^2*y1*y2*x3 -a*x1*y1^2*x2^2*y2*y3 +a*x1*y1^2*x2*y2^2*x3 -a*x1*y1^2*x2*x3 +a*x1*x2^2*y2*y3 -a*x1*x2*y2^2*x3 +a*x1*x2*x3 -a*y1^3*x2^3*y3 -a*y1^3*x2^2*y2*x3 +a*y1*x2^3*y3 +a*y1*x2^2*y2*x3 +d*x1^2*y1*x2*y2^2*y3 +d*x1*y1^2*x2^2*y2*y3 -d*x1*y1^2*x2*y2^2*x3 -x1*y1^2*y2^3*y3 +x1*y1^2*y2*y3 +x1*y2^3*y3 -x1*y2*y3 -y1^3*x2*y2^2*y3 +y1^3*x2*y3 -y1^3*y2^3*x3 +y1^3*y2*x3 +y1*x2*y2^2*y3 -y1*x2*y3 +y1*y2^3*x3 -y1*y2*x3)*h3

theorem assoc_y {x1 y1 x2 y2 x3 y3 : F} (h1 : a * x1 ^ 2 + y1 ^ 2 = 1 + d * x1 ^ 2 * y1 ^ 2) (h2 : a * x2 ^ 2 + y2 ^ 2 = 1 + d * x2 ^ 2 * y2 ^ 2) (h3 : a * x3 ^ 2 + y3 ^ 2 = 1 + d * x3 ^ 2 * y3 ^ 2) :
    ((y1*y2-a*x1*x2)*y3*(1+(d*x1*x2*y1*y2))-a*(x1*y2+y1*x2)*x3*(1-(d*x1*x2*y1*y2)))*((1+(d*x2*x3*y2*y3))*(1-(d*x2*x3*y2*y3))-d*x1*(x2*y3+y2*x3)*y1*(y2*y3-a*x2*x3)) =
      (y1*(y2*y3-a*x2*x3)*(1+(d*x2*x3*y2*y3))-a*x1*(x2*y3+y2*x3)*(1-(d*x2*x3*y2*y3)))*((1+(d*x1*x2*y1*y2))*(1-(d*x1*x2*y1*y2))-d*(x1*y2+y1*x2)*x3*(y1*y2-a*x1*x2)*y3) := by
  linear_combination (exp := 1) (a^2*d*x1*x2^4*y2*x3*y3^2 -a^2*d*x1*x2^2*y2^3*x3^3 -a^2*d*y1*x2^4*y2*x3^2*y3 -a^2*d*y1*x2^3*y2^2*x3^3 -a*d^2*x1*x2^4*y2^3*x3*y3^2 -a*d^2*x1*x2^3*y2^4*x3^2*y3 +a*d^2*y1*x2^4*y2^3*x3^2*y3 -a*d*x1*x2^3*y2^2*y3^3 +a*d*x1*x2^3*y2^2*y3 +a*d*x1*x2^2*y2^3*x3 +a*d*x1*x2*y2^4*x3^2*y3 +a*d*y1*x2^3*y2^2*x3 -d^2*y1*x2^3*y2^4*x3*y3^2 +d*y1*x2^2*y2^3*y3^3 -d*y1*x2^2*y2^3*y3 +d*y1*x2*y2^4*x3*y3^2)*h1 + (-a^3*x1^3*x2*x3^2*y3 -a^3*x1^3*y2*x3^3 -a^3*x1^2*y1*x2*x3^3 -a^2*d*x1^3*x2^2*y2*x3*y3^2 -a^2*d*x1^3*x2*y2^2*x3^2*y3 +a^2*d*x1^3*x2*x3^2*y3^3 +a^2*d*x1^3*y2*x3^3*y3^2 +a^2*d*x1^2*y1*x2^2*y2*x3^2*y3 +a^2*d*x1^2*y1*x2*x3^3*y3^2 -a^2*x1^3*x2*y3^3 +a^2*x1^3*x2*y3 -a^2*x1^3*y2*x3*y3^2 +a^2*x1^3*y2*x3 -a^2*x1^2*y1*x2*x3*y3^2 +a^2*x1^2*y1*x2*x3 +a^2*x1^2*y1*y2*x3^2*y3 -a^2*x1*y1^2*x2*x3^2*y3 -a^2*x1*y1^2*y2*x3^3 +a^2*x1*x2*x3^2*y3 +a^2*x1*y2*x3^3 -a^2*y1^3*x2*x3^3 +a^2*y1*x2*x3^3 -a*d^2*x1^2*y1*x2^2*y2*x3^2*y3^3 +a*d^2*x1^2*y1*x2*y2^2*x3^3*y3^2 +a*d^2*x1*y1^2*x2^2*y2*x3^3*y3^2 -a*d*x1^2*y1*x2*y2^2*x3*y3^2 -a*d*x1^2*y1*y2*x3^2*y3^3 -a*d*x1*y1^2*x2^2*y2*x3*y3^2 -a*d*x1*y1^2*x2*y2^2*x3^2*y3 +a*d*x1*y1^2*x2*x3^2*y3^3 +a*d*x1*y1^2*y2*x3^3*y3^2 +a*d*x1*x2^2*y2*x3*y3^2 +a*d*x1*x2*y2^2*x3^2*y3 -a*d*x1*x2*x3^2*y3^3 -a*d*x1*y2*x3^3*y3^2 +a*d*y1^3*x2^2*y2*x3^2*y3 +a*d*y1^3*x2*x3^3*y3^2 -a*d*y1*x2^2*y2*x3^2*y3 -a*d*y1*x2*x3^3*y3^2 +a*x1^2*y1*y2*y3^3 -a*x1^2*y1*y2*y3 -a*x1*y1^2*x2*y3^3 +a*x1*y1^2*x2*y3 -a*x1*y1^2*y2*x3*y3^2 +a*x1*y1^2*y2*x3 +a*x1*x2*y3^3 -a*x1*x2*y3 +a*x1*y2*x3*y3^2 -a*x1*y2*x3 -a*y1^3*x2*x3*y3^2 +a*y1^3*x2*x3 +a*y1^3*y2*x3^2*y3 +a*y1*x2*x3*y3^2 -a*y1*x2*x3 -a*y1*y2*x3^2*y3 +d^2*x1*y1^2*x2*y2^2*x3^2*y3^3 -d*y1^3*x2*y2^2*x3*y3^2 -d*y1^3*y2*x3^2*y3^3 +d*y1*x2*y2^2*x3*y3^2 +d*y1*y2*x3^2*y3^3 +y1^3*y2*y3^3 -y1^3*y2*y3 -y1*y2*y3^3 +y1*y2*y3)*h2 + (a^3*x1^3*x2^3*y3 +a^3*x1^3*x2^2*y2*x3 +a^3*x1^2*y1*x2^3*x3 +a^2*x1^3*x2*y2^2*y3 -a^2*x1^3*x2*y3 +a^2*x1^3*y2^3*x3 -a^2*x1^3*y2*x3 -a^2*x1^2*y1*x2^2*y2*y3 +a^2*x1^2*y1*x2*y2^2*x3 -a^2*x1^2*y1*x2*x3 +a^2*x1*y1^2*x2^3*y3 +a^2*x1*y1^2*x2^2*y2*x3 -a^2*x1*x2^3*y3 -a^2*x1*x2^2*y2*x3 +a^2*y1^3*x2^3*x3 -a^2*y1*x2^3*x3 +a*d*x1^2*y1*x2^2*y2*y3 -a*d*x1^2*y1*x2*y2^2*x3 -a*d*x1*y1^2*x2^2*y2*x3 -a*x1^2*y1*y2^3*y3 +a*x1^2*y1*y2*y3 +a*x1*y1^2*x2*y2^2*y3 -a*x1*y1^2*x2*y3 +a*x1*y1^2*y2^3*x3 -a*x1*y1^2*y2*x3 -a*x1*x2*y2^2*y3 +a*x1*x2*y3 -a*x1*y2^3*x3 +a*x1*y2*x3 -a*y1^3*x2^2*y2*y3 +a*y1^3*x2*y2^2*x3 -a*y1^3*x2*x3 +a*y1*x2^2*y2*y3 -a*y1*x2*y2^2*x3 +a*y1*x2*x3 -d*x1*y1^2*x2*y2^2*y3 -y1^3*y2^3*y3 +y1^3*y2*y3 +y1*y2^3*y3 -y1*y2*y3)*h3

theorem closed_poly {x1 y1 x2 y2 : F} (h1 : a * x1 ^ 2 + y1 ^ 2 = 1 + d * x1 ^ 2 * y1 ^ 2) (h2 : a * x2 ^ 2 + y2 ^ 2 = 1 + d * x2 ^ 2 * y2 ^ 2) :
    a*(x1*y2+y1*x2)^2*(1-(d*x1*x2*y1*y2))^2+(y1*y2-a*x1*x2)^2*(1+(d*x1*x2*y1*y2))^2 = (1+(d*x1*x2*y1*y2))^2*(1-(d*x1*x2*y1*y2))^2+d*(x1*y2+y1*x2)^2*(y1*y2-a*x1*x2)^2 := by
  linear_combination (exp := 1) (-a^2*d*x1^2*x2^4*y2^2 -2*a^2*x2^4*y2^2 +a^2*x2^4 +a*d^2*x1^2*x2^4*y2^4 -a*d*x1^2*x2^2*y2^4 -a*d*y1^2*x2^4*y2^2 +2*a*d*x2^4*y2^4 -2*a*x2^2*y2^4 +4*a*x2^2*y2^2 +d^3*x1^2*y1^2*x2^4*y2^4 +d^2*y1^2*x2^4*y2^4 -d^2*x2^4*y2^4 -d*y1^2*x2^2*y2^4 -2*d*x2^2*y2^2 +y2^4)*h1 + (a^2*d*x1^4*x2^2*y2^2 +2*a^2*x1^2*x2^2*y2^2 -a^2*x1^2*x2^2 -2*a*d*x1^2*x2^2*y2^2 -a*x1^2*y2^2 +2*a*y1^2*x2^2*y2^2 -a*y1^2*x2^2 -2*a*x2^2*y2^2 +a*x2^2 +d*y1^4*x2^2*y2^2 -2*d*y1^2*x2^2*y2^2 +d*x2^2*y2^2 -y1^2*y2^2 +y2^2 +1)*h2

/-- the denominators of the addition law never vanish -/
theorem denom (hc : Complete a d) {x1 y1 x2 y2 : F} (h1 : OnCurve a d x1 y1) (h2 : OnCurve a d x2 y2) {ε : F} (hε : ε ^ 2 = 1) :
    d * x1 * x2 * y1 * y2 ≠ ε := by
  intro he
  obtain ⟨s, hs, hsa⟩ := hc.a
  unfold OnCurve at h1 h2
  have hε0 : ε ≠ 0 := by rintro rfl; simp at hε
  have hx1 : x1 ≠ 0 := by rintro rfl; apply hε0; rw [← he]; ring
  have hy1 : y1 ≠ 0 := by rintro rfl; apply hε0; rw [← he]; ring
  have hx2 : x2 ≠ 0 := by rintro rfl; apply hε0; rw [← he]; ring
  have key : ∀ t : F, t ^ 2 = a → (t * x1 + ε * y1) ^ 2 = d * (x1 * y1 * (t * x2 + y2)) ^ 2 := by
    intro t ht
    have e2 : (d * x1 * x2 * y1 * y2) ^ 2 = 1 := by rw [he, hε]
    linear_combination (-(2 * t * x1 * y1)) * he + y1 ^ 2 * hε + h1 - d * x1 ^ 2 * y1 ^ 2 * h2 - e2 + (x1 ^ 2 - d * x1 ^ 2 * y1 ^ 2 * x2 ^ 2) * ht
  have sq : ∀ t : F, t ^ 2 = a → t * x2 + y2 = 0 := by
    intro t ht
    by_contra h0
    apply hc.d
    have hn : x1 * y1 * (t * x2 + y2) ≠ 0 := mul_ne_zero (mul_ne_zero hx1 hy1) h0
    exact ⟨(t * x1 + ε * y1) / (x1 * y1 * (t * x2 + y2)), by rw [div_pow, key t ht]; field_simp⟩
  have p := sq s hsa
  have m := sq (-s) (by rw [neg_sq]; exact hsa)
  have : 2 * (s * x2) = 0 := by linear_combination p - m
  rcases mul_eq_zero.mp this with h | h
  · exact hc.two h
  · rcases mul_eq_zero.mp h with h | h
    · exact hs h
    · exact hx2 h

theorem denomP (hc : Complete a d) {x1 y1 x2 y2 : F} (h1 : OnCurve a d x1 y1) (h2 : OnCurve a d x2 y2) : 1 + d * x1 * x2 * y1 * y2 ≠ 0 := by
  intro h; exact denom hc h1 h2 (ε := -1) (by ring) (by linear_combination h)

theorem denomM (hc : Complete a d) {x1 y1 x2 y2 : F} (h1 : OnCurve a d x1 y1) (h2 : OnCurve a d x2 y2) : 1 - d * x1 * x2 * y1 * y2 ≠ 0 := by
  intro h; exact denom hc h1 h2 (ε := 1) (by ring) (by linear_combination -h)

theorem closed_frac {N M u v : F} (hu : u ≠ 0) (hv : v ≠ 0) (h : a * N ^ 2 * v ^ 2 + M ^ 2 * u ^ 2 = u ^ 2 * v ^ 2 + d * N ^ 2 * M ^ 2) :
    OnCurve a d (N / u) (M / v) := by
  unfold OnCurve
  field_simp
  linear_combination h

theorem sumX_left {N M u v x y : F} (hu : u ≠ 0) (hv : v ≠ 0) :
    sumX d (N / u) (M / v) x y = (N * y * v + M * x * u) / (u * v + d * N * x * M * y) := by
  unfold sumX
  rw [show N / u * y + M / v * x = (N * y * v + M * x * u) / (u * v) by field_simp,
    show 1 + d * (N / u) * x * (M / v) * y = (u * v + d * N * x * M * y) / (u * v) by field_simp]
  exact div_div_div_cancel_right₀ (mul_ne_zero hu hv) _ _

theorem sumY_left {N M u v x y : F} (hu : u ≠ 0) (hv : v ≠ 0) :
    sumY a d (N / u) (M / v) x y = (M * y * u - a * N * x * v) / (u * v - d * N * x * M * y) := by
  unfold sumY
  rw [show M / v * y - a * (N / u) * x = (M * y * u - a * N * x * v) / (u * v) by field_simp,
    show 1 - d * (N / u) * x * (M / v) * y = (u * v - d * N * x * M * y) / (u * v) by field_simp]
  exact div_div_div_cancel_right₀ (mul_ne_zero hu hv) _ _

theorem sumX_comm (x1 y1 x2 y2 : F) : sumX d x1 y1 x2 y2 = sumX d x2 y2 x1 y1 := by
  unfold sumX; congr 1 <;> ring

theorem sumY_comm (x1 y1 x2 y2 : F) : sumY a d x1 y1 x2 y2 = sumY a d x2 y2 x1 y1 := by
  unfold sumY; congr 1 <;> ring

theorem denX_left {N M u v x y : F} (hu : u ≠ 0) (hv : v ≠ 0) (h : 1 + d * (N / u) * x * (M / v) * y ≠ 0) : u * v + d * N * x * M * y ≠ 0 := by
  intro h0; apply h
  rw [show 1 + d * (N / u) * x * (M / v) * y = (u * v + d * N * x * M * y) / (u * v) by field_simp, h0, zero_div]

theorem denY_left {N M u v x y : F} (hu : u ≠ 0) (hv : v ≠ 0) (h : 1 - d * (N / u) * x * (M / v) * y ≠ 0) : u * v - d * N * x * M * y ≠ 0 := by
  intro h0; apply h
  rw [show 1 - d * (N / u) * x * (M / v) * y = (u * v - d * N * x * M * y) / (u * v) by field_simp, h0, zero_div]

theorem closed (hc : Complete a d) {x1 y1 x2 y2 : F} (h1 : OnCurve a d x1 y1) (h2 : OnCurve a d x2 y2) :
    OnCurve a d (sumX d x1 y1 x2 y2) (sumY a d x1 y1 x2 y2) := by
  have p := denomP hc h1 h2
  have m := denomM hc h1 h2
  have hh := closed_poly h1 h2
  unfold sumX sumY
  exact closed_frac p m hh

variable [hc : Fact (Complete a d)]

instance : Zero (Point a d) := ⟨⟨0, 1, by unfold OnCurve; ring⟩⟩
instance : Add (Point a d) := ⟨fun P Q => ⟨sumX d P.x P.y Q.x Q.y, sumY a d P.x P.y Q.x Q.y, closed hc.out P.on Q.on⟩⟩
instance : Neg (Point a d) := ⟨fun P => ⟨-P.x, P.y, by have := P.on; unfold OnCurve at *; rw [neg_sq]; exact this⟩⟩

theorem add_x (P Q : Point a d) : (P + Q).x = sumX d P.x P.y Q.x Q.y := rfl
theorem add_y (P Q : Point a d) : (P + Q).y = sumY a d P.x P.y Q.x Q.y := rfl
omit hc in
@[simp] theorem zero_x : (0 : Point a d).x = 0 := rfl
omit hc in
@[simp] theorem zero_y : (0 : Point a d).y = 1 := rfl
omit hc in
@[simp] theorem neg_x (P : Point a d) : (-P).x = -P.x := rfl
omit hc in
@[simp] theorem neg_y (P : Point a d) : (-P).y = P.y := rfl

theorem assoc (P Q R : Point a d) : P + Q + R = P + (Q + R) := by
  have hPQ := (P + Q).on
  have hQR := (Q + R).on
  have p1 := denomP hc.out P.on Q.on
  have m1 := denomM hc.out P.on Q.on
  have p2 := denomP hc.out Q.on R.on
  have m2 := denomM hc.out Q.on R.on
  have p3 := denomP hc.out hPQ R.on
  have m3 := denomM hc.out hPQ R.on
  have p4 := denomP hc.out hQR P.on
  have m4 := denomM hc.out hQR P.on
  have ax := assoc_x P.on Q.on R.on
  have ay := assoc_y P.on Q.on R.on
  have p3' := denX_left p1 m1 p3
  have m3' := denY_left p1 m1 m3
  have p4' := denX_left p2 m2 p4
  have m4' := denY_left p2 m2 m4
  apply Point.ext
  · rw [add_x (P + Q) R, add_x P (Q + R), sumX_comm P.x P.y, add_x P Q, add_x Q R, add_y P Q, add_y Q R]
    show sumX d (_ / _) (_ / _) _ _ = sumX d (_ / _) (_ / _) _ _
    rw [sumX_left p1 m1, sumX_left p2 m2, div_eq_div_iff p3' p4']
    linear_combination ax
  · rw [add_y (P + Q) R, add_y P (Q + R), sumY_comm P.x P.y, add_x P Q, add_x Q R, add_y P Q, add_y Q R]
    show sumY a d (_ / _) (_ / _) _ _ = sumY a d (_ / _) (_ / _) _ _
    rw [sumY_left p1 m1, sumY_left p2 m2, div_eq_div_iff m3' m4']
    linear_combination ay

theorem comm (P Q : Point a d) : P + Q = Q + P := by
  apply Point.ext
  · rw [add_x, add_x]; unfold sumX
    congr 1 <;> ring
  · rw [add_y, add_y]; unfold sumY
    congr 1 <;> ring

theorem zero_add' (P : Point a d) : 0 + P = P := by
  apply Point.ext
  · rw [add_x]; simp [sumX]
  · rw [add_y]; simp [sumY]

theorem neg_add' (P : Point a d) : -P + P = 0 := by
  have hp := denomP hc.out (-P).on P.on
  have hm := denomM hc.out (-P).on P.on
  have h := P.on
  unfold OnCurve at h
  apply Point.ext
  · rw [add_x]; unfold sumX; rw [neg_x, neg_y, zero_x, div_eq_zero_iff]; left; ring
  · rw [add_y]; unfold sumY at *
    rw [neg_x, neg_y] at *
    rw [zero_y, div_eq_one_iff_eq hm]
    linear_combination h

/-- the points of a complete twisted Edwards curve form a commutative group -/
instance : AddCommGroup (Point a d) where
  add_assoc := assoc
  zero_add := zero_add'
  add_zero P := by rw [comm]; exact zero_add' P
  neg_add_cancel := neg_add'
  add_comm := comm
  nsmul := nsmulRec
  zsmul := zsmulRec

end Verif.Edwards

