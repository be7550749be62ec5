import Mathlib.NumberTheory.LegendreSymbol.QuadraticReciprocity
import Mathlib.Tactic.LinearCombination
import Mathlib.Tactic.FieldSimp
import Verif.Tower.Ops12
/- The tower rings are fields, and the inverses computed by the code are inverses. -/
namespace Verif.Tower
set_option linter.unusedVariables false
set_option linter.unusedSectionVars false

variable {p : Nat} [hp : Fact p.Prime]

theorem norm2_ne (h4 : p % 4 = 3) {v : F2 p} (hv : v ≠ 0) : v.re ^ 2 + v.im ^ 2 ≠ 0 := by
  intro h0
  have hn : ¬IsSquare (-1 : ZMod p) := by rw [ZMod.exists_sq_eq_neg_one_iff]; simp [h4]
  by_cases hi : v.im = 0
  · have : v.re ^ 2 = 0 := by rw [hi] at h0; simpa using h0
    exact hv (QuadraticAlgebra.ext (pow_eq_zero_iff (two_ne_zero) |>.1 this) hi)
  · refine hn ⟨v.re / v.im, ?_⟩
    field_simp
    linear_combination -h0

/-- `inv2` inverts -/
theorem mul_inv2 (h4 : p % 4 = 3) {v : F2 p} (hv : v ≠ 0) : v * inv2 v = 1 := by
  have hn := norm2_ne h4 hv
  have hn' : v.re ^ 2 + v.im ^ 2 ≠ 0 := hn
  unfold inv2
  have i1 : (1 : F2 p).im = 0 := rfl
  have r1 : (1 : F2 p).re = 1 := rfl
  ext
  · rw [QuadraticAlgebra.re_mul, r1]
    field_simp
  · rw [QuadraticAlgebra.im_mul, i1]
    field_simp
    ring

theorem f2_zero (h4 : p % 4 = 3) {v w : F2 p} (h : v * w = 0) : v = 0 ∨ w = 0 := by
  by_cases hv : v = 0
  · exact Or.inl hv
  · right
    have := mul_inv2 h4 hv
    calc w = (v * inv2 v) * w := by rw [this, one_mul]
      _ = inv2 v * (v * w) := by ring
      _ = 0 := by rw [h, mul_zero]

/-- the norm of `F2` over `Z/p` -/
def nm2 (v : F2 p) : ZMod p := v.re ^ 2 + v.im ^ 2
theorem nm2_mul (v w : F2 p) : nm2 (v * w) = nm2 v * nm2 w := by
  unfold nm2
  rw [QuadraticAlgebra.re_mul, QuadraticAlgebra.im_mul]
  ring

theorem xi_nonsq (h8 : p % 8 = 3) (u : F2 p) : u ^ 2 ≠ xi p := by
  intro h
  have : nm2 u * nm2 u = nm2 (xi p) := by rw [← nm2_mul, ← h]; congr 1; ring
  have h2 : IsSquare (2 : ZMod p) := ⟨nm2 u, by rw [this]; simp [nm2]; norm_num⟩
  rw [ZMod.exists_sq_eq_two_iff (by rintro rfl; omega)] at h2
  omega

theorem norm4_ne (h8 : p % 8 = 3) {v : F4 p} (hv : v ≠ 0) : v.re ^ 2 - v.im ^ 2 * xi p ≠ 0 := by
  have h4 : p % 4 = 3 := by omega
  intro h0
  by_cases hi : v.im = 0
  · have : v.re * v.re = 0 := by rw [hi] at h0; linear_combination h0
    have := (f2_zero h4 this)
    exact hv (QuadraticAlgebra.ext (by tauto) hi)
  · refine xi_nonsq h8 (v.re * inv2 v.im) ?_
    have := mul_inv2 h4 hi
    linear_combination inv2 v.im ^ 2 * h0 + xi p * (v.im * inv2 v.im + 1) * this

/-- `inv4` inverts -/
theorem mul_inv4 (h8 : p % 8 = 3) {v : F4 p} (hv : v ≠ 0) : v * inv4 v = 1 := by
  have hn := mul_inv2 (by omega) (norm4_ne h8 hv)
  have i1 : (1 : F4 p).im = 0 := rfl
  have r1 : (1 : F4 p).re = 1 := rfl
  unfold inv4
  ext1
  · rw [QuadraticAlgebra.re_mul, r1]
    linear_combination hn
  · rw [QuadraticAlgebra.im_mul, i1]
    ring

theorem f4_zero (h8 : p % 8 = 3) {v w : F4 p} (h : v * w = 0) : v = 0 ∨ w = 0 := by
  by_cases hv : v = 0
  · exact Or.inl hv
  · right
    have := mul_inv4 h8 hv
    calc w = (v * inv4 v) * w := by rw [this, one_mul]
      _ = inv4 v * (v * w) := by ring
      _ = 0 := by rw [h, mul_zero]

/-- the norm of `F4` over `F2` -/
def nm4 (v : F4 p) : F2 p := v.re ^ 2 - v.im ^ 2 * xi p
theorem nm4_mul (v w : F4 p) : nm4 (v * w) = nm4 v * nm4 w := by
  unfold nm4
  rw [QuadraticAlgebra.re_mul, QuadraticAlgebra.im_mul]
  ring

/-- `w` is not a cube when 2 is not a cube modulo `p` -/
theorem om_noncube (h2 : ∀ m : ZMod p, m ^ 3 ≠ 2) (u : F4 p) : u ^ 3 ≠ om p := by
  intro h
  have e1 : nm4 u ^ 3 = - xi p := by
    have : nm4 (u ^ 3) = nm4 u ^ 3 := by rw [pow_succ, pow_two u, nm4_mul, nm4_mul]; ring
    rw [← this, h]
    simp [nm4]
  have e2 : nm2 (nm4 u) ^ 3 = 2 := by
    have : nm2 (nm4 u ^ 3) = nm2 (nm4 u) ^ 3 := by rw [pow_succ, pow_two (nm4 u), nm2_mul, nm2_mul]; ring
    rw [← this, e1]
    simp [nm2]
    norm_num
  exact h2 _ e2

theorem adj_mul (v : F12 p) : v * adj12 v = ⟨norm12 v, 0, 0⟩ := by
  ext1
  · simp only [CubicAlgebra.mul_a, norm12]; ring
  · simp only [CubicAlgebra.mul_b, adj12]; ring
  · simp only [CubicAlgebra.mul_c, adj12]; ring

theorem norm12_ne (h8 : p % 8 = 3) (h2 : ∀ m : ZMod p, m ^ 3 ≠ 2) {v : F12 p} (hv : v ≠ 0) : norm12 v ≠ 0 := by
  intro h0
  -- if x^3 = w * y^3 with y ≠ 0, w is a cube
  have key : ∀ x y : F4 p, x ^ 3 = om p * y ^ 3 → y = 0 := by
    intro x y e
    by_contra hy
    have i := mul_inv4 h8 hy
    refine om_noncube h2 (x * inv4 y) ?_
    have : om p * (y * inv4 y) ^ 3 = om p := by rw [i]; ring
    linear_combination inv4 y ^ 3 * e + this
  have kz : ∀ x y : F4 p, x ^ 3 = om p * y ^ 3 → x = 0 := by
    intro x y e
    have := key x y e
    rw [this] at e
    have e : x * (x * x) = 0 := by linear_combination e
    rcases f4_zero h8 e with h | h
    · exact h
    · rcases f4_zero h8 h with h | h <;> exact h
  obtain ⟨a, b, c⟩ := v
  simp only [norm12, adj12] at h0
  -- f0, f1, f2
  have i1 : (om p * c ^ 2 - a * b) ^ 2 = (a ^ 2 - om p * (b * c)) * (b ^ 2 - a * c) := by
    linear_combination (c : F4 p) * h0
  have i2 : om p * (b ^ 2 - a * c) ^ 2 = (a ^ 2 - om p * (b * c)) * (om p * c ^ 2 - a * b) := by
    linear_combination (b : F4 p) * h0
  have f1 : b ^ 2 - a * c = 0 := by
    apply key (om p * c ^ 2 - a * b)
    linear_combination (om p * c ^ 2 - a * b) * i1 - (b ^ 2 - a * c) * i2
  have f0 : om p * c ^ 2 - a * b = 0 := by
    apply kz _ (b ^ 2 - a * c)
    linear_combination (om p * c ^ 2 - a * b) * i1 - (b ^ 2 - a * c) * i2
  have c0 : c = 0 := by
    apply key b
    linear_combination b * f1 - c * f0
  subst c0
  have b0 : b = 0 := by
    have : b * b = 0 := by linear_combination f1
    rcases f4_zero h8 this with h | h <;> exact h
  subst b0
  have a0 : a = 0 := by
    have : a * (a * a) = 0 := by linear_combination h0
    rcases f4_zero h8 this with h | h
    · exact h
    · rcases f4_zero h8 h with h | h <;> exact h
  exact hv (by rw [a0]; rfl)

/-- the inverse `FP12::inverse` computes -/
def inv12 (v : F12 p) : F12 p := adj12 v * ⟨inv4 (norm12 v), 0, 0⟩

theorem mul_inv12 (h8 : p % 8 = 3) (h2 : ∀ m : ZMod p, m ^ 3 ≠ 2) {v : F12 p} (hv : v ≠ 0) : v * inv12 v = 1 := by
  unfold inv12
  rw [← mul_assoc, adj_mul]
  have := mul_inv4 h8 (norm12_ne h8 h2 hv)
  ext1 <;> simp [this]

/-- 2 is not a cube when `p ≡ 1 (mod 3)` and `2^((p-1)/3) ≠ 1` -/
theorem two_noncube (h3 : p % 3 = 1) (hne : (2 : ZMod p) ^ ((p - 1) / 3) ≠ 1) (m : ZMod p) : m ^ 3 ≠ 2 := by
  intro h
  by_cases hm : m = 0
  · rw [hm] at h
    apply hne
    rw [← h]
    exfalso
    have h2 : ((2 : Nat) : ZMod p) = 0 := by push_cast; rw [← h]; ring
    rw [ZMod.natCast_eq_zero_iff] at h2
    have := Nat.le_of_dvd (by norm_num) h2
    have := hp.out.two_le
    have : p = 2 := by omega
    omega
  · apply hne
    rw [← h, ← pow_mul]
    have : 3 * ((p - 1) / 3) = p - 1 := by have := hp.out.two_le; omega
    rw [this]
    exact ZMod.pow_card_sub_one_eq_one hm
end Verif.Tower
