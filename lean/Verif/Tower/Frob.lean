import Mathlib.Algebra.CharP.Lemmas
import Mathlib.Algebra.CharP.Basic
import Verif.Tower.Alg
/- The Frobenius maps of the tower, and squaring in the cyclotomic subgroup. -/
namespace Verif.Tower
set_option linter.unusedVariables false
set_option linter.unusedSectionVars false

variable {p : Nat} [hp : Fact p.Prime]

/-- the inclusion of `Z/p` in `F2` -/
def c2 (p : Nat) : ZMod p →+* F2 p where
  toFun a := ⟨a, 0⟩
  map_one' := rfl
  map_zero' := rfl
  map_add' a b := by ext <;> simp
  map_mul' a b := by ext <;> simp
/-- the inclusion of `F2` in `F4` -/
def c4 (p : Nat) : F2 p →+* F4 p where
  toFun a := ⟨a, 0⟩
  map_one' := rfl
  map_zero' := rfl
  map_add' a b := by ext1 <;> simp
  map_mul' a b := by ext1 <;> simp
/-- the inclusion of `F4` in `F12` -/
def c12 (p : Nat) : F4 p →+* F12 p where
  toFun a := ⟨a, 0, 0⟩
  map_one' := rfl
  map_zero' := rfl
  map_add' a b := by ext1 <;> simp
  map_mul' a b := by ext1 <;> simp

/-- `i` -/
abbrev ii (p : Nat) : F2 p := ⟨0, 1⟩
/-- `v` -/
abbrev vv (p : Nat) : F12 p := ⟨0, 1, 0⟩

instance : Nontrivial (F12 p) := ⟨0, 1, fun h => by
  have := congrArg CubicAlgebra.a h
  simp at this⟩

instance : CharP (F2 p) p := (CharP.charP_iff_prime_eq_zero hp.out).2 (by rw [← map_natCast (c2 p), CharP.cast_eq_zero, map_zero])
instance : CharP (F4 p) p := (CharP.charP_iff_prime_eq_zero hp.out).2 (by rw [← map_natCast (c4 p), CharP.cast_eq_zero, map_zero])
instance : CharP (F12 p) p := (CharP.charP_iff_prime_eq_zero hp.out).2 (by rw [← map_natCast (c12 p), CharP.cast_eq_zero, map_zero])

theorem f2_split (v : F2 p) : v = c2 p v.re + c2 p v.im * ii p := by ext <;> simp [c2]
theorem f4_split (v : F4 p) : v = c4 p v.re + c4 p v.im * om p := by ext1 <;> simp [c4]
theorem f12_split (v : F12 p) : v = c12 p v.a + c12 p v.b * vv p + c12 p v.c * vv p ^ 2 := by
  rw [pow_two (vv p)]
  ext1 <;> simp [c12]

theorem ii_sq : ii p ^ 2 = -1 := by
  rw [pow_two]
  have i1 : (1 : F2 p).im = 0 := rfl
  have r1 : (1 : F2 p).re = 1 := rfl
  ext
  · simp [r1]
  · simp [i1]
theorem om_sq : om p ^ 2 = c4 p (xi p) := by
  rw [pow_two]
  ext1
  · simp [c4]
  · simp [c4]
theorem vv_cu : vv p ^ 3 = c12 p (om p) := CubicAlgebra.v_cubed
theorem vv_six : vv p ^ 6 = c12 p (c4 p (xi p)) := by
  rw [← om_sq, map_pow, ← vv_cu, ← pow_mul]

/-- `v ↦ v^p` is conjugation on `F2` -/
theorem f2_pow (h4 : p % 4 = 3) (v : F2 p) : v ^ p = conj2 v := by
  have hi : ii p ^ p = - ii p := by
    have e : p = 2 * ((p - 1) / 2) + 1 := by omega
    have o : Odd ((p - 1) / 2) := by rw [Nat.odd_iff]; omega
    calc ii p ^ p = ii p ^ (2 * ((p - 1) / 2) + 1) := by rw [← e]
      _ = (ii p ^ 2) ^ ((p - 1) / 2) * ii p := by rw [pow_succ, pow_mul]
      _ = - ii p := by rw [ii_sq, o.neg_one_pow]; ring
  conv_lhs => rw [f2_split v]
  rw [add_pow_char, mul_pow, hi, ← map_pow, ← map_pow, ZMod.pow_card, ZMod.pow_card]
  ext <;> simp [c2, conj2]

theorem f4_pow (h4 : p % 4 = 3) (v : F4 p) : v ^ p = ⟨conj2 v.re, conj2 v.im * xi p ^ ((p - 1) / 2)⟩ := by
  have hi : om p ^ p = c4 p (xi p ^ ((p - 1) / 2)) * om p := by
    have e : p = 2 * ((p - 1) / 2) + 1 := by omega
    calc om p ^ p = om p ^ (2 * ((p - 1) / 2) + 1) := by rw [← e]
      _ = (om p ^ 2) ^ ((p - 1) / 2) * om p := by rw [pow_succ, pow_mul]
      _ = _ := by rw [om_sq, map_pow]
  conv_lhs => rw [f4_split v]
  rw [add_pow_char, mul_pow, hi, ← map_pow, ← map_pow, f2_pow h4, f2_pow h4, ← mul_assoc, ← map_mul, f4_split ⟨conj2 v.re, conj2 v.im * xi p ^ ((p - 1) / 2)⟩]

/-- `FP12::frob` with the constant `ξ^((p-1)/6)` raises to the power `p` -/
theorem f12_pow (h4 : p % 4 = 3) (h6 : p % 6 = 1) {g : F2 p} (hg : g = xi p ^ ((p - 1) / 6)) (v : F12 p) : v ^ p =
    ⟨⟨conj2 v.a.re, conj2 v.a.im * (g * g ^ 2)⟩, ⟨conj2 v.b.re, conj2 v.b.im * (g * g ^ 2)⟩ * ⟨g, 0⟩, ⟨conj2 v.c.re, conj2 v.c.im * (g * g ^ 2)⟩ * ⟨g ^ 2, 0⟩⟩ := by
  have hi : vv p ^ p = c12 p (c4 p g) * vv p := by
    have e : p = 6 * ((p - 1) / 6) + 1 := by omega
    calc vv p ^ p = vv p ^ (6 * ((p - 1) / 6) + 1) := by rw [← e]
      _ = (vv p ^ 6) ^ ((p - 1) / 6) * vv p := by rw [pow_succ, pow_mul]
      _ = _ := by rw [vv_six, ← map_pow, ← map_pow, hg]
  have g3 : g * g ^ 2 = xi p ^ ((p - 1) / 2) := by
    rw [hg, ← pow_mul, ← pow_add]
    congr 1
    omega
  have h2 : ∀ u : F12 p, (u ^ 2) ^ p = (u ^ p) ^ 2 := fun u => by rw [← pow_mul, ← pow_mul, mul_comm]
  conv_lhs => rw [f12_split v]
  rw [add_pow_char, add_pow_char, mul_pow, mul_pow, h2, hi, ← map_pow, ← map_pow, ← map_pow, f4_pow h4, f4_pow h4, f4_pow h4, mul_pow, ← g3]
  conv_rhs => rw [f12_split ⟨_, _, _⟩]
  have e1 : (⟨g, 0⟩ : F4 p) = c4 p g := rfl
  have e2 : (⟨g ^ 2, 0⟩ : F4 p) = c4 p (g ^ 2) := rfl
  simp only [e1, e2, map_mul, map_pow]
  ring

/-- conjugation of `F4` over `F2` -/
def conj4 (v : F4 p) : F4 p := ⟨v.re, -v.im⟩

omit hp in
theorem conj2_conj2 (v : F2 p) : conj2 (conj2 v) = v := by ext <;> simp [conj2]
theorem conj2_mul (v w : F2 p) : conj2 (v * w) = conj2 v * conj2 w := by
  ext
  · simp [conj2]
  · simp [conj2]; ring

/-- the `p²`-power map: there is `m` in `Z/p` with `m³ = -1`, `m² - m + 1 = 0` and `v^(p²) = ā + m b̄ V + m² c̄ V²` -/
theorem f12_pow2 (h8 : p % 8 = 3) (h6 : p % 6 = 1) (hne : (2 : ZMod p) ^ ((p - 1) / 3) ≠ 1) :
    ∃ m : ZMod p, m ^ 2 - m + 1 = 0 ∧ m ^ 3 = -1 ∧ ∀ v : F12 p, v ^ (p ^ 2) = ⟨conj4 v.a, conj4 v.b * c4 p (c2 p m), conj4 v.c * c4 p (c2 p m) ^ 2⟩ := by
  have h4 : p % 4 = 3 := by omega
  refine ⟨2 ^ ((p - 1) / 6), ?_⟩
  set m : ZMod p := 2 ^ ((p - 1) / 6) with hm
  have m6 : m ^ 2 = 2 ^ ((p - 1) / 3) := by rw [hm, ← pow_mul]; congr 1; omega
  have m3 : m ^ 3 = -1 := by
    have e : m ^ 3 = 2 ^ (p / 2) := by rw [hm, ← pow_mul]; congr 1; omega
    have p2 : p ≠ 2 := by rintro rfl; omega
    have two0 : (2 : ZMod p) ≠ 0 := by
      intro h
      have h2 : ((2 : Nat) : ZMod p) = 0 := by exact_mod_cast h
      rw [ZMod.natCast_eq_zero_iff] at h2
      have := Nat.le_of_dvd (by norm_num) h2
      have := hp.out.two_le
      omega
    have := ZMod.pow_div_two_eq_neg_one_or_one p two0
    rw [e]
    rcases this with h | h
    · exfalso
      rw [← ZMod.euler_criterion p two0, ZMod.exists_sq_eq_two_iff p2] at h
      omega
    · exact h
  have mq : m ^ 2 - m + 1 = 0 := by
    have : (m + 1) * (m ^ 2 - m + 1) = 0 := by linear_combination m3
    rcases mul_eq_zero.1 this with h | h
    · exfalso
      apply hne
      rw [← m6]
      linear_combination (m - 1) * h
    · exact h
  refine ⟨mq, m3, fun v => ?_⟩
  set g : F2 p := xi p ^ ((p - 1) / 6) with hg
  -- g * conj g = m
  have gm : conj2 g * g = c2 p m := by
    rw [hg, hm, ← f2_pow h4, ← pow_mul, mul_comm ((p - 1) / 6) p, pow_mul, ← mul_pow, f2_pow h4, map_pow]
    congr 1
    ext <;> simp [conj2, c2]
    norm_num
  have gm2 : conj2 (g ^ 2) * g ^ 2 = c2 p m ^ 2 := by rw [pow_two g, conj2_mul, ← gm]; ring
  have gm3 : conj2 (g * g ^ 2) * (g * g ^ 2) = -1 := by
    rw [pow_two g, conj2_mul, conj2_mul]
    have : (conj2 g * g) ^ 3 = -1 := by rw [gm, ← map_pow, m3, map_neg, map_one]
    linear_combination this
  rw [pow_two p, pow_mul, f12_pow h4 h6 hg v, f12_pow h4 h6 hg]
  have k : ∀ (u : F4 p) (a : F2 p) , (⟨conj2 ((⟨conj2 u.re, conj2 u.im * (g * g ^ 2)⟩ * ⟨a, 0⟩ : F4 p)).re, conj2 ((⟨conj2 u.re, conj2 u.im * (g * g ^ 2)⟩ * ⟨a, 0⟩ : F4 p)).im * (g * g ^ 2)⟩ * ⟨a, 0⟩ : F4 p) = conj4 u * c4 p (conj2 a * a) := by
    intro u a
    ext1
    · simp [conj2_mul, conj2_conj2, conj4, c4]; ring
    · simp only [QuadraticAlgebra.im_mul, QuadraticAlgebra.re_mul, conj2_mul, conj2_conj2, conj4, c4, RingHom.coe_mk, MonoidHom.coe_mk, OneHom.coe_mk, mul_zero, add_zero, zero_mul, zero_add]
      rw [conj2_mul] at gm3
      linear_combination u.im * conj2 a * a * gm3
  ext1
  · ext1
    · simp [conj4, conj2_conj2]
    · simp only [conj4, conj2_mul, conj2_conj2]
      rw [conj2_mul] at gm3
      linear_combination v.a.im * gm3
  · simp only
    rw [k v.b g, gm]
  · simp only
    rw [k v.c (g ^ 2), gm2, map_pow]

theorem conj4_mul (v w : F4 p) : conj4 (v * w) = conj4 v * conj4 w := by
  ext1
  · simp [conj4]
  · simp [conj4]; ring
theorem conj4_conj4 (v : F4 p) : conj4 (conj4 v) = v := by ext1 <;> simp [conj4]
theorem conj4_c4 (a : F2 p) : conj4 (c4 p a) = c4 p a := by ext1 <;> simp [conj4, c4]

/-- `FP12::conj` is the `p^6`-power map -/
theorem f12_pow6 (h8 : p % 8 = 3) (h6 : p % 6 = 1) (hne : (2 : ZMod p) ^ ((p - 1) / 3) ≠ 1) (v : F12 p) : v ^ (p ^ 6) = conj12 v := by
  obtain ⟨m, mq, m3, hm⟩ := f12_pow2 h8 h6 hne
  have e : p ^ 6 = p ^ 2 * p ^ 2 * p ^ 2 := by ring
  have m3' : c4 p (c2 p m) ^ 3 = -1 := by rw [← map_pow, ← map_pow, m3, map_neg, map_neg, map_one, map_one]
  have cc : conj4 (c4 p (c2 p m)) = c4 p (c2 p m) := conj4_c4 _
  rw [e, pow_mul, pow_mul, hm, hm, hm]
  simp only [conj4_mul, conj4_conj4, pow_two (c4 p (c2 p m)), cc]
  ext1
  · simp only [conj4_conj4]; rfl
  · simp only
    calc _ = conj4 v.b * (c4 p (c2 p m)) ^ 3 := by ring
      _ = _ := by rw [m3']; simp only [conj12, conj4]; ext1 <;> simp
  · simp only
    calc _ = conj4 v.c * ((c4 p (c2 p m)) ^ 3) ^ 2 := by ring
      _ = _ := by rw [m3']; simp only [conj12, conj4]; ext1 <;> simp

/-- the element `FP12::usqr` computes -/
def usq (v : F12 p) : F12 p := ⟨3 * v.a ^ 2 + 2 * ⟨-v.a.re, v.a.im⟩, 3 * (om p * v.c ^ 2) + 2 * ⟨v.b.re, -v.b.im⟩, 3 * v.b ^ 2 + 2 * ⟨-v.c.re, v.c.im⟩⟩

/-- `usqr` squares the elements of the cyclotomic subgroup -/
theorem usq_eq (h8 : p % 8 = 3) (h6 : p % 6 = 1) (hne : (2 : ZMod p) ^ ((p - 1) / 3) ≠ 1) {v : F12 p} (hv : v ^ (p ^ 4 + 1) = v ^ (p ^ 2)) : usq v = v ^ 2 := by
  obtain ⟨m, mq, m3, hm⟩ := f12_pow2 h8 h6 hne
  have e : p ^ 4 = p ^ 2 * p ^ 2 := by ring
  have cc : conj4 (c4 p (c2 p m)) = c4 p (c2 p m) := conj4_c4 _
  rw [pow_succ, e, pow_mul, hm, hm] at hv
  simp only [conj4_mul, conj4_conj4, pow_two (c4 p (c2 p m)), cc] at hv
  have mq' : c4 p (c2 p m) ^ 2 - c4 p (c2 p m) + 1 = 0 := by
    rw [← map_pow, ← map_pow, ← map_sub, ← map_sub, ← map_one (c4 p), ← map_one (c2 p), ← map_add, ← map_add, mq, map_zero, map_zero]
  generalize c4 p (c2 p m) = M at hv mq'
  have M3 : M ^ 3 = -1 := by linear_combination (M + 1) * mq'
  obtain ⟨a, b, c⟩ := v
  have ha := congrArg CubicAlgebra.a hv
  have hb := congrArg CubicAlgebra.b hv
  have hc := congrArg CubicAlgebra.c hv
  simp only [CubicAlgebra.mul_a, CubicAlgebra.mul_b, CubicAlgebra.mul_c] at ha hb hc
  have ka : conj4 a = a ^ 2 - om p * (b * c) := by
    linear_combination -ha + om p * b * c * (M ^ 2 + M + 1) * mq'
  have kb : conj4 b = a * b - om p * c ^ 2 := by
    have : M * (M ^ 2 * (conj4 b - (a * b - om p * c ^ 2))) = 0 := by
      linear_combination (-M ^ 2) * hb + (M ^ 2 * a * b + om p * c ^ 2 * M ^ 3 * (M + 1)) * mq'
    linear_combination -this + (conj4 b - (a * b - om p * c ^ 2)) * M3
  have kc : conj4 c = b ^ 2 - a * c := by
    have : M * (M ^ 2 * (conj4 c - (b ^ 2 - a * c))) = 0 := by
      linear_combination (-M) * hc + a * c * M * (M ^ 2 + M + 1) * mq'
    linear_combination -this + (conj4 c - (b ^ 2 - a * c)) * M3
  have n : ∀ u : F4 p, (⟨-u.re, u.im⟩ : F4 p) = -conj4 u := fun u => by ext1 <;> simp [conj4]
  have n' : ∀ u : F4 p, (⟨u.re, -u.im⟩ : F4 p) = conj4 u := fun u => rfl
  rw [pow_two (⟨a, b, c⟩ : F12 p)]
  unfold usq
  simp only [n, n', ka, kb, kc]
  ext1
  · simp only [CubicAlgebra.mul_a]; ring
  · simp only [CubicAlgebra.mul_b]; ring
  · simp only [CubicAlgebra.mul_c]; ring
end Verif.Tower
