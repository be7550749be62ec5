import Verif.Spec.Ate
import Verif.Ate.Value
import Verif.Gt.Fexp
/-
The lines of `linedbl` and `lineadd` are those of the textbook, up to factors the final exponentiation removes.
-/
namespace Verif.Ate
open Verif.Big Verif.Fp Verif.Rom Verif.Curve Verif.Tower Verif.Ecp2 Verif.Pair Spec WeierstrassCurve
set_option linter.unusedSectionVars false
set_option linter.unusedVariables false

section
variable {p : Nat} [hp : Fact p.Prime] [h4 : Fact (p % 4 = 3)]

theorem gw2 : (gw : F12 p) ^ 2 = ⟨0, 0, 1⟩ := by rw [pow_two]; ext1 <;> simp [gw]
theorem gw3 : (gw : F12 p) ^ 3 = ⟨om p, 0, 0⟩ := CubicAlgebra.v_cubed
theorem gw5 : (gw : F12 p) ^ 5 = ⟨0, 0, om p⟩ := by
  rw [show (5 : Nat) = 3 + 2 from rfl, pow_add, gw2, gw3]; ext1 <;> simp

theorem emb2_mul_line (mt : Bool) (c u v w : F2 p) : emb2 c * lineVal mt u v w = lineVal mt (c * u) (c * v) (c * w) := by
  cases mt <;> (simp only [lineVal, Bool.false_eq_true, if_false, if_true]; ext1 <;> ext1 <;> simp [emb2])

theorem twM : (tw true : F12 p) = ⟨0, 0, ⟨0, (xi p)⁻¹⟩⟩ := by
  unfold tw; rw [if_pos rfl, gw5]; ext1 <;> ext1 <;> simp [emb2, om]

theorem lineAt_eq (mt : Bool) (x y l : F2 p) (q : ZMod p × ZMod p) :
    lineAt mt x y l q = lineVal mt ⟨q.2, 0⟩ ((l * x - y) * (if mt then (xi p)⁻¹ else 1)) (-(l * ⟨q.1, 0⟩) * (if mt then (xi p)⁻¹ else 1)) := by
  unfold lineAt
  cases mt
  · have t : (tw false : F12 p) = gw := by unfold tw; simp
    rw [t, gw3, gw2]
    simp only [lineVal, Bool.false_eq_true, if_false, mul_one]
    ext1 <;> ext1 <;> simp [emb1, emb2, gw, om]
    ring
  · rw [show (tw true : F12 p) ^ 3 = tw true ^ 2 * tw true from pow_succ _ _, twM]
    have hx : xi p ≠ 0 := fun e => one_ne_zero (congrArg QuadraticAlgebra.re e : (1 : ZMod p) = 0)
    simp only [lineVal, if_true]
    rw [pow_two]
    ext1 <;> ext1 <;> simp [emb1, emb2, om]
    all_goals field_simp
    all_goals ring

/-- what the final exponentiation sends to one -/
def Kill (p : Nat) (c : F12 p) : Prop := c ≠ 0 ∧ c ^ ((p ^ 6 - 1) * (p ^ 2 + 1)) = 1

theorem f12_mul_ne (t : TowerPrime p) {v w : F12 p} (hv : v ≠ 0) (hw : w ≠ 0) : v * w ≠ 0 := by
  have h := mul_inv12 t.mod8 t.noncube hv
  intro e
  apply hw
  calc w = (v * inv12 v) * w := by rw [h, one_mul]
    _ = (v * w) * inv12 v := by ring
    _ = 0 := by rw [e, zero_mul]

theorem f12_cancel (t : TowerPrime p) {v w : F12 p} (hw : w ≠ 0) (h : v * w = w) : v = 1 := by
  have e := mul_inv12 t.mod8 t.noncube hw
  calc v = v * (w * inv12 w) := by rw [e, mul_one]
    _ = (v * w) * inv12 w := by ring
    _ = 1 := by rw [h, e]

theorem f12_pow_ne (t : TowerPrime p) {v : F12 p} (hv : v ≠ 0) : ∀ n : Nat, v ^ n ≠ 0
  | 0 => by rw [pow_zero]; exact one_ne_zero
  | n + 1 => by rw [pow_succ]; exact f12_mul_ne t (f12_pow_ne t hv n) hv

theorem Kill.mul (t : TowerPrime p) {c d : F12 p} (hc : Kill p c) (hd : Kill p d) : Kill p (c * d) :=
  ⟨f12_mul_ne t hc.1 hd.1, by rw [mul_pow, hc.2, hd.2, one_mul]⟩

theorem Kill.one : Kill p 1 := ⟨one_ne_zero, one_pow _⟩

theorem Kill.pow (t : TowerPrime p) {c : F12 p} (hc : Kill p c) (n : Nat) : Kill p (c ^ n) :=
  ⟨f12_pow_ne t hc.1 n, by rw [← pow_mul, mul_comm, pow_mul, hc.2, one_pow]⟩

theorem kill_aux (t : TowerPrime p) {c : F12 p} (h0 : c ≠ 0) (h : (conj12 c) ^ (p ^ 2 + 1) = c ^ (p ^ 2 + 1)) : Kill p c := by
  refine ⟨h0, f12_cancel t (f12_pow_ne t h0 (p ^ 2 + 1)) ?_⟩
  have hp6 : 1 ≤ p ^ 6 := Nat.one_le_pow _ _ hp.out.pos
  rw [← pow_add, ← Nat.succ_mul, Nat.succ_eq_add_one, Nat.sub_add_cancel hp6, pow_mul, f12_pow6 t.mod8 t.mod6 t.two, h]

/-- elements of the subfield of degree 4 -/
theorem kill4 (t : TowerPrime p) {c : F4 p} (h : c ≠ 0) : Kill p ⟨c, 0, 0⟩ := by
  obtain ⟨m, _, _, hm⟩ := f12_pow2 t.mod8 t.mod6 t.two
  have e : ∀ d : F4 p, (⟨d, 0, 0⟩ : F12 p) ^ (p ^ 2) = ⟨conj4 d, 0, 0⟩ := fun d => by
    rw [hm]
    have z : conj4 (0 : F4 p) = 0 := by unfold conj4; ext1 <;> simp
    ext1 <;> simp [z]
  have ec : conj12 (⟨c, 0, 0⟩ : F12 p) = ⟨conj4 c, 0, 0⟩ := by unfold conj12 conj4; ext1 <;> ext1 <;> simp
  apply kill_aux t
  · intro h0; exact h (congrArg CubicAlgebra.a h0)
  · rw [ec, pow_add _ (p ^ 2) 1, pow_add _ (p ^ 2) 1, pow_one, pow_one, e, e, conj4_conj4, mul_comm]

theorem kill2 (t : TowerPrime p) {c : F2 p} (h : c ≠ 0) : Kill p (emb2 c) := kill4 t (by intro h0; exact h (congrArg QuadraticAlgebra.re h0))

theorem kill_gw (t : TowerPrime p) : Kill p gw := by
  have ec : conj12 (gw : F12 p) = -gw := by
    have i1 : (1 : F4 p).im = 0 := rfl
    unfold conj12 gw; ext1 <;> ext1 <;> simp [i1]
  apply kill_aux t
  · intro h0; exact one_ne_zero (congrArg CubicAlgebra.b h0 : (1 : F4 p) = 0)
  · rw [ec, Even.neg_pow]
    have := t.mod8
    obtain ⟨k, hk⟩ : Odd p := Nat.odd_iff.2 (by omega)
    exact ⟨2 * k ^ 2 + 2 * k + 1, by rw [hk]; ring⟩

/-- a line is zero only if its three coefficients are -/
theorem lineVal_kill (t : TowerPrime p) (mt : Bool) {u v w : F2 p} (h : (w = 0 ∧ (u ≠ 0 ∨ v ≠ 0)) ∨ (u = 0 ∧ v = 0 ∧ w ≠ 0)) : Kill p (lineVal mt u v w) := by
  rcases h with ⟨rfl, h⟩ | ⟨rfl, rfl, h⟩
  · have e : (lineVal mt u v 0 : F12 p) = ⟨⟨u, v⟩, 0, 0⟩ := by cases mt <;> rfl
    rw [e]
    apply kill4 t
    intro h0
    rcases h with h | h
    · exact h (congrArg QuadraticAlgebra.re h0)
    · exact h (congrArg QuadraticAlgebra.im h0)
  · have e : (lineVal mt 0 0 w : F12 p) = emb2 w * (if mt then gw ^ 5 else gw) := by
      cases mt
      · simp only [lineVal, Bool.false_eq_true, if_false]; ext1 <;> ext1 <;> simp [emb2, gw]
      · simp only [lineVal, if_true]; rw [gw5]; ext1 <;> ext1 <;> simp [emb2, om]
    rw [e]
    apply (kill2 t h).mul t
    cases mt
    · simp only [Bool.false_eq_true, if_false]; exact kill_gw t
    · simp only [if_true]; exact (kill_gw t).pow t 5

end

section
variable {C : Nat} {K : PairRom C} [hp : Fact K.rom.p.Prime] [h4 : Fact (K.rom.p % 4 = 3)]

theorem two_ne (t : TowerPrime K.rom.p) : (2 : F2 K.rom.p) ≠ 0 := by
  intro h
  have h2 : (2 : ZMod K.rom.p) = 0 := by
    have h1 : (1 + 1 : F2 K.rom.p) = 0 := by rw [one_add_one_eq_two]; exact h
    have := congrArg QuadraticAlgebra.re h1
    have e1 : (1 : F2 K.rom.p).re = 1 := rfl
    rw [QuadraticAlgebra.re_add, e1, one_add_one_eq_two] at this
    exact this
  have h3 : ((2 : Nat) : ZMod K.rom.p) = 0 := by exact_mod_cast h2
  rw [ZMod.natCast_eq_zero_iff] at h3
  have := Nat.le_of_dvd (by norm_num) h3
  have := t.mod8
  have := hp.out.two_le
  omega

theorem neg_four_ne (t : TowerPrime K.rom.p) : (-4 : F2 K.rom.p) ≠ 0 := by
  rw [show (-4 : F2 K.rom.p) = -(2 * 2) by norm_num]
  exact neg_ne_zero.2 (mul_ne_zero (two_ne t) (two_ne t))

theorem y_ne (h : TCurve K) {x y : F2 K.rom.p} (hh : (curve2 K).Nonsingular x y) : y ≠ 0 := by
  exact Curve.y_ne h.noTwo hh.1

theorem s_inv : (if K.mtype = true then (xi K.rom.p)⁻¹ else 1) = (if K.mtype = true then xi K.rom.p else 1)⁻¹ := by split_ifs <;> simp
theorem s_ne : (if K.mtype = true then xi K.rom.p else 1) ≠ 0 := by
  split_ifs
  · exact xi_ne
  · exact one_ne_zero

section
variable {F : Type} [Field F]
theorem dgen1 (x y z s q : F) : -4 * (y * z * z) * q * s = -4 * y * z ^ 2 * s * q := by ring
theorem dgen2 (x z : F) {y s : F} (hy : y ≠ 0) (h2 : (2 : F) ≠ 0) (hs : s ≠ 0) :
    6 * (y ^ 2 - x ^ 3) * z ^ 2 - 2 * (y * z) ^ 2 = -4 * y * z ^ 2 * s * ((3 * x ^ 2 / (2 * y) * x - y) * s⁻¹) := by field_simp; ring
theorem dgen3 (x z : F) {y s : F} (hy : y ≠ 0) (h2 : (2 : F) ≠ 0) (hs : s ≠ 0) (q : F) :
    6 * (x * z) ^ 2 * q = -4 * y * z ^ 2 * s * (-(3 * x ^ 2 / (2 * y) * q) * s⁻¹) := by field_simp; ring
theorem agen1 (x1 x2 z s q : F) : (x1 * z - z * x2) * q * s = (x1 - x2) * z * s * q := by ring
theorem agen2 (y1 y2 z : F) {x1 x2 s : F} (hy : x1 - x2 ≠ 0) (hs : s ≠ 0) :
    (y1 * z - z * y2) * x2 - (x1 * z - z * x2) * y2 = (x1 - x2) * z * s * (((y1 - y2) / (x1 - x2) * x2 - y2) * s⁻¹) := by field_simp
theorem agen3 (y1 y2 z : F) {x1 x2 s : F} (hy : x1 - x2 ≠ 0) (hs : s ≠ 0) (q : F) :
    -((y1 * z - z * y2) * q) = (x1 - x2) * z * s * (-((y1 - y2) / (x1 - x2) * q) * s⁻¹) := by field_simp
end

/-- factor of the tangent -/
theorem dbl_line (h : TCurve K) (t : TowerPrime K.rom.p) {A : Proj (F2 K.rom.p)} {T : (curve2 K).Point} (hA : Denotes A T) (q : ZMod K.rom.p × ZMod K.rom.p) :
    ∃ c, Kill K.rom.p c ∧ dblVal K A q.1 q.2 = c * tangent K q T := by
  cases T with
  | zero =>
    obtain ⟨a1, a2, a3⟩ := hA
    refine ⟨_, ?_, (mul_one _).symm⟩
    unfold dblVal
    rw [a1, a3]
    refine lineVal_kill t _ (Or.inl ⟨by ring, Or.inr ?_⟩)
    rw [show 6 * Btw K * (0 : F2 K.rom.p) ^ 2 - 2 * A.y ^ 2 = -(2 * A.y ^ 2) by ring]
    exact neg_ne_zero.2 (mul_ne_zero (two_ne t) (pow_ne_zero _ a2))
  | some x y hh =>
    obtain ⟨a1, a2, a3⟩ := hA
    have hy := y_ne h hh
    have he : y ^ 2 = x ^ 3 + 0 * x + Btw K := Curve.short_eq.1 hh.1
    have hx := xi_ne (K := K)
    have h2 := two_ne t
    refine ⟨emb2 (-4 * y * A.z ^ 2 * if K.mtype then xi K.rom.p else 1), kill2 t ?_, ?_⟩
    · refine mul_ne_zero (mul_ne_zero (mul_ne_zero (neg_four_ne t) hy) (pow_ne_zero _ a1)) ?_
      split_ifs
      · exact hx
      · exact one_ne_zero
    · have e1 : Btw K = y ^ 2 - x ^ 3 := by linear_combination -he
      have et : tangent K q (Affine.Point.some x y hh) = lineAt K.mtype x y (3 * x ^ 2 / (2 * y)) q := rfl
      rw [et, lineAt_eq, emb2_mul_line, s_inv]
      unfold dblVal
      rw [a2, a3, e1]
      have hs := s_ne (K := K)
      generalize (if K.mtype = true then xi K.rom.p else 1) = s at hs ⊢
      rw [dgen1 x y A.z s ⟨q.2, 0⟩, dgen2 x A.z hy h2 hs, dgen3 x A.z hy h2 hs ⟨q.1, 0⟩]

/-- when `lineadd` returns the line through the two points -/
def AddOk (K : PairRom C) [Fact K.rom.p.Prime] [Fact (K.rom.p % 4 = 3)] (x : ZMod K.rom.p) (T S : (curve2 K).Point) : Prop :=
  (T = 0 ∧ S = 0 ∧ x ≠ 0) ∨ (T ≠ 0 ∧ S ≠ 0 ∧ T ≠ S ∧ T ≠ -S)

/-- factor of the line through two points -/
theorem add_line (h : TCurve K) (t : TowerPrime K.rom.p) {A B : Proj (F2 K.rom.p)} {T S : (curve2 K).Point} (hA : Denotes A T) (hB : Denotes B S) (hz : S ≠ 0 → B.z = 1)
    {q : ZMod K.rom.p × ZMod K.rom.p} (ho : AddOk K q.1 T S) : ∃ c, Kill K.rom.p c ∧ addVal K A B q.1 q.2 = c * chord K q T S := by
  rcases ho with ⟨rfl, rfl, hx⟩ | ⟨h1, h2, h3, h4'⟩
  · obtain ⟨a1, a2, a3⟩ := hA
    obtain ⟨b1, b2, b3⟩ := hB
    refine ⟨_, ?_, (mul_one _).symm⟩
    unfold addVal
    rw [a1, a3, b1]
    refine lineVal_kill t _ (Or.inr ⟨by ring, by ring, ?_⟩)
    refine neg_ne_zero.2 (mul_ne_zero ?_ ?_)
    · rw [zero_mul, sub_zero]; exact a2
    · intro e; exact hx (congrArg QuadraticAlgebra.re e)
  · cases T with
    | zero => exact absurd rfl h1
    | some x1 y1 hh1 =>
    cases S with
    | zero => exact absurd rfl h2
    | some x2 y2 hh2 =>
    obtain ⟨a1, a2, a3⟩ := hA
    obtain ⟨b1, b2, b3⟩ := hB
    have hz1 := hz h2
    rw [hz1, mul_one] at b2 b3
    have hx := xi_ne (K := K)
    have e1 : y1 ^ 2 = x1 ^ 3 + 0 * x1 + Btw K := Curve.short_eq.1 hh1.1
    have e2 : y2 ^ 2 = x2 ^ 3 + 0 * x2 + Btw K := Curve.short_eq.1 hh2.1
    have hne : x1 - x2 ≠ 0 := by
      intro e
      have ex : x1 = x2 := sub_eq_zero.1 e
      subst ex
      have : (y1 - y2) * (y1 + y2) = 0 := by linear_combination e1 - e2
      rcases mul_eq_zero.1 this with e | e
      · have ey : y1 = y2 := sub_eq_zero.1 e
        subst ey
        exact h3 rfl
      · apply h4'
        have ey : y1 = -y2 := by linear_combination e
        subst ey
        rw [Affine.Point.neg_some]
        congr 1
        simp [Affine.negY, short]
    refine ⟨emb2 ((x1 - x2) * A.z * if K.mtype then xi K.rom.p else 1), kill2 t ?_, ?_⟩
    · refine mul_ne_zero (mul_ne_zero hne a1) ?_
      split_ifs
      · exact hx
      · exact one_ne_zero
    · have et : chord K q (Affine.Point.some x1 y1 hh1) (Affine.Point.some x2 y2 hh2) = lineAt K.mtype x2 y2 ((y1 - y2) / (x1 - x2)) q := rfl
      rw [et, lineAt_eq, emb2_mul_line, s_inv]
      unfold addVal
      rw [a2, a3, b2, b3]
      have hs := s_ne (K := K)
      generalize (if K.mtype = true then xi K.rom.p else 1) = s at hs ⊢
      rw [agen1 x1 x2 A.z s ⟨q.2, 0⟩, agen2 y1 y2 A.z hne hs, agen3 y1 y2 A.z hne hs ⟨q.1, 0⟩]

end

end Verif.Ate
