import Verif.Tower.Sqrt2
import Verif.Props.Tower
/-
C51, C59: remaining operations of the towers: square roots and signs in `FP2`, division by `w` in `FP4`, the trace of `FP12`.
-/
namespace Verif.Props
open Verif.Big Verif.Fp Verif.Rom Verif.Tower Spec
set_option linter.unusedVariables false
attribute [local irreducible] Fp2.norm Fp2.neg Fp2.add Fp2.sub Fp2.dbl Fp2.reduce Fp2.mul Fp2.sqr Fp2.imul Fp2.div2 Fp2.inverse Fp2.conj Fp2.timesI Fp2.divIp Fp2.divIp2 Fp2.zero

variable {C : Nat} {P : Params C} {p : Nat} [hp : Fact p.Prime] (h : TowerOk P p)
include h

/-- C59. `FP2::sqrt`, elements with a non-zero imaginary part: the flag tells whether the element is a square, and then the value is a root. -/
theorem C59_sqrt (hn : 2 < P.n) (t : TowerPrime p) {K : Nat} {x : Fp2 C} {v : F2 p} (hx : Std2 P p K x v) (hK : 2 ≤ K) (hv : v.im ≠ 0) :
    ((Fp2.sqrt P x).2 = true ↔ ∃ r, r ^ 2 = v) ∧ ((Fp2.sqrt P x).2 = true → ∃ r, Std2 P p K (Fp2.sqrt P x).1 r ∧ r ^ 2 = v) := by
  obtain ⟨h1, h2, _⟩ := sqrt2_ok h hn (by have := t.mod8; omega) (std2_iff.1 hx) hK
  constructor
  · rw [h1, Detected, if_neg hv]
    exact ⟨fun ⟨r, e⟩ => ⟨r, by rw [e, pow_two]⟩, fun ⟨r, e⟩ => ⟨r, by rw [← e, pow_two]⟩⟩
  · intro hf
    obtain ⟨r, a, b⟩ := h2 hf
    exact ⟨r, std2_iff.2 a, by rw [pow_two, b]⟩

/-- C59. On elements of `Z/p`, which are all squares in `Z/p[i]`, the flag only tells whether the element is a square in `Z/p`: roots of non-residues are not found. -/
theorem C59_sqrt_real (hn : 2 < P.n) (t : TowerPrime p) {K : Nat} {x : Fp2 C} {v : F2 p} (hx : Std2 P p K x v) (hK : 2 ≤ K) (hv : v.im = 0) :
    (∃ r, r ^ 2 = v) ∧ ((Fp2.sqrt P x).2 = true ↔ ∃ r : ZMod p, r ^ 2 = v.re) ∧ ((Fp2.sqrt P x).2 = true → ∃ r, Std2 P p K (Fp2.sqrt P x).1 r ∧ r ^ 2 = v) := by
  have h4 : p % 4 = 3 := by have := t.mod8; omega
  obtain ⟨h1, h2, _⟩ := sqrt2_ok h hn h4 (std2_iff.1 hx) hK
  refine ⟨?_, ?_, ?_⟩
  · by_cases hs : IsSquare v.re
    · obtain ⟨r, e⟩ := hs
      refine ⟨⟨r, 0⟩, ?_⟩
      rw [pow_two]
      ext
      · rw [QuadraticAlgebra.re_mul, e]; ring
      · rw [QuadraticAlgebra.im_mul, hv]; ring
    · have hs' : IsSquare (-v.re) := by
        have h0 : v.re ≠ 0 := by intro e; exact hs ⟨0, by rw [e]; ring⟩
        have hp2 : p ≠ 2 := by omega
        have e1 : quadraticChar (ZMod p) v.re = -1 := (quadraticChar_neg_one_iff_not_isSquare).mpr hs
        have e2 : quadraticChar (ZMod p) (-1) = -1 := by
          rw [quadraticChar_neg_one_iff_not_isSquare, ZMod.exists_sq_eq_neg_one_iff]
          simp [h4]
        have : quadraticChar (ZMod p) (-v.re) = 1 := by rw [neg_eq_neg_one_mul, map_mul, e1, e2]; rfl
        exact (quadraticChar_one_iff_isSquare (neg_ne_zero.mpr h0)).mp this
      obtain ⟨r, e⟩ := hs'
      refine ⟨⟨0, r⟩, ?_⟩
      rw [pow_two]
      ext
      · rw [QuadraticAlgebra.re_mul]; linear_combination e
      · rw [QuadraticAlgebra.im_mul, hv]; ring
  · rw [h1, Detected, if_pos hv]
    exact ⟨fun ⟨r, e⟩ => ⟨r, by rw [e, pow_two]⟩, fun ⟨r, e⟩ => ⟨r, by rw [← e, pow_two]⟩⟩
  · intro hf
    obtain ⟨r, a, b⟩ := h2 hf
    exact ⟨r, std2_iff.2 a, by rw [pow_two, b]⟩

/-- C59. When `FP2::sqrt` reports failure the value is zero. -/
theorem C59_sqrt_fail (hn : 2 < P.n) (t : TowerPrime p) {K : Nat} {x : Fp2 C} {v : F2 p} (hx : Std2 P p K x v) (hK : 2 ≤ K) :
    (Fp2.sqrt P x).2 = false → (Fp2.sqrt P x).1 = Fp2.zero P :=
  (sqrt2_ok h hn (by have := t.mod8; omega) (std2_iff.1 hx) hK).2.2

theorem sgn0_ex {a : Fp C} {v : ZMod p} (ha : Elem P p 0 1 a v) (hv : v ≠ 0) : Fp.sgn0 P a = decide (v.val % 2 = 1) := by
  have hr := redc_ex h (by have := h.hn; omega) (by have := h.hn; omega) ha
  rw [if_neg (fun c => hv c.1)] at hr
  unfold Fp.sgn0
  rw [hr.parity h.ok h.hn]
  rcases Nat.mod_two_eq_zero_or_one v.val with e | e
  · have : (v.val : Int) % 2 = 0 := by omega
    rw [e, this]; decide
  · have : (v.val : Int) % 2 = 1 := by omega
    rw [e, this]; decide

/-- C59. `FP2::sgn0` of a non-zero element: the parity of the real part, or of the imaginary part if the real part is zero (RFC 9380, 4.1). -/
theorem C59_sgn0 {K : Nat} {x : Fp2 C} {v : F2 p} (hx : Std2 P p K x v) (hv : v ≠ 0) :
    Fp2.sgn0 P x = decide ((if v.re = 0 then v.im.val else v.re.val) % 2 = 1) := by
  unfold Fp2.sgn0
  have hz := iszilch_ok h.toConsts hx.1.1.valid hx.1.1.room
  rw [hx.1.1.res] at hz
  by_cases c : v.re = 0
  · rw [if_pos (hz.mpr c), if_pos c]
    refine sgn0_ex h hx.2.1 (fun e => hv ?_)
    ext
    · exact c
    · exact e
  · rw [if_neg (fun e => c (hz.mp e)), if_neg c]
    exact sgn0_ex h hx.1.1 c

/-- C51. `FP2::spmt` maps `a + bi` to `(a + b) + (a - b)i`. -/
theorem C51_fp2_spmt {K : Nat} {x : Fp2 C} {v : F2 p} (hx : Std2 P p K x v) : val2 P p (Fp2.spmt P x) = ⟨v.re + v.im, v.re - v.im⟩ := by
  obtain ⟨d, hd⟩ := spmt_ok h (std2_iff.1 hx)
  exact hd.val

/-- C51. `FP4::div_i` divides by `w`, `FP4::div_2i` divides by `w/2`. -/
theorem C51_fp4_div_i {K : Nat} {x : Fp4 C} {v : F4 p} (hx : Std4 P p K x v) :
    val4 P p (Fp4.divI P x) * ⟨0, 1⟩ = v ∧ val4 P p (Fp4.div2i P x) * ⟨0, 1⟩ = 2 * v := by
  have two0 : (2 : ZMod p) ≠ 0 := two_ne_zero' h.toConsts
  have two2 : (2 : F2 p) = ⟨2, 0⟩ := by
    ext
    · rw [← one_add_one_eq_two, QuadraticAlgebra.re_add, QuadraticAlgebra.re_one]; norm_num
    · rw [← one_add_one_eq_two, QuadraticAlgebra.im_add, QuadraticAlgebra.im_one, add_zero]
  have two4 : (2 : F4 p) = ⟨2, 0⟩ := by
    ext1
    · rw [← one_add_one_eq_two, QuadraticAlgebra.re_add, QuadraticAlgebra.re_one]; norm_num
    · rw [← one_add_one_eq_two, QuadraticAlgebra.im_add, QuadraticAlgebra.im_one, add_zero]
  have d := C51_fp2_div_ip h hx.1
  have e1 := (divIp2_ok h (std2_iff.1 hx.1)).val
  have e2 := (norm2_ok h (dbl2_ok h (std2_iff.1 hx.2) (by simp) (by simp))).val
  have e3 := (std2_iff.1 hx.2).val
  have x1 : xi p = ⟨1, 1⟩ := rfl
  constructor
  · have : val4 P p (Fp4.divI P x) = ⟨val2 P p x.b, val2 P p (Fp2.divIp P x.a)⟩ := rfl
    rw [this, e3]
    ext1
    · rw [QuadraticAlgebra.re_mul]
      rw [mul_zero, zero_add, mul_one, mul_comm]
      exact d.1
    · rw [QuadraticAlgebra.im_mul]
      simp
  · have : val4 P p (Fp4.div2i P x) = ⟨val2 P p (Fp2.norm P (Fp2.dbl P x.b)), val2 P p (Fp2.divIp2 P x.a)⟩ := rfl
    rw [this, e1, e2, two4]
    ext1
    · rw [QuadraticAlgebra.re_mul, QuadraticAlgebra.re_mul, two2]
      ext <;> simp <;> ring
    · rw [QuadraticAlgebra.im_mul, QuadraticAlgebra.im_mul]
      simp; ring

/-- C51. `FP12::trace` of `a + bv + cv²` is `3a`, its trace over `F4`. -/
theorem C51_fp12_trace {K : Nat} {x : Fp12 C} {v : F12 p} (hx : Std12 P p K x v) (hs : Prog.small P 3) : val4 P p (Fp12.trace P x) = 3 * v.a := by
  have a := (reduce2_ok h (imul2_ok h (std2_iff.1 hx.1.1) hs)).val
  have b := (reduce2_ok h (imul2_ok h (std2_iff.1 hx.1.2) hs)).val
  have : val4 P p (Fp12.trace P x) = ⟨val2 P p (Fp2.reduce P (Fp2.imul P x.a.a 3)), val2 P p (Fp2.reduce P (Fp2.imul P x.a.b 3))⟩ := rfl
  rw [this, a, b]
  have e3 : (3 : F4 p) = ⟨3, 0⟩ := by
    rw [← two_add_one_eq_three, ← one_add_one_eq_two]
    ext1
    · rw [QuadraticAlgebra.re_add, QuadraticAlgebra.re_add, QuadraticAlgebra.re_one]; norm_num
    · rw [QuadraticAlgebra.im_add, QuadraticAlgebra.im_add, QuadraticAlgebra.im_one, add_zero, add_zero]
  rw [e3]
  ext1
  · rw [QuadraticAlgebra.re_mul]; simp
  · rw [QuadraticAlgebra.im_mul]; simp

omit h hp in
/-- the hypotheses are met on BLS12-381: `3 + 2i` is neither zero nor real, and 3 is a small multiplier -/
example : ∃ x v, Std2 bls381_64.P bls381_64.p 2 x v ∧ v.im ≠ 0 ∧ v ≠ 0 ∧ 2 < bls381_64.P.n ∧ Prog.small bls381_64.P 3 := by
  have := bls381_fact
  have r : ∀ n : Nat, n < 2 ^ 58 → Rep bls381_64.P.b bls381_64.P.n (Big.newInt 64 7 n) n := fun n hn => newInt_rep (C := 64) (b := 58) (n := 7) bls381_tower.tower.ok (by norm_num) (n : Int) (Int.natCast_nonneg n) (by exact_mod_cast hn)
  have h2 : ((2 : Nat) : ZMod bls381_64.p) ≠ 0 := by
    rw [Ne, ZMod.natCast_eq_zero_iff]
    exact fun c => absurd (Nat.le_of_dvd (by norm_num) c) (by decide +kernel)
  refine ⟨_, _, std2_newBigs (P := bls381_64.P) (p := bls381_64.p) (hp := bls381_fact) bls381_tower.tower (r 3 (by norm_num)) (by decide +kernel) (r 2 (by norm_num)) (by decide +kernel), h2, ?_, by decide, ?_⟩
  · intro e
    exact h2 (congrArg QuadraticAlgebra.im e)
  · exact ⟨by decide, by decide +kernel⟩
end Verif.Props
