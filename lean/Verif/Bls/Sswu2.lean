import Verif.Bls.Sswu1
import Verif.Spec.H2c381
import Verif.Tower.Wide2
import Verif.Ecp2.Points
import Verif.Pair.Group2
/- `simplified_swu_fp2` computes the map of the RFC, except where `FP2::sqrt` does not recognise a square. -/
namespace Verif.Bls
open Verif.Big Verif.Fp Verif.Tower Spec.Sswu

set_option linter.unusedSectionVars false

variable {C : Nat} {P : Params C} {p : Nat} [hp : Fact p.Prime] [h4 : Fact (p % 4 = 3)]

/-- the constants of a map over `Fp2` -/
structure Sswu2Ok (P : Params C) (p : Nat) [Fact p.Prime] [Fact (p % 4 = 3)] (S : Sswu2 C) (A B Z : F2 p) : Prop where
  a : Rel2 P p ⟨0, 1, 4⟩ S.A A
  b : Rel2 P p ⟨0, 1, 4⟩ S.B B
  z : Rel2 P p ⟨0, 1, 4⟩ S.Z Z
  one : Rel2 P p ⟨0, 1, 4⟩ (Fp2.newInts P 1 0) 1
  a0 : A ≠ 0
  nonsq : ¬ IsSquare Z
  exc : Detected (g A B (B / (Z * A)))

theorem Rel2.cg {d : Lz} {x : Fp2 C} {v w : F2 p} (h : Rel2 P p d x v) (e : v = w) : Rel2 P p d x w := e ▸ h

theorem inv2_eq' (v : F2 p) : inv2 v = v⁻¹ := by
  by_cases hv : v = 0
  · rw [hv, inv_zero]
    ext
    · show (0 : F2 p).re * _ = 0; rw [QuadraticAlgebra.re_zero, zero_mul]
    · show -((0 : F2 p).im * _) = 0; rw [QuadraticAlgebra.im_zero, zero_mul, neg_zero]
  · exact eq_inv_of_mul_eq_one_right (mul_inv2 h4.out hv)

theorem det_sq {v : F2 p} (h : Detected v) : IsSquare v := by
  unfold Detected at h
  split_ifs at h with c
  · obtain ⟨r, hr⟩ := h
    refine ⟨⟨r, 0⟩, ?_⟩
    ext
    · rw [QuadraticAlgebra.re_mul, hr]; simp
    · rw [QuadraticAlgebra.im_mul, c]; simp
  · exact h

variable (h : TowerOk P p) (hw : Wide P) (hn3 : 2 < P.n)
include h

theorem zil2 {d : Lz} {x : Fp2 C} {v : F2 p} (hx : Rel2 P p d x v) : Fp2.iszilch P x = true ↔ v = 0 := by
  unfold Fp2.iszilch
  rw [Bool.and_eq_true, iszilch_ok h.toConsts hx.re.el.valid hx.re.el.room, iszilch_ok h.toConsts hx.im.el.valid hx.im.el.room, hx.re.el.res, hx.im.el.res]
  constructor
  · rintro ⟨a, b⟩; exact QuadraticAlgebra.ext a b
  · rintro rfl; exact ⟨rfl, rfl⟩

theorem inv2_ok {d : Lz} {x : Fp2 C} {v : F2 p} (hx : Rel2 P p d x v) : Rel2 P p ⟨0, 1, 2⟩ (Fp2.inverse P x) v⁻¹ := Rel2.cg (inverse2_ok h hx) (inv2_eq' v)

include hw in
theorem gx2_ok {S : Sswu2 C} {A B Z : F2 p} (hS : Sswu2Ok P p S A B Z) {x : Fp2 C} {v : F2 p} (hx : Rel2 P p ⟨0, 1, 3⟩ x v) :
    Rel2 P p ⟨0, 2, 7⟩ (gxFp2 P S x) (g A B v) := by
  have h1 := add2_ok h (sqr2_ok h hx (by simp) (by simp)) hS.a (by simp) (by simp)
  have h2 := add2_ok h (mul2W h hw h1 hx ⟨by simp, by simp⟩ ⟨by simp, by simp⟩ (by simp)) hS.b (by simp) (by simp)
  exact Rel2.cg h2 (by unfold g; ring)

include hw in
theorem x12_ok {S : Sswu2 C} {A B Z : F2 p} (hS : Sswu2Ok P p S A B Z) {t : Fp2 C} {u : F2 p} (ht : Rel2 P p ⟨0, 1, 3⟩ t (Z * u ^ 2)) :
    Rel2 P p ⟨0, 1, 3⟩ (x1Fp2 P S t) (x1 A B Z u) := by
  have h1 := inv2_ok h (add2_ok h (sqr2_ok h ht (by simp) (by simp)) ht (by simp) (by simp))
  have ha := inv2_ok h hS.a
  have h2 := neg2_ok h (mul2W h hw (add2_ok h h1 hS.one (by simp) (by simp)) hS.b ⟨by simp, by simp⟩ ⟨by simp, by simp⟩ (by simp)) (by simp [negLz]) (by simp [negLz])
  have h3 := mul2W h hw h2 ha ⟨by simp [negLz], by simp [negLz]⟩ ⟨by simp, by simp⟩ (by simp)
  have h4' := mul2W h hw (mul2W h hw (inv2_ok h hS.z) hS.b ⟨by simp, by simp⟩ ⟨by simp, by simp⟩ (by simp)) ha ⟨by simp, by simp⟩ ⟨by simp, by simp⟩ (by simp)
  have hz := zil2 h h1
  rw [inv_eq_zero] at hz
  unfold x1Fp2 x1
  dsimp only
  by_cases c : (Z * u ^ 2) ^ 2 + Z * u ^ 2 = 0
  · rw [if_pos c, if_pos (hz.mpr c)]
    exact Rel2.cg h4' (by rw [mul_comm Z A, div_mul_eq_div_div, div_eq_mul_inv, div_eq_mul_inv]; ring)
  · rw [if_neg c, if_neg (fun q => c (hz.mp q))]
    exact Rel2.cg h3 (by rw [div_eq_mul_inv, one_div]; ring)

theorem odd2_neg {Y : F2 p} (h0 : Y ≠ 0) : odd2 (-Y) ↔ ¬ odd2 Y := by
  have hodd := odd_of_prime h.toConsts
  have key : ∀ a : ZMod p, a ≠ 0 → ((-a).val % 2 = 1 ↔ ¬ a.val % 2 = 1) := by
    intro a ha
    have : NeZero a := ⟨ha⟩
    have hlt := ZMod.val_lt a
    have hy0 : a.val ≠ 0 := fun e => ha ((ZMod.val_eq_zero a).mp e)
    rw [ZMod.val_neg_of_ne_zero]
    omega
  unfold odd2
  rw [QuadraticAlgebra.re_neg, QuadraticAlgebra.im_neg]
  by_cases c : Y.re = 0
  · rw [if_pos c, if_pos (by rw [c, neg_zero])]
    exact key _ (fun e => h0 (QuadraticAlgebra.ext c e))
  · rw [if_neg c, if_neg (fun e => c (neg_eq_zero.mp e))]
    exact key _ c

/-- the final adjustment of the sign -/
theorem fin2_ok {u x y : Fp2 C} {Y : F2 p} (hy : Rel2 P p ⟨0, 1, 7⟩ y Y) (h0 : Y ≠ 0) :
    ∃ d Y', Two d ∧ d.e ≤ 131071 ∧ Rel2 P p d (finFp2 P u x y).2 Y' ∧ (finFp2 P u x y).1 = x ∧ Y' * Y' = Y * Y ∧ (Fp2.sgn0 P u = true ↔ odd2 Y') := by
  have hs := Props.C59_sgn0 h (std2_iff.2 hy) h0
  unfold finFp2
  dsimp only
  by_cases c : Fp2.sgn0 P u ≠ Fp2.sgn0 P y
  · rw [if_pos c]
    refine ⟨negLz ⟨0, 1, 7⟩, -Y, ⟨by simp [negLz], by simp [negLz]⟩, by decide, neg2_ok h hy (by simp [negLz]) (by simp [negLz]), rfl, by ring, ?_⟩
    rw [odd2_neg h h0]
    rw [hs] at c
    by_cases c1 : (if Y.re = 0 then Y.im.val else Y.re.val) % 2 = 1
    · rw [decide_eq_true c1] at c
      exact ⟨fun q => absurd q c, fun q => absurd c1 q⟩
    · rw [decide_eq_false c1, ne_eq, Bool.not_eq_false] at c
      exact ⟨fun _ => c1, fun _ => c⟩
  · rw [if_neg c]
    refine ⟨⟨0, 1, 7⟩, Y, ⟨by simp, by simp⟩, by simp, hy, rfl, rfl, ?_⟩
    rw [not_not.mp c, hs, decide_eq_true_iff]
    rfl

theorem ringChar2 : ringChar (F2 p) ≠ 2 := by
  intro hc
  have h20 : (2 : F2 p) = 0 := by
    have := ringChar.Nat.cast_ringChar (R := F2 p)
    rw [hc] at this
    exact_mod_cast this
  have := congrArg QuadraticAlgebra.re h20
  rw [← one_add_one_eq_two, QuadraticAlgebra.re_add, QuadraticAlgebra.re_one, QuadraticAlgebra.re_zero, one_add_one_eq_two] at this
  exact two_ne_zero' h.toConsts this

include hw hn3 in
/-- `simplified_swu_fp2` panics if and only if the ordinate is the root of an element of `Fp` without a root in `Fp` -/
theorem sswu2_ok {S : Sswu2 C} {A B Z : F2 p} (hS : Sswu2Ok P p S A B Z) (hg0 : ∀ x, g A B x ≠ 0) {u : Fp2 C} {v : F2 p} {e : Nat} (hu : Rel2 P p ⟨0, 1, e⟩ u v) :
    (¬ Detected (g A B (absc A B Z v)) → sswuFp2 P S u = none) ∧
    (Detected (g A B (absc A B Z v)) → ∃ x y d Y, sswuFp2 P S u = some (x, y) ∧ Two d ∧ d.e ≤ 131071 ∧ Rel2 P p ⟨0, 1, 3⟩ x (absc A B Z v) ∧ Rel2 P p d y Y ∧
      Y * Y = g A B (absc A B Z v) ∧ (Fp2.sgn0 P u = true ↔ odd2 Y)) := by
  classical
  have hp4 := h4.out
  have ht : Rel2 P p ⟨0, 1, 3⟩ (Fp2.mul P (Fp2.sqr P u) S.Z) (Z * v ^ 2) :=
    Rel2.cg (mul2W h hw (sqr2_ok h hu (by simp) (by simp)) hS.z ⟨by simp, by simp⟩ ⟨by simp, by simp⟩ (by simp)) (by ring)
  have hx := x12_ok h hw hS ht
  have hg := gx2_ok h hw hS hx
  obtain ⟨r1, r2⟩ := sqrt2W h hw hn3 hp4 hg (by simp)
  have hx2 : Rel2 P p ⟨0, 1, 3⟩ (Fp2.mul P (x1Fp2 P S (Fp2.mul P (Fp2.sqr P u) S.Z)) (Fp2.mul P (Fp2.sqr P u) S.Z)) (Z * v ^ 2 * x1 A B Z v) :=
    Rel2.cg (mul2W h hw hx ht ⟨by simp, by simp⟩ ⟨by simp, by simp⟩ (by simp)) (by ring)
  have hg2 := gx2_ok h hw hS hx2
  obtain ⟨s1, s2⟩ := sqrt2W h hw hn3 hp4 hg2 (by simp)
  have hc2 := ringChar2 h
  have exc : ∀ hd : (Z * v ^ 2) ^ 2 + Z * v ^ 2 = 0, Detected (g A B (x1 A B Z v)) := by
    intro hd
    unfold x1
    rw [if_pos hd]
    exact hS.exc
  have main : ∀ {x y : Fp2 C} {X Y' : F2 p}, Rel2 P p ⟨0, 1, 3⟩ x X → Rel2 P p ⟨0, 1, 7⟩ y Y' → Y' * Y' = g A B X →
      ∃ x' y' d Y, some (finFp2 P u x y) = some (x', y') ∧ Two d ∧ d.e ≤ 131071 ∧ Rel2 P p ⟨0, 1, 3⟩ x' X ∧ Rel2 P p d y' Y ∧ Y * Y = g A B X ∧ (Fp2.sgn0 P u = true ↔ odd2 Y) := by
    intro x y X Y' hX hY he
    have h0 : Y' ≠ 0 := by rintro rfl; exact hg0 X (by rw [← he, mul_zero])
    obtain ⟨d, Y, k1, k2, k3, k4, k5, k6⟩ := fin2_ok h (u := u) (x := x) hY h0
    exact ⟨_, _, d, Y, rfl, k1, k2, k4 ▸ hX, k3, by rw [k5, he], k6⟩
  unfold sswuFp2 absc
  dsimp only
  by_cases c : IsSquare (g A B (x1 A B Z v))
  · rw [if_pos c]
    constructor
    · intro hd
      have hd0 : (Z * v ^ 2) ^ 2 + Z * v ^ 2 ≠ 0 := fun e => hd (exc e)
      rw [if_neg (fun q => hd (r1.mp q)), if_neg]
      intro q
      exact (second hc2 hS.a0 hS.nonsq hd0).2 (hg0 _) c (det_sq (s1.mp q))
    · intro hd
      rw [if_pos (r1.mpr hd)]
      obtain ⟨Y, _, k2, k3⟩ := r2 (r1.mpr hd)
      exact main hx (k3 (hg0 _)) k2
  · rw [if_neg c, if_neg (fun q => c (det_sq (r1.mp q)))]
    constructor
    · intro hd
      rw [if_neg (fun q => hd (s1.mp q))]
    · intro hd
      rw [if_pos (s1.mpr hd)]
      obtain ⟨Y, _, k2, k3⟩ := s2 (s1.mpr hd)
      exact main hx2 (k3 (hg0 _)) k2

end Verif.Bls
