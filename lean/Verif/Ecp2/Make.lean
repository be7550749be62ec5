import Verif.Ecp2.Points
import Verif.Tower.Sqrt2
/- Points of the twist from coordinates. -/
namespace Verif.Ecp2
open Verif.Big Verif.Fp Verif.Rom Verif.Curve Verif.Tower Verif.Prog Spec WeierstrassCurve

set_option linter.unusedSectionVars false
variable {C : Nat} {K : PairRom C} [hp : Fact K.rom.p.Prime] [h4 : Fact (K.rom.p % 4 = 3)]

/-- the coefficient of the twist -/
theorem twistB_ok (h : TCurve K) : Rel2 K.rom.P K.rom.p ⟨0, 1, 10⟩ (twistB K) (Btw K) := by
  obtain ⟨B, hB, hlt⟩ := h.bv
  have hb := std_newBig h.tower hB hlt
  have hBv : ((B : Nat) : ZMod K.rom.p) = Ecp.Bcoef K.rom := by
    rw [Ecp.Bcoef, hB.val, Int.cast_natCast]
  have hr : Rel2 K.rom.P K.rom.p ⟨0, 1, 2⟩ ⟨newBig K.rom.P K.rom.bv, Fp.zero K.rom.P⟩ ⟨Ecp.Bcoef K.rom, 0⟩ :=
    ⟨⟨by rw [← hBv]; exact hb.1, hb.2⟩, (zero_rel h.tower (by norm_num)).re⟩
  unfold twistB Btw
  dsimp only
  by_cases c : K.mtype
  · rw [if_pos c, if_pos c]
    exact rel_mono h.tower (norm2_ok h.tower (mulIp_ok h.tower (norm2_ok h.tower hr) (by simp) (by simp))) (by decide)
  · rw [if_neg c, if_neg c]
    refine rel_mono h.tower (Rel2.to (div2_2_ok h.tower (divIp2_ok h.tower hr)) ?_) (by decide)
    rw [eq_div_iff xi_ne]
    have h2 := two_ne_zero' h.tower.toConsts
    apply QuadraticAlgebra.ext
    · simp [xi]; field_simp; ring
    · simp [xi]

/-- right-hand side of the curve equation -/
theorem rhs_ok (h : TCurve K) {e : Nat} {x : Fp2 C} {v : F2 K.rom.p} (hx : Rel2 K.rom.P K.rom.p ⟨0, 1, e⟩ x v) (he : e ≤ 131071) :
    Rel2 K.rom.P K.rom.p ⟨0, 1, 1⟩ (rhs K x) (v ^ 3 + Btw K) := by
  have s := sqr2_ok h.tower hx (by simp) (by simp)
  have m := rel_mul h.tower s hx he
  exact (reduce2_ok h.tower (add2_ok h.tower m (twistB_ok h) (by simp) (by simp))).to (by ring)

/-- a solution of the curve equation is a point -/
theorem onCurve2 (h : TCurve K) {x y : F2 K.rom.p} (e : y ^ 2 = x ^ 3 + Btw K) : (curve2 K).Nonsingular x y := by
  have heq : (curve2 K).Equation x y := Curve.short_eq.mpr (by rw [e]; ring)
  refine (Affine.nonsingular_iff _ _).mpr ⟨heq, Or.inr ?_⟩
  have hy := Curve.y_ne h.noTwo heq
  have h2 := two_ne2 h
  simp only [short]
  intro hh
  have : 2 * y = 0 := by linear_combination hh
  exact (mul_ne_zero h2 hy) this

theorem eqn_of {x y : F2 K.rom.p} (hh : (curve2 K).Nonsingular x y) : y ^ 2 = x ^ 3 + Btw K := by
  have := Curve.short_eq.mp hh.1
  rw [this]; ring

/-- legal `(x : y : 1)` with a solution of the equation -/
theorem isPoint2_finite {e : Nat} {s : Pt2 C} {x y : F2 K.rom.p} (h1 : Rel2 K.rom.P K.rom.p ⟨0, 1, e⟩ s.x x)
    (h2 : Rel2 K.rom.P K.rom.p ⟨0, 1, e⟩ s.y y) (h3 : Rel2 K.rom.P K.rom.p ⟨0, 1, e⟩ s.z 1) (hh : (curve2 K).Nonsingular x y) :
    IsPoint2 K e s (Affine.Point.some x y hh) :=
  isPoint2_of (P := ⟨x, y, 1⟩) h1 h2 h3 ⟨one_ne_zero, by simp, by simp⟩

/-- `new_fp2s` -/
theorem newFp2s_ok (h : TCurve K) {d : Lz} {e : Nat} {x y : Fp2 C} {v w : F2 K.rom.p} (hx : Rel2 K.rom.P K.rom.p d x v) (hd : d.e ≤ e)
    (hy : Rel2 K.rom.P K.rom.p ⟨0, 1, e⟩ y w) (he2 : 2 ≤ e) (he : e ≤ 131071) :
    (w ^ 2 = v ^ 3 + Btw K → ∃ hh, IsPoint2 K e (newFp2s K x y) (Affine.Point.some v w hh)) ∧
    (w ^ 2 ≠ v ^ 3 + Btw K → IsPoint2 K e (newFp2s K x y) 0) := by
  have hn := norm2_ok h.tower hx
  have hq := rel_equals h.tower (sqr2_ok h.tower hy (by simp) (by simp)) (rhs_ok h hn (by omega))
  unfold newFp2s
  dsimp only
  constructor
  · intro e1
    rw [if_pos (hq.mpr e1)]
    exact ⟨onCurve2 h e1, isPoint2_finite (rel_mono h.tower hn hd) hy (rel_mono h.tower (int_rel h.tower) he2) _⟩
  · intro e1
    rw [if_neg (fun c => e1 (hq.mp c))]
    exact (inf_ok h.tower).mono he2

/-- `new_fp2`: a point with the given abscissa when the code recognises the right-hand side as a square, else infinity -/
theorem newFp2_ok (h : TCurve K) {d : Lz} {e : Nat} {x : Fp2 C} {v : F2 K.rom.p} (hx : Rel2 K.rom.P K.rom.p d x v) (hd : d.e ≤ e)
    (he2 : 2 ≤ e) (he : e ≤ 131071) :
    (Detected (v ^ 3 + Btw K) → ∃ w hh, IsPoint2 K e (newFp2 K x) (Affine.Point.some v w hh) ∧ Rel2 K.rom.P K.rom.p ⟨0, 1, e⟩ (newFp2 K x).y w ∧
      Rel2 K.rom.P K.rom.p ⟨0, 1, e⟩ (newFp2 K x).x v ∧ (newFp2 K x).z = Fp2.one K.rom.P) ∧
    (¬ Detected (v ^ 3 + Btw K) → IsPoint2 K e (newFp2 K x) 0) := by
  have hn := norm2_ok h.tower hx
  have hr := rel_mono h.tower (rhs_ok h hn (by omega)) (show 1 ≤ 2 by omega)
  obtain ⟨s1, s2, -⟩ := sqrt2_ok h.tower h.len h4.out hr le_rfl
  unfold newFp2
  dsimp only
  constructor
  · intro hd1
    rw [if_pos (s1.mpr hd1)]
    obtain ⟨r, r1, r2⟩ := s2 (s1.mpr hd1)
    have hh := onCurve2 h (x := v) (y := r) (by rw [pow_two]; exact r2)
    have rx := rel_mono h.tower hn hd
    have ry := rel_mono h.tower r1 he2
    exact ⟨r, hh, isPoint2_finite rx ry (rel_mono h.tower (one_rel h.tower) he2) hh, ry, rx, rfl⟩
  · intro hd1
    rw [if_neg (fun c => hd1 (s1.mp c))]
    exact (inf_ok h.tower).mono he2

end Verif.Ecp2
