import Verif.Pair.Cert2
import Verif.Pair.Cert
import Verif.Pair.Cofactor
import Mathlib.Tactic.Module
/-
The subgroup checks: what follows from the value computed by `g1mul` and `g2mul` for the order of the group.
-/
namespace Verif.Pair
open Verif.Big Verif.Fp Verif.Rom Verif.Curve Verif.Tower Verif.Ecp Verif.Ecp2 Spec
set_option linter.unusedSectionVars false

/-! ### annihilators -/
section
variable {A : Type} [AddCommGroup A]

/-- `f² + f + 1 = 0` and `T = m f(T)` -/
theorem norm2 {f : A →+ A} {T : A} (hf : T + f T + f (f T) = 0) {m : Int} (h : (1 : Int) • T + -m • f T = 0) : (1 + m + m ^ 2) • T = 0 := by
  have h1 : f ((1 : Int) • T + -m • f T) = 0 := by rw [h, map_zero]
  rw [map_add, map_zsmul, map_zsmul] at h1
  have e : (1 + m + m ^ 2) • T = (1 + m) • ((1 : Int) • T + -m • f T) + m • ((1 : Int) • f T + -m • f (f T)) + (m * m) • (T + f T + f (f T)) := by module
  rw [e, h, h1, hf]
  simp

/-- an element of `Z[f]`, where `f⁴ - f² + 1 = 0`, that kills a point: so does its product with another element, when that is an integer -/
theorem norm4 {f : A →+ A} {T : A} (hf : f (f (f (f T))) - f (f T) + T = 0) {a0 a1 a2 a3 : Int} (h : a0 • T + a1 • f T + a2 • f (f T) + a3 • f (f (f T)) = 0)
    (b0 b1 b2 b3 n : Int) (c0 : a0 * b0 - (a1 * b3 + a2 * b2 + a3 * b1) - a3 * b3 = n) (c1 : a0 * b1 + a1 * b0 - (a2 * b3 + a3 * b2) = 0)
    (c2 : a0 * b2 + a1 * b1 + a2 * b0 + (a1 * b3 + a2 * b2 + a3 * b1) = 0) (c3 : a0 * b3 + a1 * b2 + a2 * b1 + a3 * b0 + (a2 * b3 + a3 * b2) = 0) : n • T = 0 := by
  have t4 : f (f (f (f T))) = f (f T) - T := by
    rw [← sub_eq_zero, ← hf]; abel
  have t5 : f (f (f (f (f T)))) = f (f (f T)) - f T := by rw [t4, map_sub]
  have t6 : f (f (f (f (f (f T))))) = f (f (f (f T))) - f (f T) := by rw [t5, map_sub]
  have h1 := congrArg f h
  have h2 := congrArg f h1
  have h3 := congrArg f h2
  simp only [map_add, map_zsmul, map_zero] at h1 h2 h3
  rw [t4] at h1
  rw [t5, t4] at h2
  rw [t6, t5, t4] at h3
  have e : n • T = b0 • (a0 • T + a1 • f T + a2 • f (f T) + a3 • f (f (f T))) + b1 • (a0 • f T + a1 • f (f T) + a2 • f (f (f T)) + a3 • (f (f T) - T)) +
      b2 • (a0 • f (f T) + a1 • f (f (f T)) + a2 • (f (f T) - T) + a3 • (f (f (f T)) - f T)) +
      b3 • (a0 • f (f (f T)) + a1 • (f (f T) - T) + a2 • (f (f (f T)) - f T) + a3 • (f (f T) - T - f (f T))) -
      (a0 * b1 + a1 * b0 - (a2 * b3 + a3 * b2)) • f T - (a0 * b2 + a1 * b1 + a2 * b0 + (a1 * b3 + a2 * b2 + a3 * b1)) • f (f T) -
      (a0 * b3 + a1 * b2 + a2 * b1 + a3 * b0 + (a2 * b3 + a3 * b2)) • f (f (f T)) := by
    rw [← c0]; module
  rw [e, h, h1, h2, h3, c1, c2, c3]
  simp

/-- two annihilators -/
theorem gcd_kill {T : A} {a b : Nat} (h1 : a • T = 0) (h2 : b • T = 0) : Nat.gcd a b • T = 0 :=
  addOrderOf_dvd_iff_nsmul_eq_zero.1 (Nat.dvd_gcd (addOrderOf_dvd_of_nsmul_eq_zero h1) (addOrderOf_dvd_of_nsmul_eq_zero h2))

end

/-! ### the endomorphism of the twist -/
section
variable {C : Nat} {K : PairRom C} [hp : Fact K.rom.p.Prime] [h4 : Fact (K.rom.p % 4 = 3)]

theorem two_half (hpr : TowerPrime K.rom.p) : (2 : ZMod K.rom.p) ^ ((K.rom.p - 1) / 2) = -1 := by
  have h2 : (2 : ZMod K.rom.p) ≠ 0 := by
    intro e
    have e' : ((2 : Nat) : ZMod K.rom.p) = 0 := by push_cast; exact e
    have hd := (ZMod.natCast_eq_zero_iff _ _).1 e'
    have := Nat.le_of_dvd (by norm_num) hd
    have := hpr.mod8
    omega
  have hne : K.rom.p ≠ 2 := by have := hpr.mod8; omega
  have hsq : ¬ IsSquare (2 : ZMod K.rom.p) := by
    rw [ZMod.exists_sq_eq_two_iff hne]
    have := hpr.mod8; omega
  rcases ZMod.pow_div_two_eq_neg_one_or_one K.rom.p h2 with h | h
  · exact absurd ((ZMod.euler_criterion K.rom.p h2).2 (by
      rw [show K.rom.p / 2 = (K.rom.p - 1) / 2 by have := hpr.mod8; omega] at h ⊢; exact h)) hsq
  · rw [show K.rom.p / 2 = (K.rom.p - 1) / 2 by have := hpr.mod8; omega] at h; exact h

/-- the norm of the constant of `frob` is a primitive sixth root of unity -/
theorem frob_norm (hpr : TowerPrime K.rom.p) :
    (frobZ K * conjH K.rom.p (frobZ K)) ^ 3 = -1 ∧ (frobZ K * conjH K.rom.p (frobZ K)) ^ 2 ≠ 1 := by
  have hx : xi K.rom.p * conjH K.rom.p (xi K.rom.p) = ⟨(2 : ZMod K.rom.p), 0⟩ := by
    show xi K.rom.p * (⟨1, -1⟩ : F2 K.rom.p) = _
    ext
    · simp; norm_num
    · simp
  have hpw : ∀ (k : Nat) (c : ZMod K.rom.p), (⟨c, 0⟩ : F2 K.rom.p) ^ k = ⟨c ^ k, 0⟩ := fun k c => by
    have e : ∀ c : ZMod K.rom.p, (⟨c, 0⟩ : F2 K.rom.p) = algebraMap (ZMod K.rom.p) (F2 K.rom.p) c := fun c => by
      ext <;> simp [QuadraticAlgebra.algebraMap_eq]
    rw [e, e, map_pow]
  have hf : xi K.rom.p ^ ((K.rom.p - 1) / 6) * conjH K.rom.p (xi K.rom.p ^ ((K.rom.p - 1) / 6)) = ⟨(2 : ZMod K.rom.p) ^ ((K.rom.p - 1) / 6), 0⟩ := by
    rw [map_pow, ← mul_pow, hx, hpw]
  have h3 : (⟨(2 : ZMod K.rom.p) ^ ((K.rom.p - 1) / 6), 0⟩ : F2 K.rom.p) ^ 3 = -1 := by
    rw [hpw, ← pow_mul, show (K.rom.p - 1) / 6 * 3 = (K.rom.p - 1) / 2 by have := hpr.mod6; omega, two_half hpr]
    ext
    · rfl
    · show (0 : ZMod K.rom.p) = -0
      rw [neg_zero]
  have h2 : (⟨(2 : ZMod K.rom.p) ^ ((K.rom.p - 1) / 6), 0⟩ : F2 K.rom.p) ^ 2 ≠ 1 := by
    rw [hpw, ← pow_mul, show (K.rom.p - 1) / 6 * 2 = (K.rom.p - 1) / 3 by have := hpr.mod6; omega]
    intro e
    exact hpr.two (congrArg QuadraticAlgebra.re e)
  unfold frobZ
  split_ifs
  · rw [map_inv₀, ← mul_inv, hf, inv_pow, inv_pow, h3]
    refine ⟨by rw [inv_neg, inv_one], fun e => h2 ?_⟩
    rw [← inv_inv ((⟨(2 : ZMod K.rom.p) ^ ((K.rom.p - 1) / 6), 0⟩ : F2 K.rom.p) ^ 2), e, inv_one]
  · rw [hf]; exact ⟨h3, h2⟩

/-- `ψ⁴ - ψ² + 1 = 0` -/
theorem psi_cyclo (h : TCurve K) (hpr : TowerPrime K.rom.p) (h6 : 6 ∣ K.rom.p - 1) (T : (curve2 K).Point) :
    psi h6 (psi h6 (psi h6 (psi h6 T))) - psi h6 (psi h6 T) + T = 0 := by
  obtain ⟨n3, n2⟩ := frob_norm hpr
  set n := frobZ K * conjH K.rom.p (frobZ K) with hn
  have hcc : ∀ v : F2 K.rom.p, conjH K.rom.p (conjH K.rom.p v) = v := fun v => by
    show (⟨v.re, - -v.im⟩ : F2 K.rom.p) = v
    rw [neg_neg]
  have hw : (n ^ 2) ^ 2 + n ^ 2 + 1 = 0 := by
    have h0 : n ^ 2 - 1 ≠ 0 := sub_ne_zero.2 n2
    apply mul_left_cancel₀ h0
    rw [mul_zero]
    linear_combination (n ^ 3 - 1) * n3
  have hpw : Preserves (RingHom.id (F2 K.rom.p)) (n ^ 2) 1 0 (Ecp2.Btw K) := by
    refine ⟨?_, one_ne_zero, ?_, by simp, by simp⟩
    · intro e; rw [e] at hw; simp at hw
    · linear_combination (n ^ 2 - 1) * hw
  have hsq : ∀ T : (curve2 K).Point, psi h6 (psi h6 T) = -endo hpw T := by
    intro T
    rcases T with _ | ⟨x, y, hh⟩
    · have e : (WeierstrassCurve.Affine.Point.zero : (curve2 K).Point) = 0 := rfl
      rw [e, map_zero, map_zero, map_zero, neg_zero]
    · rw [psi, endo_some, endo_some, endo_some, WeierstrassCurve.Affine.Point.neg_some]
      apply some_congr
      · simp only [map_mul, map_pow, hcc, RingHom.id_apply, hn]; ring
      · rw [short_negY]
        simp only [map_mul, map_pow, hcc, RingHom.id_apply, one_mul]
        have e : frobZ K ^ 3 * (conjH K.rom.p (frobZ K) ^ 3 * y) = n ^ 3 * y := by rw [hn]; ring
        rw [e, n3]; ring
  have hc := endo_cube hw n2 (two_ne2 h) h.noTwo hpw rfl T
  rw [hsq, hsq, map_neg, neg_neg, sub_neg_eq_add, ← hc]
  abel

end

/-! ### the values at the order -/
section
variable {C : Nat} {K : GlsRom C}

/-- a scalar and a sign -/
def limbsB (K : GlsRom C) (x : Limbs C × Bool) (U : Nat) (ng : Bool) : Bool :=
  decide (x.1.length = K.pair.rom.P.n ∧ Digits K.pair.rom.P.b x.1 ∧ limbsVal K.pair.rom.P.b x.1 = U) && x.2 == ng

theorem limbsB_sound {x : Limbs C × Bool} {U : Nat} {ng : Bool} (h : limbsB K x U ng = true) : Rep K.pair.rom.P.b K.pair.rom.P.n x.1 U ∧ x.2 = ng := by
  unfold limbsB at h
  simp only [Bool.and_eq_true, decide_eq_true_eq, beq_iff_eq] at h
  obtain ⟨⟨h1, h2, h3⟩, h4⟩ := h
  exact ⟨⟨h1, h2.normal, h3⟩, h4⟩

/-- the scalars computed by `g1mul` for the order of the group: `1` and `-m` -/
def ord1B (K : GlsRom C) (m : Nat) : Bool :=
  match (glv K K.pair.rom.order).bind (fun l => l.mapM (shorter K)) with
  | some [x0, x1] => limbsB K x0 1 false && limbsB K x1 m true
  | _ => false

/-- the scalars computed by `g2mul` for the order of the group: `1`, `r`, `m` and `-m` -/
def ord2B (K : GlsRom C) (m : Nat) : Bool :=
  match (gs K K.pair.rom.order).bind (fun l => l.mapM (shorter K)) with
  | some [x0, x1, x2, x3] => limbsB K x0 1 false && limbsB K x1 (rN K.pair) false && limbsB K x2 m false && limbsB K x3 m true
  | _ => false

section
variable [hp : Fact K.pair.rom.p.Prime] {lam : Int}

/-- the check for the first group accepts exactly the points of the subgroup of order `r` -/
theorem check1 (hf : G1Facts K lam) {m : Nat} (hm : rN K.pair = 1 + m + m ^ 2) (ho : ord1B K m = true) {s : Pt C} {T : (curve K.pair.rom).Point}
    (hs : IsPoint K.pair.rom s T) : ∃ b, subgroupCheckG1 K s = some b ∧ (b = true ↔ rN K.pair • T = 0) := by
  have hq := hf.gls.q
  by_cases hT : rN K.pair • T = 0
  · obtain ⟨R, e, hR⟩ := g1mul_ok hf.wc hf.gls hf.cru hs hT (hf.eig T hT) hq le_rfl
    refine ⟨_, by rw [subgroupCheckG1, e]; rfl, ?_⟩
    rw [Ecp.isInfinity_ok hf.wc hR]
  · unfold ord1B at ho
    split at ho
    · rename_i x0 x1 he
      obtain ⟨l, e1, e2⟩ := Option.bind_eq_some_iff.1 he
      rw [Bool.and_eq_true] at ho
      obtain ⟨r0, n0⟩ := limbsB_sound ho.1
      obtain ⟨r1, n1⟩ := limbsB_sound ho.2
      have hle : m ≤ rN K.pair := by rw [hm]; omega
      obtain ⟨R, e, hR⟩ := g1mul_gen hf.wc hf.gls hf.cru hs e1 e2 r0 r1 (by rw [hm]; omega) hle
      refine ⟨_, by rw [subgroupCheckG1, e]; rfl, ?_⟩
      rw [Ecp.isInfinity_ok hf.wc hR, n0, n1]
      constructor
      · intro h0
        have hc := endo_cube hf.cru.eqn hf.cru.ne' (two_ne_zero' hf.wc.arith.toConsts) hf.wc.noTwo hf.cru.preserves (by rw [hf.cru.a]; simp) T
        have := norm2 (f := phi hf.cru) hc (m := (m : Int)) h0
        rw [← natCast_zsmul, hm]
        push_cast
        exact this
      · intro h; exact absurd h hT
    · exact absurd ho (by simp)

end

section
variable [hp : Fact K.pair.rom.p.Prime] [h4 : Fact (K.pair.rom.p % 4 = 3)] {lam : Int}

/-- the check for the second group accepts exactly the points of the subgroup of order `r` -/
theorem check2 (hw : TCurve K.pair) (hpr : TowerPrime K.pair.rom.p) (hg : GlsOk K (rN K.pair) lam K.pair.rom.p) (hf : FrobOk K.pair) {m : Nat} (ho : ord2B K m = true)
    (hmr : m ≤ rN K.pair) {N : Nat} (hN : ∀ T : (curve2 K.pair).Point, N • T = 0) (heig : ∀ T : (curve2 K.pair).Point, rN K.pair • T = 0 → psi hf.six T = (K.pair.rom.p : Int) • T)
    (b0 b1 b2 b3 : Int) (n : Nat) (c0 : 1 * b0 - (rN K.pair * b3 + m * b2 + -m * b1) - -m * b3 = n) (c1 : 1 * b1 + rN K.pair * b0 - (m * b3 + -m * b2) = 0)
    (c2 : 1 * b2 + rN K.pair * b1 + m * b0 + (rN K.pair * b3 + m * b2 + -m * b1) = 0) (c3 : 1 * b3 + rN K.pair * b2 + m * b1 + -m * b0 + (m * b3 + -m * b2) = 0)
    (hgcd : Nat.gcd n N = rN K.pair) {s : Pt2 C} {T : (curve2 K.pair).Point} {d : Nat} (hs : IsPoint2 K.pair d s T) (hd1 : 1 ≤ d) (hd2 : d ≤ 202) :
    ∃ b, subgroupCheckG2 K s = some b ∧ (b = true ↔ rN K.pair • T = 0) := by
  by_cases hT : rN K.pair • T = 0
  · obtain ⟨R, e, hR⟩ := g2mul_ok hw hg hf hs hd1 hd2 hT (heig T hT) hg.q le_rfl
    refine ⟨_, by rw [subgroupCheckG2, e]; rfl, ?_⟩
    rw [Ecp2.isInfinity_ok hw.tower hR]
  · unfold ord2B at ho
    split at ho
    · rename_i x0 x1 x2 x3 he
      obtain ⟨l, e1, e2⟩ := Option.bind_eq_some_iff.1 he
      simp only [Bool.and_eq_true] at ho
      obtain ⟨⟨⟨o0, o1⟩, o2⟩, o3⟩ := ho
      obtain ⟨r0, n0⟩ := limbsB_sound o0
      obtain ⟨r1, n1⟩ := limbsB_sound o1
      obtain ⟨r2, n2⟩ := limbsB_sound o2
      obtain ⟨r3, n3⟩ := limbsB_sound o3
      obtain ⟨R, e, hR⟩ := g2mul_gen hw hg hf hs hd1 hd2 e1 e2 r0 r1 r2 r3 hg.pos le_rfl hmr hmr
      refine ⟨_, by rw [subgroupCheckG2, e]; rfl, ?_⟩
      rw [Ecp2.isInfinity_ok hw.tower hR, n0, n1, n2, n3]
      constructor
      · intro h0
        have hn := norm4 (f := psi hf.six) (psi_cyclo hw hpr hf.six T) (a0 := 1) (a1 := rN K.pair) (a2 := m) (a3 := -m) h0 b0 b1 b2 b3 n c0 c1 c2 c3
        rw [natCast_zsmul] at hn
        rw [← hgcd]
        exact gcd_kill hn (hN T)
      · intro h; exact absurd h hT
    · exact absurd ho (by simp)

end
end
end Verif.Pair
