import Verif.Pair.Glv
import Verif.Ecp.Endo
import Verif.Ecp.Points
import Verif.Ecp.Codec
import Verif.Ecp.Order
import Verif.Common.Torsion
import Verif.Common.PointCount
import Mathlib.Tactic.Module
/-
`g1mul` multiplies points on which the endomorphism `(x, y) ↦ (w x, y)` acts as multiplication by `lam`.
-/
namespace Verif.Pair
open Verif.Big Verif.Fp Verif.Rom Verif.Ecp Verif.Curve Spec Finset

variable {C : Nat}

section
set_option linter.unusedSectionVars false
variable {K : PairRom C} [hp : Fact K.rom.p.Prime]

/-- the cube root of unity as a field element -/
def cruZ (K : PairRom C) : ZMod K.rom.p := (K.rom.val K.cru : ZMod K.rom.p)

theorem CruOk.eqn (h : CruOk K) : cruZ K ^ 2 + cruZ K + 1 = 0 := by
  have := (ZMod.intCast_zmod_eq_zero_iff_dvd _ K.rom.p).2 h.cube
  rw [cruZ]; push_cast at this; exact this

theorem CruOk.ne' (h : CruOk K) : cruZ K ≠ 1 := by
  intro hc
  apply h.ne
  rw [← ZMod.intCast_zmod_eq_zero_iff_dvd]
  rw [cruZ] at hc
  push_cast; rw [hc]; ring

theorem CruOk.preserves (h : CruOk K) : Preserves (RingHom.id (ZMod K.rom.p)) (cruZ K) 1 (K.rom.a : ZMod K.rom.p) (Bcoef K.rom) where
  hu := by
    intro hc
    have := h.eqn
    rw [hc] at this
    simp at this
  hv := one_ne_zero
  uv := by linear_combination (cruZ K - 1) * h.eqn
  a := by rw [h.a]; simp
  b := by simp

/-- the endomorphism `(x, y) ↦ (w x, y)` -/
noncomputable def phi (h : CruOk K) : (curve K.rom).Point →+ (curve K.rom).Point := endo h.preserves

theorem mulx_ok (hw : WCurve K.rom) (h : CruOk K) {s : Pt C} {T : (curve K.rom).Point} (hs : IsPoint K.rom s T) :
    IsPoint K.rom (mulx K.rom s (newBig K.rom.P K.cru)) (phi h T) := by
  obtain ⟨W, hW, hlt⟩ := h.rep
  obtain ⟨s1, s2, s3⟩ := hs.1.elems
  have hc := elem_newBig hw.arith hW hlt
  have hcz : (W : ZMod K.rom.p) = cruZ K := by
    have : K.rom.val K.cru = W := hW.val
    rw [cruZ, this]; simp
  rw [hcz] at hc
  have hm := Elem.mul hw.arith.toFieldOk s1 hc (by omega) (by omega)
  obtain ⟨l, e⟩ := Legal.of (s := mulx K.rom s (newBig K.rom.P K.cru)) hm s2 s3
  refine ⟨l, ?_⟩
  rw [e]
  have hd := endo_denotes h.preserves hs.2
  simp only [RingHom.id_apply, one_mul] at hd
  rw [mul_comm]
  exact hd

theorem sgn_point (hw : WCurve K.rom) {s : Pt C} {T : (curve K.rom).Point} (hs : IsPoint K.rom s T) (ng : Bool) :
    IsPoint K.rom (if ng = true then Ecp.neg K.rom s else s) (if ng = true then -T else T) := by
  split_ifs
  · exact neg_ok hw hs
  · exact hs

end

section
variable {K : GlsRom C} [hp : Fact K.pair.rom.p.Prime] {r : Nat} {lam mu : Int}

theorem sgn_smul {A : Type} [AddCommGroup A] (ng : Bool) (U : Int) (T : A) : U • (if ng = true then -T else T) = sgn ng U • T := by
  cases ng <;> simp [sgn]

omit hp in
theorem Scalar_of (h : GlsOk K r lam mu) {u : Limbs C} {U : Nat} (hu : Rep K.pair.rom.P.b K.pair.rom.P.n u U) (hU : U ≤ r) : Scalar K.pair.rom u U := by
  refine ⟨hu, ?_⟩
  have h1 := h.room
  have h8 : 4 ≤ K.pair.rom.P.b * K.pair.rom.P.n := by
    have := h.ok.hb; have := h.hn
    calc 4 ≤ 9 * 2 := by norm_num
      _ ≤ _ := Nat.mul_le_mul (by omega) (by omega)
  have e : 2 ^ (K.pair.rom.P.b * K.pair.rom.P.n) = 2 ^ (K.pair.rom.P.b * K.pair.rom.P.n - 4) * 16 := by
    rw [show (16 : Nat) = 2 ^ 4 by norm_num, ← pow_add]; congr 1; omega
  omega

/-- a number divisible by the order annihilates -/
theorem dvd_smul {A : Type} [AddCommGroup A] {r : Nat} {T : A} (hT : r • T = 0) {k m : Int} (h : (r : Int) ∣ k - m) : k • T = m • T := by
  obtain ⟨c, hc⟩ := h
  have : k = m + c * r := by linarith
  rw [this, add_zsmul, mul_zsmul, natCast_zsmul, hT, zsmul_zero, add_zero]

/-- the point computed by `g1mul` from the signed scalars -/
theorem g1mul_gen (hw : WCurve K.pair.rom) (hg : GlsOk K r lam mu) (hc : CruOk K.pair) {s : Pt C} {T : (curve K.pair.rom).Point} (hs : IsPoint K.pair.rom s T)
    {e : Limbs C} {l : List (Limbs C)} {x0 x1 : Limbs C × Bool} {U0 U1 : Nat} (h1 : glv K e = some l) (h2 : l.mapM (shorter K) = some [x0, x1])
    (r0 : Rep K.pair.rom.P.b K.pair.rom.P.n x0.1 U0) (r1 : Rep K.pair.rom.P.b K.pair.rom.P.n x1.1 U1) (b0 : U0 ≤ r) (b1 : U1 ≤ r) :
    ∃ R, g1mul K s e = some R ∧ IsPoint K.pair.rom R (sgn x0.2 U0 • T + sgn x1.2 U1 • phi hc T) := by
  have ha := (affine_ok hw hs).1
  obtain ⟨R, hR, hP⟩ := mul2_ok hw (sgn_point hw hs x0.2) (sgn_point hw (mulx_ok hw hc ha) x1.2) (Scalar_of hg r0 b0) (Scalar_of hg r1 b1)
  refine ⟨R, ?_, ?_⟩
  · rw [g1mul]
    simp only [h1, h2, Option.bind_some]
    exact hR
  · rw [sgn_smul, sgn_smul] at hP
    exact hP

theorem g1mul_ok (hw : WCurve K.pair.rom) (hg : GlsOk K r lam mu) (hc : CruOk K.pair) {s : Pt C} {T : (curve K.pair.rom).Point} (hs : IsPoint K.pair.rom s T)
    (hT : r • T = 0) (hphi : phi hc T = lam • T) {e : Limbs C} {E : Nat} (he : Rep K.pair.rom.P.b K.pair.rom.P.n e E) (hE : E ≤ r) :
    ∃ R, g1mul K s e = some R ∧ IsPoint K.pair.rom R (E • T) := by
  obtain ⟨l, e1, hl⟩ := glv_spec hg he (by omega) (by omega)
  obtain ⟨m, e2, hm, U, hU, hd⟩ := shorter_all hg hl
  match m, hm with
  | [x0, x1], _ =>
    obtain ⟨r0, b0⟩ := hU 0 (by omega)
    obtain ⟨r1, b1⟩ := hU 1 (by omega)
    obtain ⟨R, hR, hP⟩ := g1mul_gen hw hg hc hs e1 e2 r0 r1 b0 b1
    refine ⟨R, hR, ?_⟩
    rw [sum_range_succ, sum_range_succ, sum_range_zero] at hd
    simp only [List.getD_cons_zero, List.getD_cons_succ] at hd
    rw [hphi, smul_smul, ← add_zsmul T _ _] at hP
    have := dvd_smul hT (k := sgn x0.2 (U 0) + sgn x1.2 (U 1) * lam) (m := (E : Int)) (by
      have e : (sgn x0.2 (U 0) + sgn x1.2 (U 1) * lam - (E : Int)) = 0 + lam ^ 0 * sgn x0.2 (U 0) + lam ^ (0 + 1) * sgn x1.2 (U 1) - E := by ring
      rw [e]; exact hd)
    rw [this, natCast_zsmul] at hP
    exact hP

end

/-! ### the eigenvalue on the generator -/

/-- `e • (gx, gy) = (w gx, gy)`, by computation -/
def eigB (p B gx gy w e : Nat) : Bool :=
  let R := mulN p 0 0 (3 * B % p) (gx, gy, 1) (e.log2 + 1) e
  R.1 == w * gx * R.2.2 % p && R.2.1 == gy * R.2.2 % p && R.2.2 % p != 0

theorem eigB_sound {p : Nat} [hp : Fact p.Prime] {A B' x y w : ZMod p} {B gx gy W e : Nat} (hA : A = 0) (hB : (B : ZMod p) = B') (hx : (gx : ZMod p) = x) (hy : (gy : ZMod p) = y)
    (hw : (W : ZMod p) = w) (h2 : NoTwoTorsion A B') (hc : (2 : ZMod p) ≠ 0) (hh : (short A B').Nonsingular x y) (hh' : (short A B').Nonsingular (w * x) y)
    (h : eigB p B gx gy W e = true) : e • WeierstrassCurve.Affine.Point.some _ _ hh = WeierstrassCurve.Affine.Point.some _ _ hh' := by
  have : NeZero p := ⟨hp.1.ne_zero⟩
  subst hB hx hy hw
  have hP : Denotes (castN (gx, gy, 1)) (WeierstrassCurve.Affine.Point.some _ _ hh) := ⟨by simp [castN], by simp [castN], by simp [castN]⟩
  have hd := mulN_denotes h2 hc (by rw [hA]; simp : ((0 : Nat) : ZMod p) = A) (by rw [hA]; simp : ((0 : Nat) : ZMod p) = -A)
    (by rw [ZMod.natCast_mod]; push_cast; rfl : ((3 * B % p : Nat) : ZMod p) = 3 * (B : ZMod p)) hP (e.log2 + 1) e (Nat.lt_log2_self)
  unfold eigB at h
  simp only [Bool.and_eq_true, beq_iff_eq, bne_iff_ne, ne_eq] at h
  obtain ⟨⟨k1, k2⟩, k3⟩ := h
  generalize mulN p 0 0 (3 * B % p) (gx, gy, 1) (e.log2 + 1) e = R at hd k1 k2 k3
  have z3 : (R.2.2 : ZMod p) ≠ 0 := by
    rw [Ne, ZMod.natCast_eq_zero_iff]
    exact fun hc => k3 (Nat.mod_eq_zero_of_dvd hc)
  have c1 : (R.1 : ZMod p) = W * gx * R.2.2 := by rw [k1, ZMod.natCast_mod]; push_cast; ring
  have c2 : (R.2.1 : ZMod p) = gy * R.2.2 := by rw [k2, ZMod.natCast_mod]; push_cast; ring
  generalize e • WeierstrassCurve.Affine.Point.some _ _ hh = S at hd
  cases S with
  | zero => exact absurd hd.2.2 z3
  | some x y hxy =>
    obtain ⟨d1, d2, d3⟩ := hd
    simp only [castN] at d1 d2 d3
    apply some_congr
    · apply mul_right_cancel₀ z3
      rw [← d2, c1]
    · apply mul_right_cancel₀ z3
      rw [← d3, c2]

section
variable {K : PairRom C} [hp : Fact K.rom.p.Prime] {r : Nat}

/-- on the subgroup of prime order `r`, when its square exceeds the number of points, `phi` acts as on the generator -/
theorem phi_eigen (hc : CruOk K) (hr : r.Prime) (hsq : 2 * (K.rom.p + 1) < r ^ 2) {G : (curve K.rom).Point} (hG : G ≠ 0) (hG0 : r • G = 0) {lam : Int}
    (heig : phi hc G = lam • G) {T : (curve K.rom).Point} (hT : r • T = 0) : phi hc T = lam • T := by
  have : Fact r.Prime := ⟨hr⟩
  have hnd : ¬ r ^ 2 ∣ Nat.card (curve K.rom).Point := by
    intro hd
    have h1 := Nat.le_of_dvd (Nat.card_pos) hd
    have h2 := card_points (A := (K.rom.a : ZMod K.rom.p)) (B := Bcoef K.rom)
    rw [ZMod.card] at h2
    exact absurd (h1.trans h2) (not_le.2 hsq)
  obtain ⟨k, rfl⟩ := torsion_cyclic hnd hG hG0 hT
  rw [map_zsmul, heig, smul_comm]

end
end Verif.Pair
