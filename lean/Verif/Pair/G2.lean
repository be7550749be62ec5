import Verif.Pair.G1
import Verif.Ecp.Mul4Ok
import Verif.Ecp2.Points
import Verif.Tower.Frob
import Verif.Tower.Top
/-
`frob` is an endomorphism of the twist; `g2mul` multiplies points on which it acts as multiplication by `mu`.
-/
namespace Verif.Pair
open Verif.Big Verif.Fp Verif.Rom Verif.Curve Verif.Tower Verif.Ecp2 Spec Finset
set_option linter.unusedSectionVars false

variable {C : Nat}

/-- conjugation of `Z/p[i]` -/
def conjH (p : Nat) : F2 p →+* F2 p where
  toFun v := ⟨v.re, -v.im⟩
  map_one' := by
    ext
    · rfl
    · show -(0 : ZMod p) = 0
      exact neg_zero
  map_zero' := by ext <;> simp
  map_add' a b := by
    ext <;> simp
    ring
  map_mul' a b := by
    ext <;> simp
    ring

section
variable (K : PairRom C) [hp : Fact K.rom.p.Prime] [h4 : Fact (K.rom.p % 4 = 3)]

/-- the constant of `frob`: `(1+i)^((p-1)/6)` or its inverse -/
noncomputable def frobZ : F2 K.rom.p := if K.mtype then (xi K.rom.p ^ ((K.rom.p - 1) / 6))⁻¹ else xi K.rom.p ^ ((K.rom.p - 1) / 6)

variable {K}

theorem frob6 (h6 : 6 ∣ K.rom.p - 1) : (xi K.rom.p ^ ((K.rom.p - 1) / 6)) ^ 6 * xi K.rom.p = conjH K.rom.p (xi K.rom.p) := by
  rw [← pow_mul, Nat.div_mul_cancel h6, ← pow_succ, Nat.sub_add_cancel hp.out.one_lt.le, f2_pow h4.out]
  rfl

theorem frob_preserves (h6 : 6 ∣ K.rom.p - 1) : Preserves (conjH K.rom.p) (frobZ K ^ 2) (frobZ K ^ 3) 0 (Btw K) := by
  have hxi : xi K.rom.p ≠ 0 := xi_ne
  have hf : xi K.rom.p ^ ((K.rom.p - 1) / 6) ≠ 0 := pow_ne_zero _ hxi
  have h := frob6 h6
  have hcx : conjH K.rom.p (xi K.rom.p) ≠ 0 := (map_ne_zero _).2 hxi
  have hz : frobZ K ≠ 0 := by
    unfold frobZ
    split_ifs
    · exact inv_ne_zero hf
    · exact hf
  have hb : conjH K.rom.p ⟨Ecp.Bcoef K.rom, 0⟩ = ⟨Ecp.Bcoef K.rom, 0⟩ := by
    show (⟨_, -0⟩ : F2 K.rom.p) = _
    rw [neg_zero]
  refine ⟨pow_ne_zero _ hz, pow_ne_zero _ hz, by ring, by simp, ?_⟩
  rw [← pow_mul]
  unfold frobZ Ecp2.Btw
  generalize xi K.rom.p ^ ((K.rom.p - 1) / 6) = f at *
  split_ifs
  · rw [map_mul, hb, inv_pow, ← h]
    field_simp
    ring
  · rw [map_div₀, hb]
    rw [← mul_div_assoc, div_eq_div_iff hcx hxi, ← h]
    ring

/-- the endomorphism computed by `frob` -/
noncomputable def psi (h6 : 6 ∣ K.rom.p - 1) : (curve2 K).Point →+ (curve2 K).Point := endo (frob_preserves h6)

theorem frob_ok (h : TCurve K) (h6 : 6 ∣ K.rom.p - 1) {f : Fp2 C} (hf : Rel2 K.rom.P K.rom.p ⟨0, 1, 3⟩ f (frobZ K)) {e : Nat} {s : Pt2 C} {T : (curve2 K).Point}
    (hs : IsPoint2 K e s T) : IsPoint2 K 3 (frob K s f) (psi h6 T) := by
  obtain ⟨hl, hd⟩ := hs
  obtain ⟨s1, s2, s3⟩ := hl.rels h.tower.toConsts
  have f2 := sqr2_ok h.tower hf (by simp) (by simp)
  have cx := mul2_ok h.tower (conj2_ok h.tower s1 (by simp) (by simp)) f2 (by simp) (by simp) (by simp) (by simp) (by norm_num)
  have cy := mul2_ok h.tower (conj2_ok h.tower s2 (by simp) (by simp)) f2 (by simp) (by simp) (by simp) (by simp) (by norm_num)
  have cy' := mul2_ok h.tower cy hf (by simp) (by simp) (by simp) (by simp) (by norm_num)
  have cz := reduce2_ok h.tower (conj2_ok h.tower s3 (by simp) (by simp))
  have hd' := endo_denotes (frob_preserves h6) hd
  refine isPoint2_of (P := ⟨conjH _ (coords2 K s).x * frobZ K ^ 2, conjH _ (coords2 K s).y * frobZ K ^ 2 * frobZ K, conjH _ (coords2 K s).z⟩) cx cy' (rel_mono h.tower cz (by omega)) ?_
  have e1 : (⟨conjH _ (coords2 K s).x * frobZ K ^ 2, conjH _ (coords2 K s).y * frobZ K ^ 2 * frobZ K, conjH _ (coords2 K s).z⟩ : Proj (F2 K.rom.p)) =
      ⟨frobZ K ^ 2 * conjH _ (coords2 K s).x, frobZ K ^ 3 * conjH _ (coords2 K s).y, conjH _ (coords2 K s).z⟩ := by
    congr 1 <;> ring
  rw [e1]
  exact hd'

theorem frobC_ok (h : TCurve K) (hf : Rel2 K.rom.P K.rom.p ⟨0, 1, 3⟩ (Fp2.newBigs K.rom.P K.fra K.frb) (xi K.rom.p ^ ((K.rom.p - 1) / 6))) :
    Rel2 K.rom.P K.rom.p ⟨0, 1, 3⟩ (frobC K) (frobZ K) := by
  unfold frobC frobZ
  split_ifs
  · have hi := norm2_ok h.tower (inverse2_ok h.tower hf)
    rw [inv2_eq (pow_ne_zero _ xi_ne)] at hi
    exact rel_mono h.tower hi (by norm_num)
  · exact hf

theorem sgn_point2 (h : TCurve K) {e : Nat} {s : Pt2 C} {T : (curve2 K).Point} (hs : IsPoint2 K e s T) (he : 1 ≤ e) (ng : Bool) :
    IsPoint2 K (9 * e) (if ng = true then Ecp2.neg K s else s) (if ng = true then -T else T) := by
  split_ifs
  · exact Ecp2.neg_ok h hs he
  · exact hs.mono (by omega)

end

/-- what `g2mul` needs of the constants, besides `TCurve` -/
structure FrobOk (K : PairRom C) [hp : Fact K.rom.p.Prime] [h4 : Fact (K.rom.p % 4 = 3)] : Prop where
  six : 6 ∣ K.rom.p - 1
  rel : Rel2 K.rom.P K.rom.p ⟨0, 1, 3⟩ (Fp2.newBigs K.rom.P K.fra K.frb) (xi K.rom.p ^ ((K.rom.p - 1) / 6))

section
variable {K : GlsRom C} [hp : Fact K.pair.rom.p.Prime] [h4 : Fact (K.pair.rom.p % 4 = 3)] {r : Nat} {lam mu : Int}

/-- the point computed by `g2mul` from the signed scalars -/
theorem g2mul_gen (hw : TCurve K.pair) (hg : GlsOk K r lam mu) (hf : FrobOk K.pair) {d : Nat} {s : Pt2 C} {T : (curve2 K.pair).Point} (hs : IsPoint2 K.pair d s T)
    (hd1 : 1 ≤ d) (hd2 : d ≤ 202) {e : Limbs C} {l : List (Limbs C)} {x0 x1 x2 x3 : Limbs C × Bool} {U0 U1 U2 U3 : Nat} (h1 : gs K e = some l)
    (h2 : l.mapM (shorter K) = some [x0, x1, x2, x3]) (r0 : Rep K.pair.rom.P.b K.pair.rom.P.n x0.1 U0) (r1 : Rep K.pair.rom.P.b K.pair.rom.P.n x1.1 U1)
    (r2 : Rep K.pair.rom.P.b K.pair.rom.P.n x2.1 U2) (r3 : Rep K.pair.rom.P.b K.pair.rom.P.n x3.1 U3) (b0 : U0 ≤ r) (b1 : U1 ≤ r) (b2 : U2 ≤ r) (b3 : U3 ≤ r) :
    ∃ R, g2mul K s e = some R ∧ IsPoint2 K.pair 16384 R (sgn x0.2 U0 • T + sgn x1.2 U1 • psi hf.six T + sgn x2.2 U2 • psi hf.six (psi hf.six T) +
      sgn x3.2 U3 • psi hf.six (psi hf.six (psi hf.six T))) := by
  have hc := frobC_ok hw hf.rel
  have q1 := frob_ok hw hf.six hc hs
  have q2 := frob_ok hw hf.six hc q1
  have q3 := frob_ok hw hf.six hc q2
  have hroom := hg.room
  have hroom' : 16 * ((r : Int) + 2) < 2 ^ (K.pair.rom.P.b * K.pair.rom.P.n) := by exact_mod_cast hroom
  have hcap := hg.cap8
  have nrm : ∀ {u : Limbs C} {U : Nat}, Rep K.pair.rom.P.b K.pair.rom.P.n u U → U ≤ r → Rep K.pair.rom.P.b K.pair.rom.P.n (Big.norm K.pair.rom.P.b u) U :=
    fun hu hU => hu.norm hg.ok (by have := hg.hn; omega) (by omega) (by omega)
  obtain ⟨R, hR, hP⟩ := Ecp.mul4Win_spec (ptSound hw) hg.ok hg.hn ((new_ok hw.tower).mono (by norm_num)) ((sgn_point2 hw hs hd1 x0.2).mono (by omega))
    ((sgn_point2 hw q1 (by omega) x1.2).mono (by norm_num)) ((sgn_point2 hw q2 (by omega) x2.2).mono (by norm_num)) ((sgn_point2 hw q3 (by omega) x3.2).mono (by norm_num))
    (nrm r0 b0) (nrm r1 b1) (nrm r2 b2) (nrm r3 b3) (by omega) (by omega) (by omega) (by omega)
  refine ⟨Ecp2.affine K.pair R, ?_, ?_⟩
  · rw [g2mul]
    simp only [h1, h2, Option.bind_some]
    rw [hR]
    rfl
  · have ha := (Ecp2.affine_ok hw.tower hP (by norm_num)).1
    rw [← natCast_zsmul, ← natCast_zsmul, ← natCast_zsmul, ← natCast_zsmul, sgn_smul, sgn_smul, sgn_smul, sgn_smul] at ha
    exact ha

theorem g2mul_ok (hw : TCurve K.pair) (hg : GlsOk K r lam mu) (hf : FrobOk K.pair) {d : Nat} {s : Pt2 C} {T : (curve2 K.pair).Point} (hs : IsPoint2 K.pair d s T)
    (hd1 : 1 ≤ d) (hd2 : d ≤ 202) (hT : r • T = 0) (hpsi : psi hf.six T = mu • T) {e : Limbs C} {E : Nat} (he : Rep K.pair.rom.P.b K.pair.rom.P.n e E) (hE : E ≤ r) :
    ∃ R, g2mul K s e = some R ∧ IsPoint2 K.pair 16384 R (E • T) := by
  obtain ⟨l, e1, hl⟩ := gs_spec hg he (by omega) (by omega)
  obtain ⟨m, e2, hm, U, hU, hd⟩ := shorter_all hg hl
  match m, hm with
  | [x0, x1, x2, x3], _ =>
    obtain ⟨r0, b0⟩ := hU 0 (by omega)
    obtain ⟨r1, b1⟩ := hU 1 (by omega)
    obtain ⟨r2, b2⟩ := hU 2 (by omega)
    obtain ⟨r3, b3⟩ := hU 3 (by omega)
    obtain ⟨R, hR, hP⟩ := g2mul_gen hw hg hf hs hd1 hd2 e1 e2 r0 r1 r2 r3 b0 b1 b2 b3
    refine ⟨R, hR, ?_⟩
    rw [sum_range_succ, sum_range_succ, sum_range_succ, sum_range_succ, sum_range_zero] at hd
    simp only [List.getD_cons_zero, List.getD_cons_succ] at hd
    simp only [hpsi, map_zsmul] at hP
    simp only [smul_smul] at hP
    rw [← add_zsmul T _ _, ← add_zsmul T _ _, ← add_zsmul T _ _] at hP
    have := dvd_smul hT (k := sgn x0.2 (U 0) + sgn x1.2 (U 1) * mu + sgn x2.2 (U 2) * (mu * mu) + sgn x3.2 (U 3) * (mu * (mu * mu))) (m := (E : Int)) (by
      have e : (sgn x0.2 (U 0) + sgn x1.2 (U 1) * mu + sgn x2.2 (U 2) * (mu * mu) + sgn x3.2 (U 3) * (mu * (mu * mu)) - (E : Int)) =
        0 + mu ^ 0 * sgn x0.2 (U 0) + mu ^ (0 + 1) * sgn x1.2 (U 1) + mu ^ (0 + 1 + 1) * sgn x2.2 (U 2) + mu ^ (0 + 1 + 1 + 1) * sgn x3.2 (U 3) - E := by ring
      rw [e]; exact hd)
    rw [this, natCast_zsmul] at hP
    exact hP

end
end Verif.Pair
