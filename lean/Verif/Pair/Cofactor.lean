import Verif.Pair.G2
/- What `ECP2::clear_cofactor` computes. -/
namespace Verif.Pair
open Verif.Big Verif.Fp Verif.Rom Verif.Curve Verif.Tower Verif.Ecp2 Spec
set_option linter.unusedSectionVars false

variable {C : Nat} {K : PairRom C} [hp : Fact K.rom.p.Prime] [h4 : Fact (K.rom.p % 4 = 3)]

theorem ptSound' (h : TCurve K) : Ecp.PtSound (ptOps K) (IsPoint2 K 202) (IsPoint2 K 1818) where
  low hx := hx.mono (by norm_num)
  dbl hx := (dbl_ok h hx (by norm_num)).mono (by norm_num)
  add hx hy := (add_ok h hx hy (by norm_num) (by norm_num)).mono (by norm_num)
  neg hx := (Ecp2.neg_ok h hx (by norm_num)).mono (by norm_num)
  cmove0 hx hy := (cmove_ok hx.1 hy.1).1
  cmove1 hx hy := (cmove_ok hx.1 hy.1).2

/-- `mul`, with smaller excess counters -/
theorem mul_low (h : TCurve K) {s : Pt2 C} {T : (curve2 K).Point} (hs : IsPoint2 K 202 s T) {e : Limbs C} {E : Nat} (he : Ecp.Scalar K.rom e E) :
    ∃ r, Ecp2.mul K s e = some r ∧ IsPoint2 K 202 r ((E : Int) • T) := by
  unfold Ecp2.mul
  split_ifs with c
  · refine ⟨_, rfl, ?_⟩
    rw [(Ecp2.isInfinity_ok h.tower hs).mp c, show (E : Int) • (0 : (curve2 K).Point) = 0 from zsmul_zero _]
    exact (new_ok h.tower).mono (by norm_num)
  · obtain ⟨r, hr, hrel⟩ := Ecp.mulWin_spec (ptSound' h) h.tower.arith.ok h.tower.arith.hn hs he.1 he.2 (Ecp.bn8 h.tower.arith.toConsts)
    exact ⟨Ecp2.affine K r, by rw [hr]; rfl, (Ecp2.affine_ok h.tower hrel (by norm_num)).1⟩

theorem sub_ok2 (h : TCurve K) {s q : Pt2 C} {S T : (curve2 K).Point} {e f : Nat} (hs : IsPoint2 K e s S) (hq : IsPoint2 K f q T) (he : e ≤ 16384) (hf : f ≤ 1820) :
    IsPoint2 K 22 (Ecp2.sub K s q) (S - T) := by
  rw [sub_eq_add_neg]
  have hn := Ecp2.neg_ok h (hq.mono hf) (by norm_num)
  exact Ecp2.add_ok h hs hn he (by norm_num)

end Verif.Pair

namespace Verif.Pair
open Verif.Big Verif.Fp Verif.Rom Verif.Curve Verif.Tower Verif.Ecp2 Spec

variable {C : Nat} {K : GlsRom C} [hp : Fact K.pair.rom.p.Prime] [h4 : Fact (K.pair.rom.p % 4 = 3)]

/-- the multiple of a point by the signed curve parameter -/
theorem signed_x (h : TCurve K.pair) {s : Pt2 C} {T : (curve2 K.pair).Point} {X : Nat} (hs : IsPoint2 K.pair 202 s ((X : Int) • T)) :
    IsPoint2 K.pair 1818 (if K.pair.negx then Ecp2.neg K.pair s else s) ((if K.pair.negx then -(X : Int) else X) • T) := by
  split_ifs with hx
  · rw [neg_zsmul]
    exact (Ecp2.neg_ok h hs (by norm_num)).mono (by norm_num)
  · exact hs.mono (by norm_num)

theorem clearCofactor_bls (h : TCurve K.pair) (hf : FrobOk K.pair) (hb : K.bn = false) {X : Nat} (hX : Ecp.Scalar K.pair.rom K.pair.bnx X) {x : Int}
    (hx : x = if K.pair.negx then -(X : Int) else X) {s : Pt2 C} {T : (curve2 K.pair).Point} (hs : IsPoint2 K.pair 202 s T) :
    ∃ R, clearCofactor K s = some R ∧
      IsPoint2 K.pair 22 R ((x ^ 2 - x - 1) • T + (x - 1) • psi hf.six T + (2 : Int) • psi hf.six (psi hf.six T)) := by
  obtain ⟨xQ, e1, h1⟩ := mul_low h hs hX
  obtain ⟨x2Q, e2, h2⟩ := mul_low h h1 hX
  have h3 := signed_x h h1
  rw [← hx] at h3
  have hc := frobC_ok h hf.rel
  have h4' : IsPoint2 K.pair 16362 (Ecp2.neg K.pair (if K.pair.negx then Ecp2.neg K.pair xQ else xQ)) (-(x • T)) := Ecp2.neg_ok h h3 (by norm_num)
  have h5 : IsPoint2 K.pair 22 (Ecp2.sub K.pair x2Q (if K.pair.negx then Ecp2.neg K.pair xQ else xQ)) ((X : Int) • (X : Int) • T - x • T) := by
    rw [sub_eq_add_neg]
    exact Ecp2.add_ok h h2 h4' (by norm_num) (by norm_num)
  have h6 := sub_ok2 h h5 hs (by norm_num) (by norm_num)
  have h7 := frob_ok h hf.six hc (sub_ok2 h h3 hs (by norm_num) (by norm_num))
  have h8 := frob_ok h hf.six hc (frob_ok h hf.six hc (Ecp2.dbl_ok h hs (by norm_num)))
  have h9 := (Ecp2.affine_ok h.tower (Ecp2.add_ok h (Ecp2.add_ok h h8 h6 (by norm_num) (by norm_num)) h7 (by norm_num) (by norm_num)) (by norm_num)).1
  refine ⟨_, by
    rw [clearCofactor]
    simp only [hb, Bool.false_eq_true, if_false, e1, e2, Option.bind_some, Option.map_some]
    rfl, ?_⟩
  have hsq : (X : Int) * X = x ^ 2 := by rw [hx]; split_ifs <;> ring
  have e : psi hf.six (psi hf.six (T + T)) + ((X : Int) • (X : Int) • T - x • T - T) + psi hf.six (x • T - T) =
      (x ^ 2 - x - 1) • T + (x - 1) • psi hf.six T + (2 : Int) • psi hf.six (psi hf.six T) := by
    rw [smul_smul, hsq, map_add, map_add, map_sub, map_zsmul]
    module
  rw [e] at h9
  exact h9

theorem clearCofactor_bn (h : TCurve K.pair) (hf : FrobOk K.pair) (hb : K.bn = true) {X : Nat} (hX : Ecp.Scalar K.pair.rom K.pair.bnx X) {x : Int}
    (hx : x = if K.pair.negx then -(X : Int) else X) {s : Pt2 C} {T : (curve2 K.pair).Point} (hs : IsPoint2 K.pair 202 s T) :
    ∃ R, clearCofactor K s = some R ∧
      IsPoint2 K.pair 22 R (x • T + (3 * x) • psi hf.six T + x • psi hf.six (psi hf.six T) + psi hf.six (psi hf.six (psi hf.six T))) := by
  obtain ⟨xQ, e1, h1⟩ := mul_low h hs hX
  have h3 := signed_x h h1
  rw [← hx] at h3
  have hc := frobC_ok h hf.rel
  have h5 := frob_ok h hf.six hc (Ecp2.add_ok h (Ecp2.dbl_ok h h3 (by norm_num)) h3 (by norm_num) (by norm_num))
  have h6 := frob_ok h hf.six hc (frob_ok h hf.six hc (frob_ok h hf.six hc hs))
  have h7 := Ecp2.add_ok h (Ecp2.add_ok h h6 h3 (by norm_num) (by norm_num)) h5 (by norm_num) (by norm_num)
  have h8 := frob_ok h hf.six hc (frob_ok h hf.six hc h3)
  have h9 := (Ecp2.affine_ok h.tower (Ecp2.add_ok h h7 h8 (by norm_num) (by norm_num)) (by norm_num)).1
  refine ⟨_, by
    rw [clearCofactor]
    simp only [hb, if_true, e1, Option.map_some]
    rfl, ?_⟩
  have e : psi hf.six (psi hf.six (psi hf.six T)) + x • T + psi hf.six (x • T + x • T + x • T) + psi hf.six (psi hf.six (x • T)) =
      x • T + (3 * x) • psi hf.six T + x • psi hf.six (psi hf.six T) + psi hf.six (psi hf.six (psi hf.six T)) := by
    simp only [map_add, map_zsmul]
    module
  rw [e] at h9
  exact h9

end Verif.Pair
