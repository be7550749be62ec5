import Verif.Pair.G1
import Verif.Pair.Rom
import Verif.Props.Prime
/-
Checks, by computation in the kernel, of the constants used by `glv`, `gs`, `g1mul`.
-/
namespace Verif.Pair
open Verif.Big Verif.Fp Verif.Rom Verif.Ecp Verif.Curve Verif.Props Spec

variable {C : Nat}

instance (b : Nat) (w : Limbs C) : Decidable (Digits b w) :=
  decidable_of_iff (w.all (fun x => decide (0 ≤ x.toInt) && decide (x.toInt < 2 ^ b)) = true) (by simp [Digits, List.all_eq_true])
instance (b n r : Nat) (t : Limbs C) : Decidable (EntryOk b n r t) := inferInstanceAs (Decidable (_ ∧ _ ∧ _))
instance (b n r : Nat) (w : List (Limbs C)) (rows : List (List (Limbs C))) (dim : Nat) (c : Int) : Decidable (TableOk b n r w rows dim c) :=
  inferInstanceAs (Decidable (∀ j < dim, _ ∧ (∀ i < dim, _) ∧ _ ∣ _))

/-- order of the subgroup -/
abbrev rN (K : PairRom C) : Nat := (K.rom.val K.rom.order).toNat

/-- the conditions on the scalars -/
def glsB (K : GlsRom C) (lam : Int) : Bool :=
  let b := K.pair.rom.P.b
  let n := K.pair.rom.P.n
  let r := rN K.pair
  let X := limbsVal b K.pair.bnx
  decide (9 ≤ b ∧ b + 3 ≤ C ∧ C ≤ 2 * b ∧ 2 ≤ n ∧ Fits C b n) &&
  decide (K.pair.rom.order.length = n ∧ Digits b K.pair.rom.order ∧ 0 < r ∧ 16 * (r + 2) < 2 ^ (b * n)) &&
  (if K.bn then decide (TableOk b n r K.w K.sb 2 lam ∧ TableOk b n r K.wb K.bb 4 K.pair.rom.p)
   else decide (K.pair.bnx.length = n ∧ Digits b K.pair.bnx ∧ 0 < X ∧ X * X < 2 ^ (b * n) ∧ (r : Int) ∣ lam + X ^ 2 ∧
     (r : Int) ∣ K.pair.rom.p - (if K.pair.negx then -X else X)))

theorem glsB_sound {K : GlsRom C} {lam : Int} (h : glsB K lam = true) : GlsOk K (rN K.pair) lam K.pair.rom.p := by
  unfold glsB at h
  simp only [Bool.and_eq_true, decide_eq_true_eq] at h
  obtain ⟨⟨⟨h1, h2, h3, h4, h5⟩, h6, h7, h8, h9⟩, h10⟩ := h
  have hq := Rep.of_digits h7
  have e : (((K.pair.rom.val K.pair.rom.order).toNat : Nat) : Int) = limbsVal K.pair.rom.P.b K.pair.rom.order :=
    Int.toNat_of_nonneg h7.bounds.1
  refine ⟨⟨h1, h2, h3⟩, h4, h5, ⟨h6, h7.normal, e.symm⟩, h8, h9, ?_, ?_⟩
  · intro hb
    rw [hb] at h10
    simp only [Bool.false_eq_true, if_false, decide_eq_true_eq] at h10
    obtain ⟨k1, k2, k3, k4, k5, k6⟩ := h10
    obtain ⟨X, hX⟩ := Int.eq_ofNat_of_zero_le k3.le
    rw [hX] at k3 k4 k5 k6
    refine ⟨X, by exact_mod_cast k3, ⟨k1, k2.normal, hX⟩, by exact_mod_cast k4, k5, k6⟩
  · intro hb
    rw [hb] at h10
    simpa using h10

/-- the conditions on the cube root of unity -/
def cruB (K : PairRom C) : Bool :=
  decide (K.rom.a = 0 ∧ K.cru.length = K.rom.P.n ∧ Digits K.rom.P.b K.cru ∧ K.rom.val K.cru < K.rom.p ∧
    (K.rom.p : Int) ∣ K.rom.val K.cru ^ 2 + K.rom.val K.cru + 1 ∧ ¬ (K.rom.p : Int) ∣ K.rom.val K.cru - 1)

theorem cruB_sound {K : PairRom C} (h : cruB K = true) : CruOk K := by
  unfold cruB at h
  simp only [decide_eq_true_eq] at h
  obtain ⟨h1, h2, h3, h4, h5, h6⟩ := h
  have h0 := h3.bounds.1
  obtain ⟨W, hW⟩ := Int.eq_ofNat_of_zero_le h0
  exact ⟨h1, ⟨W, ⟨h2, h3.normal, hW⟩, by have e : K.rom.val K.cru = W := hW; rw [e] at h4; exact_mod_cast h4⟩, h5, h6⟩

/-- the eigenvalue: `-p²` or `p² - 1`, the two primitive cube roots of unity modulo `r` -/
def g1B (K : GlsRom C) (lam : Int) : Bool :=
  let k := K.pair.rom
  let r := rN K.pair
  glsB K lam && eigB k.p (k.val k.bv).toNat (k.val k.gx).toNat (k.val k.gy).toNat (k.val K.pair.cru).toNat (lam % r).toNat &&
    decide (2 * (k.p + 1) < r ^ 2)

/-- everything about the first group -/
def checkB (K : GlsRom C) : Bool := cruB K.pair && (g1B K (-(K.pair.rom.p : Int) ^ 2) || g1B K ((K.pair.rom.p : Int) ^ 2 - 1))

/-- what the checks establish -/
structure G1Facts (K : GlsRom C) [hp : Fact K.pair.rom.p.Prime] (lam : Int) : Prop where
  wc : WCurve K.pair.rom
  cru : CruOk K.pair
  gls : GlsOk K (rN K.pair) lam K.pair.rom.p
  eig : ∀ T : (curve K.pair.rom).Point, rN K.pair • T = 0 → phi cru T = lam • T

theorem g1_sound {K : GlsRom C} [hp : Fact K.pair.rom.p.Prime] (hw : WCurve K.pair.rom) (hr : (rN K.pair).Prime) (hcons : K.pair.rom.Consistent)
    (hord : ∀ hh : (curve K.pair.rom).Nonsingular (K.pair.rom.val K.pair.rom.gx : ZMod K.pair.rom.p) (K.pair.rom.val K.pair.rom.gy : ZMod K.pair.rom.p),
      rN K.pair • WeierstrassCurve.Affine.Point.some _ _ hh = 0)
    (hgen : ∃ hh : (curve K.pair.rom).Nonsingular (K.pair.rom.val K.pair.rom.gx : ZMod K.pair.rom.p) (K.pair.rom.val K.pair.rom.gy : ZMod K.pair.rom.p), True)
    (h : checkB K = true) : ∃ lam, G1Facts K lam := by
  unfold checkB at h
  rw [Bool.and_eq_true] at h
  obtain ⟨hc, hl⟩ := h
  have hcru := cruB_sound hc
  obtain ⟨hh, _⟩ := hgen
  obtain ⟨r1, _, r2, _, r3, _⟩ := hcons.ranges
  have key : ∀ z : Int, 0 ≤ z → ((z.toNat : Nat) : ZMod K.pair.rom.p) = (z : ZMod K.pair.rom.p) := fun z hz => by
    rw [← Int.cast_natCast, Int.toNat_of_nonneg hz]
  have hcr : 0 ≤ K.pair.rom.val K.pair.cru := by
    obtain ⟨W, hW, _⟩ := hcru.rep
    have : K.pair.rom.val K.pair.cru = W := hW.val
    omega
  have main : ∀ lam, g1B K lam = true → ∃ lam, G1Facts K lam := by
    intro lam hg
    unfold g1B at hg
    simp only [Bool.and_eq_true, decide_eq_true_eq] at hg
    obtain ⟨⟨g1, g2⟩, g3⟩ := hg
    have hns := hcru.preserves.nonsingular hh
    simp only [RingHom.id_apply, one_mul] at hns
    have he := eigB_sound (A := (K.pair.rom.a : ZMod K.pair.rom.p)) (by rw [hcru.a]; simp) (key _ r1) (key _ r2) (key _ r3) (key _ hcr) hw.noTwo
      (two_ne_zero' hw.arith.toConsts) hh hns g2
    have hrp : (0 : Int) < rN K.pair := by exact_mod_cast hr.pos
    have hphiG : phi hcru (WeierstrassCurve.Affine.Point.some _ _ hh) = lam • WeierstrassCurve.Affine.Point.some _ _ hh := by
      have e1 : phi hcru (WeierstrassCurve.Affine.Point.some _ _ hh) = WeierstrassCurve.Affine.Point.some _ _ hns := by
        rw [phi, endo_some]
        exact some_congr _ _ rfl (by simp)
      refine e1.trans (he.symm.trans ?_)
      rw [← natCast_zsmul, Int.toNat_of_nonneg (Int.emod_nonneg _ hrp.ne')]
      refine dvd_smul (hord hh) ?_
      have := Int.emod_add_mul_ediv lam (rN K.pair)
      exact ⟨-(lam / rN K.pair), by linarith⟩
    refine ⟨lam, hw, hcru, glsB_sound g1, fun T hT => phi_eigen hcru hr g3 ?_ (hord hh) hphiG hT⟩
    intro hc; cases hc
  rw [Bool.or_eq_true] at hl
  rcases hl with hl | hl
  · exact main _ hl
  · exact main _ hl

end Verif.Pair
