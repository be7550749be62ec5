import Verif.Pair.Group2
import Verif.Pair.Sub
/-
BLS12-381: the second group, its subgroup check and cofactor clearing.
-/
namespace Verif.Pair
open Verif.Big Verif.Fp Verif.Rom Verif.Curve Verif.Tower Verif.Ecp Verif.Ecp2 Verif.Props Spec WeierstrassCurve
set_option linter.unusedSectionVars false

/-- the absolute value of the (negative) curve parameter -/
def z381 : Nat := 0xd201000000010000

/-! ### cofactor clearing on a point -/

def conjN (p : Nat) (x : Nat × Nat) : Nat × Nat := (x.1, p - x.2 % p)

/-- `[z²+z-1] P - [z+1] ψ(P) + [2] ψ²(P) = 0`, by computation -/
def cofT (p : Nat) (b3 u v x y : Nat × Nat) : Bool :=
  let x1 := mulN2 p u (conjN p x)
  let y1 := mulN2 p v (conjN p y)
  let x2 := mulN2 p u (conjN p x1)
  let y2 := mulN2 p v (conjN p y1)
  let k0 := z381 ^ 2 + z381 - 1
  let k1 := z381 + 1
  let S := addT p b3 (addT p b3 (mulT p b3 (x, y, (1, 0)) (k0.log2 + 1) k0) (mulT p b3 (x1, subP p (0, 0) y1, (1, 0)) (k1.log2 + 1) k1)) (addT p b3 (x2, y2, (1, 0)) (x2, y2, (1, 0)))
  S.2.2.1 == 0 && S.2.2.2 == 0

section
variable {p : Nat} [hp : Fact p.Prime] [h4 : Fact (p % 4 = 3)] {B : F2 p}

theorem castN2_conj' (x : Nat × Nat) : castN2 p (conjN p x) = conjH p (castN2 p x) := by
  have : NeZero p := ⟨hp.1.ne_zero⟩
  show (⟨_, _⟩ : F2 p) = ⟨_, _⟩
  simp only [conjN]
  rw [cast_psub]
  rfl

/-- the map computed by `clear_cofactor` on curves of BLS type -/
def cofMap {A : Type} [AddCommGroup A] (f : A →+ A) (x : Int) (T : A) : A := (x ^ 2 - x - 1) • T + (x - 1) • f T + (2 : Int) • f (f T)

/-- the map, followed by multiplication by `n` -/
def cofHom {A : Type} [AddCommGroup A] (n : Nat) (f : A →+ A) (x : Int) : A →+ A where
  toFun T := n • cofMap f x T
  map_zero' := by simp only [cofMap, map_zero, smul_zero, add_zero]
  map_add' S T := by
    rw [← nsmul_add]
    congr 1
    simp only [cofMap, map_add]
    module

theorem cofHom_apply {A : Type} [AddCommGroup A] (n : Nat) (f : A →+ A) (x : Int) (T : A) : cofHom n f x T = n • cofMap f x T := rfl

theorem cof_eig {A : Type} [AddCommGroup A] {n : Nat} {f : A →+ A} {x c : Int} {T : A} (h0 : n • T = 0) (hc : f T = c • T) : cofHom n f x T = 0 := by
  rw [cofHom_apply, cofMap, hc, map_zsmul, hc]
  have e : (x ^ 2 - x - 1) • T + (x - 1) • c • T + (2 : Int) • c • c • T = (x ^ 2 - x - 1 + (x - 1) * c + 2 * c * c) • T := by module
  rw [e, smul_comm, h0, smul_zero]

theorem cofT_sound {b3 u v x y : Nat × Nat} (hb3 : castN2 p b3 = 3 * B) (h2 : NoTwoTorsion 0 B) (hc : (2 : F2 p) ≠ 0) (hE : Preserves (conjH p) (castN2 p u) (castN2 p v) 0 B)
    (hh : (short 0 B).Nonsingular (castN2 p x) (castN2 p y)) (h : cofT p b3 u v x y = true) : cofMap (endo hE) (-(z381 : Int)) (Affine.Point.some _ _ hh) = 0 := by
  have step : ∀ {x y : Nat × Nat} (hh : (short 0 B).Nonsingular (castN2 p x) (castN2 p y)),
      ∃ hh' : (short 0 B).Nonsingular (castN2 p (mulN2 p u (conjN p x))) (castN2 p (mulN2 p v (conjN p y))),
        endo hE (Affine.Point.some _ _ hh) = Affine.Point.some _ _ hh' := fun {x y} hh => by
    have e1 : castN2 p (mulN2 p u (conjN p x)) = castN2 p u * conjH p (castN2 p x) := by rw [castN2_mul, castN2_conj']
    have e2 : castN2 p (mulN2 p v (conjN p y)) = castN2 p v * conjH p (castN2 p y) := by rw [castN2_mul, castN2_conj']
    refine ⟨by rw [e1, e2]; exact hE.nonsingular hh, ?_⟩
    rw [endo_some]
    exact some_congr _ _ e1.symm e2.symm
  obtain ⟨hh1, e1⟩ := step hh
  obtain ⟨hh2, e2⟩ := step hh1
  unfold cofT at h
  dsimp only at h
  rw [Bool.and_eq_true, beq_iff_eq, beq_iff_eq] at h
  generalize mulN2 p u (conjN p x) = x1 at *
  generalize mulN2 p v (conjN p y) = y1 at *
  generalize mulN2 p u (conjN p x1) = x2 at *
  generalize mulN2 p v (conjN p y1) = y2 at *
  have hn : Denotes (castT p (x1, subP p (0, 0) y1, (1, 0))) (-Affine.Point.some _ _ hh1) := by
    have := Ecp.Denotes.neg' (one_denotes hh1)
    have e : (⟨(castT p (x1, y1, (1, 0))).x, -(castT p (x1, y1, (1, 0))).y, (castT p (x1, y1, (1, 0))).z⟩ : Proj (F2 p)) = castT p (x1, subP p (0, 0) y1, (1, 0)) := by
      show Proj.mk _ _ _ = Proj.mk _ _ _
      congr 1
      show -castN2 p y1 = castN2 p (subP p (0, 0) y1)
      rw [castN2_sub, castN2_00, zero_sub]
    rw [e] at this
    exact this
  have d0 := mulT_denotes h2 hc hb3 (one_denotes hh) ((z381 ^ 2 + z381 - 1).log2 + 1) _ Nat.lt_log2_self
  have d1 := mulT_denotes h2 hc hb3 hn ((z381 + 1).log2 + 1) _ Nat.lt_log2_self
  have d2 := rcb_add h2 hc (one_denotes hh2) (one_denotes hh2)
  have d3 := rcb_add h2 hc d0 d1
  rw [← addT_eq hb3] at d2 d3
  have d4 := rcb_add h2 hc d3 d2
  rw [← addT_eq hb3] at d4
  have e : cofMap (endo hE) (-(z381 : Int)) (Affine.Point.some _ _ hh) = (z381 ^ 2 + z381 - 1) • Affine.Point.some _ _ hh + (z381 + 1) • -Affine.Point.some _ _ hh1 +
      (Affine.Point.some _ _ hh2 + Affine.Point.some _ _ hh2) := by
    rw [cofMap, e1, e2]
    have hz : ((z381 ^ 2 + z381 - 1 : Nat) : Int) = (-(z381 : Int)) ^ 2 - -(z381 : Int) - 1 := by
      rw [Nat.cast_sub (by decide)]; push_cast; ring
    rw [← natCast_zsmul, ← natCast_zsmul, hz]
    push_cast
    module
  rw [e]
  generalize (z381 ^ 2 + z381 - 1) • Affine.Point.some _ _ hh + (z381 + 1) • -Affine.Point.some _ _ hh1 + (Affine.Point.some _ _ hh2 + Affine.Point.some _ _ hh2) = S at d4
  generalize addT p b3 _ _ = R at d4 h
  cases S with
  | zero => rfl
  | some X Y hXY =>
    refine absurd ?_ d4.1
    show castN2 p R.2.2 = 0
    have : R.2.2 = (0, 0) := Prod.ext h.1 h.2
    rw [this, castN2_00]

end

/-! ### the facts for the two ROM files -/

/-- what is checked of the constants -/
def b381B {C : Nat} (K : GlsRom C) : Bool :=
  let k := K.pair
  let p := k.rom.p
  let f := (nv k.rom.P.b k.fra, nv k.rom.P.b k.frb)
  decide (p = p381 ∧ rN k = r381 ∧ k.rom.bI = 4 ∧ k.mtype = true ∧ k.negx = true ∧ K.bn = false ∧ nv k.rom.P.b k.bnx = z381) &&
  repB k.rom.P p k.fra && repB k.rom.P p k.frb && repB k.rom.P p k.bnx &&
  mulN2 p u381 (mulN2 p f f) == (1, 0) && mulN2 p v381 (mulN2 p (mulN2 p f f) f) == (1, 0) &&
  g2B k r381 && ord1B K (z381 ^ 2 - 1) && ord2B K (z381 - 1)

section
variable {C : Nat} {K : GlsRom C} [hp : Fact K.pair.rom.p.Prime] [h4 : Fact (K.pair.rom.p % 4 = 3)] {lam : Int}

/-- the second group of BLS12-381 -/
structure G2Facts (K : GlsRom C) [hp : Fact K.pair.rom.p.Prime] [h4 : Fact (K.pair.rom.p % 4 = 3)] (hf : FrobOk K.pair) : Prop where
  card : Nat.card (curve2 K.pair).Point = k381 * r381
  eig : ∀ T : (curve2 K.pair).Point, r381 • T = 0 → psi hf.six T = (K.pair.rom.p : Int) • T
  cof : ∀ T : (curve2 K.pair).Point, r381 • cofMap (psi hf.six) (-(z381 : Int)) T = 0

theorem cofB : pts381.all (fun q => cofT p381 (12, 12) u381 v381 q.1 q.2) = true := by decide +kernel

theorem g2_facts (h : TCurve K.pair) (hf : FrobOk K.pair) (hr : r381.Prime) (hg : genCheck K.pair = true) (hb : b381B K = true) : G2Facts K hf := by
  unfold b381B at hb
  dsimp only at hb
  simp only [Bool.and_eq_true, decide_eq_true_eq, beq_iff_eq] at hb
  obtain ⟨⟨⟨⟨⟨⟨⟨⟨⟨hp', hr', hI, hm, _⟩, r1⟩, r2⟩, _⟩, hu⟩, hv⟩, h2B⟩, _⟩, _⟩ := hb
  have hc := two_ne2 h
  have hfn := frob_num h hf r1 r2
  have hxi : xi K.pair.rom.p ^ ((K.pair.rom.p - 1) / 6) ≠ 0 := pow_ne_zero _ xi_ne
  have cu := congrArg (castN2 K.pair.rom.p) hu
  have cv := congrArg (castN2 K.pair.rom.p) hv
  rw [castN2_mul, castN2_mul, hfn, castN2_10] at cu
  rw [castN2_mul, castN2_mul, castN2_mul, hfn, castN2_10] at cv
  have ez : frobZ K.pair = (xi K.pair.rom.p ^ ((K.pair.rom.p - 1) / 6))⁻¹ := by rw [frobZ, if_pos hm]
  have eu : castN2 K.pair.rom.p u381 = frobZ K.pair ^ 2 := by
    rw [ez, inv_pow, pow_two]; exact eq_inv_of_mul_eq_one_left cu
  have ev : castN2 K.pair.rom.p v381 = frobZ K.pair ^ 3 := by
    rw [ez, inv_pow, pow_succ, pow_two]; exact eq_inv_of_mul_eq_one_left cv
  have b3 := b3N_ok h
  have e12 : b3N K.pair = (12, 12) := by
    rw [b3N, if_pos hm, hI, hp']; decide +kernel
  rw [e12] at b3
  have hB : castN2 K.pair.rom.p (4, 4) = Ecp2.Btw K.pair := by
    have h3 : (3 : F2 K.pair.rom.p) ≠ 0 := by
      intro e
      have e' : (((3 : Nat)) : ZMod K.pair.rom.p) = 0 := by
        have := congrArg QuadraticAlgebra.re e
        push_cast; exact this
      have hd := (ZMod.natCast_eq_zero_iff _ _).1 e'
      have := Nat.le_of_dvd (by norm_num) hd
      rw [hp'] at this
      exact absurd this (by decide +kernel)
    apply mul_left_cancel₀ h3
    rw [← b3]
    have e3 : (3 : F2 K.pair.rom.p) = ⟨3, 0⟩ := by
      ext
      · rfl
      · rfl
    rw [e3]
    ext
    · simp [castN2]; norm_num
    · simp [castN2]; norm_num
  obtain ⟨hh, hgen⟩ := gen_sound K.pair h hg
  have hgc := hg
  unfold genCheck at hgc
  simp only [Bool.and_eq_true] at hgc
  obtain ⟨⟨⟨⟨g1, g2⟩, g3⟩, g4⟩, _⟩ := hgc
  have nn : ∀ {x : Limbs C}, repB K.pair.rom.P K.pair.rom.p x = true → 0 ≤ limbsVal K.pair.rom.P.b x := fun h => by
    rw [(repB_sound h).1.val]; exact Int.natCast_nonneg _
  have ex : castN2 K.pair.rom.p (nv K.pair.rom.P.b K.pair.pxa, nv K.pair.rom.P.b K.pair.pxb) = ⟨(K.pair.rom.val K.pair.pxa : ZMod K.pair.rom.p), (K.pair.rom.val K.pair.pxb : ZMod K.pair.rom.p)⟩ :=
    castN2_toNat (nn g1) (nn g2)
  have ey : castN2 K.pair.rom.p (nv K.pair.rom.P.b K.pair.pya, nv K.pair.rom.P.b K.pair.pyb) = ⟨(K.pair.rom.val K.pair.pya : ZMod K.pair.rom.p), (K.pair.rom.val K.pair.pyb : ZMod K.pair.rom.p)⟩ :=
    castN2_toNat (nn g3) (nn g4)
  rw [← ex, ← ey] at hh
  have hrp : 0 < r381 := by decide
  obtain ⟨hz, he⟩ := g2B_sound h hf hrp h2B hh
  have hn : Affine.Point.some _ _ hh ≠ 0 := (some_ne_zero' hh).symm
  have hE : Preserves (conjH K.pair.rom.p) (castN2 K.pair.rom.p u381) (castN2 K.pair.rom.p v381) 0 (Ecp2.Btw K.pair) := by
    rw [eu, ev]; exact frob_preserves hf.six
  have hpsi : ∀ T, endo hE T = psi hf.six T := by
    intro T
    rcases T with _ | ⟨x, y, hh⟩
    · have e : (Affine.Point.zero : (curve2 K.pair).Point) = 0 := rfl
      rw [e, map_zero, map_zero]
    · rw [psi, endo_some, endo_some]
      exact some_congr _ _ (by rw [eu]) (by rw [ev])
  obtain ⟨hcard, hcof⟩ := e2_group hp' hB b3 h.noTwo hc hr hn hz (cofHom r381 (psi hf.six) (-(z381 : Int))) (cof_eig hz he)
    (by
    intro q hq hh
    have hq' := List.all_eq_true.1 cofB q hq
    rw [← hp'] at hq'
    have := cofT_sound b3 h.noTwo hc hE hh hq'
    rw [cofMap, hpsi, hpsi] at this
    rw [cofHom_apply, cofMap, this, nsmul_zero])
  have hfr : Fact r381.Prime := ⟨hr⟩
  refine ⟨hcard, fun T hT => ?_, hcof⟩
  have hnd : ¬ r381 ^ 2 ∣ Nat.card (curve2 K.pair).Point := by
    rw [hcard]; decide +kernel
  obtain ⟨k, rfl⟩ := torsion_cyclic hnd hn hz hT
  rw [map_zsmul, he, smul_comm]

end
end Verif.Pair
