import Verif.Pair.Bls381
import Verif.Props.Ecp2
/- The facts about the bundled pairing-friendly curves, collected. -/
namespace Verif.Pair
open Verif.Big Verif.Fp Verif.Rom Verif.Curve Verif.Tower Verif.Ecp Verif.Ecp2 Verif.Props Spec WeierstrassCurve
set_option exponentiation.threshold 4000

section
variable {C : Nat} (K : GlsRom C) [hp : Fact K.pair.rom.p.Prime] [h4 : Fact (K.pair.rom.p % 4 = 3)] (lam : Int)

/-- both groups of a pairing-friendly curve -/
structure PairFacts : Prop where
  g1 : G1Facts K lam
  tw : TCurve K.pair
  pr : TowerPrime K.pair.rom.p
  fr : FrobOk K.pair
  prime : (rN K.pair).Prime
  gen1 : ∃ G : (curve K.pair.rom).Point, IsPoint K.pair.rom (Ecp.generator K.pair.rom) G ∧ G ≠ 0 ∧ rN K.pair • G = 0
  gen2 : ∃ G : (curve2 K.pair).Point, IsPoint2 K.pair 2 (Ecp2.generator K.pair) G ∧ G ≠ 0 ∧ rN K.pair • G = 0 ∧ psi fr.six G = (K.pair.rom.p : Int) • G

variable {K lam}

theorem gen2_ok (h : TCurve K.pair) (hf : FrobOk K.pair) (hr : 0 < rN K.pair) (hg : genCheck K.pair = true) (hb : g2B K.pair (rN K.pair) = true) :
    ∃ G : (curve2 K.pair).Point, IsPoint2 K.pair 2 (Ecp2.generator K.pair) G ∧ G ≠ 0 ∧ rN K.pair • G = 0 ∧ psi hf.six G = (K.pair.rom.p : Int) • G := by
  obtain ⟨hh, hgen⟩ := gen_sound K.pair h hg
  have hgc := hg
  unfold genCheck at hgc
  simp only [Bool.and_eq_true] at hgc
  obtain ⟨⟨⟨⟨g1, g2⟩, g3⟩, g4⟩, _⟩ := hgc
  have nn : ∀ {x : Limbs C}, repB K.pair.rom.P K.pair.rom.p x = true → 0 ≤ limbsVal K.pair.rom.P.b x := fun h => by
    rw [(repB_sound h).1.val]; exact Int.natCast_nonneg _
  have ex : castN2 K.pair.rom.p (nv K.pair.rom.P.b K.pair.pxa, nv K.pair.rom.P.b K.pair.pxb) = ⟨(K.pair.rom.val K.pair.pxa : ZMod K.pair.rom.p), (K.pair.rom.val K.pair.pxb : ZMod K.pair.rom.p)⟩ :=
    castN2_toNat (nn g1) (nn g2)
  have ey : castN2 K.pair.rom.p (nv K.pair.rom.P.b K.pair.pya, nv K.pair.rom.P.b K.pair.pyb) = ⟨(K.pair.rom.val K.pair.pya : ZMod K.pair.rom.p), (K.pair.rom.val K.pair.pyb : ZMod K.pair.rom.p)⟩ :=
    castN2_toNat (nn g3) (nn g4)
  have hh' := hh
  rw [← ex, ← ey] at hh'
  obtain ⟨hz, he⟩ := g2B_sound h hf hr hb hh'
  have e : Affine.Point.some _ _ hh' = Affine.Point.some _ _ hh := some_congr _ _ ex ey
  rw [e] at hz he
  exact ⟨_, hgen, (some_ne_zero' hh).symm, hz, he⟩

end

section
variable {C : Nat} {K : GlsRom C}

theorem facts_of [hp : Fact K.pair.rom.p.Prime] [h4 : Fact (K.pair.rom.p % 4 = 3)] (hw : WCurve K.pair.rom) (hr : (rN K.pair).Prime) (hcons : K.pair.rom.Consistent)
    (hl : K.pair.rom.gx.length = K.pair.rom.P.n ∧ K.pair.rom.gy.length = K.pair.rom.P.n)
    (hord : ∀ hh : (curve K.pair.rom).Nonsingular (K.pair.rom.val K.pair.rom.gx : ZMod K.pair.rom.p) (K.pair.rom.val K.pair.rom.gy : ZMod K.pair.rom.p),
      rN K.pair • Affine.Point.some _ _ hh = 0)
    (hc : C51_Curve K.pair) (ht : TCurve K.pair) (h1 : checkB K = true) (h2 : genCheck K.pair = true) (h3 : g2B K.pair (rN K.pair) = true) : ∃ lam, PairFacts K lam := by
  obtain ⟨hh, hG⟩ := C48_generator hw hcons hl
  obtain ⟨lam, hg1⟩ := g1_sound hw hr hcons hord ⟨hh, trivial⟩ h1
  have hf : FrobOk K.pair := ⟨by have := hc.prime.mod6; omega, std2_iff.1 hc.frob⟩
  exact ⟨lam, hg1, ht, hc.prime, hf, hr, ⟨_, hG, (some_ne_zero' hh).symm, hord hh⟩, gen2_ok ht hf hr.pos h2 h3⟩

end

theorem facts64 (K : GlsRom 64) (hK : K ∈ gls64) : ∃ (_ : Fact K.pair.rom.p.Prime) (_ : Fact (K.pair.rom.p % 4 = 3)) (lam : Int), PairFacts K lam := by
  have hall : gls64.all (fun K => decide (K.pair.rom.ctype = .weierstrass ∧ K.pair.rom.gx.length = K.pair.rom.P.n ∧ K.pair.rom.gy.length = K.pair.rom.P.n ∧ K.pair.rom.p % 4 = 3) &&
      checkB K && genCheck K.pair && g2B K.pair (rN K.pair)) = true := by decide +kernel
  have hm : K.pair ∈ pairs64 ∧ K.pair.rom ∈ all64 := by
    simp only [gls64, List.mem_cons, List.not_mem_nil, or_false] at hK
    rcases hK with rfl | rfl | rfl | rfl | rfl | rfl | rfl <;> exact ⟨by simp [pairs64, bls381_64g, bls383_64g, bls461_64g, bn254_64g, bn254cx_64g, fp256bn_64g, fp512bn_64g],
      by simp [all64, bls381_64g, bls383_64g, bls461_64g, bn254_64g, bn254cx_64g, fp256bn_64g, fp512bn_64g, bls381_64p, bls383_64p, bls461_64p, bn254_64p, bn254cx_64p, fp256bn_64p, fp512bn_64p]⟩
  have hk := List.all_eq_true.1 hall K hK
  simp only [Bool.and_eq_true, decide_eq_true_eq] at hk
  obtain ⟨⟨⟨⟨k1, k2, k3, k4⟩, k5⟩, k6⟩, k7⟩ := hk
  obtain ⟨q1, q2⟩ := C55_primes64 _ hm.2
  have hp : Fact K.pair.rom.p.Prime := ⟨q1⟩
  have h4 : Fact (K.pair.rom.p % 4 = 3) := ⟨k4⟩
  exact ⟨hp, h4, facts_of (C48_rom64 _ hm.2 k1) q2 (C55_rom64 _ hm.2) ⟨k2, k3⟩ (C55_order64 _ hm.2 k1) (C51_rom64 _ hm.1) (C58_rom64 _ hm.1) k5 k6 k7⟩

theorem facts32 (K : GlsRom 32) (hK : K ∈ gls32) (hh : 2 ^ 19 * K.pair.rom.p ≤ 2 ^ (K.pair.rom.P.b * K.pair.rom.P.n)) :
    ∃ (_ : Fact K.pair.rom.p.Prime) (_ : Fact (K.pair.rom.p % 4 = 3)) (lam : Int), PairFacts K lam := by
  have hall : gls32.all (fun K => decide (K.pair.rom.ctype = .weierstrass ∧ K.pair.rom.gx.length = K.pair.rom.P.n ∧ K.pair.rom.gy.length = K.pair.rom.P.n ∧ K.pair.rom.p % 4 = 3 ∧
      K.pair.rom.p ≠ 2 ^ 384 - 317) && checkB K && genCheck K.pair && g2B K.pair (rN K.pair)) = true := by decide +kernel
  have hm : K.pair ∈ pairs32 ∧ K.pair.rom ∈ all32 := by
    simp only [gls32, List.mem_cons, List.not_mem_nil, or_false] at hK
    rcases hK with rfl | rfl | rfl | rfl | rfl | rfl <;> exact ⟨by simp [pairs32, bls381_32g, bls383_32g, bls461_32g, bn254_32g, bn254cx_32g, fp256bn_32g],
      by simp [all32, bls381_32g, bls383_32g, bls461_32g, bn254_32g, bn254cx_32g, fp256bn_32g, bls381_32p, bls383_32p, bls461_32p, bn254_32p, bn254cx_32p, fp256bn_32p]⟩
  have hk := List.all_eq_true.1 hall K hK
  simp only [Bool.and_eq_true, decide_eq_true_eq] at hk
  obtain ⟨⟨⟨⟨k1, k2, k3, k4, k0⟩, k5⟩, k6⟩, k7⟩ := hk
  obtain ⟨q1, q2⟩ := C55_primes32 _ hm.2
  have hp : Fact K.pair.rom.p.Prime := ⟨q1⟩
  have h4 : Fact (K.pair.rom.p % 4 = 3) := ⟨k4⟩
  exact ⟨hp, h4, facts_of (C48_rom32 _ hm.2 k1 k0) q2 (C55_rom32 _ hm.2) ⟨k2, k3⟩ (C55_order32 _ hm.2 k1 k0) (C51_rom32 _ hm.1 hh) (C58_rom32 _ hm.1 hh) k5 k6 k7⟩

end Verif.Pair
