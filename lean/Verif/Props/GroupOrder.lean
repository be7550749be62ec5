import Verif.Pair.GroupBls
import Verif.Props.Subgroup
import Verif.Spec.Dh
/-
C92, continued: the pairing-friendly curves of embedding degree 12 have as many points as the ROM files state (order times cofactor), so the cofactor times any point lies in the
group of prime order.
-/
namespace Verif.Props
open Verif.Big Verif.Fp Verif.Rom Verif.Curve Verif.Ecp Verif.Ecp2 Verif.Ecdh Verif.Pair WeierstrassCurve

section
variable {C : Nat} {K : GlsRom C} [hp : Fact K.pair.rom.p.Prime] [h4 : Fact (K.pair.rom.p % 4 = 3)] {lam : Int}

/-- the number of points of one of the BLS curves, from the certificate -/
theorem card_bls (h : PairFacts K lam) {p B r c w : Nat} {t : Nat × Nat} {L : List (Nat × Nat × Nat × Nat)} (hL : ∀ e ∈ L, e.1.Prime) (hb : groupB p B r c w t L = true)
    (e : K.pair.rom.p = p ∧ ordN K.pair.rom = r ∧ cofN K.pair.rom = c ∧ K.pair.rom.bI = B) : Nat.card (curve K.pair.rom).Point = cofN K.pair.rom * ordN K.pair.rom := by
  obtain ⟨e1, e2, e3, e4⟩ := e
  obtain ⟨G, _, hn, h0⟩ := h.gen1
  have hB : (B : ZMod K.pair.rom.p) = Bcoef K.pair.rom := by rw [← h.tw.bI, e4]; simp
  rw [e3, e2]
  subst e1
  exact group_bls (by rw [h.g1.cru.a]; simp) hB h.g1.wc.noTwo (e2 ▸ h.prime) hn (e2 ▸ h0) hL hb

end

theorem mem64 (K : GlsRom 64) (hK : K ∈ gls64) : K.pair ∈ pairs64 ∧ K.pair.rom ∈ all64 := by
  simp only [gls64, List.mem_cons, List.not_mem_nil, or_false] at hK
  rcases hK with rfl | rfl | rfl | rfl | rfl | rfl | rfl <;> exact ⟨by simp [pairs64, bls381_64g, bls383_64g, bls461_64g, bn254_64g, bn254cx_64g, fp256bn_64g, fp512bn_64g],
    by simp [all64, bls381_64g, bls383_64g, bls461_64g, bn254_64g, bn254cx_64g, fp256bn_64g, fp512bn_64g, bls381_64p, bls383_64p, bls461_64p, bn254_64p, bn254cx_64p, fp256bn_64p, fp512bn_64p]⟩

theorem mem32 (K : GlsRom 32) (hK : K ∈ gls32) : K.pair ∈ pairs32 ∧ K.pair.rom ∈ all32 := by
  simp only [gls32, List.mem_cons, List.not_mem_nil, or_false] at hK
  rcases hK with rfl | rfl | rfl | rfl | rfl | rfl <;> exact ⟨by simp [pairs32, bls381_32g, bls383_32g, bls461_32g, bn254_32g, bn254cx_32g, fp256bn_32g],
    by simp [all32, bls381_32g, bls383_32g, bls461_32g, bn254_32g, bn254cx_32g, fp256bn_32g, bls381_32p, bls383_32p, bls461_32p, bn254_32p, bn254cx_32p, fp256bn_32p]⟩

/-- how the group order is found -/
def kindB {C : Nat} (K : GlsRom C) : Bool :=
  decide (K.pair.rom.ctype = .weierstrass ∧ cofN K.pair.rom = 1) || decide (K.pair.rom.p = p383 ∧ ordN K.pair.rom = r383 ∧ cofN K.pair.rom = h383 ∧ K.pair.rom.bI = (15 : Nat)) ||
  decide (K.pair.rom.p = p461 ∧ ordN K.pair.rom = r461 ∧ cofN K.pair.rom = h461 ∧ K.pair.rom.bI = (9 : Nat)) ||
  decide (K.pair.rom.p = Pair.p381 ∧ ordN K.pair.rom = r381 ∧ cofN K.pair.rom = h381 ∧ K.pair.rom.bI = (4 : Nat))

theorem card_of {C : Nat} {K : GlsRom C} [hp : Fact K.pair.rom.p.Prime] [h4 : Fact (K.pair.rom.p % 4 = 3)] {lam : Int} (h : PairFacts K lam)
    (h1 : K.pair.rom.ctype = .weierstrass → cofN K.pair.rom = 1 → PrimeOrder K.pair.rom) (hk : kindB K = true) : Nat.card (curve K.pair.rom).Point = cofN K.pair.rom * ordN K.pair.rom := by
  unfold kindB at hk
  simp only [Bool.or_eq_true, decide_eq_true_eq] at hk
  rcases hk with ((⟨a, b⟩ | e) | e) | ⟨e1, e2, e3, e4⟩
  · rw [b, one_mul]; exact (h1 a b).1
  · exact card_bls h l383_prime group383 e
  · exact card_bls h l461_prime group461 e
  · obtain ⟨G, _, hn, h0⟩ := h.gen1
    have hB : ((4 : Nat) : ZMod K.pair.rom.p) = Bcoef K.pair.rom := by rw [← h.tw.bI, e4]; simp
    rw [e3, e2]
    exact (e1_group e1 (by rw [h.g1.cru.a]; simp) hB h.g1.wc.noTwo (e2 ▸ h.prime) hn (e2 ▸ h0)).1

/-- C92. The number of points on the first curve of every bundled pairing-friendly curve of embedding degree 12 is the order times the cofactor of the ROM file; hence the order kills
the cofactor times any point.  64-bit … -/
theorem C92_group_order64 (K : GlsRom 64) (hK : K ∈ gls64) : ∃ _ : Fact K.pair.rom.p.Prime, Nat.card (curve K.pair.rom).Point = cofN K.pair.rom * ordN K.pair.rom ∧
    ∀ (s : Pt 64) (T : (curve K.pair.rom).Point), IsPoint K.pair.rom s T → ordN K.pair.rom • cofN K.pair.rom • T = 0 := by
  obtain ⟨hp, h4, lam, h⟩ := facts64 K hK
  have hall : gls64.all kindB = true := by decide +kernel
  have hc := card_of h (fun a b => (C92_prime_order64 _ (mem64 K hK).2 a b).2) (List.all_eq_true.1 hall K hK)
  refine ⟨hp, hc, fun _ T _ => ?_⟩
  rw [← mul_nsmul, ← hc]
  exact card_nsmul_eq_zero'

/-- … and 32-bit, where the representation must have 19 bits to spare. -/
theorem C92_group_order32 (K : GlsRom 32) (hK : K ∈ gls32) (hh : 2 ^ 19 * K.pair.rom.p ≤ 2 ^ (K.pair.rom.P.b * K.pair.rom.P.n)) :
    ∃ _ : Fact K.pair.rom.p.Prime, Nat.card (curve K.pair.rom).Point = cofN K.pair.rom * ordN K.pair.rom ∧
    ∀ (s : Pt 32) (T : (curve K.pair.rom).Point), IsPoint K.pair.rom s T → ordN K.pair.rom • cofN K.pair.rom • T = 0 := by
  obtain ⟨hp, h4, lam, h⟩ := facts32 K hK hh
  have hall : gls32.all (fun K => kindB K && decide (K.pair.rom.p ≠ 2 ^ 384 - 317)) = true := by decide +kernel
  have hk := List.all_eq_true.1 hall K hK
  rw [Bool.and_eq_true, decide_eq_true_eq] at hk
  have hc := card_of h (fun a b => (C92_prime_order32 _ (mem32 K hK).2 a b hk.2).2) hk.1
  refine ⟨hp, hc, fun _ T _ => ?_⟩
  rw [← mul_nsmul, ← hc]
  exact card_nsmul_eq_zero'

end Verif.Props
