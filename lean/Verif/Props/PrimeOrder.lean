import Verif.Props.Prime
import Verif.Pair.G1
/-
C92: a bundled Weierstrass curve with cofactor 1 has as many points as the ROM file states, so every point which satisfies the curve equation is a multiple of the generator.
-/
namespace Verif.Props
open Verif.Big Verif.Fp Verif.Rom Verif.Curve Verif.Ecp Verif.Ecdh Verif.Pair WeierstrassCurve

section
variable {p : Nat} [hp : Fact p.Prime] {A B : ZMod p}

theorem odd_card (h2 : NoTwoTorsion A B) (hc : (2 : ZMod p) ≠ 0) : ¬ 2 ∣ Nat.card (short A B).Point := by
  intro hd
  have : Fact (Nat.Prime 2) := ⟨Nat.prime_two⟩
  obtain ⟨T, hT⟩ := exists_prime_addOrderOf_dvd_card' 2 hd
  have h0 : 2 • T = 0 := by rw [← hT]; exact addOrderOf_nsmul_eq_zero T
  have hn : T ≠ 0 := by
    rintro rfl
    rw [addOrderOf_zero] at hT
    omega
  cases T with
  | zero => exact hn rfl
  | some x y hh =>
    rw [two_nsmul] at h0
    have hy := y_ne h2 hh.1
    have hne : y ≠ (short A B).negY x y := by
      intro e
      have e' : (short A B).negY x y = -y := by simp [Affine.negY, short]
      rw [e'] at e
      have : (2 : ZMod p) * y = 0 := by linear_combination e
      rcases mul_eq_zero.1 this with c | c
      · exact hc c
      · exact hy c
    rw [Affine.Point.add_self_of_Y_ne hne] at h0
    exact absurd h0.symm (some_ne_zero' _)

/-- a point of prime order `r` with `3 r > 2 (p + 1)`, on a curve without points of order two: there are `r` points -/
theorem card_prime (h2 : NoTwoTorsion A B) (hc : (2 : ZMod p) ≠ 0) {r : Nat} (hr : r.Prime) (hb : 2 * (p + 1) < 3 * r) {G : (short A B).Point} (hG : G ≠ 0) (h0 : r • G = 0) :
    Nat.card (short A B).Point = r := by
  have ho : addOrderOf G = r := by
    rcases (Nat.dvd_prime hr).1 (addOrderOf_dvd_of_nsmul_eq_zero h0) with c | c
    · exact absurd (AddMonoid.addOrderOf_eq_one_iff.1 c) hG
    · exact c
  have hd : r ∣ Nat.card (short A B).Point := ho ▸ addOrderOf_dvd_natCard G
  have hle := card_points (A := A) (B := B)
  rw [ZMod.card] at hle
  have hpos : 0 < Nat.card (short A B).Point := Nat.card_pos
  have hodd := odd_card h2 hc
  obtain ⟨k, hk⟩ := hd
  rw [hk] at hle hpos hodd ⊢
  have k3 : k < 3 := by
    by_contra c
    have : r * 3 ≤ r * k := Nat.mul_le_mul_left r (by omega)
    omega
  interval_cases k
  · omega
  · omega
  · exact absurd (Dvd.intro_left r rfl) hodd

end

section
variable {C : Nat} {K : Rom C} [hp : Fact K.p.Prime]

theorem prime_order (h : WCurve K) (hr : (ordN K).Prime) (hb : 2 * (K.p + 1) < 3 * ordN K) {G : (curve K).Point} (hG : G ≠ 0) (h0 : ordN K • G = 0) :
    Nat.card (curve K).Point = ordN K ∧ ∀ T : (curve K).Point, ordN K • T = 0 ∧ ∃ k < ordN K, T = k • G := by
  have hc := card_prime h.noTwo (two_ne_zero' h.arith.toConsts) hr hb hG h0
  have : Fact (ordN K).Prime := ⟨hr⟩
  refine ⟨hc, fun T => ⟨by rw [← hc]; exact card_nsmul_eq_zero', ?_⟩⟩
  obtain ⟨k, hk⟩ := mem_zmultiples_of_prime_card hc hG (g' := T)
  have hpos : (0 : Int) < ordN K := by exact_mod_cast hr.pos
  refine ⟨(k % ordN K).toNat, by have := Int.emod_lt_of_pos k hpos; have := Int.emod_nonneg k hpos.ne'; omega, ?_⟩
  have e1 : (((k % ordN K).toNat : Nat) : Int) = k % ordN K := Int.toNat_of_nonneg (Int.emod_nonneg k hpos.ne')
  have hk' : k • G = T := hk
  rw [← natCast_zsmul, e1, ← hk']
  conv_lhs => rw [← Int.mul_ediv_add_emod k (ordN K), add_zsmul, mul_comm, mul_zsmul, natCast_zsmul, h0, zsmul_zero, zero_add]

/-- what C92 says about a curve: the number of points is the order in the ROM file, and every value that stands for a point stands for a multiple of the generator -/
def PrimeOrder (K : Rom C) [Fact K.p.Prime] : Prop :=
  Nat.card (curve K).Point = ordN K ∧ ∃ G, IsPoint K (Ecp.generator K) G ∧ ∀ (s : Pt C) (T : (curve K).Point), IsPoint K s T → ordN K • T = 0 ∧ ∃ k < ordN K, T = k • G

theorem primeOrder_of (h : WCurve K) (hr : (ordN K).Prime) (hb : 2 * (K.p + 1) < 3 * ordN K) {G : (curve K).Point} (hG : IsPoint K (Ecp.generator K) G) (hn : G ≠ 0) (h0 : ordN K • G = 0) :
    PrimeOrder K := by
  obtain ⟨h1, h2⟩ := prime_order h hr hb hn h0
  exact ⟨h1, G, hG, fun _ T _ => h2 T⟩

end

/-- C92, 64-bit: every bundled Weierstrass curve whose ROM file states the cofactor 1 … -/
theorem C92_prime_order64 (r : Rom 64) (hr : r ∈ all64) (ht : r.ctype = .weierstrass) (hc : cofN r = 1) : ∃ _ : Fact r.p.Prime, PrimeOrder r := by
  obtain ⟨p1, p2⟩ := C55_primes64 r hr
  have hp : Fact r.p.Prime := ⟨p1⟩
  have hall : all64.all (fun r => decide (r.ctype = .weierstrass → cofN r = 1 → 2 * (r.p + 1) < 3 * ordN r ∧ r.gx.length = r.P.n ∧ r.gy.length = r.P.n)) = true := by decide +kernel
  obtain ⟨hb, hl⟩ := of_decide_eq_true (List.all_eq_true.1 hall r hr) ht hc
  obtain ⟨hh, hG⟩ := C48_generator (C48_rom64 r hr ht) (C55_rom64 r hr) hl
  exact ⟨hp, primeOrder_of (C48_rom64 r hr ht) p2 hb hG (some_ne_zero' hh).symm (C55_order64 r hr ht hh)⟩

/-- … and 32-bit (the curve over 2^384 - 317 excepted, whose field arithmetic overflows, C16). -/
theorem C92_prime_order32 (r : Rom 32) (hr : r ∈ all32) (ht : r.ctype = .weierstrass) (hc : cofN r = 1) (h384 : r.p ≠ 2 ^ 384 - 317) : ∃ _ : Fact r.p.Prime, PrimeOrder r := by
  obtain ⟨p1, p2⟩ := C55_primes32 r hr
  have hp : Fact r.p.Prime := ⟨p1⟩
  have hall : all32.all (fun r => decide (r.ctype = .weierstrass → cofN r = 1 → 2 * (r.p + 1) < 3 * ordN r ∧ r.gx.length = r.P.n ∧ r.gy.length = r.P.n)) = true := by decide +kernel
  obtain ⟨hb, hl⟩ := of_decide_eq_true (List.all_eq_true.1 hall r hr) ht hc
  obtain ⟨hh, hG⟩ := C48_generator (C48_rom32 r hr ht h384) (C55_rom32 r hr) hl
  exact ⟨hp, primeOrder_of (C48_rom32 r hr ht h384) p2 hb hG (some_ne_zero' hh).symm (C55_order32 r hr ht h384 hh)⟩

/-- the hypotheses are met by most of the Weierstrass curves -/
example : (all64.filter fun r => decide (r.ctype = .weierstrass ∧ cofN r = 1)).length = 13 ∧ (all64.filter fun r => decide (r.ctype = .weierstrass)).length = 18 := by decide +kernel

end Verif.Props
