import Verif.Pair.Facts
/-
C63: `pair::g1mul` and `pair::g2mul` multiply. C64: the subgroup checks of BLS12-381 are exact. C65: group orders and cofactor clearing of BLS12-381.
-/
namespace Verif.Props
open Verif.Big Verif.Fp Verif.Rom Verif.Curve Verif.Tower Verif.Ecp Verif.Ecp2 Verif.Pair Spec WeierstrassCurve

/-! ### C63 -/

/-- what C63 says about one ROM file -/
def MulOk {C : Nat} (K : GlsRom C) [Fact K.pair.rom.p.Prime] [Fact (K.pair.rom.p % 4 = 3)] : Prop :=
  -- first group: every point killed by the order of the group, every scalar up to the order
  (∀ (s : Pt C) (T : (curve K.pair.rom).Point), IsPoint K.pair.rom s T → rN K.pair • T = 0 → ∀ (e : Limbs C) (E : Nat), Rep K.pair.rom.P.b K.pair.rom.P.n e E →
    E ≤ rN K.pair → ∃ R, g1mul K s e = some R ∧ IsPoint K.pair.rom R (E • T)) ∧
  -- second group: the multiples of its generator
  (∃ G : (curve2 K.pair).Point, IsPoint2 K.pair 2 (Ecp2.generator K.pair) G ∧ G ≠ 0 ∧ rN K.pair • G = 0 ∧
    ∀ (d : Nat) (s : Pt2 C) (k : Int), IsPoint2 K.pair d s (k • G) → 1 ≤ d → d ≤ 202 → ∀ (e : Limbs C) (E : Nat), Rep K.pair.rom.P.b K.pair.rom.P.n e E →
      E ≤ rN K.pair → ∃ R, g2mul K s e = some R ∧ IsPoint2 K.pair 16384 R (E • k • G))

theorem mulOk_of {C : Nat} {K : GlsRom C} [Fact K.pair.rom.p.Prime] [Fact (K.pair.rom.p % 4 = 3)] {lam : Int} (h : PairFacts K lam) : MulOk K := by
  refine ⟨fun s T hs hT e E he hE => g1mul_ok h.g1.wc h.g1.gls h.g1.cru hs hT (h.g1.eig T hT) he hE, ?_⟩
  obtain ⟨G, hG, hn, h0, hpsi⟩ := h.gen2
  refine ⟨G, hG, hn, h0, fun d s k hs h1 h2 e E he hE => ?_⟩
  exact g2mul_ok h.tw h.g1.gls h.fr hs h1 h2 (by rw [smul_comm, h0, zsmul_zero]) (by rw [map_zsmul, hpsi, smul_comm]) he hE

/-- C63. On all bundled pairing-friendly curves (embedding degree 12, 64-bit), `pair::g1mul` and `pair::g2mul` compute scalar multiples on the prime-order groups. -/
theorem C63_groups64 (K : GlsRom 64) (hK : K ∈ gls64) : ∃ (_ : Fact K.pair.rom.p.Prime) (_ : Fact (K.pair.rom.p % 4 = 3)), (rN K.pair).Prime ∧ MulOk K := by
  obtain ⟨hp, h4, lam, h⟩ := facts64 K hK
  exact ⟨hp, h4, h.prime, mulOk_of h⟩

/-- C63, 32-bit; the representation must have 19 bits to spare -/
theorem C63_groups32 (K : GlsRom 32) (hK : K ∈ gls32) (hh : 2 ^ 19 * K.pair.rom.p ≤ 2 ^ (K.pair.rom.P.b * K.pair.rom.P.n)) :
    ∃ (_ : Fact K.pair.rom.p.Prime) (_ : Fact (K.pair.rom.p % 4 = 3)), (rN K.pair).Prime ∧ MulOk K := by
  obtain ⟨hp, h4, lam, h⟩ := facts32 K hK hh
  exact ⟨hp, h4, h.prime, mulOk_of h⟩

set_option exponentiation.threshold 600 in
example : gls64.length = 7 ∧ (gls32.filter fun K => decide (2 ^ 19 * K.pair.rom.p ≤ 2 ^ (K.pair.rom.P.b * K.pair.rom.P.n))).length = 5 := by decide +kernel

/-! ### C64 and C65 -/

/-- what C64 says about the BLS12-381 ROM of one word size -/
def ChecksOk {C : Nat} (K : GlsRom C) [Fact K.pair.rom.p.Prime] [Fact (K.pair.rom.p % 4 = 3)] : Prop :=
  (∀ (s : Pt C) (T : (curve K.pair.rom).Point), IsPoint K.pair.rom s T → ∃ b, subgroupCheckG1 K s = some b ∧ (b = true ↔ r381 • T = 0)) ∧
  (∀ (d : Nat) (s : Pt2 C) (T : (curve2 K.pair).Point), IsPoint2 K.pair d s T → 1 ≤ d → d ≤ 202 → ∃ b, subgroupCheckG2 K s = some b ∧ (b = true ↔ r381 • T = 0))

/-- what C65 says: the two curves have `h1 r` and `h2 r` points; `mul` by `1 - x`, respectively `clear_cofactor`, maps every point into the subgroup of order `r` -/
def CofactorOk {C : Nat} (K : GlsRom C) [Fact K.pair.rom.p.Prime] [Fact (K.pair.rom.p % 4 = 3)] : Prop :=
  Nat.card (curve K.pair.rom).Point = h381 * r381 ∧ Nat.card (curve2 K.pair).Point = k381 * r381 ∧
  (∀ (s : Pt C) (T : (curve K.pair.rom).Point), IsPoint K.pair.rom s T → ∀ e : Limbs C, Rep K.pair.rom.P.b K.pair.rom.P.n e (0xd201000000010001 : Nat) →
    ∃ R, Ecp.mul K.pair.rom s e = some R ∧ ∃ U : (curve K.pair.rom).Point, IsPoint K.pair.rom R U ∧ U = (0xd201000000010001 : Nat) • T ∧ r381 • U = 0) ∧
  (∀ (s : Pt2 C) (T : (curve2 K.pair).Point), IsPoint2 K.pair 202 s T →
    ∃ R, clearCofactor K s = some R ∧ ∃ U : (curve2 K.pair).Point, IsPoint2 K.pair 22 R U ∧ r381 • U = 0) ∧
  -- nothing is lost: the subgroup of order `r` is mapped onto itself by a multiplication prime to `r`
  (∀ (s : Pt2 C) (T : (curve2 K.pair).Point), IsPoint2 K.pair 202 s T → r381 • T = 0 → ∃ R, clearCofactor K s = some R ∧
    IsPoint2 K.pair 22 R (((-(z381 : Int)) ^ 2 - -(z381 : Int) - 1 + (-(z381 : Int) - 1) * Pair.p381 + 2 * Pair.p381 ^ 2) • T))

theorem bls381_module {A : Type*} [AddCommGroup A] (a b c q : Int) (T : A) : a • T + b • q • T + c • q • q • T = (a + b * q + c * q ^ 2) • T := by module

theorem bls381_of {C : Nat} {K : GlsRom C} [hp : Fact K.pair.rom.p.Prime] [h4 : Fact (K.pair.rom.p % 4 = 3)] {lam : Int} (h : PairFacts K lam) (hg : genCheck K.pair = true)
    (hb : b381B K = true) : ChecksOk K ∧ CofactorOk K := by
  have hb' := hb
  unfold b381B at hb'
  dsimp only at hb'
  simp only [Bool.and_eq_true, decide_eq_true_eq, beq_iff_eq] at hb'
  obtain ⟨⟨⟨⟨⟨⟨⟨⟨⟨hp', hr', hI, hm, hx, hbn, hz⟩, r1⟩, r2⟩, r3⟩, hu⟩, hv⟩, h2B⟩, o1⟩, o2⟩ := hb'
  have hr := h.prime
  rw [hr'] at hr
  have F := g2_facts h.tw h.fr hr hg hb
  obtain ⟨G, hG, hn, h0⟩ := h.gen1
  rw [hr'] at h0
  have h4B : ((4 : Nat) : ZMod K.pair.rom.p) = Bcoef K.pair.rom := by
    rw [← h.tw.bI, hI]; norm_num
  obtain ⟨hc1, he1⟩ := e1_group hp' (by rw [h.g1.cru.a]; simp) h4B h.g1.wc.noTwo hr hn h0
  have hN2 : ∀ T : (curve2 K.pair).Point, (k381 * r381) • T = 0 := fun T => by rw [← F.card]; exact card_nsmul_eq_zero'
  have hX : Ecp.Scalar K.pair.rom K.pair.bnx z381 := by
    have := (repB_sound r3).1
    rw [show (limbsVal K.pair.rom.P.b K.pair.bnx).toNat = z381 from hz] at this
    refine Scalar_of h.g1.gls this ?_
    rw [hr']; decide +kernel
  have hx' : (-(z381 : Int)) = if K.pair.negx then -(z381 : Int) else z381 := by rw [if_pos hx]
  refine ⟨⟨fun s T hs => ?_, fun d s T hs h1 h2 => ?_⟩, hc1, F.card, fun s T hs e he => ?_, fun s T hs => ?_, fun s T hs hT => ?_⟩
  · have := check1 h.g1 (m := z381 ^ 2 - 1) (by rw [hr']; decide +kernel) o1 hs
    rw [hr'] at this; exact this
  · have := check2 h.tw h.pr h.g1.gls h.fr o2 (by rw [hr']; decide +kernel) hN2 (fun T hT => F.eig T (by rw [← hr']; exact hT))
      (-41606786286312326381987760785456697268118840889112859169566806388383172345651826665333447265798777699423364715112754375444346882552285110403849766527329217011363466122231805) (144173540229567348669383783854957804443716432122474442190304598884617546467652478414523224022002780767711153405114192490959975469769229964531230162243245150273974568732015651813366553866771021960104808084270849302240252414410752005) (2749521005381415097082206172483163991299489637520514913740506090645231838458446308309972534896837076923954857085356801352714492642606420656814940022308865) (-144173540229567348669383783854957804443716432122474442190262992098331234141273240174743148739831744132994523709935925174209112812337320230915323405246929694591138217511360465502694905924006062051510476192193424331476555232276185095)
      7559865759033627667248757642248453565517311822026774584630903011160129652241165969281342173428255324485967487582444073131972310467553544483299052236488174897371625750028866211089556378061820372939662084698888870005350252793112511804432615192511814861362928726362301307213381358176322880745911537866128883725
      (by rw [hr']; decide +kernel) (by rw [hr']; decide +kernel) (by rw [hr']; decide +kernel) (by rw [hr']; decide +kernel) (by rw [hr']; decide +kernel) hs h1 h2
    rw [hr'] at this; exact this
  · obtain ⟨R, e1, hR⟩ := Ecp.mul_ok h.g1.wc hs (Scalar_of h.g1.gls he (by rw [hr']; decide +kernel))
    rw [natCast_zsmul] at hR
    refine ⟨R, e1, _, hR, rfl, ?_⟩
    rw [← mul_nsmul, show 0xd201000000010001 * r381 = c381 * r381 from rfl]
    exact he1 T
  · obtain ⟨R, e1, hR⟩ := clearCofactor_bls h.tw h.fr hbn hX hx' hs
    exact ⟨R, e1, _, hR, F.cof T⟩
  · obtain ⟨R, e1, hR⟩ := clearCofactor_bls h.tw h.fr hbn hX hx' hs
    refine ⟨R, e1, ?_⟩
    have he := F.eig T hT
    rw [he, map_zsmul, he, bls381_module] at hR
    have hpi : (K.pair.rom.p : Int) = (Pair.p381 : Int) := by rw [hp']
    rw [hpi] at hR
    exact hR

theorem b381_64 : genCheck bls381_64g.pair = true ∧ b381B bls381_64g = true := by constructor <;> decide +kernel
theorem b381_32 : genCheck bls381_32g.pair = true ∧ b381B bls381_32g = true := by constructor <;> decide +kernel

theorem bls381_groups64 : ∃ (_ : Fact bls381_64g.pair.rom.p.Prime) (_ : Fact (bls381_64g.pair.rom.p % 4 = 3)), ChecksOk bls381_64g ∧ CofactorOk bls381_64g := by
  obtain ⟨hp, h4, lam, h⟩ := facts64 bls381_64g (by simp [gls64])
  exact ⟨hp, h4, bls381_of h b381_64.1 b381_64.2⟩

set_option exponentiation.threshold 600 in
theorem bls381_groups32 : ∃ (_ : Fact bls381_32g.pair.rom.p.Prime) (_ : Fact (bls381_32g.pair.rom.p % 4 = 3)), ChecksOk bls381_32g ∧ CofactorOk bls381_32g := by
  obtain ⟨hp, h4, lam, h⟩ := facts32 bls381_32g (by simp [gls32]) (by decide +kernel)
  exact ⟨hp, h4, bls381_of h b381_32.1 b381_32.2⟩

/-- C64. `subgroup_check_g1` and `subgroup_check_g2` of BLS12-381 accept a point of the curve exactly when the order of the group kills it; 64-bit … -/
theorem C64_checks64 : ∃ (_ : Fact bls381_64g.pair.rom.p.Prime) (_ : Fact (bls381_64g.pair.rom.p % 4 = 3)), ChecksOk bls381_64g := by
  obtain ⟨hp, h4, h, _⟩ := bls381_groups64
  exact ⟨hp, h4, h⟩

/-- … and 32-bit -/
theorem C64_checks32 : ∃ (_ : Fact bls381_32g.pair.rom.p.Prime) (_ : Fact (bls381_32g.pair.rom.p % 4 = 3)), ChecksOk bls381_32g := by
  obtain ⟨hp, h4, h, _⟩ := bls381_groups32
  exact ⟨hp, h4, h⟩

/-- C65. Group orders and cofactor clearing of BLS12-381, 64-bit … -/
theorem C65_cofactor64 : ∃ (_ : Fact bls381_64g.pair.rom.p.Prime) (_ : Fact (bls381_64g.pair.rom.p % 4 = 3)), CofactorOk bls381_64g := by
  obtain ⟨hp, h4, _, h⟩ := bls381_groups64
  exact ⟨hp, h4, h⟩

/-- … and 32-bit -/
theorem C65_cofactor32 : ∃ (_ : Fact bls381_32g.pair.rom.p.Prime) (_ : Fact (bls381_32g.pair.rom.p % 4 = 3)), CofactorOk bls381_32g := by
  obtain ⟨hp, h4, _, h⟩ := bls381_groups32
  exact ⟨hp, h4, h⟩

/-- the constants: `h1 = (x-1)²/3`, and the factor of `clear_cofactor` on the subgroup is prime to `r` -/
theorem C65_constants : 3 * h381 = (z381 + 1) ^ 2 ∧ r381 = z381 ^ 4 - z381 ^ 2 + 1 ∧ h381 < 2 ^ 127 ∧
    Int.gcd ((-(z381 : Int)) ^ 2 - -(z381 : Int) - 1 + (-(z381 : Int) - 1) * Pair.p381 + 2 * Pair.p381 ^ 2) r381 = 1 := by decide +kernel

end Verif.Props
