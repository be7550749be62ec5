import Verif.Bls.MapOk2
import Verif.Bls.HashField
import Verif.Pair.Facts
/- `hash_to_curve_g1` and `hash_to_curve_g2`. -/
namespace Verif.Bls
open Verif.Big Verif.Fp Verif.Rom Verif.H2c Verif.Tower Verif.Ecp Verif.Ecp2 Verif.Curve Verif.Pair Verif.Props Spec.Sswu WeierstrassCurve
open Spec (beNat Byte beBytes)

theorem hashPair_some {U Q : Type} {map : U → Option Q} {fin : Q → Q → Option Q} {u0 u1 : U} {q0 q1 : Q} (e0 : map u0 = some q0) (e1 : map u1 = some q1) :
    hashPair (some (.ok [u0, u1])) map fin = fin q0 q1 := by
  unfold hashPair
  simp only [Option.bind_eq_bind, Option.bind_some, List.getElem?_cons_zero, List.getElem?_cons_succ]
  rw [e0, Option.bind_some, e1, Option.bind_some]

theorem hashPair_none {U Q : Type} {map : U → Option Q} {fin : Q → Q → Option Q} {u0 u1 : U} (e : map u0 = none ∨ map u1 = none) :
    hashPair (some (.ok [u0, u1])) map fin = none := by
  unfold hashPair
  simp only [Option.bind_eq_bind, Option.bind_some, List.getElem?_cons_zero, List.getElem?_cons_succ]
  rcases e with e | e
  · rw [e, Option.bind_none]
  · rcases map u0 with _ | q
    · rw [Option.bind_none]
    · rw [Option.bind_some, e, Option.bind_none]

section one
variable {C : Nat} {K : Rom C} [hp : Fact K.p.Prime]

/-- `FP::sgn0` of a fresh element is the parity of the number -/
theorem sgn0_newBig (h : TowerOk K.P K.p) {x : Limbs C} {X : Nat} (hx : Rep K.P.b K.P.n x X) (hX : X < K.p) :
    Fp.sgn0 K.P (newBig K.P x) = decide ((X : ZMod K.p).val % 2 = 1) := by
  have := (h.arith.nres_redc x X hx hX)
  unfold Fp.sgn0
  rw [this.parity h.ok h.hn, ZMod.val_natCast, Nat.mod_eq_of_lt hX]
  rcases Nat.mod_two_eq_zero_or_one X with e | e
  · have : (X : Int) % 2 = 0 := by omega
    rw [e, this]; decide
  · have : (X : Int) % 2 = 1 := by omega
    rw [e, this]; decide

theorem rep_mod (h : TowerOk K.P K.p) {x : Limbs C} {X : Nat} (hx : Rep K.P.b K.P.n x ((X % K.p : Nat) : Int)) :
    Std K.P K.p 2 (newBig K.P x) (X : ZMod K.p) ∧ Fp.sgn0 K.P (newBig K.P x) = decide ((X : ZMod K.p).val % 2 = 1) := by
  have hl := Nat.mod_lt X hp.1.pos
  have h1 := std_newBig h hx hl
  have h2 := sgn0_newBig h hx hl
  rw [ZMod.natCast_mod] at h1 h2
  exact ⟨h1, h2⟩

/-- `H_EFF_G1` -/
theorem hEffG1_rep (h : BlsCurve K) : Rep K.P.b K.P.n (hEffG1 K) ((0xd201000000010001 : Nat) : Int) := by
  have hb := h.dh.spare
  have hr := fromBytes_rep h.dh.mont.ok h.dh.mont.hn K.modbytes (by omega) (beBytes 8 0xd201000000010001)
  have hs := h.size
  rw [List.take_of_length_le (by rw [Spec.beBytes_length]; omega), Spec.beNat_beBytes] at hr
  exact hr

theorem range2 {α : Type} (g : Nat → α) : (List.range 2).map g = [g 0, g 1] := rfl

/-- the exceptional abscissae of the 11-isogeny -/
def Exc1 (p : Nat) [Fact p.Prime] (v : ZMod p) : Prop := ∃ r ∈ kernel11, absc (A1 p) (B1 p) 11 v = (r : ZMod p)

theorem hashG1_ok (M : MapCurve K) (hP : K.p = Pair.p381) (h11 : (11 : Int) < 2 ^ K.P.b) {r c : Nat} (hc : Rep K.P.b K.P.n (hEffG1 K) (c : Int))
    (hcof : ∀ (s : Pt C) (T : (curve K).Point), IsPoint K s T → ∀ e, Rep K.P.b K.P.n e (c : Int) →
      ∃ R, Ecp.mul K s e = some R ∧ ∃ U, IsPoint K R U ∧ U = c • T ∧ r • U = 0) (msg dst : List Byte) :
    ∃ bytes, Spec.H2c.expand (Spec.Sha2.digest Spec.Sha2.SHA256) 32 64 msg 128 dst = some bytes ∧
      (¬ Exc1 K.p (num64 bytes 0 : ZMod K.p) → ¬ Exc1 K.p (num64 bytes 1 : ZMod K.p) →
        ∃ R, hashToCurveG1 K msg dst = some R ∧ ∃ Q0 Q1 : (curve K).Point,
          Image1 (num64 bytes 0 : ZMod K.p) (decide ((num64 bytes 0 : ZMod K.p).val % 2 = 1)) Q0 ∧
          Image1 (num64 bytes 1 : ZMod K.p) (decide ((num64 bytes 1 : ZMod K.p).val % 2 = 1)) Q1 ∧
          IsPoint K R (c • (Q0 + Q1)) ∧ r • c • (Q0 + Q1) = 0) := by
  obtain ⟨bytes, f, hb, hh, hf⟩ := hash1_rep M.bls msg 2 dst (by omega)
  have e128 : 64 * 2 = 128 := rfl
  rw [e128] at hb
  refine ⟨bytes, hb, fun n0 n1 => ?_⟩
  obtain ⟨u0, g0⟩ := rep_mod M.tower (hf 0 (by omega))
  obtain ⟨u1, g1⟩ := rep_mod M.tower (hf 1 (by omega))
  obtain ⟨s0, e0, m0, _⟩ := map1_ok M hP h11 u0.1
  obtain ⟨s1, e1, m1, _⟩ := map1_ok M hP h11 u1.1
  obtain ⟨Q0, p0, i0⟩ := m0 n0
  obtain ⟨Q1, p1, i1⟩ := m1 n1
  rw [g0] at i0
  rw [g1] at i1
  obtain ⟨R, eR, U, hU, rfl, h0⟩ := hcof _ _ (Ecp.add_ok M.bls.dh.curve p0 p1) _ hc
  refine ⟨R, ?_, Q0, Q1, i0, i1, hU, h0⟩
  rw [range2] at hh
  unfold hashToCurveG1
  rw [hh, hashPair_some e0 e1, eR]

end one

/-! ### the effective cofactor of G2 -/

/-- RFC 9380, 8.8.2: `h_eff` -/
def hEff2 : Nat := 0xbc69f08f2ee75b3584c6a0ea91b352888e2a8e9145ad7689986ff031508ffe1329c2f178731db956d82bf015d1212b02ec0ec69d7477c1ae954cbc06689f6a359894c0adebbf6b4e8020005aaa95551

set_option exponentiation.threshold 1000 in
theorem cof_heff {A : Type} [AddCommGroup A] {f : A →+ A} {T : A} (hN : ∀ T : A, (k381 * r381) • T = 0) (hcof : r381 • cofMap f (-(z381 : Int)) T = 0)
    (heig : ∀ T : A, r381 • T = 0 → f T = (Pair.p381 : Int) • T) : cofMap f (-(z381 : Int)) T = hEff2 • T := by
  have h1 : r381 • (cofMap f (-(z381 : Int)) T - hEff2 • T) = 0 := by
    rw [nsmul_sub, hcof, zero_sub, neg_eq_zero, ← mul_nsmul']
    obtain ⟨q, hq⟩ : k381 * r381 ∣ r381 * hEff2 := Nat.dvd_of_mod_eq_zero (by decide +kernel)
    rw [hq, mul_nsmul, hN, nsmul_zero]
  have h2 : k381 • (cofMap f (-(z381 : Int)) T - hEff2 • T) = 0 := by
    have hw : r381 • (k381 • T) = 0 := by rw [← mul_nsmul]; exact hN T
    have e1 := heig _ hw
    have e2 : k381 • (cofMap f (-(z381 : Int)) T) = cofMap f (-(z381 : Int)) (k381 • T) := by
      unfold cofMap
      simp only [map_nsmul]
      module
    rw [nsmul_sub, e2, ← mul_nsmul', mul_nsmul, cofMap, e1, map_zsmul, e1]
    generalize k381 • T = W at hw
    have hd : (r381 : Int) ∣ ((-(z381 : Int)) ^ 2 - -(z381 : Int) - 1) + (-(z381 : Int) - 1) * Pair.p381 + 2 * (Pair.p381 * Pair.p381) - hEff2 :=
      Int.dvd_of_emod_eq_zero (by decide +kernel)
    obtain ⟨q, hq⟩ := hd
    have e3 : ((-(z381 : Int)) ^ 2 - -(z381 : Int) - 1) • W + (-(z381 : Int) - 1) • (Pair.p381 : Int) • W + (2 : Int) • (Pair.p381 : Int) • (Pair.p381 : Int) • W - hEff2 • W =
        (((-(z381 : Int)) ^ 2 - -(z381 : Int) - 1) + (-(z381 : Int) - 1) * Pair.p381 + 2 * (Pair.p381 * Pair.p381) - hEff2) • W := by
      rw [← natCast_zsmul]; module
    rw [e3, hq, mul_comm, mul_zsmul, natCast_zsmul, hw, zsmul_zero]
  have hc : Nat.Coprime r381 k381 := by decide +kernel
  have := Nat.gcd_eq_gcd_ab r381 k381
  rw [hc] at this
  have h3 : (1 : Int) • (cofMap f (-(z381 : Int)) T - hEff2 • T) = 0 := by
    rw [show (1 : Int) = ((1 : Nat) : Int) from rfl, this, add_zsmul, mul_comm, mul_zsmul, natCast_zsmul, h1, zsmul_zero, mul_comm, mul_zsmul, natCast_zsmul, h2, zsmul_zero, add_zero]
  rw [one_zsmul] at h3
  exact sub_eq_zero.1 h3

section two
variable {C : Nat} {K : GlsRom C} [hp : Fact K.pair.rom.p.Prime] [h4 : Fact (K.pair.rom.p % 4 = 3)]

/-- RFC 9380, 4.1: the sign of an element of the quadratic extension -/
def sign2 {p : Nat} (v : F2 p) : Bool := decide ((if v.re = 0 then v.im.val else v.re.val) % 2 = 1)

/-- the elements whose image `map_to_curve_g2` cannot compute: the abscissa has a real right-hand side that is not a square of the prime field -/
def Exc2 (p : Nat) [Fact p.Prime] [Fact (p % 4 = 3)] (v : F2 p) : Prop :=
  (g (A2 p) (B2 p) (absc (A2 p) (B2 p) (Z2 p) v)).im = 0 ∧ ¬ IsSquare (g (A2 p) (B2 p) (absc (A2 p) (B2 p) (Z2 p) v)).re

/-- the element made of the numbers `2i` and `2i+1` of an expanded message -/
def elem2 (p : Nat) (bytes : List Byte) (i : Nat) : F2 p := ⟨(num64 bytes (2 * i) : ZMod p), (num64 bytes (2 * i + 1) : ZMod p)⟩

omit h4 in
theorem rep_mod2 (h : TowerOk K.pair.rom.P K.pair.rom.p) {x y : Limbs C} {X Y : Nat} (hx : Rep K.pair.rom.P.b K.pair.rom.P.n x ((X % K.pair.rom.p : Nat) : Int))
    (hy : Rep K.pair.rom.P.b K.pair.rom.P.n y ((Y % K.pair.rom.p : Nat) : Int)) :
    Rel2 K.pair.rom.P K.pair.rom.p ⟨0, 1, 2⟩ ⟨newBig K.pair.rom.P x, newBig K.pair.rom.P y⟩ ⟨(X : ZMod K.pair.rom.p), (Y : ZMod K.pair.rom.p)⟩ ∧
    Fp2.sgn0 K.pair.rom.P ⟨newBig K.pair.rom.P x, newBig K.pair.rom.P y⟩ = sign2 ⟨(X : ZMod K.pair.rom.p), (Y : ZMod K.pair.rom.p)⟩ := by
  obtain ⟨sx, gx⟩ := rep_mod h hx
  obtain ⟨sy, gy⟩ := rep_mod h hy
  refine ⟨std2_iff.1 ⟨sx, sy⟩, ?_⟩
  have hz := elem_iszilch h.arith sx.1
  unfold Fp2.sgn0 sign2
  dsimp only
  by_cases c : (X : ZMod K.pair.rom.p) = 0
  · rw [if_pos (hz.2 c), if_pos c, gy]
  · rw [if_neg (fun e => c (hz.1 e)), if_neg c, gx]

theorem hashG2_ok (M : MapCurve2 K.pair) (hP : K.pair.rom.p = Pair.p381) {c : Nat} {r : Nat}
    (hcof : ∀ (s : Pt2 C) (T : (curve2 K.pair).Point), IsPoint2 K.pair 202 s T → ∃ R, clearCofactor K s = some R ∧ IsPoint2 K.pair 22 R (c • T) ∧ r • c • T = 0)
    (msg dst : List Byte) :
    ∃ bytes, Spec.H2c.expand (Spec.Sha2.digest Spec.Sha2.SHA256) 32 64 msg 256 dst = some bytes ∧
      (Exc2 K.pair.rom.p (elem2 K.pair.rom.p bytes 0) ∨ Exc2 K.pair.rom.p (elem2 K.pair.rom.p bytes 1) → hashToCurveG2 K msg dst = none) ∧
      (¬ Exc2 K.pair.rom.p (elem2 K.pair.rom.p bytes 0) → ¬ Exc2 K.pair.rom.p (elem2 K.pair.rom.p bytes 1) →
        ∃ R, hashToCurveG2 K msg dst = some R ∧ ∃ Q0 Q1 : (curve2 K.pair).Point,
          Image2 (elem2 K.pair.rom.p bytes 0) (sign2 (elem2 K.pair.rom.p bytes 0)) Q0 ∧ Image2 (elem2 K.pair.rom.p bytes 1) (sign2 (elem2 K.pair.rom.p bytes 1)) Q1 ∧
          IsPoint2 K.pair 22 R (c • (Q0 + Q1)) ∧ r • c • (Q0 + Q1) = 0) := by
  obtain ⟨bytes, f, hb, hh, hf⟩ := hash2_rep M.one.bls msg 2 dst (by omega)
  have e256 : 64 * (2 * 2) = 256 := rfl
  rw [e256] at hb
  obtain ⟨u0, g0⟩ := rep_mod2 M.one.tower (hf (2 * 0) (by omega)) (hf (2 * 0 + 1) (by omega))
  obtain ⟨u1, g1⟩ := rep_mod2 M.one.tower (hf (2 * 1) (by omega)) (hf (2 * 1 + 1) (by omega))
  obtain ⟨b0, m0⟩ := map2_ok M hP u0
  obtain ⟨b1, m1⟩ := map2_ok M hP u1
  rw [range2] at hh
  refine ⟨bytes, hb, fun hx => ?_, fun n0 n1 => ?_⟩
  · unfold hashToCurveG2
    rw [hh]
    refine hashPair_none ?_
    rcases hx with hx | hx
    · exact .inl (b0 ((not_detected M _).2 hx))
    · exact .inr (b1 ((not_detected M _).2 hx))
  · obtain ⟨s0, e0, Q0, p0, i0⟩ := m0 (not_not.1 fun e => n0 ((not_detected M _).1 e))
    obtain ⟨s1, e1, Q1, p1, i1⟩ := m1 (not_not.1 fun e => n1 ((not_detected M _).1 e))
    rw [g0] at i0
    rw [g1] at i1
    obtain ⟨R, eR, hR, h0⟩ := hcof _ _ ((Ecp2.add_ok M.twist p0 p1 (by omega) (by omega)).mono (by omega))
    refine ⟨R, ?_, Q0, Q1, i0, i1, hR, h0⟩
    unfold hashToCurveG2
    rw [hh, hashPair_some e0 e1, eR]

end two
end Verif.Bls
