import Verif.Props.Mpin
import Verif.Props.GroupOrder
/-
C87–C91: the bundled pairing-friendly curves of embedding degree 12 meet the hypotheses, and concrete cases.
-/
namespace Verif.Props
open Spec (Byte beBytes beNat)
open Verif.Big Verif.Fp Verif.Rom Verif.Curve Verif.Tower Verif.Ecp Verif.Ecp2 Verif.Pair Verif.Ecdh Verif.Mpin Verif.Gt WeierstrassCurve

section
variable {C : Nat} {K : GlsRom C} [hp : Fact K.pair.rom.p.Prime] [h4 : Fact (K.pair.rom.p % 4 = 3)] {lam : Int}

theorem mpinCurve_of (h : PairFacts K lam) (hd : DhCurve K.pair.rom) (hf : K.pair.rom.ctype = .weierstrass ∧ ordN K.pair.rom ≠ 3) (hc : K.pair.rom.Consistent) (hk : CofOk K.pair.rom)
    (hk' : K.pair.rom.cof.length = K.pair.rom.P.n ∧ Digits K.pair.rom.P.b K.pair.rom.cof) (hs : Nat.card (curve K.pair.rom).Point = cofN K.pair.rom * ordN K.pair.rom)
    (hb : bytesB K.pair = true) : MpinCurve K :=
  ⟨⟨hd, hf.1, h.g1.cru.a, hf.2, hc, hk, hk', fun T => by rw [← mul_nsmul, ← hs]; exact card_nsmul_eq_zero'⟩, h.tw, mulOk_of h, codec2Ok_of h.tw hb⟩

end

def mpinB {C : Nat} (K : GlsRom C) : Bool :=
  decide (K.pair.rom.ctype = .weierstrass ∧ K.pair.rom.P.modtype = .NotSpecial ∧ 20000 < ordN K.pair.rom ∧ K.pair.rom.p ≠ 2 ^ 384 - 317) && kindB K

set_option exponentiation.threshold 600 in
theorem mpin_all64 : gls64.all mpinB = true := by decide +kernel
set_option exponentiation.threshold 600 in
theorem mpin_all32 : gls32.all mpinB = true := by decide +kernel

/-- C87–C91 hold on every bundled pairing-friendly curve of embedding degree 12, 64-bit … -/
theorem C89_curves64 (K : GlsRom 64) (hK : K ∈ gls64) : ∃ (_ : Fact K.pair.rom.p.Prime) (_ : Fact (K.pair.rom.p % 4 = 3)), MpinCurve K ∧ 10000 ≤ ordN K.pair.rom := by
  obtain ⟨hp, h4, lam, h⟩ := facts64 K hK
  have hm := (mem64 K hK).2
  have hk := List.all_eq_true.1 mpin_all64 K hK
  unfold mpinB at hk
  simp only [Bool.and_eq_true, decide_eq_true_eq] at hk
  obtain ⟨⟨k1, k2, k3, k4⟩, k5⟩ := hk
  have hd : DhCurve K.pair.rom := (C37_bundled64 _ hm k1 k2).2
  exact ⟨hp, h4, mpinCurve_of h hd ⟨k1, by omega⟩ (C55_rom64 _ hm) (C37_cof64 _ hm) (C49_cof64 _ hm) (card_of h (fun a b => (C92_prime_order64 _ hm a b).2) k5) (List.all_eq_true.1 bytesB64 K hK), by omega⟩

/-- … and 32-bit, where the representation must have 19 bits to spare. -/
theorem C89_curves32 (K : GlsRom 32) (hK : K ∈ gls32) (hh : 2 ^ 19 * K.pair.rom.p ≤ 2 ^ (K.pair.rom.P.b * K.pair.rom.P.n)) :
    ∃ (_ : Fact K.pair.rom.p.Prime) (_ : Fact (K.pair.rom.p % 4 = 3)), MpinCurve K ∧ 10000 ≤ ordN K.pair.rom := by
  obtain ⟨hp, h4, lam, h⟩ := facts32 K hK hh
  have hm := (mem32 K hK).2
  have hk := List.all_eq_true.1 mpin_all32 K hK
  unfold mpinB at hk
  simp only [Bool.and_eq_true, decide_eq_true_eq] at hk
  obtain ⟨⟨k1, k2, k3, k4⟩, k5⟩ := hk
  have hd : DhCurve K.pair.rom := (C37_bundled32 _ hm k1 k2).2
  exact ⟨hp, h4, mpinCurve_of h hd ⟨k1, by omega⟩ (C55_rom32 _ hm) (C37_cof32 _ hm) (C49_cof32 _ hm) (card_of h (fun a b => (C92_prime_order32 _ hm a b k4).2) k5) (List.all_eq_true.1 bytesB32 K hK), by omega⟩

section
variable {C : Nat} {K : GlsRom C} [hp : Fact K.pair.rom.p.Prime] [h4 : Fact (K.pair.rom.p % 4 = 3)]

/-- The assumption on the pairing can be met. -/
theorem ateOk_exists (h : MpinCurve K) : ∃ check, AteOk K (gen2 h.mul) check := by
  classical
  refine ⟨fun _ M s P => some (decide (∃ (A B : (Ecp.curve K.pair.rom).Point) (k : Nat), IsPoint K.pair.rom M A ∧ IsPoint K.pair.rom P B ∧ IsPoint2 K.pair 2 s (k • gen2 h.mul) ∧ A + k • B = 0)), ?_⟩
  intro s M P A B k hs hk hM hA oA hP hB oB
  refine ⟨_, rfl, ?_⟩
  rw [decide_eq_true_eq]
  constructor
  · rintro ⟨A', B', k', h1, h2, h3, h4⟩
    rw [C48_unique hM h1, C48_unique hP h2]
    have hkk := C58_unique hs h3
    obtain ⟨hG, hn, h0, _⟩ := h.mul.2.choose_spec
    change gen2 h.mul ≠ 0 at hn
    change rN K.pair • gen2 h.mul = 0 at h0
    have ho : addOrderOf (gen2 h.mul) = rN K.pair := by
      rcases (Nat.dvd_prime h.g1.dh.orderPrime).1 (addOrderOf_dvd_of_nsmul_eq_zero h0) with c | c
      · exact absurd (AddMonoid.addOrderOf_eq_one_iff.1 c) hn
      · exact c
    have hm := (nsmul_eq_nsmul_iff_modEq).1 hkk
    rw [ho] at hm
    have hB' : addOrderOf B = rN K.pair := by
      rcases (Nat.dvd_prime h.g1.dh.orderPrime).1 (addOrderOf_dvd_of_nsmul_eq_zero oB) with c | c
      · exact absurd (AddMonoid.addOrderOf_eq_one_iff.1 c) hB
      · exact c
    rw [← hB'] at hm
    rw [← C48_unique hP h2, (nsmul_eq_nsmul_iff_modEq).2 hm, C48_unique hP h2]
    exact h4
  · exact fun e => ⟨A, B, k, hM, hP, hs, e⟩

/-- the check of a concrete hash: the digest of the byte string is an abscissa of the curve, with ordinate `y` -/
def hashB (K : GlsRom C) (sha n : Nat) (id : List Byte) (y : Nat) : Bool :=
  let v := beNat (hashBytes K.pair.rom.modbytes sha n id) % K.pair.rom.p
  decide (2 < K.pair.rom.p ∧ cofN K.pair.rom = 1 ∧ 0 ≤ K.pair.rom.bI ∧ y < K.pair.rom.p ∧ y % 2 = 0 ∧ v + 1 ≤ K.pair.rom.p ∧ y * y % K.pair.rom.p = (v * v * v + K.pair.rom.bI.toNat) % K.pair.rom.p)

theorem hashB_sound (h : MpinCurve K) {sha n : Nat} {id : List Byte} {y : Nat} (hb : hashB K sha n id y = true) : ∃ T, HashesTo K.pair.rom 1 sha n id T := by
  unfold hashB at hb
  dsimp only at hb
  generalize hv : beNat (hashBytes K.pair.rom.modbytes sha n id) % K.pair.rom.p = v at hb
  rw [decide_eq_true_eq] at hb
  obtain ⟨b0, b1, b2, b3, b4, b5, b6⟩ := hb
  have hc : (2 : ZMod K.pair.rom.p) ≠ 0 := two_ne_zero' h.g1.dh.curve.arith.toConsts
  have e : ((y * y % K.pair.rom.p : Nat) : ZMod K.pair.rom.p) = (((v * v * v + K.pair.rom.bI.toNat) % K.pair.rom.p : Nat) : ZMod K.pair.rom.p) := by rw [b6]
  rw [ZMod.natCast_mod, ZMod.natCast_mod] at e
  push_cast at e
  have eb : ((K.pair.rom.bI.toNat : Nat) : ZMod K.pair.rom.p) = Bcoef K.pair.rom := by
    rw [← h.tw.bI]
    have := Int.toNat_of_nonneg b2
    calc ((K.pair.rom.bI.toNat : Nat) : ZMod K.pair.rom.p) = (((K.pair.rom.bI.toNat : Nat) : Int) : ZMod K.pair.rom.p) := (Int.cast_natCast _).symm
      _ = _ := by rw [this]
  have hh : (curve K.pair.rom).Nonsingular ((v : Nat) : ZMod K.pair.rom.p) ((y : Nat) : ZMod K.pair.rom.p) := short_ns h.g1.dh.curve.noTwo hc (by
    rw [h.g1.a0]; rw [eb] at e; push_cast; linear_combination e)
  refine ⟨Affine.Point.some _ _ hh, by rw [hv]; exact b5, ?_⟩
  rw [hv]
  refine ⟨0, by norm_num, ⟨(some_ne_zero' hh).symm, (y : ZMod K.pair.rom.p), hh, ?_, ?_⟩, fun i hi => absurd hi (by omega)⟩
  · rw [ZMod.val_natCast, Nat.mod_eq_of_lt b3]; exact b4
  · rw [b1, one_nsmul]; rfl

end

section
variable {K : GlsRom 64}

/-- the generator of the second group is generic -/
def genericB (K : GlsRom 64) : Bool :=
  decide ((K.pair.rom.val K.pair.pxa) % K.pair.rom.p ≠ 0 ∧ (K.pair.rom.val K.pair.pxb) % K.pair.rom.p ≠ 0 ∧ (K.pair.rom.val K.pair.pya) % K.pair.rom.p ≠ 0 ∧ (K.pair.rom.val K.pair.pyb) % K.pair.rom.p ≠ 0)

theorem genericB_sound (hK : K ∈ gls64) [hp : Fact K.pair.rom.p.Prime] [h4 : Fact (K.pair.rom.p % 4 = 3)] (h : MpinCurve K) (hb : genericB K = true) : Generic4 (gen2 h.mul) := by
  obtain ⟨hh, hg⟩ := C58_generator64 K.pair (mem64 K hK).1
  obtain ⟨hG, _, _, _⟩ := h.mul.2.choose_spec
  have e : gen2 h.mul = _ := C58_unique hG hg
  rw [e]
  unfold genericB at hb
  simp only [decide_eq_true_eq] at hb
  obtain ⟨b1, b2, b3, b4⟩ := hb
  have nz : ∀ v : Int, v % K.pair.rom.p ≠ 0 → (v : ZMod K.pair.rom.p) ≠ 0 := fun v hv c => hv (Int.emod_eq_zero_of_dvd ((ZMod.intCast_zmod_eq_zero_iff_dvd _ _).1 c))
  exact ⟨nz _ b1, nz _ b2, nz _ b3, nz _ b4⟩

end

set_option exponentiation.threshold 600 in
theorem bn254_mpin : hashB bn254_64g 32 0 [3] 0x6a99879be22dd1589048dec18db8ba5f50231a0e51da61a7d245664bad70396 = true ∧ genericB bn254_64g = true ∧ bn254_64g.pair.rom.modbytes = 32 := by
  refine ⟨?_, ?_, rfl⟩ <;> decide +kernel


section
variable {K : GlsRom 64}

theorem num_small (K : Rom 64) {v : Nat} (hv : v < 256 ^ K.modbytes) : num K (beBytes K.modbytes v) = v := by
  unfold num
  rw [List.take_of_length_le (by rw [Spec.beBytes_length]), Spec.beNat_beBytes, Nat.mod_eq_of_lt hv]

/-- All hypotheses of `C91_protocol_partial` are met with a concrete identity, the secrets 1, 5 and 6, and the PINs 1234 and 11234 (accepted), or 1234 and 1235 (refused). -/
theorem mpin_case (hK : K ∈ gls64) (hm : K.pair.rom.modbytes = 32) (hc : ∃ y, hashB K 32 0 [3] y = true) (hg : genericB K = true) :
    ∃ (_ : Fact K.pair.rom.p.Prime) (_ : Fact (K.pair.rom.p % 4 = 3)) (h : MpinCurve K) (check : Pt2 64 → Pt 64 → Pt2 64 → Pt 64 → Option Bool), AteOk K (gen2 h.mul) check ∧
    ∃ sst tok sec xid hid sec2, serverSecret K (beBytes 32 1) (List.replicate 128 0) = some (0, sst) ∧ (∃ t, extractPin K.pair.rom 1 32 [3] (BitVec.ofNat 32 1234) t = some (0, tok)) ∧
      (∃ x, client1Ext K 1 32 0 [3] (beBytes 32 5) 11234 tok (List.replicate 65 0) (some (List.replicate 65 0)) none none = some ⟨0, sec, some xid, x⟩) ∧
      server2 check K 0 hid none (beBytes 32 6) sst (some xid) none sec2 = some 0 := by
  obtain ⟨hp, h4, h, hbig⟩ := C89_curves64 K hK
  obtain ⟨check, hcheck⟩ := ateOk_exists h
  obtain ⟨y, hy⟩ := hc
  obtain ⟨H, hH⟩ := hashB_sound h hy
  have hr := h.g1.dh.orderPrime
  have n : ∀ v : Nat, v < 10000 → num K.pair.rom (beBytes 32 v) = v := fun v hv => by
    have := num_small K.pair.rom (v := v) (by rw [hm]; exact lt_trans hv (by norm_num))
    rwa [hm] at this
  have nd : ∀ v : Int, v ≠ 0 → |v| < 10000 → ¬ (ordN K.pair.rom : Int) ∣ v := fun v h0 hv hd => h0 (Int.eq_zero_of_abs_lt_dvd hd (by omega))
  obtain ⟨sst, _, tok1, tok, sec, xid, hid, sec2, c, e1, _, _, e4, e5, _, _, e8, _, e9⟩ := C91_protocol_partial h hbig hcheck (f := 1) (sha := 32) (Or.inl rfl) (s := beBytes 32 1) (id := [3]) (x := beBytes 32 5)
    (y := beBytes 32 6) (pin := 1234) (pin' := 11234) (by norm_num) (by norm_num) hH (by rw [n 1 (by norm_num)]; omega) (by rw [n 5 (by norm_num)]; omega) (by rw [n 6 (by norm_num)]; omega)
    (by rw [n 1 (by norm_num)]; exact nd _ (by norm_num) (by norm_num)) (by rw [n 1 (by norm_num)]; exact nd _ (by norm_num) (by norm_num))
    (by rw [n 1 (by norm_num)]; exact nd _ (by norm_num) (by norm_num)) (by rw [n 5 (by norm_num)]; exact nd _ (by norm_num) (by norm_num))
    (by rw [n 5 (by norm_num), n 6 (by norm_num)]; exact nd _ (by norm_num) (by norm_num))
    (by rw [n 1 (by norm_num), one_nsmul]; exact genericB_sound hK h hg) (hcid := List.replicate 32 0) (sst := List.replicate 128 0) (tok := List.replicate 65 0) (sec := List.replicate 65 0)
    (hid := List.replicate 65 0) (xid := List.replicate 65 0) (xcid := none) (xcid' := none) (permit := none) (htid := none) (by simp [hm]) (by simp [hm]) (by simp [hm]) (by simp [hm]) (by simp [hm]) (by simp [hm])
  rw [e9.2 (by norm_num)] at e8
  exact ⟨hp, h4, h, check, hcheck, sst, tok, sec, xid, hid, sec2, e1, ⟨_, e4⟩, ⟨_, e5⟩, e8⟩

end

example : ∃ K ∈ gls64, K.pair.rom.modbytes = 32 ∧ (∃ y, hashB K 32 0 [3] y = true) ∧ genericB K = true :=
  ⟨bn254_64g, by simp [gls64], bn254_mpin.2.2, ⟨_, bn254_mpin.1⟩, bn254_mpin.2.1⟩

end Verif.Props
