import Verif.Rom.Primes2
import Verif.Props.Dh
import Verif.Props.Tower
/-
C55, second part: the moduli and group orders of the ROM files are prime, so that the statements about fields, curves, Diffie-Hellman and
towers hold for the bundled curves without a primality hypothesis.
-/
namespace Verif.Props
open Verif.Big Verif.Fp Verif.Rom Verif.Curve Verif.Ecp Verif.Ecdh

/-- moduli proved prime in `Rom/Primes.lean` and `Rom/Primes2.lean` -/
def primeP : List Nat := [0xF1FD178C0B3AD58F10126DE8CE42435B3961ADBCABC8CA6DE8FCF353D86E9C03,
  0x555C007803CCC5BA839AEC6E803F2E77E4C1BA825079733568E09E1F244061873220DF068A328B6F1C5CBDB6A642FFE2E82D30DAF844C1674A06152B,
  0x1A0111EA397FE69A4B1BA7B6434BACD764774B84F38512BF6730D2A0F6B0F6241EABFFFEB153FFFFB9FEFFFFFFFFAAAB,
  0x5565569564AB6EB5A06DADC41FEA9284A0AD462CF365A511AC31B801696124F47A8C3F298A64852BDA371D6485AAB0AB,
  0x15555545554D5A555A55D69414935FBD6F1E32D8BACCA47B14848B42A8DFFA5C1CC00F26AA91557F00400020000555554AAAAAAC0000AAAAAAAB,
  0xFD17D842FFCFC5B23729047A56C867152ACD4420536F405DA950AECD56B379B89413016A7C025A415202086876B2EC137A9870D4228402967009A661DF9EEF6E60FFCF6AC0B,
  0x2523648240000001BA344D80000000086121000000000013A700000000000013,
  0x2400000008702A0DB0BDDF647A6366D3243FD6EE18093EE1BE6623EF5C1B55B3,
  0xA9FB57DBA1EEA9BC3E660A909D838D726E3BF623D52620282013481D1F6E5377,
  0x7FFFFFFFFFFFFFFFFFFFFFFFFFFFFFFFFFFFFFFFFFFFFFFFFFFFFFFFFFFFFFED,
  0xFFFFFFFFFFFCF0CD46E5F25EEE71A49F0CDC65FB12980A82D3292DDBAED33013,
  0xFFFFFFFFFFFFFFFFFFFFFFFFFFF9EC7F01C60BA1D8CB5307C0BBE3C111B0EF455146CF1EACBE98B8E48C65DEAB236FE1916A55CE5F4C6467B4EB280922ADEF33,
  0xFFFFFFFFFFFFFFFFFFFFFFFFFFFFFFFFFFFFFFFFFFFFFFFFFFFFFFFEFFFFFFFFFFFFFFFFFFFFFFFFFFFFFFFFFFFFFFFFFFFFFFFFFFFFFFFF,
  0xFFFFFFFF00000001000000000000000000000000FFFFFFFFFFFFFFFFFFFFFFFF,
  0xFFFFFFFFFFFFFFFFFFFFFFFFFFFFFFFFFFFFFFFFFFFFFFFFFFFFFFFFFFFFFFFEFFFFFFFF0000000000000000FFFFFFFF,
  0x1FFFFFFFFFFFFFFFFFFFFFFFFFFFFFFFFFFFFFFFFFFFFFFFFFFFFFFFFFFFFFFFFFFFFFFFFFFFFFFFFFFFFFFFFFFFFFFFFFFFFFFFFFFFFFFFFFFFFFFFFFFFFFFFFFF,
  0xFFFFFFFFFFFFFFFFFFFFFFFFFFFFFFFFFFFFFFFFFFFFFFFFFFFFFFFFFFFFFF43,
  0xFFFFFFFFFFFFFFFFFFFFFFFFFFFFFFFFFFFFFFFFFFFFFFFFFFFFFFFFFFFFFFFFFFFFFFFFFFFFFFFFFFFFFFFFFFFFFEC3,
  0xFFFFFFFFFFFFFFFFFFFFFFFFFFFFFFFFFFFFFFFFFFFFFFFFFFFFFFFEFFFFFC2F,
  0xFFFFFFFFFFFFFFFFFFFFFFFFFFFFFFFFFFFFFFFFFFFFFFFFFFFFFFFFFFFFFFFFFFFFFFFFFFFFFFFFFFFD,
  0x3FFFFFFFFFFFFFFFFFFFFFFFFFFFFFFFFFFFFFFFFFFFFFFFFFFFFFFFFFFFFFFFFFFFFFFFFFFFFFFFFFFFFFFFFFFFFFFFFFFFFFEF,
  0xFFFFFFFFFFFFFFFFFFFFFFFFFFFFFFFFFFFFFFFFFFFFFFFFFFFFFFFFFFFFFFFFFFFFFFFFFFFFFFFFFFFFFFFFFFFFFFFFFFFFFFFFFFFFFFFFFFFFFFFFFFFFFDC7]

theorem primeP_prime : ∀ n ∈ primeP, n.Prime := by
  intro n hn
  simp only [primeP, List.mem_cons, List.not_mem_nil, or_false] at hn
  rcases hn with rfl | rfl | rfl | rfl | rfl | rfl | rfl | rfl | rfl | rfl | rfl | rfl | rfl | rfl | rfl | rfl | rfl | rfl | rfl | rfl | rfl | rfl
  · exact anssi_p_prime
  · exact bls24_p_prime
  · exact bls381_p_prime
  · exact bls383_p_prime
  · exact bls461_p_prime
  · exact bls48_p_prime
  · exact bn254_p_prime
  · exact bn254cx_p_prime
  · exact brainpool_p_prime
  · exact c25519_p_prime
  · exact fp256bn_p_prime
  · exact fp512bn_p_prime
  · exact goldilocks_p_prime
  · exact nist256_p_prime
  · exact nist384_p_prime
  · exact nist521_p_prime
  · exact nums256e_p_prime
  · exact nums384e_p_prime
  · exact secp256k1_p_prime
  · exact hifive_p_prime
  · exact c41417_p_prime
  · exact nums512w_p_prime

/-- orders proved prime in `Rom/Primes.lean` and `Rom/Primes2.lean` -/
def primeR : List Nat := [0xF1FD178C0B3AD58F10126DE8CE42435B53DC67E140D2BF941FFDD459C6D655E1,
  0x10010010005A01F0F05B98BB44A050D81729CC224848FC9D0CED13A6ADE7EE322DDAF1E7033FF5511901A08FFF0000001,
  0x73EDA753299D7D483339D80809A1D80553BDA402FFFE5BFEFFFFFFFF00000001,
  0x1002001800C00B809C04401C81698B381DE05F095A120D3973B2099EBFEBC0001,
  0xFFFFFF7FFFC0180017FE05FD000E801FC017FFC80001100007FEFFFEFFFFC0000000000000001,
  0xC43BF73EA111AAEC637C5E9306A973C465FB0B1BF8FC95C40DEF4790BD26DFED788C26D28AD8C1FD14D1EB162029C21455409E29DA7086FFFF0000000001,
  0x2523648240000001BA344D8000000007FF9F800000000010A10000000000000D,
  0x2400000008702A0DB0BDDF647A6366D2C43FD6EE0CC906CEBE11C0A636EB1F6D,
  0xA9FB57DBA1EEA9BC3E660A909D838D718C397AA3B561A6F7901E0E82974856A7,
  0x1000000000000000000000000000000014DEF9DEA2F79CD65812631A5CF5D3ED,
  0x7FFFFFFFFFFFFFFFFFFFFFFFFFFFFFFFFFFFFFFFFFFFFFFFFFFEB3CC92414CF706022B36F1C0338AD63CF181B0E71A5E106AF79,
  0xFFFFFFFFFFFCF0CD46E5F25EEE71A49E0CDC65FB1299921AF62D536CD10B500D,
  0xFFFFFFFFFFFFFFFFFFFFFFFFFFF9EC7F01C60BA1D8CB5307C0BBE3C111B0EF445146CF1EACBE98B8E48C65DEAB2679A34A10313E04F9A2B406A64A5F519A09ED,
  0xFFFFFFFF00000000FFFFFFFFFFFFFFFFBCE6FAADA7179E84F3B9CAC2FC632551,
  0xFFFFFFFFFFFFFFFFFFFFFFFFFFFFFFFFFFFFFFFFFFFFFFFFC7634D81F4372DDF581A0DB248B0A77AECEC196ACCC52973,
  0x4000000000000000000000000000000041955AA52F59439B1A47B190EEDD4AF5,
  0xFFFFFFFFFFFFFFFFFFFFFFFFFFFFFFFFE43C8275EA265C6020AB20294751A825,
  0x3FFFFFFFFFFFFFFFFFFFFFFFFFFFFFFFFFFFFFFFFFFFFFFFE2471A1CB46BE1CF61E4555AAB35C87920B9DCC4E6A3897D,
  0xFFFFFFFFFFFFFFFFFFFFFFFFFFFFFFFFFFFFFFFFFFFFFFFFFFFFFFFFFFFFFFFF5B3CA4FB94E7831B4FC258ED97D0BDC63B568B36607CD243CE153F390433555D,
  0xFFFFFFFFFFFFFFFFFFFFFFFFFFFFFFFEBAAEDCE6AF48A03BBFD25E8CD0364141,
  0x200000000000000000000000000000000000000000071415FA9850C0BD6B87F93BAA7B2F95973E9FA805,
  0x3FFFFFFFFFFFFFFFFFFFFFFFFFFFFFFFFFFFFFFFFFFFFFFFFFFFFFFFFFFFFFFFB4F0636D2FCF91BA9E3FD8C970B686F52A4605786DEFECFF67468CF51BEED46D,
  0x3FFFFFFFFFFFFFFFFFFFFFFFFFFFFFFFFFFFFFFFFFFFFFFFFFFFFFFF7CCA23E9C44EDB49AED63690216CC2728DC58F552378C292AB5844F3,
  0x1FFFFFFFFFFFFFFFFFFFFFFFFFFFFFFFFFFFFFFFFFFFFFFFFFFFFFFFFFFFFFFFFFA51868783BF2F966B7FCC0148F709A5D03BB5C9B8899C47AEBB6FB71E91386409,
  0xFFFFFFFFFFFFFFFFFFFFFFFFFFFFFFFFFFFFFFFFFFFFFFFFD61EAF1EEB5D6881BEDA9D3D4C37E27A604D81F67B0E61B9]

theorem primeR_prime : ∀ n ∈ primeR, n.Prime := by
  intro n hn
  simp only [primeR, List.mem_cons, List.not_mem_nil, or_false] at hn
  rcases hn with rfl | rfl | rfl | rfl | rfl | rfl | rfl | rfl | rfl | rfl | rfl | rfl | rfl | rfl | rfl | rfl | rfl | rfl | rfl | rfl | rfl | rfl | rfl | rfl | rfl
  · exact anssi_r_prime
  · exact bls24_r_prime
  · exact bls381_r_prime
  · exact bls383_r_prime
  · exact bls461_r_prime
  · exact bls48_r_prime
  · exact bn254_r_prime
  · exact bn254cx_r_prime
  · exact brainpool_r_prime
  · exact c25519_r_prime
  · exact c41417_r_prime
  · exact fp256bn_r_prime
  · exact fp512bn_r_prime
  · exact nist256_r_prime
  · exact nist384_r_prime
  · exact nums256e_r_prime
  · exact nums256w_r_prime
  · exact nums384e_r_prime
  · exact nums512w_r_prime
  · exact secp256k1_r_prime
  · exact hifive_r_prime
  · exact nums512e_r_prime
  · exact goldilocks_r_prime
  · exact nist521_r_prime
  · exact nums384w_r_prime

set_option exponentiation.threshold 600 in
/-- C55. The modulus and the group order of every bundled 64-bit ROM file are prime. -/
theorem C55_primes64 (r : Rom 64) (hr : r ∈ all64) : r.p.Prime ∧ (ordN r).Prime := by
  have hall : all64.all (fun r => decide (r.p ∈ primeP ∧ ordN r ∈ primeR)) = true := by decide +kernel
  have h := of_decide_eq_true (List.all_eq_true.1 hall r hr)
  exact ⟨primeP_prime _ h.1, primeR_prime _ h.2⟩

set_option exponentiation.threshold 600 in
/-- C55. The same for the 32-bit ROM files. -/
theorem C55_primes32 (r : Rom 32) (hr : r ∈ all32) : r.p.Prime ∧ (ordN r).Prime := by
  have hall : all32.all (fun r => decide (r.p ∈ primeP ∧ ordN r ∈ primeR)) = true := by decide +kernel
  have h := of_decide_eq_true (List.all_eq_true.1 hall r hr)
  exact ⟨primeP_prime _ h.1, primeR_prime _ h.2⟩

theorem C55_modulus_prime64 (r : Rom 64) (hr : r ∈ all64) : r.p.Prime := (C55_primes64 r hr).1

theorem C55_modulus_prime32 (r : Rom 32) (hr : r ∈ all32) : r.p.Prime := (C55_primes32 r hr).1

set_option exponentiation.threshold 600 in
/-- C55. The modulus and the order of every bundled Weierstrass curve with a Montgomery-form modulus are prime. -/
theorem C55_prime64 (r : Rom 64) (hr : r ∈ all64) (_ht : r.ctype = .weierstrass) (_hm : r.P.modtype = .NotSpecial) : r.p.Prime ∧ (ordN r).Prime :=
  C55_primes64 r hr

set_option exponentiation.threshold 600 in
theorem C55_prime32 (r : Rom 32) (hr : r ∈ all32) (_ht : r.ctype = .weierstrass) (_hm : r.P.modtype = .NotSpecial) : r.p.Prime ∧ (ordN r).Prime :=
  C55_primes32 r hr

/-- C37/C38 without hypotheses: every bundled Weierstrass curve with a Montgomery-form modulus (fourteen 64-bit and thirteen 32-bit files)
satisfies everything the Diffie-Hellman and ECDSA theorems assume of a curve. -/
theorem C37_bundled64 (r : Rom 64) (hr : r ∈ all64) (ht : r.ctype = .weierstrass) (hm : r.P.modtype = .NotSpecial) : ∃ _ : Fact r.p.Prime, DhCurve r := by
  obtain ⟨h1, h2⟩ := C55_prime64 r hr ht hm
  exact ⟨⟨h1⟩, C37_rom64 (hp := ⟨h1⟩) r hr ht hm h2⟩

theorem C37_bundled32 (r : Rom 32) (hr : r ∈ all32) (ht : r.ctype = .weierstrass) (hm : r.P.modtype = .NotSpecial) : ∃ _ : Fact r.p.Prime, DhCurve r := by
  obtain ⟨h1, h2⟩ := C55_prime32 r hr ht hm
  exact ⟨⟨h1⟩, C37_rom32 (hp := ⟨h1⟩) r hr ht hm h2⟩

example : (all64.filter fun r => decide (r.ctype = .weierstrass ∧ r.P.modtype = .NotSpecial)).length = 14 ∧
    (all32.filter fun r => decide (r.ctype = .weierstrass ∧ r.P.modtype = .NotSpecial)).length = 13 := by decide +kernel

/-- C51 without hypotheses: the tower of every bundled pairing-friendly curve of `pairs64`. -/
theorem C51_bundled64 (r : PairRom 64) (hr : r ∈ pairs64) : ∃ _ : Fact r.rom.p.Prime, C51_Curve r := by
  have hall : pairs64.all (fun r => decide (r.rom.p ∈ primeP)) = true := by decide +kernel
  have h1 := primeP_prime _ (of_decide_eq_true (List.all_eq_true.1 hall r hr))
  exact ⟨⟨h1⟩, @C51_rom64 r hr ⟨h1⟩⟩

theorem C51_bundled32 (r : PairRom 32) (hr : r ∈ pairs32) (hh : 2 ^ 19 * r.rom.p ≤ 2 ^ (r.rom.P.b * r.rom.P.n)) : ∃ _ : Fact r.rom.p.Prime, C51_Curve r := by
  have hall : pairs32.all (fun r => decide (r.rom.p ∈ primeP)) = true := by decide +kernel
  have h1 := primeP_prime _ (of_decide_eq_true (List.all_eq_true.1 hall r hr))
  exact ⟨⟨h1⟩, @C51_rom32 r hr hh ⟨h1⟩⟩

/-- C48, C50 without hypotheses: every bundled Weierstrass curve is a curve in the sense of the group-law and scalar-multiplication theorems. -/
theorem C48_bundled64 (r : Rom 64) (hr : r ∈ all64) (ht : r.ctype = .weierstrass) : ∃ _ : Fact r.p.Prime, WCurve r :=
  ⟨⟨C55_modulus_prime64 r hr⟩, @C48_rom64 r hr ht ⟨C55_modulus_prime64 r hr⟩⟩

theorem C48_bundled32 (r : Rom 32) (hr : r ∈ all32) (ht : r.ctype = .weierstrass) (h384 : r.p ≠ 2 ^ 384 - 317) : ∃ _ : Fact r.p.Prime, WCurve r :=
  ⟨⟨C55_modulus_prime32 r hr⟩, @C48_rom32 r hr ht h384 ⟨C55_modulus_prime32 r hr⟩⟩

/-- C55. On every bundled Weierstrass curve the order of the generator is exactly `CURVE_ORDER`. -/
theorem C55_generator_order64 (r : Rom 64) (hr : r ∈ all64) (ht : r.ctype = .weierstrass) : ∃ _ : Fact r.p.Prime,
    ∀ hh : (curve r).Nonsingular (r.val r.gx : ZMod r.p) (r.val r.gy : ZMod r.p), addOrderOf (WeierstrassCurve.Affine.Point.some _ _ hh) = (r.val r.order).toNat := by
  obtain ⟨h1, h2⟩ := C55_primes64 r hr
  have hp : Fact r.p.Prime := ⟨h1⟩
  refine ⟨hp, fun hh => ?_⟩
  have hf : Fact (Nat.Prime (r.val r.order).toNat) := ⟨h2⟩
  exact addOrderOf_eq_prime (hp := hf) (@C55_order64 r hr ht ⟨h1⟩ hh) (WeierstrassCurve.Affine.Point.some_ne_zero hh)

theorem C55_generator_order32 (r : Rom 32) (hr : r ∈ all32) (ht : r.ctype = .weierstrass) (h384 : r.p ≠ 2 ^ 384 - 317) : ∃ _ : Fact r.p.Prime,
    ∀ hh : (curve r).Nonsingular (r.val r.gx : ZMod r.p) (r.val r.gy : ZMod r.p), addOrderOf (WeierstrassCurve.Affine.Point.some _ _ hh) = (r.val r.order).toNat := by
  obtain ⟨h1, h2⟩ := C55_primes32 r hr
  have hp : Fact r.p.Prime := ⟨h1⟩
  refine ⟨hp, fun hh => ?_⟩
  have hf : Fact (Nat.Prime (r.val r.order).toNat) := ⟨h2⟩
  exact addOrderOf_eq_prime (hp := hf) (@C55_order32 r hr ht h384 ⟨h1⟩ hh) (WeierstrassCurve.Affine.Point.some_ne_zero hh)

end Verif.Props
