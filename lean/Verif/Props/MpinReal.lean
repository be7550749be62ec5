import Verif.Props.NonDeg
import Verif.Props.MpinRom
/-
C91 without assumptions: the pairing test of `server_2` is the one of the program, `ate2` followed by `fexp` and `isunity`.
-/
namespace Verif.Props
set_option linter.unusedSectionVars false
open Spec (Byte beBytes beNat ShaLen)
open Verif.Big Verif.Fp Verif.Rom Verif.Curve Verif.Tower Verif.Ecp Verif.Ecp2 Verif.Pair Verif.Ecdh Verif.Mpin Verif.Gt Verif.Ate WeierstrassCurve

section
variable {C : Nat} {K : GlsRom C} [hp : Fact K.pair.rom.p.Prime] [h4 : Fact (K.pair.rom.p % 4 = 3)]

/-- the test of `server_2` (mpin.rs:704-707): `g = fexp(ate2(Q, R, sQ, P))`, `g.isunity()` -/
def ateCheck (K : GlsRom C) (P : Pt2 C) (Q : Pt C) (P' : Pt2 C) (Q' : Pt C) : Option Bool := do
  let g ← ate2 K P Q P' Q'
  let g ← Gt.fexp K g
  pure (Fp12.isunity K.pair.rom.P g)

/-- `server_2` (mpin.rs) with this test -/
def server2Real (K : GlsRom C) := server2 (ateCheck K) K

theorem ateOk_real (h : MpinCurve K) {ab : Nat} (hn : NonDegOk K ab) : AteOk K (gen2 h.mul) (ateCheck K) := by
  obtain ⟨h6, e, G, _, comp2, bil, addr, gG, G0, inG, nd, _⟩ := hn
  have eG : gen2 h.mul = G := C58_unique h.mul.2.choose_spec.1 gG
  rw [eG]
  intro s M P A B k hs hk hM hA oA hP hB oB
  have sub : InG2 K h6 (k • G) := (G2sub K h6).nsmul_mem inG k
  obtain ⟨r, g, e1, e2, e3⟩ := comp2 (Ecp2.generator K.pair) M G A s P (k • G) B ⟨gG.mono (by norm_num), hM, inG.1, inG.2, oA, Or.inl G0⟩ ⟨hs.mono (by norm_num), hP, sub.1, sub.2, oB, Or.inl hk⟩
  refine ⟨Fp12.isunity K.pair.rom.P g, by simp only [ateCheck, e1, e2, Option.bind_eq_bind, Option.bind_some, Option.pure_def], ?_⟩
  have oB' : rN K.pair • B = 0 := oB
  have oA' : rN K.pair • A = 0 := oA
  have okB : rN K.pair • k • B = 0 := by rw [nsmul_left_comm, oB', nsmul_zero]
  have b1 := bil G B k 1 inG oB'
  have b2 := bil G B 1 k inG oB'
  rw [one_nsmul, Nat.mul_one] at b1
  rw [one_nsmul, Nat.one_mul] at b2
  have n1 := nd 1 (A + k • B) (by rw [nsmul_add, oA', okB, add_zero])
  rw [one_nsmul] at n1
  rw [e3, b1, ← b2, ← addr G A (k • B) inG oA' okB, n1]
  simp only [G0, false_or]

/-- What C91 says about one ROM file, with the program's own pairing: what `server_2` decides, and the protocol, without and with a time permit, from setup to verification. -/
structure MpinOk (K : GlsRom C) [Fact K.pair.rom.p.Prime] [Fact (K.pair.rom.p % 4 = 3)] (G : (curve2 K.pair).Point) : Prop where
  gen : IsPoint2 K.pair 2 (Ecp2.generator K.pair) G ∧ G ≠ 0 ∧ ordN K.pair.rom • G = 0
  /-- with the server secret `k`, the commitment `U`, the point `V` of the identity and the proof `M`, it accepts exactly when `M = -k (y V + U)` -/
  decides : ∀ {date : Nat} {hid y sst msec u v : List Byte} {htid xid xcid : Option (List Byte)} {k : Nat} {U V M : (Ecp.curve K.pair.rom).Point},
    (if date ≠ 0 then xcid else xid) = some u → (if date ≠ 0 then htid else some hid) = some v → Enc2 K.pair sst (k • G) → Decodes K.pair.rom u U → Decodes K.pair.rom v V → Decodes K.pair.rom msec M →
    U ≠ 0 → V ≠ 0 → M ≠ 0 → ordN K.pair.rom • U = 0 → ordN K.pair.rom • V = 0 → ordN K.pair.rom • M = 0 → num K.pair.rom y ≤ ordN K.pair.rom → num K.pair.rom y • V + U ≠ 0 →
    ∃ c, server2Real K date hid htid y sst xid xcid msec = some c ∧ (c = 0 ∨ c = -19) ∧ (c = 0 ↔ M + k • (num K.pair.rom y • V + U) = 0)
  /-- the protocol without time permits: the server accepts exactly when the PINs are equal modulo 10000 -/
  protocol : ∀ {f sha : Nat}, ShaLen sha → ∀ {s id x y : List Byte} {pin pin' : Nat}, pin < 2 ^ 31 → pin' < 2 ^ 31 →
    ∀ {H : (Ecp.curve K.pair.rom).Point}, HashesTo K.pair.rom f sha 0 id H →
    num K.pair.rom s ≤ ordN K.pair.rom → num K.pair.rom x ≤ ordN K.pair.rom → num K.pair.rom y ≤ ordN K.pair.rom →
    ¬ (ordN K.pair.rom : Int) ∣ num K.pair.rom s → ¬ (ordN K.pair.rom : Int) ∣ num K.pair.rom s - (pin % 10000 : Nat) → ¬ (ordN K.pair.rom : Int) ∣ num K.pair.rom s - (pin % 10000 : Nat) + (pin' % 10000 : Nat) →
    ¬ (ordN K.pair.rom : Int) ∣ num K.pair.rom x → ¬ (ordN K.pair.rom : Int) ∣ num K.pair.rom x + num K.pair.rom y → Generic4 (num K.pair.rom s • G) →
    ∀ {hcid sst tok sec hid xid : List Byte} {xcid xcid' permit htid : Option (List Byte)},
    K.pair.rom.modbytes ≤ hcid.length → 4 * K.pair.rom.modbytes ≤ sst.length → 2 * K.pair.rom.modbytes + 1 ≤ tok.length → 2 * K.pair.rom.modbytes + 1 ≤ sec.length →
    2 * K.pair.rom.modbytes + 1 ≤ hid.length → 2 * K.pair.rom.modbytes + 1 ≤ xid.length →
    ∃ sst' hcid' tok1 tok2 sec1 xid' hid' sec2 c,
      serverSecret K s sst = some (0, sst') ∧ hashId K.pair.rom sha id hcid = some (true, hcid') ∧ clientSecret K f s hcid' tok = some (0, tok1) ∧
      extractPin K.pair.rom f sha id (BitVec.ofNat 32 pin) tok1 = some (0, tok2) ∧
      client1Ext K f sha 0 id x pin' tok2 sec (some xid) xcid permit = some ⟨0, sec1, some xid', xcid⟩ ∧
      server1 K.pair.rom f sha 0 id hid htid = some (hid', htid) ∧
      client2 K x y sec1 = some (0, sec2) ∧
      server2Real K 0 hid' htid y sst' (some xid') xcid' sec2 = some c ∧ (c = 0 ∨ c = -19) ∧ (c = 0 ↔ pin % 10000 = pin' % 10000)
  /-- the protocol with a time permit for `date` -/
  permit : ∀ {f sha date : Nat}, date ≠ 0 → ShaLen sha → ∀ {s id x y : List Byte} {pin pin' : Nat}, pin < 2 ^ 31 → pin' < 2 ^ 31 →
    ∀ {H D : (Ecp.curve K.pair.rom).Point}, HashesTo K.pair.rom f sha 0 id H → HashesTo K.pair.rom f sha date (hashBytes K.pair.rom.modbytes sha 0 id) D → H + D ≠ 0 →
    num K.pair.rom s ≤ ordN K.pair.rom → num K.pair.rom x ≤ ordN K.pair.rom → num K.pair.rom y ≤ ordN K.pair.rom →
    ¬ (ordN K.pair.rom : Int) ∣ num K.pair.rom s → ¬ (ordN K.pair.rom : Int) ∣ num K.pair.rom s - (pin % 10000 : Nat) →
    num K.pair.rom s • H - (pin % 10000) • H + (pin' % 10000) • H + num K.pair.rom s • D ≠ 0 →
    ¬ (ordN K.pair.rom : Int) ∣ num K.pair.rom x → ¬ (ordN K.pair.rom : Int) ∣ num K.pair.rom x + num K.pair.rom y → Generic4 (num K.pair.rom s • G) →
    ∀ {hcid sst tok ctt sec hid htid xcid : List Byte} {xid' : Option (List Byte)},
    hcid.length = K.pair.rom.modbytes → 4 * K.pair.rom.modbytes ≤ sst.length → 2 * K.pair.rom.modbytes + 1 ≤ tok.length → 2 * K.pair.rom.modbytes + 1 ≤ sec.length →
    2 * K.pair.rom.modbytes + 1 ≤ hid.length → 2 * K.pair.rom.modbytes + 1 ≤ htid.length → 2 * K.pair.rom.modbytes + 1 ≤ xcid.length → 2 * K.pair.rom.modbytes + 1 ≤ ctt.length →
    ∃ sst' hcid' tok1 tok2 ctt' sec1 xcid' hid' htid' sec2 c,
      serverSecret K s sst = some (0, sst') ∧ hashId K.pair.rom sha id hcid = some (true, hcid') ∧ clientSecret K f s hcid' tok = some (0, tok1) ∧
      clientPermit K f sha date s hcid' ctt = some (0, ctt') ∧ extractPin K.pair.rom f sha id (BitVec.ofNat 32 pin) tok1 = some (0, tok2) ∧
      client1Ext K f sha date id x pin' tok2 sec none (some xcid) (some ctt') = some ⟨0, sec1, none, some xcid'⟩ ∧
      server1 K.pair.rom f sha date id hid (some htid) = some (hid', some htid') ∧
      client2 K x y sec1 = some (0, sec2) ∧
      server2Real K date hid' (some htid') y sst' xid' (some xcid') sec2 = some c ∧ (c = 0 ∨ c = -19) ∧ (c = 0 ↔ pin % 10000 = pin' % 10000)

theorem mpinOk_of (h : MpinCurve K) (hbig : 10000 ≤ ordN K.pair.rom) {ab : Nat} (hn : NonDegOk K ab) : MpinOk K (gen2 h.mul) where
  gen := ⟨h.mul.2.choose_spec.1, h.mul.2.choose_spec.2.1, h.mul.2.choose_spec.2.2.1⟩
  decides := C91_server_decides_partial h (ateOk_real h hn)
  protocol := C91_protocol_partial h hbig (ateOk_real h hn)
  permit := C91_permit_partial h hbig (ateOk_real h hn)
end

/-- C91, every bundled curve of embedding degree 12, 64-bit -/
theorem C91_mpin64 (K : GlsRom 64) (ab : Nat) (hK : (K, ab) ∈ ates64) : ∃ (_ : Fact K.pair.rom.p.Prime) (_ : Fact (K.pair.rom.p % 4 = 3)), ∃ G, MpinOk K G := by
  obtain ⟨hp, h4, h, hbig⟩ := C89_curves64 K (ates64_fst ▸ List.mem_map_of_mem (f := Prod.fst) hK)
  obtain ⟨_, _, hn⟩ := C96_nondegenerate64 K ab hK
  exact ⟨hp, h4, _, mpinOk_of h hbig hn⟩

/-- C91, 32-bit; the representation must have 19 bits to spare -/
theorem C91_mpin32 (K : GlsRom 32) (ab : Nat) (hK : (K, ab) ∈ ates32) (hh : 2 ^ 19 * K.pair.rom.p ≤ 2 ^ (K.pair.rom.P.b * K.pair.rom.P.n)) :
    ∃ (_ : Fact K.pair.rom.p.Prime) (_ : Fact (K.pair.rom.p % 4 = 3)), ∃ G, MpinOk K G := by
  obtain ⟨hp, h4, h, hbig⟩ := C89_curves32 K (ates32_fst ▸ List.mem_map_of_mem (f := Prod.fst) hK) hh
  obtain ⟨_, _, hn⟩ := C96_nondegenerate32 K ab hK hh
  exact ⟨hp, h4, _, mpinOk_of h hbig hn⟩

/-- All hypotheses of `MpinOk.protocol` are met with a concrete identity, the secrets 1, 5 and 6, and the PINs 1234 and 11234. -/
theorem mpin_real_case {K : GlsRom 64} {ab : Nat} (hK' : (K, ab) ∈ ates64) (hK : K ∈ gls64) (hm : K.pair.rom.modbytes = 32) (hc : ∃ y, hashB K 32 0 [3] y = true) (hg : genericB K = true) :
    ∃ (_ : Fact K.pair.rom.p.Prime) (_ : Fact (K.pair.rom.p % 4 = 3)) (G : (curve2 K.pair).Point), MpinOk K G ∧
    ∃ sst tok sec xid hid sec2, serverSecret K (beBytes 32 1) (List.replicate 128 0) = some (0, sst) ∧ (∃ t, extractPin K.pair.rom 1 32 [3] (BitVec.ofNat 32 1234) t = some (0, tok)) ∧
      (∃ x, client1Ext K 1 32 0 [3] (beBytes 32 5) 11234 tok (List.replicate 65 0) (some (List.replicate 65 0)) none none = some ⟨0, sec, some xid, x⟩) ∧
      server2Real K 0 hid none (beBytes 32 6) sst (some xid) none sec2 = some 0 := by
  obtain ⟨hp, h4, h, hbig⟩ := C89_curves64 K hK
  obtain ⟨_, _, hn⟩ := C96_nondegenerate64 K ab hK'
  have hcheck := ateOk_real h hn
  obtain ⟨y, hy⟩ := hc
  obtain ⟨H, hH⟩ := hashB_sound h hy
  have hr := h.g1.dh.orderPrime
  have n : ∀ v : Nat, v < 10000 → num K.pair.rom (beBytes 32 v) = v := fun v hv => by
    have := num_small K.pair.rom (v := v) (by rw [hm]; exact lt_trans hv (by norm_num))
    rwa [hm] at this
  have nd : ∀ v : Int, v ≠ 0 → |v| < 10000 → ¬ (ordN K.pair.rom : Int) ∣ v := fun v h0 hv hd => h0 (Int.eq_zero_of_abs_lt_dvd hd (by omega))
  obtain ⟨sst, _, tok1, tok, sec, xid, hid, sec2, c, e1, _, _, e4, e5, _, _, e8, _, e9⟩ := C91_protocol_partial h hbig hcheck (f := 1) (sha := 32) (Or.inl rfl) (s := beBytes 32 1) (id := [3]) (x := beBytes 32 5)
    (y := beBytes 32 6) (pin := 1234) (pin' := 11234) (by norm_num) (by norm_num) hH (by rw [n 1 (by norm_num)]; omega) (by rw [n 5 (by norm_num)]; omega) (by rw [n 6 (by norm_num)]; omega)
    (by rw [n 1 (by norm_num)]; exact nd _ (by norm_num) (by norm_num)) (by rw [n 1 (by norm_num)]; exact nd _ (by norm_num) (by norm_num))
    (by rw [n 1 (by norm_num)]; exact nd _ (by norm_num) (by norm_num)) (by rw [n 5 (by norm_num)]; exact nd _ (by norm_num) (by norm_num))
    (by rw [n 5 (by norm_num), n 6 (by norm_num)]; exact nd _ (by norm_num) (by norm_num))
    (by rw [n 1 (by norm_num), one_nsmul]; exact genericB_sound hK h hg) (hcid := List.replicate 32 0) (sst := List.replicate 128 0) (tok := List.replicate 65 0) (sec := List.replicate 65 0)
    (hid := List.replicate 65 0) (xid := List.replicate 65 0) (xcid := none) (xcid' := none) (permit := none) (htid := none) (by simp [hm]) (by simp [hm]) (by simp [hm]) (by simp [hm]) (by simp [hm]) (by simp [hm])
  rw [e9.2 (by norm_num)] at e8
  exact ⟨hp, h4, _, mpinOk_of h hbig hn, sst, tok, sec, xid, hid, sec2, e1, ⟨_, e4⟩, ⟨_, e5⟩, e8⟩


example : ∃ ab, (bn254_64g, ab) ∈ ates64 ∧ bn254_64g ∈ gls64 ∧ bn254_64g.pair.rom.modbytes = 32 ∧ (∃ y, hashB bn254_64g 32 0 [3] y = true) ∧ genericB bn254_64g = true :=
  ⟨66, by simp [ates64], by simp [gls64], bn254_mpin.2.2, ⟨_, bn254_mpin.1⟩, bn254_mpin.2.1⟩

end Verif.Props
