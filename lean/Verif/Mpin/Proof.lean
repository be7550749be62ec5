import Verif.Mpin.Hash
/- encodings and the steps of M-Pin -/
namespace Verif.Mpin
open Spec (Byte beBytes beNat ShaLen)
open Verif.Big Verif.Fp Verif.Rom Verif.Curve Verif.Tower Verif.Ecp Verif.Ecp2 Verif.Pair Verif.Ecdh Verif.Props Verif.Bls WeierstrassCurve

variable {C : Nat}

section
variable {K : Rom C} [hp : Fact K.p.Prime]

/-- On `y² = x³ + B` a point `(0, y)` has order three, so no point of the group of order `r` has abscissa zero. -/
theorem no_x0 (h : MpinG1 K) {T : (Ecp.curve K).Point} (hR : ordN K • T = 0) {x y : ZMod K.p} {hh} (e : T = Affine.Point.some x y hh) : x ≠ 0 := by
  rintro rfl
  have hy : y ≠ (Ecp.curve K).negY 0 y := by
    intro hc
    have h2 := two_ne_zero' h.dh.curve.arith.toConsts
    have h0 := y_ne h.dh.curve.noTwo hh.1
    have : (Ecp.curve K).negY 0 y = -y := by simp [Affine.negY, Ecp.curve, short]
    rw [this] at hc
    have : (2 : ZMod K.p) * y = 0 := by linear_combination hc
    rcases mul_eq_zero.1 this with c | c
    · exact h2 c
    · exact h0 c
  have hd : T + T = -T := by
    rw [e, Affine.Point.add_self_of_Y_ne hy, Affine.Point.neg_some]
    have hs : (Ecp.curve K).slope 0 0 y y = 0 := by
      rw [Affine.slope_of_Y_ne rfl hy]
      simp [Ecp.curve, short, h.a0]
    have e1 : (Ecp.curve K).addX 0 0 ((Ecp.curve K).slope 0 0 y y) = 0 := by rw [hs]; simp [Affine.addX, Ecp.curve, short]
    have e2 : (Ecp.curve K).addY 0 0 y ((Ecp.curve K).slope 0 0 y y) = (Ecp.curve K).negY 0 y := by
      rw [Affine.addY, Affine.negAddY, e1, hs]; simp
    simp only [e1, e2]
  have h3' : 3 • T = 0 := by
    rw [show 3 = 2 + 1 by norm_num, add_nsmul, one_nsmul, two_nsmul, hd, neg_add_cancel]
  have hT : T ≠ 0 := by rw [e]; exact (some_ne_zero' hh).symm
  have d1 := addOrderOf_dvd_of_nsmul_eq_zero h3'
  have d2 := addOrderOf_dvd_of_nsmul_eq_zero hR
  rcases (Nat.dvd_prime (by norm_num : Nat.Prime 3)).1 d1 with c | c
  · exact hT (AddMonoid.addOrderOf_eq_one_iff.1 c)
  · rw [c] at d2
    rcases (Nat.dvd_prime h.dh.orderPrime).1 d2 with c | c
    · omega
    · exact h.three c.symm

theorem put1_decodes (h : MpinG1 K) {T : (Ecp.curve K).Point} {buf w : List Byte} (hw : Put1 K T buf w) : Decodes K w T := by
  obtain ⟨x, y, hh, rfl, rfl⟩ := hw
  exact decodes_sec1U h.dh x y hh _

theorem put1_length {T : (Ecp.curve K).Point} {buf w : List Byte} (hb : 2 * K.modbytes + 1 ≤ buf.length) (hw : Put1 K T buf w) : w.length = buf.length := by
  obtain ⟨x, y, hh, rfl, rfl⟩ := hw
  simp [sec1U]; omega

theorem put1_ne {T : (Ecp.curve K).Point} {buf w : List Byte} (hw : Put1 K T buf w) : T ≠ 0 := by
  obtain ⟨x, y, hh, rfl, rfl⟩ := hw
  exact (some_ne_zero' hh).symm

theorem enc1 (h : MpinG1 K) {s : Pt C} {T : (Ecp.curve K).Point} (hs : IsPoint K s T) (hT : T ≠ 0) (hR : ordN K • T = 0) {buf : List Byte}
    (hb : 2 * K.modbytes + 1 ≤ buf.length) : ∃ w, Ecp.tobytes K s buf false = some w ∧ Put1 K T buf w := by
  cases hc : T with
  | zero => exact absurd hc hT
  | some x y hh =>
    have hx := no_x0 h hR hc
    rw [hc] at hs
    exact ⟨_, (C50_tobytes h.dh.curve h.dh.mont hs (fun e => absurd e hx) buf).1 hb, x, y, hh, rfl, rfl⟩

theorem inf1 (h : MpinG1 K) {s : Pt C} {T : (Ecp.curve K).Point} (hs : IsPoint K s T) : (isInfinity K s = true ↔ T = 0) := isInfinity_ok h.dh.curve hs

/-! ### secret shares -/

theorem recombineG1_ok (h : MpinG1 K) {r1 r2 r : List Byte} {S T : (Ecp.curve K).Point} (h1 : Decodes K r1 S) (h2 : Decodes K r2 T) :
    (S = 0 ∨ T = 0 → recombineG1 K r1 r2 r = some (-14, r)) ∧
    (S ≠ 0 → T ≠ 0 → S + T ≠ 0 → ordN K • S = 0 → ordN K • T = 0 → 2 * K.modbytes + 1 ≤ r.length → ∃ r', recombineG1 K r1 r2 r = some (0, r') ∧ Put1 K (S + T) r r') := by
  obtain ⟨P, e1, hP⟩ := Ecdh.frombytes_ok h.dh h1
  obtain ⟨Q, e2, hQ⟩ := Ecdh.frombytes_ok h.dh h2
  have i1 := inf1 h hP
  have i2 := inf1 h hQ
  unfold recombineG1
  simp only [e1, e2, Option.bind_eq_bind, Option.bind_some, Bool.or_eq_true, i1, i2]
  constructor
  · intro c; rw [if_pos c]; rfl
  · intro c1 c2 c3 o1 o2 hl
    rw [if_neg (by tauto)]
    obtain ⟨w, e, hw⟩ := enc1 h (C48_add h.dh.curve hP hQ) c3 (by rw [nsmul_add, o1, o2, add_zero]) hl
    exact ⟨w, by rw [e]; rfl, hw⟩

/-! ### PIN extraction -/

theorem extractFactor_ok (h : MpinG1 K) {f sha : Nat} (hs : ShaLen sha) {cid token : List Byte} {T H : (Ecp.curve K).Point} (hT : Decodes K token T) (hH : HashesTo K f sha 0 cid H)
    (factor : BitVec 32) {facbits : Nat} (hf : facbits ≤ 32) :
    (T = 0 → extractFactor K f sha cid factor facbits token = some (-14, token)) ∧
    (T ≠ 0 → T - (factor.toNat % 2 ^ facbits) • H ≠ 0 → ordN K • T = 0 → 2 * K.modbytes + 1 ≤ token.length →
      ∃ t, extractFactor K f sha cid factor facbits token = some (0, t) ∧ Put1 K (T - (factor.toNat % 2 ^ facbits) • H) token t) := by
  obtain ⟨P, e1, hP⟩ := Ecdh.frombytes_ok h.dh hT
  obtain ⟨s, e2, hs'⟩ := hashPoint_ok h hs hH
  have hHr := (mapsTo_prop h hH.2).2
  have i1 := inf1 h hP
  unfold extractFactor
  simp only [e1, Option.bind_eq_bind, Option.bind_some, i1]
  constructor
  · intro c; rw [if_pos c]; rfl
  · intro c c2 o hl
    rw [if_neg c]
    obtain ⟨R, e3, hR⟩ := C49_pinmul h.dh.curve hs' factor facbits hf
    obtain ⟨w, e, hw⟩ := enc1 h (C48_sub h.dh.curve hP hR) c2 (by rw [nsmul_sub, o, nsmul_left_comm, hHr, nsmul_zero, sub_zero]) hl
    simp only [e2, e3, Option.bind_some]
    exact ⟨w, by rw [e]; rfl, hw⟩

theorem restoreFactor_ok (h : MpinG1 K) {f sha : Nat} (hs : ShaLen sha) {cid token : List Byte} {T H : (Ecp.curve K).Point} (hT : Decodes K token T) (hH : HashesTo K f sha 0 cid H)
    (factor : BitVec 32) {facbits : Nat} (hf : facbits ≤ 32) :
    (T = 0 → restoreFactor K f sha cid factor facbits token = some (-14, token)) ∧
    (T ≠ 0 → T + (factor.toNat % 2 ^ facbits) • H ≠ 0 → ordN K • T = 0 → 2 * K.modbytes + 1 ≤ token.length →
      ∃ t, restoreFactor K f sha cid factor facbits token = some (0, t) ∧ Put1 K (T + (factor.toNat % 2 ^ facbits) • H) token t) := by
  obtain ⟨P, e1, hP⟩ := Ecdh.frombytes_ok h.dh hT
  obtain ⟨s, e2, hs'⟩ := hashPoint_ok h hs hH
  have hHr := (mapsTo_prop h hH.2).2
  have i1 := inf1 h hP
  unfold restoreFactor
  simp only [e1, Option.bind_eq_bind, Option.bind_some, i1]
  constructor
  · intro c; rw [if_pos c]; rfl
  · intro c c2 o hl
    rw [if_neg c]
    obtain ⟨R, e3, hR⟩ := C49_pinmul h.dh.curve hs' factor facbits hf
    obtain ⟨w, e, hw⟩ := enc1 h (C48_add h.dh.curve hP hR) c2 (by rw [nsmul_add, o, nsmul_left_comm, hHr, nsmul_zero, add_zero]) hl
    simp only [e2, e3, Option.bind_some]
    exact ⟨w, by rw [e]; rfl, hw⟩

/-- the remainder taken by `extract_pin` and `client_1`, for a PIN which is not negative as an `i32` -/
theorem pin_mod {pin : Nat} (hp : pin < 2 ^ 31) : ((BitVec.ofNat 32 pin).srem 10000#32).toNat % 2 ^ 14 = pin % 10000 := by
  have h1 : (BitVec.ofNat 32 pin).msb = false := by
    rw [BitVec.msb_eq_false_iff_two_mul_lt, BitVec.toNat_ofNat, Nat.mod_eq_of_lt (by omega)]; omega
  have h2 : (10000#32).msb = false := by decide
  rw [BitVec.srem_eq, h1, h2]
  simp only [BitVec.toNat_umod, BitVec.toNat_ofNat]
  rw [Nat.mod_eq_of_lt (show pin < 2 ^ 32 by omega), show 10000 % 2 ^ 32 = 10000 by norm_num]
  omega

end

section
variable {K : GlsRom C} [hp : Fact K.pair.rom.p.Prime] [h4 : Fact (K.pair.rom.p % 4 = 3)]

/-! ### the second group -/

theorem faithful_of {e : Nat} {s : Pt2 C} {T : (curve2 K.pair).Point} (hs : IsPoint2 K.pair e s T) (hg : Generic4 T) : Faithful2 K.pair s := by
  cases T with
  | zero => exact absurd hg (by simp [Generic4])
  | some x y hh =>
    rintro ⟨z1, z0⟩
    obtain ⟨g1, g2, g3, g4⟩ := hg
    have hd : (coords2 K.pair s).z ≠ 0 ∧ (coords2 K.pair s).x = x * (coords2 K.pair s).z ∧ (coords2 K.pair s).y = y * (coords2 K.pair s).z := hs.2
    have hz : (coords2 K.pair s).z = 1 := by
      show res2 _ _ s.z = 1
      ext
      · exact z1
      · exact z0
    rw [hz, mul_one, mul_one] at hd
    obtain ⟨_, ex, ey⟩ := hd
    have a1 : residue K.pair.rom.P K.pair.rom.p s.x.a = x.re := congrArg QuadraticAlgebra.re ex
    have a2 : residue K.pair.rom.P K.pair.rom.p s.x.b = x.im := congrArg QuadraticAlgebra.im ex
    have a3 : residue K.pair.rom.P K.pair.rom.p s.y.a = y.re := congrArg QuadraticAlgebra.re ey
    have a4 : residue K.pair.rom.P K.pair.rom.p s.y.b = y.im := congrArg QuadraticAlgebra.im ey
    exact ⟨fun c => absurd (a1 ▸ c) g1, fun c => absurd (a2 ▸ c) g2, fun c => absurd (a3 ▸ c) g3, fun c => absurd (a4 ▸ c) g4⟩

theorem enc2 (h : MpinCurve K) {e : Nat} (he : 2 ≤ e) {s : Pt2 C} {T : (curve2 K.pair).Point} (hs : IsPoint2 K.pair e s T) (hg : Generic4 T) {buf : List Byte}
    (hb : 4 * K.pair.rom.modbytes ≤ buf.length) : ∃ w, Ecp2.tobytes K.pair s buf = some w ∧ Put2 K.pair T buf w := by
  have hf := faithful_of hs hg
  cases T with
  | zero => exact absurd hg (by simp [Generic4])
  | some x y hh => exact ⟨_, h.codec.1 e s x y hh buf he hs hf hb, x, y, hh, rfl, rfl⟩

theorem put2_enc2 {T : (curve2 K.pair).Point} {buf w : List Byte} (hw : Put2 K.pair T buf w) : Enc2 K.pair w T := by
  obtain ⟨x, y, hh, e, rfl⟩ := hw
  exact ⟨x, y, hh, e, List.prefix_append _ _⟩

theorem dec2 (h : MpinCurve K) {T : (curve2 K.pair).Point} {w : List Byte} (hw : Enc2 K.pair w T) : ∃ s, Ecp2.frombytes K.pair w = some s ∧ IsPoint2 K.pair 2 s T ∧ T ≠ 0 := by
  obtain ⟨x, y, hh, rfl, rest, rfl⟩ := hw
  obtain ⟨s, h1, h2, _⟩ := h.codec.2.1 x y hh rest
  exact ⟨s, h1, h2, (some_ne_zero' hh).symm⟩

theorem inf2 (h : MpinCurve K) {e : Nat} {s : Pt2 C} {T : (curve2 K.pair).Point} (hs : IsPoint2 K.pair e s T) : (Ecp2.isInfinity K.pair s = true ↔ T = 0) :=
  Ecp2.isInfinity_ok h.tw.tower hs

theorem recombineG2_ok (h : MpinCurve K) {w1 w2 w : List Byte} {S T : (curve2 K.pair).Point} (h1 : Enc2 K.pair w1 S) (h2 : Enc2 K.pair w2 T) (hg : Generic4 (S + T))
    (hl : 4 * K.pair.rom.modbytes ≤ w.length) : ∃ w', recombineG2 K.pair w1 w2 w = some (0, w') ∧ Put2 K.pair (S + T) w w' := by
  obtain ⟨P, e1, hP, n1⟩ := dec2 h h1
  obtain ⟨Q, e2, hQ, n2⟩ := dec2 h h2
  have i1 := inf2 h hP
  have i2 := inf2 h hQ
  obtain ⟨v, e, hv⟩ := enc2 h (by norm_num) (Ecp2.add_ok h.tw hP hQ (by norm_num) (by norm_num)) hg hl
  unfold recombineG2
  simp only [e1, e2, Option.bind_eq_bind, Option.bind_some, Bool.or_eq_true, i1, i2]
  rw [if_neg (by tauto), e]
  exact ⟨v, rfl, hv⟩

/-- the first share is not a point of the curve -/
theorem recombineG2_bad (h : MpinCurve K) {w1 w2 w : List Byte} {x y : F2 K.pair.rom.p} (hb : y ^ 2 ≠ x ^ 3 + Btw K.pair)
    (hw : (enc22 K.pair.rom.modbytes x y <+: w1 ∧ 4 * K.pair.rom.modbytes ≤ w2.length) ∨ (enc22 K.pair.rom.modbytes x y <+: w2 ∧ 4 * K.pair.rom.modbytes ≤ w1.length)) :
    recombineG2 K.pair w1 w2 w = some (-14, w) := by
  have hfr : ∀ v : List Byte, 4 * K.pair.rom.modbytes ≤ v.length → ∃ s, Ecp2.frombytes K.pair v = some s := by
    intro v hv
    unfold Ecp2.frombytes
    rw [if_neg (by omega)]
    exact ⟨_, rfl⟩
  unfold recombineG2
  rcases hw with ⟨⟨rest, rfl⟩, hl⟩ | ⟨⟨rest, rfl⟩, hl⟩
  · obtain ⟨s, e, hs⟩ := h.codec.2.2.1 x y rest hb
    obtain ⟨q, e'⟩ := hfr w2 hl
    have i := (inf2 h hs).2 rfl
    simp only [e, e', Option.bind_eq_bind, Option.bind_some, i, Bool.true_or, if_true]
    rfl
  · obtain ⟨s, e, hs⟩ := h.codec.2.2.1 x y rest hb
    obtain ⟨q, e'⟩ := hfr w1 hl
    have i := (inf2 h hs).2 rfl
    simp only [e, e', Option.bind_eq_bind, Option.bind_some, i, Bool.or_true, if_true]
    rfl

/-- the generator of the second group -/
noncomputable def gen2 (h : MulOk K) : (curve2 K.pair).Point := h.2.choose

theorem serverSecret_ok (h : MpinCurve K) {s sst : List Byte} (hs : num K.pair.rom s ≤ rN K.pair) (hg : Generic4 (num K.pair.rom s • gen2 h.mul)) (hl : 4 * K.pair.rom.modbytes ≤ sst.length) :
    ∃ w, serverSecret K s sst = some (0, w) ∧ Put2 K.pair (num K.pair.rom s • gen2 h.mul) sst w := by
  obtain ⟨hG, hG0, hGr, hm⟩ := h.mul.2.choose_spec
  obtain ⟨R, e1, hR⟩ := hm 2 (Ecp2.generator K.pair) 1 (by rw [one_zsmul]; exact hG) (by norm_num) (by norm_num) _ _ (fromBytes_ok h.g1.dh s) hs
  rw [one_zsmul] at hR
  obtain ⟨w, e, hw⟩ := enc2 h (by norm_num) hR hg hl
  unfold serverSecret
  simp only [e1, Option.bind_eq_bind, Option.bind_some, e]
  exact ⟨w, rfl, hw⟩

/-! ### the first group -/

theorem g1mul_ok' (h : MpinCurve K) {s : Pt C} {T : (Ecp.curve K.pair.rom).Point} (hs : IsPoint K.pair.rom s T) (hT : ordN K.pair.rom • T = 0) {e : Limbs C} {E : Nat}
    (he : Rep K.pair.rom.P.b K.pair.rom.P.n e (E : Int)) (hE : E ≤ ordN K.pair.rom) : ∃ R, g1mul K s e = some R ∧ IsPoint K.pair.rom R (E • T) := h.mul.1 s T hs hT e E he hE

theorem g1Multiple_point (h : MpinCurve K) (f : Nat) {x g w : List Byte} {T : (Ecp.curve K.pair.rom).Point} (hg : Decodes K.pair.rom g T) :
    (T = 0 → g1Multiple K f 0 x g w = some (-14, w)) ∧
    (ordN K.pair.rom • T = 0 → num K.pair.rom x ≤ ordN K.pair.rom → num K.pair.rom x • T ≠ 0 → 2 * K.pair.rom.modbytes + 1 ≤ w.length →
      ∃ w', g1Multiple K f 0 x g w = some (0, w') ∧ Put1 K.pair.rom (num K.pair.rom x • T) w w') := by
  obtain ⟨P, e1, hP⟩ := Ecdh.frombytes_ok h.g1.dh hg
  have i1 := inf1 h.g1 hP
  unfold g1Multiple
  simp only [if_true, e1, Option.bind_eq_bind, Option.bind_some, i1]
  constructor
  · intro c; rw [if_pos c]; rfl
  · intro o hx hne hl
    rw [if_neg (by rintro rfl; exact hne (nsmul_zero _))]
    obtain ⟨Q, e2, hQ⟩ := g1mul_ok' h hP o (fromBytes_ok h.g1.dh x) hx
    obtain ⟨v, e, hv⟩ := enc1 h.g1 hQ hne (by rw [nsmul_left_comm, o, nsmul_zero]) hl
    simp only [e2, Option.bind_some, e]
    exact ⟨v, rfl, hv⟩

theorem g1Multiple_hash (h : MpinCurve K) {f typ : Nat} (ht : typ ≠ 0) {x g w : List Byte} {T : (Ecp.curve K.pair.rom).Point}
    (hf : num K.pair.rom g % K.pair.rom.p + f ≤ K.pair.rom.p) (hg : MapsTo K.pair.rom f (num K.pair.rom g % K.pair.rom.p) T)
    (hx : num K.pair.rom x ≤ ordN K.pair.rom) (hne : num K.pair.rom x • T ≠ 0) (hl : 2 * K.pair.rom.modbytes + 1 ≤ w.length) :
    ∃ w', g1Multiple K f typ x g w = some (0, w') ∧ Put1 K.pair.rom (num K.pair.rom x • T) w w' := by
  obtain ⟨P, e1, hP⟩ := (mapit_ok h.g1 f g hf).1 T hg
  have o := (mapsTo_prop h.g1 hg).2
  unfold g1Multiple
  simp only [if_neg ht, e1, Option.bind_eq_bind, Option.bind_some]
  obtain ⟨Q, e2, hQ⟩ := g1mul_ok' h hP o (fromBytes_ok h.g1.dh x) hx
  obtain ⟨v, e, hv⟩ := enc1 h.g1 hQ hne (by rw [nsmul_left_comm, o, nsmul_zero]) hl
  simp only [e2, Option.bind_some, e]
  exact ⟨v, rfl, hv⟩

theorem clientPermit_ok (h : MpinCurve K) {f sha date : Nat} (hs : ShaLen sha) {s cid ctt : List Byte} {T : (Ecp.curve K.pair.rom).Point} (hT : HashesTo K.pair.rom f sha date cid T)
    (hx : num K.pair.rom s ≤ ordN K.pair.rom) (hne : num K.pair.rom s • T ≠ 0) (hl : 2 * K.pair.rom.modbytes + 1 ≤ ctt.length) :
    ∃ w, clientPermit K f sha date s cid ctt = some (0, w) ∧ Put1 K.pair.rom (num K.pair.rom s • T) ctt w := by
  obtain ⟨P, e1, hP⟩ := hashPoint_ok h.g1 hs hT
  have o := (mapsTo_prop h.g1 hT.2).2
  unfold clientPermit
  simp only [e1, Option.bind_eq_bind, Option.bind_some]
  obtain ⟨Q, e2, hQ⟩ := g1mul_ok' h hP o (fromBytes_ok h.g1.dh s) hx
  obtain ⟨v, e, hv⟩ := enc1 h.g1 hQ hne (by rw [nsmul_left_comm, o, nsmul_zero]) hl
  simp only [e2, Option.bind_some, e]
  exact ⟨v, rfl, hv⟩

end
end Verif.Mpin
