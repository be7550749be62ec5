import Verif.Ecdh.DhMain
import Verif.Props.Ecp
import Verif.Props.Ecdh
/-
Properties C37 (Diffie-Hellman) and C38 (ECDSA) of ecdh.rs over the Weierstrass curves with a Montgomery-form modulus.
-/
namespace Verif.Props
open Verif.Big Verif.Fp Verif.Rom Verif.Curve Verif.Ecp Verif.Ecdh Spec WeierstrassCurve

/-! ### which ROM files qualify -/

/-- the numeric facts about a ROM file used below -/
def dhB {C : Nat} (r : Rom C) : Bool :=
  decide (8 * r.modbytes + 2 ≤ r.P.b * r.P.n ∧ r.order.length = r.P.n ∧ r.gx.length = r.P.n ∧ r.gy.length = r.P.n ∧ ordN r ≤ 256 ^ r.modbytes ∧
    ordN r + 2 < 2 ^ (r.P.b * r.P.n - 4) ∧ 0 < r.modbytes)

theorem dh_of {C : Nat} {K : Rom C} [hp : Fact K.p.Prime] (h : WCurve K) (hc : K.Consistent) (hm : MontConsts K.P K.p) (hb : BytesOk K) (hs : SqrtOk K.P K.p)
    (hB : dhB K = true) (hord : (ordN K).Prime)
    (hann : ∀ hh : (curve K).Nonsingular (K.val K.gx : ZMod K.p) (K.val K.gy : ZMod K.p), (K.val K.order).toNat • Affine.Point.some _ _ hh = 0) : DhCurve K := by
  obtain ⟨b1, b2, b3, b4, b5, b6, _⟩ := of_decide_eq_true hB
  obtain ⟨hh, hT⟩ := C48_generator h hc ⟨b3, b4⟩
  obtain ⟨o1, o2, o3⟩ := hc.order
  have eo : ((ordN K : Nat) : Int) = K.val K.order := Int.toNat_of_nonneg (by omega)
  exact { curve := h, mont := hm, bytes := hb, sqrt := hs, spare := b1, generator := hh, base := hT, orderRep := ⟨b2, hc.digits.2.2.2.normal, eo.symm⟩, orderPrime := hord, orderOdd := by omega, orderRange := b6, orderBytes := b5, annihilates := hann hh }

/-- C37/C38. Every bundled 64-bit Weierstrass ROM with a Montgomery-form modulus qualifies, given that its modulus and its order are prime. -/
theorem C37_rom64 (r : Rom 64) (hr : r ∈ all64) (ht : r.ctype = .weierstrass) (hm : r.P.modtype = .NotSpecial) [hp : Fact r.p.Prime] (ho : (ordN r).Prime) : DhCurve r := by
  have h : all64.all (fun r => !(decide (r.ctype = .weierstrass)) || dhB r) = true := by decide +kernel
  have := List.all_eq_true.1 h r hr
  obtain ⟨b, s⟩ := C50_rom64 r hr hm
  exact dh_of (C48_rom64 r hr ht) (C55_rom64 r hr) (C16_rom64 r hr hm) b s (by simpa [ht] using this) ho (C55_order64 r hr ht)

set_option exponentiation.threshold 400 in
/-- C37/C38. The same for the 32-bit ROMs. -/
theorem C37_rom32 (r : Rom 32) (hr : r ∈ all32) (ht : r.ctype = .weierstrass) (hm : r.P.modtype = .NotSpecial) [hp : Fact r.p.Prime] (ho : (ordN r).Prime) : DhCurve r := by
  have h : all32.all (fun r => !(decide (r.ctype = .weierstrass)) || dhB r) = true := by decide +kernel
  have h2 : all32.all (fun r => !(decide (r.P.modtype = .NotSpecial)) || decide (r.p ≠ 2 ^ 384 - 317)) = true := by decide +kernel
  have := List.all_eq_true.1 h r hr
  have h3 := List.all_eq_true.1 h2 r hr
  have h384 : r.p ≠ 2 ^ 384 - 317 := by simpa [hm] using h3
  obtain ⟨b, s⟩ := C50_rom32 r hr hm
  exact dh_of (C48_rom32 r hr ht h384) (C55_rom32 r hr) (C16_rom32 r hr hm) b s (by simpa [ht] using this) ho (C55_order32 r hr ht h384)

/-- `Nat.size` by repeated halving (for kernel evaluation) -/
theorem size_of {n k : Nat} (h1 : n < 2 ^ k) (h2 : 2 ^ (k - 1) ≤ n) : n.size = k := by
  have a := Nat.size_le.2 h1
  have b := Nat.lt_size.2 h2
  omega

/-- the computation behind `C37_cof64`/`C37_cof32` -/
def cofB {C : Nat} (r : Rom C) : Bool :=
  decide (r.p < 2 ^ r.P.modbits ∧ 2 ^ (r.P.modbits - 1) ≤ r.p ∧ (2 ^ ((r.P.modbits + 4) / 2) + r.p) / ordN r = cofN r ∧ cofN r ≠ 0 ∧
    cofN r + 2 < 2 ^ (r.P.b * r.P.n - 4) ∧ 2 * (2 ^ ((r.P.modbits + 4) / 2) + r.p) < 2 ^ (r.P.b * r.P.n))

theorem cof_of {C : Nat} {K : Rom C} (h : cofB K = true) : CofOk K := by
  obtain ⟨h1, h2, h3, h4, h5, h6⟩ := of_decide_eq_true h
  have e := size_of h1 h2
  exact ⟨by rw [e]; exact h3, h4, h5, by rw [e]; exact h6⟩

/-- C37. The cofactor computed by `public_key_validate` is the one of the ROM file, for every bundled curve. -/
theorem C37_cof64 (r : Rom 64) (hr : r ∈ all64) : CofOk r := by
  have h : all64.all cofB = true := by decide +kernel
  exact cof_of (List.all_eq_true.1 h r hr)

theorem C37_cof32 (r : Rom 32) (hr : r ∈ all32) : CofOk r := by
  have h : all32.all cofB = true := by decide +kernel
  exact cof_of (List.all_eq_true.1 h r hr)

section
variable {C : Nat} {K : Rom C} [hp : Fact K.p.Prime]

/-- C49. `cfp` multiplies by the cofactor of the ROM file. -/
theorem C49_cfp (h : WCurve K) (hc : K.Consistent) (hk : CofOk K) (hl : K.cof.length = K.P.n ∧ Digits K.P.b K.cof) {s : Pt C} {T : (curve K).Point} (hs : IsPoint K s T) :
    ∃ r, cfp K s = some r ∧ IsPoint K r (cofN K • T) := by
  have hcof := hc.cofactor
  have d : ∀ {s : Pt C} {T : (curve K).Point}, IsPoint K s T → IsPoint K (Ecp.dbl K s) (2 • T) := fun hs => by rw [two_nsmul]; exact C48_dbl h hs
  unfold cfp
  by_cases c1 : K.cofI = 1
  · rw [if_pos c1]
    have : cofN K = 1 := by rw [cofN, hcof (by omega), c1]; rfl
    exact ⟨s, rfl, by rw [this, one_nsmul]; exact hs⟩
  rw [if_neg c1]
  by_cases c4 : K.cofI = 4
  · rw [if_pos c4]
    have : cofN K = 2 * 2 := by rw [cofN, hcof (by omega), c4]; rfl
    exact ⟨_, rfl, by rw [this, mul_nsmul']; exact d (d hs)⟩
  rw [if_neg c4]
  by_cases c8 : K.cofI = 8
  · rw [if_pos c8]
    have : cofN K = 2 * (2 * 2) := by rw [cofN, hcof (by omega), c8]; rfl
    exact ⟨_, rfl, by rw [this, mul_nsmul', mul_nsmul']; exact d (d (d hs))⟩
  rw [if_neg c8]
  have e : ((cofN K : Nat) : Int) = K.val K.cof := Int.toNat_of_nonneg (by
    by_contra hneg
    have := hk.pos
    unfold cofN at this
    omega)
  exact C49_mul h hs ⟨hl.1, hl.2.normal, e.symm⟩ hk.range

/-- the format of `CURVE_COF`, in every bundled file -/
theorem C49_cof64 (r : Rom 64) (hr : r ∈ all64) : r.cof.length = r.P.n ∧ Digits r.P.b r.cof := by
  have h : all64.all (fun r => decide (r.cof.length = r.P.n ∧ Digits r.P.b r.cof)) = true := by decide +kernel
  exact of_decide_eq_true (List.all_eq_true.1 h r hr)

theorem C49_cof32 (r : Rom 32) (hr : r ∈ all32) : r.cof.length = r.P.n ∧ Digits r.P.b r.cof := by
  have h : all32.all (fun r => decide (r.cof.length = r.P.n ∧ Digits r.P.b r.cof)) = true := by decide +kernel
  exact of_decide_eq_true (List.all_eq_true.1 h r hr)

/-! ### points with abscissa zero -/

/-- On `y² = x³ + B` a point `(0, y)` has order three, so no multiple of the generator has abscissa zero. -/
theorem no_abscissa_a0 (h : DhCurve K) (ha : K.a = 0) (h3 : ordN K ≠ 3) (k : Nat) : ¬ AbscissaZero (k • h.G) := by
  rintro ⟨y, hh, e⟩
  have hy : y ≠ (curve K).negY 0 y := by
    intro hc
    have h2 := two_ne_zero' h.curve.arith.toConsts
    have h0 := y_ne h.curve.noTwo hh.1
    have : (curve K).negY 0 y = -y := by simp [Affine.negY, curve, short]
    rw [this] at hc
    have : (2 : ZMod K.p) * y = 0 := by linear_combination hc
    rcases mul_eq_zero.1 this with c | c
    · exact h2 c
    · exact h0 c
  have hd : k • h.G + k • h.G = -(k • h.G) := by
    rw [e, Affine.Point.add_self_of_Y_ne hy, Affine.Point.neg_some]
    have hs : (curve K).slope 0 0 y y = 0 := by
      rw [Affine.slope_of_Y_ne rfl hy]
      simp [curve, short, ha]
    have e1 : (curve K).addX 0 0 ((curve K).slope 0 0 y y) = 0 := by rw [hs]; simp [Affine.addX, curve, short]
    have e2 : (curve K).addY 0 0 y ((curve K).slope 0 0 y y) = (curve K).negY 0 y := by
      rw [Affine.addY, Affine.negAddY, e1, hs]; simp
    simp only [e1, e2]
  have h3' : 3 • (k • h.G) = 0 := by
    rw [show 3 = 2 + 1 by norm_num, add_nsmul, one_nsmul, two_nsmul, hd, neg_add_cancel]
  have hR : ordN K • (k • h.G) = 0 := by
    rw [nsmul_left_comm, R_smul h, nsmul_zero]
  have hT : k • h.G ≠ 0 := by rw [e]; exact (some_ne_zero' hh).symm
  have d1 := addOrderOf_dvd_of_nsmul_eq_zero h3'
  have d2 := addOrderOf_dvd_of_nsmul_eq_zero hR
  rcases (Nat.dvd_prime (by norm_num : Nat.Prime 3)).1 d1 with c | c
  · exact hT (AddMonoid.addOrderOf_eq_one_iff.1 c)
  · rw [c] at d2
    rcases (Nat.dvd_prime h.orderPrime).1 d2 with c | c
    · omega
    · exact h3 c.symm

/-- If `B` is not a square there is no point `(0, y)` at all. -/
theorem no_abscissa_b (hb : ¬ IsSquare (Bcoef K)) (T : (curve K).Point) : ¬ AbscissaZero T := by
  rintro ⟨y, hh, _⟩
  have := short_eq.1 hh.1
  exact hb ⟨y, by rw [← pow_two, this]; ring⟩

/-! ### C37 Diffie-Hellman -/

/-- C37. Key generation from an external secret: the secret is reduced modulo the order and written back, and the public key is the
uncompressed encoding of that multiple of the generator. -/
theorem C37_keypair (h : DhCurve K) (s w : List Byte) (hs : K.modbytes ≤ s.length) (hw : 2 * K.modbytes + 1 ≤ w.length) {x y : ZMod K.p} {hh}
    (hT : (num K s % ordN K) • h.G = Affine.Point.some x y hh) (hx : x ≠ 0) :
    keyPairExternal K s w = some (beBytes K.modbytes (num K s % ordN K) ++ s.drop K.modbytes, sec1U K x y ++ w.drop (2 * K.modbytes + 1)) := by
  obtain ⟨sc, e, hr⟩ := rmod_ok h (fromBytes_ok h s) (bytes_lt h (num_lt K s))
  unfold keyPairExternal
  simp only [e, Option.bind_eq_bind, Option.bind_some]
  exact keyTail_ok h (mod_lt h _) hr s w hs hw hT hx

/-- C37. Key generation with a random generator: the secret is `scalar`, drawn from the generator, whose state advances. -/
theorem C37_generate {σ : Type} (h : DhCurve K) (next : σ → Byte × σ) (rng : σ) (s w : List Byte) (hs : K.modbytes ≤ s.length) (hw : 2 * K.modbytes + 1 ≤ w.length)
    {x y : ZMod K.p} {hh} (hT : scalar next K rng • h.G = Affine.Point.some x y hh) (hx : x ≠ 0) :
    keyPairGenerate next K rng s w =
      some (beBytes K.modbytes (scalar next K rng) ++ s.drop K.modbytes, sec1U K x y ++ w.drop (2 * K.modbytes + 1), (draw next (drawn K) rng).2) := by
  obtain ⟨sc, e, hr⟩ := random_ok h next rng
  unfold keyPairGenerate
  simp only [e, Option.bind_some]
  rw [keyTail_ok h (scalar_lt h next rng) hr s w hs hw hT hx]
  rfl

/-- C37. Both ways of generating a key pair with a nonzero secret give one. -/
theorem C37_keypair_ok (h : DhCurve K) (s w : List Byte) (hs : K.modbytes ≤ s.length) (hw : 2 * K.modbytes + 1 ≤ w.length)
    (h0 : ¬ ordN K ∣ num K s) (hx : ¬ AbscissaZero ((num K s % ordN K) • h.G)) :
    ∃ s' w', keyPairExternal K s w = some (s', w') ∧ KeyPair h (num K s % ordN K) s' w' := by
  have hne : (num K s % ordN K) • h.G ≠ 0 := smul_ne h (fun hd => h0 (by rwa [Nat.dvd_mod_iff (dvd_refl _)] at hd))
  cases hT : (num K s % ordN K) • h.G with
  | zero => exact absurd hT hne
  | some x y hh =>
    have hx0 : x ≠ 0 := by rintro rfl; exact hx ⟨y, hh, hT⟩
    refine ⟨_, _, C37_keypair h s w hs hw hT hx0, ⟨fun hc => h0 (Nat.dvd_of_mod_eq_zero hc), mod_lt h _⟩, ?_, ?_⟩
    · exact num_bytes K (lt_of_lt_of_le (mod_lt h _) h.orderBytes) _
    · rw [hT]; exact decodes_sec1U h x y hh _

theorem C37_generate_ok {σ : Type} (h : DhCurve K) (next : σ → Byte × σ) (rng : σ) (s w : List Byte) (hs : K.modbytes ≤ s.length) (hw : 2 * K.modbytes + 1 ≤ w.length)
    (h0 : scalar next K rng ≠ 0) (hx : ¬ AbscissaZero (scalar next K rng • h.G)) :
    ∃ s' w', keyPairGenerate next K rng s w = some (s', w', (draw next (drawn K) rng).2) ∧ KeyPair h (scalar next K rng) s' w' := by
  have hlt := scalar_lt h next rng
  have hne : scalar next K rng • h.G ≠ 0 := smul_ne h (fun hd => h0 (Nat.eq_zero_of_dvd_of_lt hd hlt))
  cases hT : scalar next K rng • h.G with
  | zero => exact absurd hT hne
  | some x y hh =>
    have hx0 : x ≠ 0 := by rintro rfl; exact hx ⟨y, hh, hT⟩
    refine ⟨_, _, C37_generate h next rng s w hs hw hT hx0, ⟨h0, hlt⟩, ?_, ?_⟩
    · exact num_bytes K (lt_of_lt_of_le hlt h.orderBytes) _
    · rw [hT]; exact decodes_sec1U h x y hh _

/-- C37. Diffie-Hellman agreement: two parties holding key pairs derive the same bytes, the abscissa of the product point, with status 0. -/
theorem C37_agree (h : DhCurve K) {A B : Nat} {sa wa sb wb : List Byte} (ha : KeyPair h A sa wa) (hb : KeyPair h B sb wb) (z : List Byte) (hz : K.modbytes ≤ z.length)
    (hx : ¬ AbscissaZero ((A * B) • h.G)) :
    ∃ x y hh, (A * B) • h.G = Affine.Point.some x y hh ∧
      dh K sa wb z = some (0, beBytes K.modbytes x.val ++ z.drop K.modbytes) ∧ dh K sb wa z = some (0, beBytes K.modbytes x.val ++ z.drop K.modbytes) := by
  have hne : (A * B) • h.G ≠ 0 := by
    refine smul_ne h (fun hd => ?_)
    rcases (Nat.Prime.dvd_mul h.orderPrime).1 hd with c | c
    · exact ha.range.1 (Nat.eq_zero_of_dvd_of_lt c ha.range.2)
    · exact hb.range.1 (Nat.eq_zero_of_dvd_of_lt c hb.range.2)
  cases hT : (A * B) • h.G with
  | zero => exact absurd hT hne
  | some x y hh =>
    have hx0 : x ≠ 0 := by rintro rfl; exact hx ⟨y, hh, hT⟩
    refine ⟨x, y, hh, rfl, ?_, ?_⟩
    · refine dh_ok h hb.key (y := y) (hh := hh) ?_ hx0 hz
      rw [ha.secret, Nat.mod_eq_of_lt ha.range.2, ← mul_nsmul', hT]
    · refine dh_ok h ha.key (y := y) (hh := hh) ?_ hx0 hz
      rw [hb.secret, Nat.mod_eq_of_lt hb.range.2, ← mul_nsmul', mul_comm, hT]

/-- C37. In general `ecpsvdp_dh` returns 0 and the abscissa of the secret multiple of the peer's point, or ERROR (−3) with the buffer
untouched when the peer's string is no point of the curve or the product is the point at infinity. -/
theorem C37_dh (h : DhCurve K) {s wd z : List Byte} {T : (curve K).Point} (hw : Decodes K wd T) (hz : K.modbytes ≤ z.length) (hx : ¬ AbscissaZero ((num K s % ordN K) • T)) :
    (T = 0 ∨ (num K s % ordN K) • T = 0 → dh K s wd z = some (-3, z)) ∧
    ∀ x y hh, (num K s % ordN K) • T = Affine.Point.some x y hh → dh K s wd z = some (0, beBytes K.modbytes x.val ++ z.drop K.modbytes) := by
  refine ⟨fun hT => dh_reject h z hw hT, fun x y hh hT => dh_ok h hw hT ?_ hz⟩
  rintro rfl
  exact hx ⟨y, hh, hT⟩

/-- C37. A peer string which is no encoding of a point of the curve is refused, whatever the secret. -/
theorem C37_rejects (h : DhCurve K) (s wd z : List Byte) (hl : K.modbytes + 1 ≤ wd.length) (hl4 : wd.headD 0 = 0x04#8 → 2 * K.modbytes + 1 ≤ wd.length)
    (hbad : ∀ x y, (curve K).Nonsingular x y → ¬ sec1U K x y <+: wd ∧ ¬ sec1C K x y <+: wd) : dh K s wd z = some (-3, z) := by
  refine dh_reject h z (T := 0) ⟨hl, hl4, fun x y hh => ⟨fun e => absurd e (some_ne_zero' hh), fun e => ?_⟩⟩ (Or.inl rfl)
  rcases e with e | e
  · exact absurd e (hbad x y hh).1
  · exact absurd e (hbad x y hh).2

/-- C37. `public_key_validate` returns 0 exactly when the string encodes a point of the curve whose multiple by the cofactor is not the
point at infinity (so points of small order are refused; a point outside the subgroup of the generator is not). -/
theorem C37_validate (h : DhCurve K) (hc : CofOk K) {w : List Byte} {T : (curve K).Point} (hw : Decodes K w T) :
    publicKeyValidate K w = some (if T ≠ 0 ∧ cofN K • T ≠ 0 then 0 else -2) := validate_ok h hc hw

/-- C37. Generated public keys are valid, provided the cofactor is prime to the order. -/
theorem C37_validate_own (h : DhCurve K) (hc : CofOk K) (hco : ¬ ordN K ∣ cofN K) {A : Nat} {s w : List Byte} (ha : KeyPair h A s w) : publicKeyValidate K w = some 0 := by
  have hA : ¬ ordN K ∣ A := fun hd => ha.range.1 (Nat.eq_zero_of_dvd_of_lt hd ha.range.2)
  rw [C37_validate h hc ha.key, if_pos]
  refine ⟨smul_ne h hA, ?_⟩
  rw [← mul_nsmul']
  exact smul_ne h (fun hd => (h.orderPrime.dvd_mul.1 hd).elim hco hA)

/-! ### C38 ECDSA -/

/-- C38. What signing produces: whenever `ecpsp_dsa` returns, the buffers hold `c` and `d` with the textbook relation to a nonzero nonce
drawn from the generator (in pass `i` of the loop), and the generator state has advanced past all draws. -/
theorem C38_sign {σ : Type} (h : DhCurve K) (hmb : 0 < K.modbytes) (next : σ → Byte × σ) {passes sha : Nat} (hsha : ShaLen sha) (rng : σ) {s f c d : List Byte} {r : List Byte × List Byte × σ}
    (e : sign next K passes sha rng s f c d = some r) :
    ∃ i cN dN, Signed h (num K s) (digestNum K sha f) (scalar next K (draw next (2 * i * drawn K) rng).2) cN dN ∧
      r = (beBytes K.modbytes cN ++ c.drop K.modbytes, beBytes K.modbytes dN ++ d.drop K.modbytes, (draw next (2 * (i + 1) * drawn K) rng).2) := by
  obtain ⟨b, eb, hb⟩ := hash_pad (K := K) hsha hmb f
  unfold sign at e
  simp only [eb, Option.bind_eq_bind, Option.bind_some] at e
  obtain ⟨l, el, e⟩ := Option.bind_eq_some_iff.1 e
  obtain ⟨c', ec, e⟩ := Option.bind_eq_some_iff.1 e
  obtain ⟨d', ed, e⟩ := Option.bind_eq_some_iff.1 e
  cases e
  have hF := fromBytes_ok h b
  rw [hb] at hF
  have hF' : digestNum K sha f < 256 ^ K.modbytes := hb ▸ num_lt K b
  obtain ⟨i, cN, dN, _, k1, k2, k3, k4⟩ := dsaLoop_sound h next (fromBytes_ok h s) (num_lt K s) hF hF' passes rng el
  have hcl : K.modbytes ≤ c.length := by
    by_contra hc; rw [bigInto, if_pos (by omega)] at ec; exact absurd ec (by simp)
  have hdl : K.modbytes ≤ d.length := by
    by_contra hc; rw [bigInto, if_pos (by omega)] at ed; exact absurd ed (by simp)
  rw [bigInto_ok h k1 (lt_two h k4.cRange.2) c hcl] at ec
  rw [bigInto_ok h k2 (lt_two h k4.dRange.2) d hdl] at ed
  cases ec; cases ed
  exact ⟨i, cN, dN, k4, by rw [k3]⟩

/-- C38. Signing succeeds in the first pass when the two random numbers are nonzero and neither component vanishes. -/
theorem C38_sign_total {σ : Type} (h : DhCurve K) (hmb : 0 < K.modbytes) (next : σ → Byte × σ) (passes : Nat) {sha : Nat} (hsha : ShaLen sha) (rng : σ) {s f c d : List Byte}
    (hc : K.modbytes ≤ c.length) (hd : K.modbytes ≤ d.length) (hu : scalar next K rng ≠ 0) (hw : scalar next K (draw next (drawn K) rng).2 ≠ 0)
    {x y : ZMod K.p} {hh} (hpt : scalar next K rng • h.G = Affine.Point.some x y hh) (hx : x.val % ordN K ≠ 0)
    (hdd : (digestNum K sha f + num K s * (x.val % ordN K)) % ordN K ≠ 0) : ∃ r, sign next K (passes + 1) sha rng s f c d = some r := by
  obtain ⟨b, eb, hb⟩ := hash_pad (K := K) hsha hmb f
  have hF := fromBytes_ok h b
  rw [hb] at hF
  have hF' : digestNum K sha f < 256 ^ K.modbytes := hb ▸ num_lt K b
  obtain ⟨r, er, hr⟩ := dsaLoop_first h next (fromBytes_ok h s) (num_lt K s) hF hF' passes rng hu hw hpt hx hdd
  obtain ⟨cN, dN, k1, k2, k3, k4⟩ := hr
  unfold sign
  simp only [eb, Option.bind_eq_bind, Option.bind_some, er, bigInto_ok h k1 (lt_two h k3) c hc, bigInto_ok h k2 (lt_two h k4) d hd]
  exact ⟨_, rfl⟩

/-- C38. Completeness of verification: every signature in the sense of `Signed` is accepted under the public key of the signer. -/
theorem C38_accepts (h : DhCurve K) (hmb : 0 < K.modbytes) {sha : Nat} (hsha : ShaLen sha) {A u : Nat} {s w f c d : List Byte} (ha : KeyPair h A s w)
    (hsig : Signed h A (digestNum K sha f) u (num K c) (num K d)) (hx : num K c ≠ K.p % ordN K ∨ ¬ AbscissaZero (u • h.G)) :
    verify K sha w f c d = some 0 := by
  have hA : A • h.G ≠ 0 := smul_ne h (fun hd => ha.range.1 (Nat.eq_zero_of_dvd_of_lt hd ha.range.2))
  obtain ⟨v, hv, hdv, _, hk⟩ := (verify_gen h hsha hmb f c d ha.key hsig.cRange hsig.dRange).2 hA
  have : Fact (ordN K).Prime := ⟨h.orderPrime⟩
  obtain ⟨x, y, hh, hpt, hcomp⟩ := hsig.point
  have hQ : (num K c * v % ordN K) • (A • h.G) + (digestNum K sha f * v % ordN K) • h.G = u • h.G := by
    rw [← mul_nsmul', ← add_nsmul]
    refine smul_congr h ?_
    have e1 : (num K d : ZMod (ordN K)) * v = 1 := by
      have := congrArg (Nat.cast (R := ZMod (ordN K))) hdv
      simpa using this
    have e2 : (num K d : ZMod (ordN K)) * u = digestNum K sha f + A * num K c := by
      have := congrArg (Nat.cast (R := ZMod (ordN K))) hsig.eqn
      simpa using this
    push_cast [ZMod.natCast_mod]
    linear_combination (u : ZMod (ordN K)) * e1 - (v : ZMod (ordN K)) * e2
  obtain ⟨X, hX, hXc, hres⟩ := hk x y hh (hQ.trans hpt)
  rw [hres, if_pos]
  have hx0 : x = 0 → False := by
    rintro rfl
    rcases hx with hx | hx
    · rcases hcomp with hc | ⟨_, hc⟩
      · rw [ZMod.val_zero, Nat.zero_mod] at hc; exact hsig.cRange.1 hc
      · exact hx hc
    · exact hx ⟨y, hh, hpt⟩
  rcases hcomp with hc | ⟨hc, _⟩
  · rcases hXc with h2 | ⟨h2, _⟩
    · rw [h2, hc]
    · exact (hx0 h2).elim
  · exact (hx0 hc).elim

/-- C38. Sign then verify: every signature returned by `ecpsp_dsa` is accepted by `ecpvp_dsa` under the corresponding public key.  (The
hypothesis on `c` excludes one value, met only by the exceptional point with abscissa zero; it is vacuous by `C38_roundtrip_free`.) -/
theorem C38_roundtrip {σ : Type} (h : DhCurve K) (hmb : 0 < K.modbytes) (next : σ → Byte × σ) {passes sha : Nat} (hsha : ShaLen sha) (rng : σ) {A : Nat} {s w f c d c' d' : List Byte} {rng' : σ}
    (ha : KeyPair h A s w) (e : sign next K passes sha rng s f c d = some (c', d', rng')) (hx : num K c' ≠ K.p % ordN K ∨ ∀ k : Nat, ¬ AbscissaZero (k • h.G)) :
    verify K sha w f c' d' = some 0 := by
  obtain ⟨i, cN, dN, hs, hr⟩ := C38_sign h hmb next hsha rng e
  obtain ⟨rfl, rfl, rfl⟩ : c' = _ ∧ d' = _ ∧ rng' = _ := by simpa using hr
  have hc := num_bytes K (lt_of_lt_of_le hs.cRange.2 h.orderBytes) (c.drop K.modbytes)
  have hd := num_bytes K (lt_of_lt_of_le hs.dRange.2 h.orderBytes) (d.drop K.modbytes)
  rw [ha.secret] at hs
  refine C38_accepts h hmb hsha (u := scalar next K (draw next (2 * i * drawn K) rng).2) ha ?_ (hx.imp id (fun k => k _))
  rw [hc, hd]; exact hs

/-- C38. On the curves `y² = x³ + B`, without exception. -/
theorem C38_roundtrip_free {σ : Type} (h : DhCurve K) (ha0 : K.a = 0) (h3 : ordN K ≠ 3) (hmb : 0 < K.modbytes) (next : σ → Byte × σ) {passes sha : Nat} (hsha : ShaLen sha) (rng : σ) {A : Nat}
    {s w f c d c' d' : List Byte} {rng' : σ} (ha : KeyPair h A s w) (e : sign next K passes sha rng s f c d = some (c', d', rng')) : verify K sha w f c' d' = some 0 :=
  C38_roundtrip h hmb next hsha rng ha e (Or.inr (no_abscissa_a0 h ha0 h3))

/-- C38. Components out of range (zero, or not below the order) are refused with INVALID (−4), whatever the key and the message. -/
theorem C38_rejects (h : DhCurve K) (hmb : 0 < K.modbytes) {sha : Nat} (hsha : ShaLen sha) (w f c d : List Byte)
    (hr : num K c = 0 ∨ ordN K ≤ num K c ∨ num K d = 0 ∨ ordN K ≤ num K d) : verify K sha w f c d = some (-4) := verify_range h hsha hmb w f c d hr

/-- C38. A string which is no point of the curve is refused as a public key: INVALID (−4) or ERROR (−3), never 0. -/
theorem C38_bad_key (h : DhCurve K) (hmb : 0 < K.modbytes) {sha : Nat} (hsha : ShaLen sha) {w : List Byte} (f c d : List Byte) (hw : Decodes K w 0) :
    verify K sha w f c d = some (-4) ∨ verify K sha w f c d = some (-3) := by
  by_cases hr : num K c = 0 ∨ ordN K ≤ num K c ∨ num K d = 0 ∨ ordN K ≤ num K d
  · exact Or.inl (verify_range h hsha hmb w f c d hr)
  · exact Or.inr ((verify_gen h hsha hmb f c d hw (by omega) (by omega)).1 rfl)

/-- C38. Soundness: 0 is returned for the key `A G` only if `(c, d)` is a signature of the message with the secret `A` for some nonce: the
verification equation of ECDSA, an equivalence with `C38_accepts`. -/
theorem C38_sound (h : DhCurve K) (hmb : 0 < K.modbytes) {sha : Nat} (hsha : ShaLen sha) {A : Nat} {s w f c d : List Byte} (ha : KeyPair h A s w)
    (e : verify K sha w f c d = some 0) : ∃ u, Signed h A (digestNum K sha f) u (num K c) (num K d) := by
  by_cases hr : num K c = 0 ∨ ordN K ≤ num K c ∨ num K d = 0 ∨ ordN K ≤ num K d
  · rw [verify_range h hsha hmb w f c d hr] at e; exact absurd e (by simp)
  have hc : num K c ≠ 0 ∧ num K c < ordN K := by omega
  have hd : num K d ≠ 0 ∧ num K d < ordN K := by omega
  have hA : A • h.G ≠ 0 := smul_ne h (fun hd => ha.range.1 (Nat.eq_zero_of_dvd_of_lt hd ha.range.2))
  obtain ⟨v, hv, hdv, hz, hk⟩ := (verify_gen h hsha hmb f c d ha.key hc hd).2 hA
  have : Fact (ordN K).Prime := ⟨h.orderPrime⟩
  have e1 : (num K d : ZMod (ordN K)) * v = 1 := by
    have := congrArg (Nat.cast (R := ZMod (ordN K))) hdv
    simpa using this
  generalize hu : (digestNum K sha f + A * num K c) * v % ordN K = u
  have hQ : (num K c * v % ordN K) • (A • h.G) + (digestNum K sha f * v % ordN K) • h.G = u • h.G := by
    rw [← mul_nsmul', ← add_nsmul]
    refine smul_congr h ?_
    rw [← hu]
    push_cast [ZMod.natCast_mod]
    ring
  rw [hQ] at hz hk
  cases hp2 : u • h.G with
  | zero => rw [hz hp2] at e; exact absurd e (by simp)
  | some x y hh =>
    obtain ⟨X, hX, hXc, hres⟩ := hk x y hh hp2
    rw [hres] at e
    have hXe : X = num K c := by
      by_contra hne
      rw [if_neg hne] at e
      exact absurd e (by simp)
    refine ⟨u, ?_, hc, hd, ⟨x, y, hh, hp2, hXe ▸ hXc⟩, ?_⟩
    · rintro rfl
      rw [zero_nsmul] at hp2
      exact some_ne_zero' hh hp2
    · rw [← ZMod.natCast_eq_natCast_iff', ← hu]
      push_cast [ZMod.natCast_mod]
      linear_combination (digestNum K sha f + A * num K c : ZMod (ordN K)) * e1

/-! ### C36 ECIES with the real Diffie-Hellman step -/

/-- C36. ECIES round trip: what `ecies_encrypt` produces for a public key, `ecies_decrypt` with the secret key turns back into the message,
for every message, parameters, hash, AES key size, tag length up to 32 and generator state. -/
theorem C36_ecies {σ : Type} (h : DhCurve K) (next : σ → Byte × σ) (rng : σ) {aeskey sha : Nat} (hsha : ShaLen sha) (hk : aeskey = 16 ∨ aeskey = 24 ∨ aeskey = 32)
    {B : Nat} {sb wb : List Byte} (hb : KeyPair h B sb wb) (p1 p2 m v t : List Byte) (hv : 2 * K.modbytes + 1 ≤ v.length) (ht : t.length ≤ 32)
    (h0 : scalar next K rng ≠ 0) (hx1 : ¬ AbscissaZero (scalar next K rng • h.G)) (hx2 : ¬ AbscissaZero ((scalar next K rng * B) • h.G)) :
    ∃ c v' t', eciesEncryptRng next K aeskey sha p1 p2 rng wb m v t = some (some c, v', t', (draw next (drawn K) rng).2) ∧ t'.length = t.length ∧
      eciesDecryptKey K aeskey sha p1 p2 v' c t' sb = some (some m) := by
  obtain ⟨u, v', e1, ku⟩ := C37_generate_ok h next rng (List.replicate K.modbytes 0) v (by simp) hv h0 hx1
  obtain ⟨x, y, hh, _, d1, d2⟩ := C37_agree h ku hb (List.replicate K.modbytes 0) (by simp) hx2
  have hv' : 2 * K.modbytes + 1 ≤ v'.length := by
    have := e1
    cases hT : scalar next K rng • h.G with
    | zero => exact absurd hT (smul_ne h (fun hd => h0 (Nat.eq_zero_of_dvd_of_lt hd (scalar_lt h next rng))))
    | some x y hh =>
      have hx0 : x ≠ 0 := by rintro rfl; exact hx1 ⟨y, hh, hT⟩
      rw [C37_generate h next rng _ v (by simp) hv hT hx0] at this
      have e := congrArg (fun o => (o.map (fun q => q.2.1)).getD []) this
      dsimp only [Option.map_some, Option.getD_some] at e
      rw [← e]
      simp [sec1U]; omega
  obtain ⟨c, t', ee, ht', ed⟩ := C36_roundtrip K.modbytes aeskey sha hsha hk p1 p2 v' (beBytes K.modbytes x.val ++ (List.replicate K.modbytes 0).drop K.modbytes) m t hv' ht
  refine ⟨c, v', t', ?_, ht', ?_⟩
  · unfold eciesEncryptRng
    simp only [e1, Option.bind_eq_bind, Option.bind_some, d1, if_true, ee, Option.pure_def]
  · unfold eciesDecryptKey
    simp only [d2, Option.bind_eq_bind, Option.bind_some, if_true, ed]

/-- C36. Authentication: with a tag of 4 to 32 bytes `ecies_decrypt` returns a message only if `v` encodes a finite point of the curve and the
tag is the HMAC, under the keys derived from `v` and the shared abscissa, of the ciphertext, the parameters and their length. -/
theorem C36_ecies_auth (h : DhCurve K) {aeskey sha : Nat} (hsha : ShaLen sha) (p1 p2 : List Byte) {v c t u m : List Byte} {T : (curve K).Point} (hd : Decodes K v T)
    (hv : 2 * K.modbytes + 1 ≤ v.length) (ht4 : 4 ≤ t.length) (ht32 : t.length ≤ 32) (hx : ¬ AbscissaZero ((num K u % ordN K) • T))
    (e : eciesDecryptKey K aeskey sha p1 p2 v c t u = some (some m)) :
    ∃ x y hh, (num K u % ordN K) • T = Affine.Point.some x y hh ∧ t = eciesTag K.modbytes aeskey sha p1 p2 v (beBytes K.modbytes x.val) c t.length := by
  obtain ⟨k1, k2⟩ := C37_dh h (s := u) (z := List.replicate K.modbytes 0) hd (by simp) hx
  unfold eciesDecryptKey at e
  by_cases c0 : T = 0 ∨ (num K u % ordN K) • T = 0
  · rw [k1 c0] at e
    simp only [Option.bind_eq_bind, Option.bind_some] at e
    rw [if_neg (by norm_num), C36_dh_error _ _ _ _ _ _ _ _ ht32] at e
    exact absurd e (by simp)
  · cases hT : (num K u % ordN K) • T with
    | zero => exact absurd (Or.inr hT) c0
    | some x y hh =>
      rw [k2 x y hh hT] at e
      simp only [Option.bind_eq_bind, Option.bind_some, if_true, List.drop_replicate, Nat.sub_self, List.replicate_zero, List.append_nil] at e
      exact ⟨x, y, hh, rfl, ((C36_authenticated _ _ _ hsha _ _ _ _ _ _ _ hv ht4 ht32).1 e).1⟩

end

/-! ### BLS12-381: every hypothesis is met -/

theorem bls381_dh : DhCurve bls381_64 := C37_rom64 _ (by simp [all64]) rfl rfl (by
  have : ordN bls381_64 = 52435875175126190479447740508185965837690552500527637822603658699938581184513 := by decide +kernel
  rw [this]; exact bls381_r_prime)

/-- instance of C49: the cofactor multiplication on BLS12-381 -/
example : ∃ r, cfp bls381_64 (Ecp.generator bls381_64) = some r ∧ IsPoint bls381_64 r (cofN bls381_64 • bls381_dh.G) :=
  C49_cfp bls381_dh.curve (C55_rom64 _ (by simp [all64])) (C37_cof64 _ (by simp [all64])) (C49_cof64 _ (by simp [all64])) bls381_dh.base

theorem bls381_dh32 : DhCurve bls381_32 := C37_rom32 _ (by simp [all32]) rfl rfl (by
  have : ordN bls381_32 = 52435875175126190479447740508185965837690552500527637822603658699938581184513 := by decide +kernel
  rw [this]; exact bls381_r_prime)

/-- the hypotheses of C37 are met: secrets 5 and 7 on BLS12-381 give key pairs, which agree and are valid -/
example : ∃ sa wa sb wb z, keyPairExternal bls381_64 (beBytes 48 5) (List.replicate 97 0) = some (sa, wa) ∧
    keyPairExternal bls381_64 (beBytes 48 7) (List.replicate 97 0) = some (sb, wb) ∧ publicKeyValidate bls381_64 wa = some 0 ∧
    dh bls381_64 sa wb (List.replicate 48 0) = some (0, z) ∧ dh bls381_64 sb wa (List.replicate 48 0) = some (0, z) := by
  have h := bls381_dh
  have h3 : ordN bls381_64 ≠ 3 := by decide +kernel
  have hno : ∀ k : Nat, ¬ AbscissaZero (k • h.G) := no_abscissa_a0 h rfl h3
  obtain ⟨sa, wa, ea, ka⟩ := C37_keypair_ok h (beBytes 48 5) (List.replicate 97 0) (by decide) (by decide) (by decide +kernel) (hno _)
  obtain ⟨sb, wb, eb, kb⟩ := C37_keypair_ok h (beBytes 48 7) (List.replicate 97 0) (by decide) (by decide) (by decide +kernel) (hno _)
  obtain ⟨x, y, hh, _, h1, h2⟩ := C37_agree h ka kb (List.replicate 48 0) (by decide) (hno _)
  exact ⟨sa, wa, sb, wb, _, ea, eb, C37_validate_own h (C37_cof64 _ (by simp [all64])) (by decide +kernel) ka, h1, h2⟩

/-- a generator whose first number modulo the order of BLS12-381 is 1, and so are all later ones -/
def tick (n : Nat) : Byte × Nat := (if n % 64 = 63 then 0x20#8 else 0, n + 1)

/-- the hypotheses of C38 are met: with the secret 5, the empty message is signed, and the signature is accepted -/
example : ∃ s w c d n, keyPairExternal bls381_64 (beBytes 48 5) (List.replicate 97 0) = some (s, w) ∧
    sign tick bls381_64 1 32 0 s [] (List.replicate 48 0) (List.replicate 48 0) = some (c, d, n) ∧ verify bls381_64 32 w [] c d = some 0 := by
  have h := bls381_dh
  have h3 : ordN bls381_64 ≠ 3 := by decide +kernel
  have hno : ∀ k : Nat, ¬ AbscissaZero (k • h.G) := no_abscissa_a0 h rfl h3
  obtain ⟨s, w, ea, ka⟩ := C37_keypair_ok h (beBytes 48 5) (List.replicate 97 0) (by decide) (by decide) (by decide +kernel) (hno _)
  have hsz : (ordN bls381_64).size = 255 := size_of (by decide +kernel) (by decide +kernel)
  have hdr : drawn bls381_64 = 64 := by unfold drawn; rw [hsz]
  have e1 : scalar tick bls381_64 0 = 1 := by unfold scalar; rw [hdr, hsz]; decide +kernel
  have e2 : scalar tick bls381_64 (draw tick (drawn bls381_64) 0).2 = 1 := by unfold scalar; rw [hdr, hsz]; decide +kernel
  have hgx : ((bls381_64.val bls381_64.gx : ZMod bls381_64.p)).val = (bls381_64.val bls381_64.gx).toNat := by
    have : ((bls381_64.val bls381_64.gx).toNat : Int) = bls381_64.val bls381_64.gx := by decide +kernel
    rw [← this, Int.cast_natCast, zcast_val (by decide +kernel)]
    rfl
  obtain ⟨⟨c, d, n⟩, hr⟩ := C38_sign_total h (by decide) tick 0 (Or.inl rfl) 0 (s := s) (f := []) (c := List.replicate 48 0) (d := List.replicate 48 0) (by decide) (by decide) (by rw [e1]; norm_num)
    (by rw [e2]; norm_num) (hh := h.generator) (by rw [e1, one_nsmul]; rfl) (by rw [hgx]; decide +kernel) (by rw [hgx, ka.secret]; decide +kernel)
  exact ⟨s, w, c, d, n, ea, hr, C38_roundtrip_free h rfl h3 (by decide) tick (Or.inl rfl) 0 ka hr⟩

end Verif.Props
