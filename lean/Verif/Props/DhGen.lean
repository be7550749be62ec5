import Verif.Ecdh.Gen
import Verif.Props.Dh
import Verif.Props.Edwards
/-
C84 (Diffie-Hellman) and C85 (ECDSA) over the curves with a pseudo-Mersenne modulus: Weierstrass and Edwards form.
-/
namespace Verif.Props
open Verif.Big Verif.Fp Verif.Rom Verif.Curve Verif.Ecp Verif.Ecdh Spec WeierstrassCurve
open Verif.Ecdh.Gen (getxy_ok decodesU_sec1U)
set_option exponentiation.threshold 600
set_option linter.unusedSectionVars false

section
variable {C : Nat} {K : Rom C} [hp : Fact K.p.Prime] {Γ : Type} [AddCommGroup Γ] {g : Form K Γ}

/-! ### C84 Diffie-Hellman -/

/-- C84. Key generation from given secret bytes: the secret is reduced modulo the order, the public key is the uncompressed encoding of the
multiple of the generator. -/
theorem C84_keypair (h : FormOk g) (s w : List Byte) (hs : K.modbytes ≤ s.length) (hw : 2 * K.modbytes + 1 ≤ w.length) (h0 : ¬ ordN K ∣ num K s)
    (hr : RedMul K (generator K) (num K s % ordN K)) :
    ∃ s' w', keyPairExternal K s w = some (s', w') ∧ KeyPairG g (num K s % ordN K) s' w' ∧
      s' = beBytes K.modbytes (num K s % ordN K) ++ s.drop K.modbytes ∧ w'.drop (2 * K.modbytes + 1) = w.drop (2 * K.modbytes + 1) := by
  have hne : (num K s % ordN K) • g.G ≠ 0 := Gen.smul_ne h (fun hd => h0 (by rwa [Nat.dvd_mod_iff (dvd_refl _)] at hd))
  obtain ⟨sc, e, hsc⟩ := Gen.rmod_ok h.num (Gen.fromBytes_ok h.num s) (Gen.bytes_lt h.num (num_lt K s))
  refine ⟨_, sec1U K (g.X ((num K s % ordN K) • g.G)) (g.Y ((num K s % ordN K) • g.G)) ++ w.drop (2 * K.modbytes + 1), ?_,
    ⟨⟨fun hc => h0 (Nat.dvd_of_mod_eq_zero hc), Gen.mod_lt h.num _⟩, ?_, ?_⟩, rfl, ?_⟩
  · unfold keyPairExternal
    simp only [e, Option.bind_eq_bind, Option.bind_some]
    exact Gen.keyTail_ok h (Gen.mod_lt h.num _) hsc s w hs hw hne hr
  · exact num_bytes K (lt_of_lt_of_le (Gen.mod_lt h.num _) h.num.orderBytes) _
  · exact decodesU_sec1U h hne _
  · rw [List.drop_left']
    simp only [sec1U, List.length_cons, List.length_append, Spec.beBytes_length]; omega

/-- C84. The same with a random generator, whose state advances. -/
theorem C84_generate {σ : Type} (h : FormOk g) (next : σ → Byte × σ) (rng : σ) (s w : List Byte) (hs : K.modbytes ≤ s.length) (hw : 2 * K.modbytes + 1 ≤ w.length)
    (h0 : scalar next K rng ≠ 0) (hr : RedMul K (generator K) (scalar next K rng)) :
    ∃ s' w', keyPairGenerate next K rng s w = some (s', w', (draw next (drawn K) rng).2) ∧ KeyPairG g (scalar next K rng) s' w' := by
  have hlt := Gen.scalar_lt h.num next rng
  have hne : scalar next K rng • g.G ≠ 0 := Gen.smul_ne h (fun hd => h0 (Nat.eq_zero_of_dvd_of_lt hd hlt))
  obtain ⟨sc, e, hsc⟩ := Gen.random_ok h.num next rng
  refine ⟨beBytes K.modbytes (scalar next K rng) ++ s.drop K.modbytes,
    sec1U K (g.X (scalar next K rng • g.G)) (g.Y (scalar next K rng • g.G)) ++ w.drop (2 * K.modbytes + 1), ?_, ⟨⟨h0, hlt⟩, ?_, ?_⟩⟩
  · unfold keyPairGenerate
    simp only [e, Option.bind_some]
    rw [Gen.keyTail_ok h hlt hsc s w hs hw hne hr]
    rfl
  · exact num_bytes K (lt_of_lt_of_le hlt h.num.orderBytes) _
  · exact decodesU_sec1U h hne _

/-- C84. `ecpsvdp_dh` for every secret and every peer string that starts with 0x04: an error if the string encodes no point, or if the
product is the neutral element; otherwise the first coordinate of the product. -/
theorem C84_dh (h : FormOk g) {s wd z : List Byte} {T : Γ} (hw : DecodesU g wd T) (hz : K.modbytes ≤ z.length)
    (hr : ∀ W, Ecp.frombytes K wd = some W → RedMul K W (num K s % ordN K)) :
    (T = 0 ∨ (num K s % ordN K) • T = 0 → dh K s wd z = some (-3, z)) ∧
    ((num K s % ordN K) • T ≠ 0 → dh K s wd z = some (0, beBytes K.modbytes (g.X ((num K s % ordN K) • T)).val ++ z.drop K.modbytes)) :=
  ⟨fun hT => Gen.dh_reject h z hw hT, fun hT => Gen.dh_ok h hw hT hr hz⟩

/-- C84. The two parties agree. -/
theorem C84_agree (h : FormOk g) {A B : Nat} {sa wa sb wb : List Byte} (ha : KeyPairG g A sa wa) (hb : KeyPairG g B sb wb) (z : List Byte) (hz : K.modbytes ≤ z.length)
    (hra : ∀ W, Ecp.frombytes K wb = some W → RedMul K W A) (hrb : ∀ W, Ecp.frombytes K wa = some W → RedMul K W B) :
    dh K sa wb z = some (0, beBytes K.modbytes (g.X ((A * B) • g.G)).val ++ z.drop K.modbytes) ∧ dh K sb wa z = dh K sa wb z := by
  have hne : (A * B) • g.G ≠ 0 := by
    refine Gen.smul_ne h (fun hd => ?_)
    rcases (Nat.Prime.dvd_mul h.num.orderPrime).1 hd with c | c
    · exact ha.range.1 (Nat.eq_zero_of_dvd_of_lt c ha.range.2)
    · exact hb.range.1 (Nat.eq_zero_of_dvd_of_lt c hb.range.2)
  have ea : num K sa % ordN K = A := by rw [ha.secret, Nat.mod_eq_of_lt ha.range.2]
  have eb : num K sb % ordN K = B := by rw [hb.secret, Nat.mod_eq_of_lt hb.range.2]
  have e1 : A • B • g.G = (A * B) • g.G := by rw [mul_nsmul']
  have e2 : B • A • g.G = (A * B) • g.G := by rw [mul_comm, mul_nsmul']
  have k1 := Gen.dh_ok h (s := sa) hb.key (by rw [ea, e1]; exact hne) (by rw [ea]; exact hra) hz
  have k2 := Gen.dh_ok h (s := sb) ha.key (by rw [eb, e2]; exact hne) (by rw [eb]; exact hrb) hz
  rw [ea, e1] at k1
  rw [eb, e2] at k2
  exact ⟨k1, k2.trans k1.symm⟩

/-- C84. A string with tag 0x04 which is no encoding of a point is refused, whatever the secret. -/
theorem C84_rejects (h : FormOk g) (s wd z : List Byte) (hl : 2 * K.modbytes + 1 ≤ wd.length) (ht : wd.headD 0 = 0x04#8)
    (hbad : ∀ S : Γ, S ≠ 0 → ¬ sec1U K (g.X S) (g.Y S) <+: wd) : dh K s wd z = some (-3, z) :=
  Gen.dh_reject h z (T := 0) ⟨hl, ht, fun S hS => ⟨fun e => absurd e.symm hS, fun e => absurd e (hbad S hS)⟩⟩ (Or.inl rfl)

/-- C84. `public_key_validate` returns 0 exactly when the string encodes a point whose multiple by the cofactor is not neutral. -/
theorem C84_validate (h : FormOk g) (hc : CofOk K) {w : List Byte} {T : Γ} (hw : DecodesU g w T) :
    (T ≠ 0 ∧ cofN K • T ≠ 0 → publicKeyValidate K w = some 0) ∧ (¬ (T ≠ 0 ∧ cofN K • T ≠ 0) → publicKeyValidate K w = some (-2)) := by
  have := Gen.validate_ok h hc hw
  constructor
  · intro k; rw [this, if_pos k]
  · intro k; rw [this, if_neg k]

/-- C84. Generated public keys are valid, provided the cofactor is prime to the order. -/
theorem C84_validate_own (h : FormOk g) (hc : CofOk K) (hco : ¬ ordN K ∣ cofN K) {A : Nat} {s w : List Byte} (ha : KeyPairG g A s w) : publicKeyValidate K w = some 0 := by
  have hA : ¬ ordN K ∣ A := fun hd => ha.range.1 (Nat.eq_zero_of_dvd_of_lt hd ha.range.2)
  refine (C84_validate h hc ha.key).1 ⟨Gen.smul_ne h hA, ?_⟩
  rw [← mul_nsmul']
  exact Gen.smul_ne h (fun hd => (h.num.orderPrime.dvd_mul.1 hd).elim hco hA)

/-! ### C85 ECDSA -/

/-- the sum computed by `ecpvp_dsa` for a key, a message digest and a signature has reduced coordinates -/
def RedVerify (K : Rom C) (w : List Byte) (e c d : Nat) : Prop :=
  ∀ W v, Ecp.frombytes K w = some W → v < ordN K → d * v % ordN K = 1 → RedMul2 K W (c * v % ordN K) (generator K) (e * v % ordN K)

/-- C85. What signing produces, whenever `ecpsp_dsa` returns. -/
theorem C85_sign {σ : Type} (h : FormOk g) (hmb : 0 < K.modbytes) (next : σ → Byte × σ) {passes sha : Nat} (hsha : ShaLen sha) (rng : σ) {s f c d : List Byte} {r : List Byte × List Byte × σ}
    (hred : ∀ i < passes, RedMul K (generator K) (scalar next K (draw next (2 * i * drawn K) rng).2))
    (e : sign next K passes sha rng s f c d = some r) :
    ∃ i cN dN, SignedG g (num K s) (digestNum K sha f) (scalar next K (draw next (2 * i * drawn K) rng).2) cN dN ∧
      r = (beBytes K.modbytes cN ++ c.drop K.modbytes, beBytes K.modbytes dN ++ d.drop K.modbytes, (draw next (2 * (i + 1) * drawn K) rng).2) := by
  obtain ⟨b, eb, hb⟩ := hash_pad (K := K) hsha hmb f
  unfold sign at e
  simp only [eb, Option.bind_eq_bind, Option.bind_some] at e
  obtain ⟨l, el, e⟩ := Option.bind_eq_some_iff.1 e
  obtain ⟨c', ec, e⟩ := Option.bind_eq_some_iff.1 e
  obtain ⟨d', ed, e⟩ := Option.bind_eq_some_iff.1 e
  cases e
  have hF := Gen.fromBytes_ok h.num b
  rw [hb] at hF
  have hF' : digestNum K sha f < 256 ^ K.modbytes := hb ▸ num_lt K b
  obtain ⟨i, cN, dN, _, k1, k2, k3, k4⟩ := Gen.dsaLoop_sound h next (Gen.fromBytes_ok h.num s) (num_lt K s) hF hF' passes rng hred el
  have hcl : K.modbytes ≤ c.length := by
    by_contra hc; rw [bigInto, if_pos (by omega)] at ec; exact absurd ec (by simp)
  have hdl : K.modbytes ≤ d.length := by
    by_contra hc; rw [bigInto, if_pos (by omega)] at ed; exact absurd ed (by simp)
  rw [Gen.bigInto_ok h.num k1 (Gen.lt_two h.num k4.cRange.2) c hcl] at ec
  rw [Gen.bigInto_ok h.num k2 (Gen.lt_two h.num k4.dRange.2) d hdl] at ed
  cases ec; cases ed
  exact ⟨i, cN, dN, k4, by rw [k3]⟩

/-- C85. Signing succeeds in the first pass when the two random numbers are nonzero and neither component vanishes. -/
theorem C85_sign_total {σ : Type} (h : FormOk g) (hmb : 0 < K.modbytes) (next : σ → Byte × σ) (passes : Nat) {sha : Nat} (hsha : ShaLen sha) (rng : σ) {s f c d : List Byte}
    (hc : K.modbytes ≤ c.length) (hd : K.modbytes ≤ d.length) (hu : scalar next K rng ≠ 0) (hw : scalar next K (draw next (drawn K) rng).2 ≠ 0)
    (hred : RedMul K (generator K) (scalar next K rng)) (hx : (g.X (scalar next K rng • g.G)).val % ordN K ≠ 0)
    (hdd : (digestNum K sha f + num K s * ((g.X (scalar next K rng • g.G)).val % ordN K)) % ordN K ≠ 0) : ∃ r, sign next K (passes + 1) sha rng s f c d = some r := by
  obtain ⟨b, eb, hb⟩ := hash_pad (K := K) hsha hmb f
  have hF := Gen.fromBytes_ok h.num b
  rw [hb] at hF
  have hF' : digestNum K sha f < 256 ^ K.modbytes := hb ▸ num_lt K b
  obtain ⟨r, er, hr⟩ := Gen.dsaLoop_first h next (Gen.fromBytes_ok h.num s) (num_lt K s) hF hF' passes rng hu hw hred hx hdd
  obtain ⟨cN, dN, k1, k2, k3, k4⟩ := hr
  unfold sign
  simp only [eb, Option.bind_eq_bind, Option.bind_some, er, Gen.bigInto_ok h.num k1 (Gen.lt_two h.num k3) c hc, Gen.bigInto_ok h.num k2 (Gen.lt_two h.num k4) d hd]
  exact ⟨_, rfl⟩

/-- C85. Completeness of verification: every signature is accepted under the public key of the signer. -/
theorem C85_accepts (h : FormOk g) (hmb : 0 < K.modbytes) {sha : Nat} (hsha : ShaLen sha) {A u : Nat} {s w f c d : List Byte} (ha : KeyPairG g A s w)
    (hsig : SignedG g A (digestNum K sha f) u (num K c) (num K d)) (hred : RedVerify K w (digestNum K sha f) (num K c) (num K d)) :
    verify K sha w f c d = some 0 := by
  have hA : A • g.G ≠ 0 := Gen.smul_ne h (fun hd => ha.range.1 (Nat.eq_zero_of_dvd_of_lt hd ha.range.2))
  obtain ⟨v, hv, hdv, _, hk⟩ := (Gen.verify_gen h hsha hmb f c d ha.key hsig.cRange hsig.dRange).2 hA
  have : Fact (ordN K).Prime := ⟨h.num.orderPrime⟩
  have hQ : (num K c * v % ordN K) • (A • g.G) + (digestNum K sha f * v % ordN K) • g.G = u • g.G := by
    rw [← mul_nsmul', ← add_nsmul]
    refine Gen.smul_congr h ?_
    have e1 : (num K d : ZMod (ordN K)) * v = 1 := by
      have := congrArg (Nat.cast (R := ZMod (ordN K))) hdv
      simpa using this
    have e2 : (num K d : ZMod (ordN K)) * u = digestNum K sha f + A * num K c := by
      have := congrArg (Nat.cast (R := ZMod (ordN K))) hsig.eqn
      simpa using this
    push_cast [ZMod.natCast_mod]
    linear_combination (u : ZMod (ordN K)) * e1 - (v : ZMod (ordN K)) * e2
  rw [hQ] at hk
  rw [hk hsig.point.1 (fun W eW => hred W v eW hv hdv), if_pos hsig.point.2.symm]

/-- C85. Sign then verify. -/
theorem C85_roundtrip {σ : Type} (h : FormOk g) (hmb : 0 < K.modbytes) (next : σ → Byte × σ) {passes sha : Nat} (hsha : ShaLen sha) (rng : σ) {A : Nat} {s w f c d c' d' : List Byte} {rng' : σ}
    (ha : KeyPairG g A s w) (hred : ∀ i < passes, RedMul K (generator K) (scalar next K (draw next (2 * i * drawn K) rng).2))
    (e : sign next K passes sha rng s f c d = some (c', d', rng')) (hv : RedVerify K w (digestNum K sha f) (num K c') (num K d')) :
    verify K sha w f c' d' = some 0 := by
  obtain ⟨i, cN, dN, hs, hr⟩ := C85_sign h hmb next hsha rng hred e
  obtain ⟨rfl, rfl, rfl⟩ : c' = _ ∧ d' = _ ∧ rng' = _ := by simpa using hr
  have hc := num_bytes K (lt_of_lt_of_le hs.cRange.2 h.num.orderBytes) (c.drop K.modbytes)
  have hd := num_bytes K (lt_of_lt_of_le hs.dRange.2 h.num.orderBytes) (d.drop K.modbytes)
  rw [ha.secret] at hs
  refine C85_accepts h hmb hsha (u := scalar next K (draw next (2 * i * drawn K) rng).2) ha ?_ hv
  rw [hc, hd]
  exact hs

/-- C85. Components out of range are refused, whatever the key and the message. -/
theorem C85_rejects (h : FormOk g) (hmb : 0 < K.modbytes) {sha : Nat} (hsha : ShaLen sha) (w f c d : List Byte)
    (hr : num K c = 0 ∨ ordN K ≤ num K c ∨ num K d = 0 ∨ ordN K ≤ num K d) : verify K sha w f c d = some (-4) := Gen.verify_range h.num hsha hmb w f c d hr

/-- C85. A string with tag 0x04 which is no point is refused as a public key. -/
theorem C85_bad_key (h : FormOk g) (hmb : 0 < K.modbytes) {sha : Nat} (hsha : ShaLen sha) {w : List Byte} (f c d : List Byte) (hw : DecodesU g w 0) :
    verify K sha w f c d = some (-4) ∨ verify K sha w f c d = some (-3) := by
  by_cases hr : num K c = 0 ∨ ordN K ≤ num K c ∨ num K d = 0 ∨ ordN K ≤ num K d
  · exact Or.inl (Gen.verify_range h.num hsha hmb w f c d hr)
  · exact Or.inr ((Gen.verify_gen h hsha hmb f c d hw (by omega) (by omega)).1 rfl)

/-- C85. Soundness: what is accepted is a signature with the secret `A` for some nonce. -/
theorem C85_sound (h : FormOk g) (hmb : 0 < K.modbytes) {sha : Nat} (hsha : ShaLen sha) {A : Nat} {s w f c d : List Byte} (ha : KeyPairG g A s w)
    (hred : RedVerify K w (digestNum K sha f) (num K c) (num K d))
    (e : verify K sha w f c d = some 0) : ∃ u, SignedG g A (digestNum K sha f) u (num K c) (num K d) := by
  by_cases hr : num K c = 0 ∨ ordN K ≤ num K c ∨ num K d = 0 ∨ ordN K ≤ num K d
  · rw [Gen.verify_range h.num hsha hmb w f c d hr] at e; exact absurd e (by simp)
  have hc : num K c ≠ 0 ∧ num K c < ordN K := by omega
  have hd : num K d ≠ 0 ∧ num K d < ordN K := by omega
  have hA : A • g.G ≠ 0 := Gen.smul_ne h (fun hd => ha.range.1 (Nat.eq_zero_of_dvd_of_lt hd ha.range.2))
  obtain ⟨v, hv, hdv, hz, hk⟩ := (Gen.verify_gen h hsha hmb f c d ha.key hc hd).2 hA
  have : Fact (ordN K).Prime := ⟨h.num.orderPrime⟩
  have e1 : (num K d : ZMod (ordN K)) * v = 1 := by
    have := congrArg (Nat.cast (R := ZMod (ordN K))) hdv
    simpa using this
  generalize hu : (digestNum K sha f + A * num K c) * v % ordN K = u
  have hQ : (num K c * v % ordN K) • (A • g.G) + (digestNum K sha f * v % ordN K) • g.G = u • g.G := by
    rw [← mul_nsmul', ← add_nsmul]
    refine Gen.smul_congr h ?_
    rw [← hu]
    push_cast [ZMod.natCast_mod]
    ring
  rw [hQ] at hz hk
  by_cases hp2 : u • g.G = 0
  · rw [hz hp2] at e; exact absurd e (by simp)
  · rw [hk hp2 (fun W eW => hred W v eW hv hdv)] at e
    have hXe : (g.X (u • g.G)).val % ordN K = num K c := by
      by_contra hne
      rw [if_neg hne] at e
      exact absurd e (by simp)
    refine ⟨u, ?_, hc, hd, ⟨hp2, hXe.symm⟩, ?_⟩
    · rintro rfl
      rw [zero_nsmul] at hp2
      exact hp2 rfl
    · rw [← ZMod.natCast_eq_natCast_iff', ← hu]
      push_cast [ZMod.natCast_mod]
      linear_combination (digestNum K sha f + A * num K c : ZMod (ordN K)) * e1

end

/-! ### the bundled curves -/

/-- the two coordinates of a point of a Weierstrass curve -/
noncomputable def wX {F : Type} [Field F] {W : Affine F} : W.Point → F
  | .zero => 0
  | .some x _ _ => x
noncomputable def wY {F : Type} [Field F] {W : Affine F} : W.Point → F
  | .zero => 0
  | .some _ y _ => y

section
variable {C : Nat} (K : Rom C) [hp : Fact K.p.Prime]

/-- Weierstrass curves: the group is that of the affine points with a point at infinity -/
noncomputable def wForm (hg : (curve K).Nonsingular (K.val K.gx : ZMod K.p) (K.val K.gy : ZMod K.p)) : Form K (curve K).Point :=
  ⟨IsPoint K, wX, wY, Affine.Point.some _ _ hg⟩

/-- Edwards curves: the group is that of the solutions of the curve equation -/
def edForm (hc : K.Consistent) (ht : K.ctype = .edwards) : Form K (EdPoint K) := ⟨IsPointE K, fun T => T.x, fun T => T.y, edGen K hc ht⟩
end

section
variable {C : Nat} {K : Rom C} [hp : Fact K.p.Prime]

theorem dhNum_of (hco : Consts K.P K.p) (hpl : K.P.plain = true) (hc : K.Consistent) (hb : BytesOk K) (hB : dhB K = true) (hord : (ordN K).Prime) : DhNum K := by
  obtain ⟨b1, b2, b3, b4, b5, b6, _⟩ := of_decide_eq_true hB
  obtain ⟨o1, o2, o3⟩ := hc.order
  have eo : ((ordN K : Nat) : Int) = K.val K.order := Int.toNat_of_nonneg (by omega)
  exact { consts := hco, plain := hpl, bytes := hb, spare := b1, orderRep := ⟨b2, hc.digits.2.2.2.normal, eo.symm⟩, orderPrime := hord, orderOdd := by omega, orderRange := b6, orderBytes := b5 }

theorem wForm_ok (h : WCurve K) (hn : DhNum K) (hg : (curve K).Nonsingular (K.val K.gx : ZMod K.p) (K.val K.gy : ZMod K.p))
    (hbase : IsPoint K (generator K) (Affine.Point.some _ _ hg)) (hann : ordN K • Affine.Point.some _ _ hg = 0) : FormOk (wForm K hg) where
  num := hn
  base := hbase
  ne := fun e => some_ne_zero' hg e.symm
  annihilates := hann
  coords := by
    intro S T hS hT hx hy
    cases S with
    | zero => exact absurd rfl hS
    | some x y h1 =>
      cases T with
      | zero => exact absurd rfl hT
      | some x' y' h2 =>
        change x = x' at hx
        change y = y' at hy
        subst hx hy
        rfl
  inf := fun s T hs => isInfinity_ok h hs
  dbl := fun s T hs => dbl_ok h hs
  mul := fun s T e E hs he hE => by
    obtain ⟨r, h1, h2⟩ := Ecp.mul_ok h hs ⟨he, hE⟩
    exact ⟨r, h1, by rwa [natCast_zsmul] at h2⟩
  mul2 := fun s S q T e f E F hs hq he hE hf hF => by
    obtain ⟨r, h1, h2⟩ := Ecp.mul2_ok h hs hq ⟨he, hE⟩ ⟨hf, hF⟩
    exact ⟨r, h1, by rwa [natCast_zsmul, natCast_zsmul] at h2⟩
  xy := by
    intro s T hs hT
    obtain ⟨h1, h2⟩ := affine_ok h hs
    cases T with
    | zero => exact absurd rfl hT
    | some x y hh =>
      have hd : (coords K (affine K s)).z ≠ 0 ∧ (coords K (affine K s)).x = x * (coords K (affine K s)).z ∧ (coords K (affine K s)).y = y * (coords K (affine K s)).z := h1.2
      rw [h2 hT, mul_one, mul_one] at hd
      exact hd.2
  print := fun s T buf hx hy hl => (tobytes_gen h hx hy buf).1 hl
  decode := by
    intro w hl ht
    obtain ⟨r, T, h1, h2, h3⟩ := C50_frombytes_uncompressed h hn.bytes w (by omega) (fun _ => hl) (by rw [ht]; decide)
    refine ⟨r, T, h1, h2, hl, ht, fun S hS => ?_⟩
    cases S with
    | zero => exact absurd rfl hS
    | some x y hh => exact h3 x y hh

theorem edForm_ok [Fact (EdComplete K)] (h : EdCurve K) (hc : K.Consistent) (hn : DhNum K) (hbase : IsPointE K (generator K) (edGen K hc h.type)) (hann : ordN K • edGen K hc h.type = 0)
    (hne : edGen K hc h.type ≠ 0) : FormOk (edForm K hc h.type) where
  num := hn
  base := hbase
  ne := hne
  annihilates := hann
  coords := fun S T _ _ hx hy => by
    obtain ⟨x, y, h1⟩ := S
    obtain ⟨x', y', h2⟩ := T
    change x = x' at hx
    change y = y' at hy
    subst hx hy
    rfl
  inf := fun s T hs => isInfinityE_ok h hs
  dbl := fun s T hs => dblE_ok h hs
  mul := fun s T e E hs he hE => by
    obtain ⟨r, h1, h2⟩ := mulE_ok h hs ⟨he, hE⟩
    exact ⟨r, h1, h2⟩
  mul2 := fun s S q T e f E F hs hq he hE hf hF => by
    obtain ⟨r, h1, h2⟩ := mul2E_ok h hs hq ⟨he, hE⟩ ⟨hf, hF⟩
    exact ⟨r, h1, h2⟩
  xy := by
    intro s T hs hT
    have hcd := (affineE_ok h hs).2 hT
    exact ⟨congrArg Proj.x hcd, congrArg Proj.y hcd⟩
  print := fun s T buf hx hy hl => (tobytesE_gen h hx hy buf).1 hl
  decode := by
    intro w hl ht
    obtain ⟨r, T, h1, h2, h3, h5, _⟩ := frombytesU_ok h hn.bytes w hl ht
    refine ⟨r, T, h1, h2, hl, ht, fun S hS => ⟨?_, h3 S⟩⟩
    rintro rfl
    by_contra hcon
    by_cases hex : ∃ S' : EdPoint K, sec1U K S'.x S'.y <+: w
    · obtain ⟨S', hS'⟩ := hex
      have := h3 S' hS'
      subst this
      exact hcon hS'
    · exact hS (h5 (fun S' hS' => hex ⟨S', hS'⟩))

/-- the numbers of an Edwards ROM file -/
def dhEB {C : Nat} (r : Rom C) : Bool := dhB r && decide (r.val r.gx ≠ 0 ∧ ¬ ordN r ∣ cofN r)

theorem edGen_ne (hc : K.Consistent) (ht : K.ctype = .edwards) [Fact (EdComplete K)] (h0 : K.val K.gx ≠ 0) : edGen K hc ht ≠ 0 := by
  intro e
  have ex : ((K.val K.gx : Int) : ZMod K.p) = 0 := congrArg (fun T : EdPoint K => T.x) e
  obtain ⟨_, _, r1, r2, _⟩ := hc.ranges
  have e2 : ((K.val K.gx).toNat : Int) = K.val K.gx := Int.toNat_of_nonneg r1
  rw [← e2, Int.cast_natCast, ZMod.natCast_eq_zero_iff] at ex
  have := Nat.eq_zero_of_dvd_of_lt ex (by omega)
  omega
end

/-- what C84 and C85 need of a ROM file: the library computes in the group, the cofactor is right, and the order does not divide it -/
def FormRom {C : Nat} {K : Rom C} [Fact K.p.Prime] {Γ : Type} [AddCommGroup Γ] (g : Form K Γ) : Prop := FormOk g ∧ CofOk K ∧ 0 < K.modbytes ∧ ¬ ordN K ∣ cofN K

/-- C84/C85 apply to every bundled 64-bit Weierstrass curve with a pseudo-Mersenne modulus … -/
theorem C84_weierstrass64 (r : Rom 64) (hr : r ∈ all64) (ht : r.ctype = .weierstrass) (hm : r.P.modtype = .PseudoMersenne) :
    ∃ (_ : Fact r.p.Prime) (hg : (curve r).Nonsingular (r.val r.gx : ZMod r.p) (r.val r.gy : ZMod r.p)), FormRom (wForm r hg) := by
  obtain ⟨p1, p2⟩ := C55_primes64 r hr
  have hp : Fact r.p.Prime := ⟨p1⟩
  have hB : all64.all (fun r => !(decide (r.ctype = .weierstrass)) || (dhB r && decide (¬ ordN r ∣ cofN r))) = true := by decide +kernel
  have hB := List.all_eq_true.1 hB r hr
  simp only [ht, decide_true, Bool.not_true, Bool.false_or, Bool.and_eq_true, decide_eq_true_eq] at hB
  have h := C48_rom64 r hr ht
  have hc := C55_rom64 r hr
  have hbb : all64.all (fun r => decide (8 * r.modbytes ≤ r.P.b * r.P.n ∧ r.p < 256 ^ r.modbytes)) = true := by decide +kernel
  have hbb := of_decide_eq_true (List.all_eq_true.1 hbb r hr)
  have hb := of_decide_eq_true hB.1
  obtain ⟨hg, hT⟩ := C48_generator h hc ⟨hb.2.2.1, hb.2.2.2.1⟩
  exact ⟨hp, hg, wForm_ok h (dhNum_of h.arith.toConsts (by simp [Params.plain, hm]) hc ⟨hbb.1, hbb.2⟩ hB.1 p2) hg hT (C55_order64 r hr ht hg), C37_cof64 r hr, hb.2.2.2.2.2.2, hB.2⟩

/-- … 32-bit (the curve over 2^384 - 317 excepted, whose field arithmetic overflows, C16) … -/
theorem C84_weierstrass32 (r : Rom 32) (hr : r ∈ all32) (ht : r.ctype = .weierstrass) (hm : r.P.modtype = .PseudoMersenne) (h384 : r.p ≠ 2 ^ 384 - 317) :
    ∃ (_ : Fact r.p.Prime) (hg : (curve r).Nonsingular (r.val r.gx : ZMod r.p) (r.val r.gy : ZMod r.p)), FormRom (wForm r hg) := by
  obtain ⟨p1, p2⟩ := C55_primes32 r hr
  have hp : Fact r.p.Prime := ⟨p1⟩
  have hB : all32.all (fun r => !(decide (r.ctype = .weierstrass)) || (dhB r && decide (¬ ordN r ∣ cofN r))) = true := by decide +kernel
  have hB := List.all_eq_true.1 hB r hr
  simp only [ht, decide_true, Bool.not_true, Bool.false_or, Bool.and_eq_true, decide_eq_true_eq] at hB
  have h := C48_rom32 r hr ht h384
  have hc := C55_rom32 r hr
  have hbb : all32.all (fun r => decide (8 * r.modbytes ≤ r.P.b * r.P.n ∧ r.p < 256 ^ r.modbytes)) = true := by decide +kernel
  have hbb := of_decide_eq_true (List.all_eq_true.1 hbb r hr)
  have hb := of_decide_eq_true hB.1
  obtain ⟨hg, hT⟩ := C48_generator h hc ⟨hb.2.2.1, hb.2.2.2.1⟩
  exact ⟨hp, hg, wForm_ok h (dhNum_of h.arith.toConsts (by simp [Params.plain, hm]) hc ⟨hbb.1, hbb.2⟩ hB.1 p2) hg hT (C55_order32 r hr ht h384 hg), C37_cof32 r hr, hb.2.2.2.2.2.2, hB.2⟩

/-- … and to every Edwards curve with a pseudo-Mersenne modulus, 64-bit … -/
theorem C84_edwards64 (r : Rom 64) (hr : r ∈ all64) (ht : r.ctype = .edwards) (hm : r.P.modtype = .PseudoMersenne) :
    ∃ (_ : Fact r.p.Prime) (_ : Fact (EdComplete r)) (hc : r.Consistent), FormRom (edForm r hc ht) := by
  obtain ⟨p1, p2⟩ := C55_primes64 r hr
  have hp : Fact r.p.Prime := ⟨p1⟩
  have hB : all64.all (fun r => !(decide (r.ctype = .edwards)) || dhEB r) = true := by decide +kernel
  have hB := List.all_eq_true.1 hB r hr
  simp only [ht, decide_true, Bool.not_true, Bool.false_or, dhEB, Bool.and_eq_true, decide_eq_true_eq] at hB
  have h := C60_rom64 r hr ht hm
  have hcm : Fact (EdComplete r) := ⟨h.complete⟩
  have hc := C55_rom64 r hr
  have hb := of_decide_eq_true hB.1
  exact ⟨hp, hcm, hc, edForm_ok h hc (dhNum_of h.arith.toConsts (by simp [Params.plain, hm]) hc (C61_rom64 r hr ht hm).1 hB.1 p2) (C60_generator h hc ⟨hb.2.2.1, hb.2.2.2.1⟩)
    (C60_order64 r hr ht) (edGen_ne hc ht hB.2.1), C37_cof64 r hr, hb.2.2.2.2.2.2, hB.2.2⟩

/-- … and 32-bit. -/
theorem C84_edwards32 (r : Rom 32) (hr : r ∈ all32) (ht : r.ctype = .edwards) (hm : r.P.modtype = .PseudoMersenne) (h384 : r.p ≠ 2 ^ 384 - 317) :
    ∃ (_ : Fact r.p.Prime) (_ : Fact (EdComplete r)) (hc : r.Consistent), FormRom (edForm r hc ht) := by
  obtain ⟨p1, p2⟩ := C55_primes32 r hr
  have hp : Fact r.p.Prime := ⟨p1⟩
  have hB : all32.all (fun r => !(decide (r.ctype = .edwards)) || dhEB r) = true := by decide +kernel
  have hB := List.all_eq_true.1 hB r hr
  simp only [ht, decide_true, Bool.not_true, Bool.false_or, dhEB, Bool.and_eq_true, decide_eq_true_eq] at hB
  have h := C60_rom32 r hr ht hm h384
  have hcm : Fact (EdComplete r) := ⟨h.complete⟩
  have hc := C55_rom32 r hr
  have hb := of_decide_eq_true hB.1
  exact ⟨hp, hcm, hc, edForm_ok h hc (dhNum_of h.arith.toConsts (by simp [Params.plain, hm]) hc (C61_rom32 r hr ht hm h384).1 hB.1 p2) (C60_generator h hc ⟨hb.2.2.1, hb.2.2.2.1⟩)
    (C60_order32 r hr ht) (edGen_ne hc ht hB.2.1), C37_cof32 r hr, hb.2.2.2.2.2.2, hB.2.2⟩

/-! ### when coordinates are reduced -/

section
variable {C : Nat} {K : Rom C} [hp : Fact K.p.Prime]

/-- C84. On Edwards curves: if the point has to be divided by its third coordinate (it is not 1 modulo `p`), the result has reduced
coordinates.  `ECP::mul` ends with that division. -/
theorem C84_reduced_edwards [Fact (EdComplete K)] (h : EdCurve K) {s : Pt C} {T : EdPoint K} (hs : IsPointE K s T) (hT : T ≠ 0) (hz : (coords K s).z ≠ 1) :
    Reduced K (affine K s) := by
  obtain ⟨k1, k2⟩ := affineE_redc h hs (fun e => absurd e hz) hT
  have e : affine K (affine K s) = affine K s := affineE_one h (affineE_ok h hs).1 (congrArg Proj.z ((affineE_ok h hs).2 hT))
  refine ⟨_, _, ZMod.val_lt T.x, ZMod.val_lt T.y, ?_, ?_⟩
  · unfold getx; rw [e]; exact k1
  · unfold gety; rw [e]; exact k2

/-- C84. On Weierstrass curves. -/
theorem C84_reduced_weierstrass (h : WCurve K) {s : Pt C} {x y : ZMod K.p} {hh} (hs : IsPoint K s (Affine.Point.some x y hh)) (hz : (coords K s).z ≠ 1) :
    Reduced K (affine K s) := by
  obtain ⟨k1, k2⟩ := affine_redc h hs (fun e => absurd e hz) (fun e => absurd e hz)
  obtain ⟨i1, i2⟩ := affine_ok h hs
  have hT : Affine.Point.some x y hh ≠ (0 : (curve K).Point) := fun e => some_ne_zero' hh e.symm
  have hi : ¬ isInfinity K (affine K s) = true := fun hc => hT ((isInfinity_ok h i1).mp hc)
  obtain ⟨s1, s2, s3⟩ := i1.1.elems
  have he : Fp.equals K.P (affine K s).z (newInt K.P 1) = true := (elem_equals h.arith s3 (elem_int1 h.arith)).mpr (i2 hT)
  have e : affine K (affine K s) = affine K s := by rw [affine, if_neg hi]; simp only [he, if_true]
  refine ⟨_, _, ZMod.val_lt x, ZMod.val_lt y, ?_, ?_⟩
  · unfold getx; rw [e]; exact k1
  · unfold gety; rw [e]; exact k2

end

/-! ### the hypotheses can be met -/

/-- check that a computed point has reduced coordinates -/
def redB {C : Nat} (K : Rom C) : Option (Pt C) → Bool
  | none => true
  | some W => decide ((getx K W).length = K.P.n ∧ Normal K.P.b (getx K W) ∧ 0 ≤ limbsVal K.P.b (getx K W) ∧ limbsVal K.P.b (getx K W) < K.p ∧
      (gety K W).length = K.P.n ∧ Normal K.P.b (gety K W) ∧ 0 ≤ limbsVal K.P.b (gety K W) ∧ limbsVal K.P.b (gety K W) < K.p)

theorem redMul_of {C : Nat} {K : Rom C} [Fact K.p.Prime] (hco : Consts K.P K.p) {s : Pt C} {u : Nat} (hu : (u : Int) < 2 ^ K.P.b)
    (h : redB K (Ecp.mul K s (Big.newInt C K.P.n u)) = true) : RedMul K s u := by
  intro e W he hm
  have hr := newInt_rep (C := C) hco.ok (n := K.P.n) (by have := hco.hn; omega) u (by positivity) hu
  have : e = Big.newInt C K.P.n u := normal_unique _ _ (by rw [he.len, hr.len]) he.low hr.low (by rw [he.val, hr.val])
  rw [← this, hm] at h
  obtain ⟨a1, a2, a3, a4, b1, b2, b3, b4⟩ := of_decide_eq_true h
  obtain ⟨x, hx⟩ := Int.eq_ofNat_of_zero_le a3
  obtain ⟨y, hy⟩ := Int.eq_ofNat_of_zero_le b3
  exact ⟨x, y, by omega, by omega, ⟨a1, a2, hx⟩, ⟨b1, b2, hy⟩⟩

/-- the computation behind the next two statements: key pair with secret 2, and the product of the public key by 2 -/
def exB {C : Nat} (K : Rom C) : Bool :=
  redB K (Ecp.mul K (generator K) (Big.newInt C K.P.n 2)) && decide (num K (beBytes K.modbytes 2) % ordN K = 2 ∧ (2 : Int) < 2 ^ K.P.b) &&
  ((keyPairExternal K (beBytes K.modbytes 2) (List.replicate (2 * K.modbytes + 1) 0)).bind fun q => Ecp.frombytes K q.2).all (fun W =>
      redB K (Ecp.mul K W (Big.newInt C K.P.n 2)))

theorem ex_of {C : Nat} {K : Rom C} [hp : Fact K.p.Prime] {Γ : Type} [AddCommGroup Γ] {g : Form K Γ} (h : FormOk g) (hB : exB K = true) :
    ∃ s w : List Byte, KeyPairG g 2 s w ∧ ∀ W, Ecp.frombytes K w = some W → RedMul K W 2 := by
  unfold exB at hB
  rw [Bool.and_eq_true, Bool.and_eq_true] at hB
  obtain ⟨⟨h1, h2⟩, h3⟩ := hB
  obtain ⟨h2, h4⟩ := of_decide_eq_true h2
  have hr : RedMul K (generator K) 2 := redMul_of h.num.consts h4 h1
  obtain ⟨s', w', e, hk, _⟩ := C84_keypair h (beBytes K.modbytes 2) (List.replicate (2 * K.modbytes + 1) 0) (by rw [Spec.beBytes_length]) (by rw [List.length_replicate])
    (fun hd => by rw [Nat.mod_eq_zero_of_dvd hd] at h2; exact absurd h2 (by norm_num)) (by rw [h2]; exact hr)
  rw [h2] at hk
  refine ⟨s', w', hk, fun W hW => redMul_of h.num.consts h4 ?_⟩
  rw [e, Option.bind_some, hW] at h3
  exact h3

set_option maxRecDepth 100000 in
theorem exB_ed25519 : exB ed25519_64 = true := by decide +kernel

/-- Ed25519, secret 2 on both sides: a key pair is generated, and the hypotheses of `C84_agree` hold for it -/
example : ∃ (r : Rom 64) (_ : Fact r.p.Prime) (_ : Fact (EdComplete r)) (g : Form r (EdPoint r)) (s w : List Byte),
    FormRom g ∧ KeyPairG g 2 s w ∧ ∀ W, Ecp.frombytes r w = some W → RedMul r W 2 := by
  obtain ⟨hp, hcm, hc, h⟩ := C84_edwards64 ed25519_64 (by simp [all64]) rfl rfl
  obtain ⟨s, w, h1, h2⟩ := ex_of h.1 exB_ed25519
  exact ⟨_, hp, hcm, _, s, w, h, h1, h2⟩

example : (all64.filter (fun r => r.ctype = .weierstrass ∧ r.P.modtype = .PseudoMersenne)).length = 4 := by decide

end Verif.Props
