import Verif.Bls.Field
import Verif.Bls.G1Dec
import Verif.Props.Dh
/-
Property theorems for the BLS layer: secret keys (C43), point encodings (C44), hash to field (C47).
-/
namespace Verif.Props
open Verif.Big Verif.Fp Verif.Rom Verif.Curve Verif.Ecp Verif.Ecdh Verif.H2c Verif.Bls Spec WeierstrassCurve

variable {C : Nat} {K : Rom C} [hp : Fact K.p.Prime]

theorem bls381_bls : BlsCurve bls381_64 := ⟨bls381_dh, by decide +kernel, rfl, by decide +kernel⟩
theorem bls381_bls32 : BlsCurve bls381_32 := ⟨bls381_dh32, by decide +kernel, rfl, by decide +kernel⟩

/-! ### C43 -/

/-- C43. A string that is not 32 bytes long is refused with the size error. -/
theorem C43_size (h : BlsCurve K) (bs : List Byte) (hl : bs.length ≠ 32) : secretKeyFromBytes K bs = some (.error .invalidSecretKeySize) :=
  (skFrom_ok h bs).1 hl

/-- C43. A 32-byte string denoting a number not below the group order is refused with the range error. -/
theorem C43_range (h : BlsCurve K) (bs : List Byte) (hl : bs.length = 32) (hr : ordN K ≤ beNat bs) :
    secretKeyFromBytes K bs = some (.error .invalidSecretKeyRange) := (skFrom_ok h bs).2.1 hl hr

/-- C43. Every other string is accepted, the result represents its number, and printing it gives the string back. -/
theorem C43_accept (h : BlsCurve K) (bs : List Byte) (hl : bs.length = 32) (hr : beNat bs < ordN K) :
    ∃ sk, secretKeyFromBytes K bs = some (.ok sk) ∧ Rep K.P.b K.P.n sk (beNat bs : Int) ∧ secretKeyToBytes K sk = some bs := by
  obtain ⟨sk, h1, h2⟩ := (skFrom_ok h bs).2.2 hl hr
  refine ⟨sk, h1, h2, ?_⟩
  rw [skTo_ok h h2 (lt_two h.dh hr), ← hl, beBytes_beNat]

/-- C43. Printing any number below the order and reading it back gives a representation of the same number. -/
theorem C43_roundtrip (h : BlsCurve K) {sk : Limbs C} {X : Nat} (hs : Rep K.P.b K.P.n sk (X : Int)) (hX : X < ordN K) :
    ∃ bs sk', secretKeyToBytes K sk = some bs ∧ bs.length = 32 ∧ secretKeyFromBytes K bs = some (.ok sk') ∧ Rep K.P.b K.P.n sk' (X : Int) := by
  have h0 : beNat (beBytes 32 X) = X := by rw [beNat_beBytes, Nat.mod_eq_of_lt (lt_trans hX h.order)]
  obtain ⟨sk', h1, h2⟩ := (skFrom_ok h (beBytes 32 X)).2.2 (beBytes_length _ _) (by rw [h0]; exact hX)
  rw [h0] at h2
  exact ⟨_, sk', skTo_ok h hs (lt_two h.dh hX), beBytes_length _ _, h1, h2⟩

/-- C43. `key_generate` is the draft's KeyGen, printed in 32 bytes, for all keying material and key info; the result is accepted by
`secret_key_from_bytes`. -/
theorem C43_keygen (h : BlsCurve K) (ikm info : List Byte) :
    keyGenerate K ikm info = some (beBytes 32 (keyGen (ordN K) ikm info)) ∧
    ∃ sk, secretKeyFromBytes K (beBytes 32 (keyGen (ordN K) ikm info)) = some (.ok sk) ∧ Rep K.P.b K.P.n sk (keyGen (ordN K) ikm info : Int) := by
  refine ⟨keyGen_ok h ikm info, ?_⟩
  have hlt : keyGen (ordN K) ikm info < ordN K := Nat.mod_lt _ (by have := h.dh.R_pos; omega)
  have h0 : beNat (beBytes 32 (keyGen (ordN K) ikm info)) = keyGen (ordN K) ikm info := by
    rw [beNat_beBytes, Nat.mod_eq_of_lt (lt_trans hlt h.order)]
  obtain ⟨sk, h1, h2⟩ := (skFrom_ok h (beBytes 32 (keyGen (ordN K) ikm info))).2.2 (beBytes_length _ _) (by rw [h0]; exact hlt)
  rw [h0] at h2
  exact ⟨sk, h1, h2⟩

/-- the boundary on BLS12-381: `r` is refused, `r - 1` and even `0` are accepted -/
example : secretKeyFromBytes bls381_64 (beBytes 32 52435875175126190479447740508185965837690552500527637822603658699938581184513) = some (.error .invalidSecretKeyRange)
    ∧ (∃ sk, secretKeyFromBytes bls381_64 (beBytes 32 52435875175126190479447740508185965837690552500527637822603658699938581184512) = some (.ok sk))
    ∧ (∃ sk, secretKeyFromBytes bls381_64 (beBytes 32 0) = some (.ok sk)) :=
  ⟨C43_range bls381_bls _ (by decide +kernel) (by decide +kernel),
   (C43_accept bls381_bls _ (by decide +kernel) (by decide +kernel)).imp fun _ h => h.1,
   (C43_accept bls381_bls _ (by decide +kernel) (by decide +kernel)).imp fun _ h => h.1⟩

/-! ### C44, G1 -/

/-- C44. Serialising a point gives its encoding. -/
theorem C44_g1_serialize (h : BlsCurve K) {s : Pt C} {T : (curve K).Point} (hs : IsPoint K s T) (hf : Faithful K s) :
    serializeG1 K s = enc1C T ∧ serializeUncompressedG1 K s = enc1U T := ⟨serialize_ok h hs hf, serializeU_ok h hs hf⟩

/-- C44. Both encodings of every point decode to that point. -/
theorem C44_g1_decode (h : BlsCurve K) (T : (curve K).Point) :
    (∃ s, deserializeG1 K (enc1C T) = .ok s ∧ IsPoint K s T ∧ Faithful K s) ∧ ∃ s, deserializeG1 K (enc1U T) = .ok s ∧ IsPoint K s T ∧ Faithful K s := by
  constructor
  · rcases deser_ok h (enc1C T) with ⟨s, T', h1, h2, h3, h4⟩ | ⟨h1, _⟩
    · have := (h4 T).mp (Or.inl rfl)
      subst this
      exact ⟨s, h1, h2, h3⟩
    · exact absurd (Or.inl rfl) (h1 T)
  · rcases deser_ok h (enc1U T) with ⟨s, T', h1, h2, h3, h4⟩ | ⟨h1, _⟩
    · have := (h4 T).mp (Or.inr rfl)
      subst this
      exact ⟨s, h1, h2, h3⟩
    · exact absurd (Or.inr rfl) (h1 T)

/-- C44. `deserialize_g1(serialize_g1(P)) = P` and the same for the uncompressed form. -/
theorem C44_g1_roundtrip (h : BlsCurve K) {s : Pt C} {T : (curve K).Point} (hs : IsPoint K s T) (hf : Faithful K s) :
    (∃ s', deserializeG1 K (serializeG1 K s) = .ok s' ∧ IsPoint K s' T) ∧ ∃ s', deserializeG1 K (serializeUncompressedG1 K s) = .ok s' ∧ IsPoint K s' T := by
  obtain ⟨e1, e2⟩ := C44_g1_serialize h hs hf
  obtain ⟨⟨s1, a1, b1, _⟩, ⟨s2, a2, b2, _⟩⟩ := C44_g1_decode h T
  rw [e1, e2]
  exact ⟨⟨s1, a1, b1⟩, ⟨s2, a2, b2⟩⟩

/-- C44. Every accepted string is the (compressed or uncompressed) encoding of the point returned, which re-serialises to it. -/
theorem C44_g1_accept (h : BlsCurve K) (bs : List Byte) (s : Pt C) (hs : deserializeG1 K bs = .ok s) :
    ∃ T, IsPoint K s T ∧ (bs = enc1C T ∧ serializeG1 K s = bs ∨ bs = enc1U T ∧ serializeUncompressedG1 K s = bs) := by
  rcases deser_ok h bs with ⟨s', T, h1, h2, h3, h4⟩ | ⟨_, h2⟩
  · rw [hs] at h1
    injection h1 with h1
    subst h1
    obtain ⟨e1, e2⟩ := C44_g1_serialize h h2 h3
    refine ⟨T, h2, ?_⟩
    rcases (h4 T).mpr rfl with e | e
    · exact Or.inl ⟨e, by rw [e1, e]⟩
    · exact Or.inr ⟨e, by rw [e2, e]⟩
  · rw [hs] at h2; cases h2

/-- C44. Every other string is refused, with the error code of its length and flags. -/
theorem C44_g1_reject (h : BlsCurve K) (bs : List Byte) (hb : ∀ T : (curve K).Point, bs ≠ enc1C T ∧ bs ≠ enc1U T) :
    deserializeG1 K bs = .error (match verdict K.modbytes bs with | .size => .invalidG1Size | .yflag => .invalidYFlag | .point => .invalidPoint) := by
  rcases deser_ok h bs with ⟨s', T, h1, h2, h3, h4⟩ | ⟨_, h2⟩
  · rcases (h4 T).mpr rfl with e | e
    · exact absurd e (hb T).1
    · exact absurd e (hb T).2
  · rw [h2]
    cases verdict K.modbytes bs <;> rfl

/-- C44. No string encodes two points. -/
theorem C44_g1_injective (h : BlsCurve K) {T T' : (curve K).Point} (e : enc1C T = enc1C T' ∨ enc1U T = enc1U T') : T = T' := by
  rcases e with e | e
  · rcases deser_ok h (enc1C T) with ⟨s', T0, h1, h2, h3, h4⟩ | ⟨h1, h2⟩
    · rw [(h4 T).mp (Or.inl rfl), (h4 T').mp (Or.inl e)]
    · exact absurd (Or.inl rfl) (h1 T)
  · rcases deser_ok h (enc1U T) with ⟨s', T0, h1, h2, h3, h4⟩ | ⟨h1, h2⟩
    · rw [(h4 T).mp (Or.inr rfl), (h4 T').mp (Or.inr e)]
    · exact absurd (Or.inr rfl) (h1 T)

/-- the hypotheses of C44 are met: the generator of BLS12-381 is serialised to bytes that decode to it -/
example : ∃ s, deserializeG1 bls381_64 (serializeG1 bls381_64 (Ecp.generator bls381_64)) = .ok s ∧ IsPoint bls381_64 s bls381_dh.G := by
  have hf : Faithful bls381_64 (Ecp.generator bls381_64) := by
    intro h0
    exfalso
    have hb := bls381_dh.base.2.2.1
    have hz := bls381_dh.base.2.1
    have h1 : (coords bls381_64 (Ecp.generator bls381_64)).x = 0 := h0
    rw [h1] at hb
    rcases mul_eq_zero.mp hb.symm with e | e
    · exact absurd bls381_dh.generator.1 (by
        intro _
        have : ¬ ∃ y hh, (1 • bls381_dh.G) = Affine.Point.some 0 y hh := no_abscissa_a0 bls381_dh rfl (by decide +kernel) 1
        apply this
        rw [one_smul]
        unfold DhCurve.G
        refine ⟨(bls381_64.val bls381_64.gy : ZMod bls381_64.p), ?_⟩
        rw [← e]
        exact ⟨bls381_dh.generator, rfl⟩)
    · exact hz e
  exact (C44_g1_roundtrip bls381_bls bls381_dh.base hf).1

/-! ### C47 -/

/-- C47. For all hash algorithms, messages, tags and lengths, `expand_message_xmd` returns the draft's string, or the error code
exactly where the draft aborts. It never panics. -/
theorem C47_expand (a : Alg) (msg : List Byte) (len : Nat) (dst : List Byte) :
    expandMessageXmd a msg len dst = some (match Spec.H2c.expand a.H a.length a.blockSize msg len dst with
      | none => .error .hashToFieldError
      | some r => .ok r) := expand_ok a msg len dst

/-- C47. The result has the requested length; the error means that more than 255 digests would be needed. -/
theorem C47_length (a : Alg) (msg : List Byte) (len : Nat) (dst : List Byte) :
    (255 * a.length < len → expandMessageXmd a msg len dst = some (.error .hashToFieldError)) ∧
    (len ≤ 255 * a.length → ∃ r, expandMessageXmd a msg len dst = some (.ok r) ∧ r.length = len) := by
  have hp := length_pos a
  rw [expand_ok]
  unfold Spec.H2c.expand
  dsimp only
  have hd := Nat.div_add_mod (len + a.length - 1) a.length
  have hm := Nat.mod_lt (len + a.length - 1) hp
  generalize hq : (len + a.length - 1) / a.length = q at *
  generalize (len + a.length - 1) % a.length = m at *
  constructor
  · intro hl
    rw [if_pos (by
      by_contra hc
      have : a.length * q ≤ a.length * 255 := Nat.mul_le_mul_left _ (by omega)
      have := Nat.mul_comm a.length 255
      omega)]
  · intro hl
    rw [if_neg (by
      intro hc
      have : a.length * 256 ≤ a.length * q := Nat.mul_le_mul_left _ (by omega)
      omega)]
    refine ⟨_, rfl, ?_⟩
    rw [List.length_take, flat_length a (Spec.H2c.b0 a.H a.blockSize msg len dst) _ (H_length _ a)]
    have := Nat.mul_comm a.length q
    omega

/-- C47. The hash algorithms are the SHA-2 functions with their digest and block lengths. -/
theorem C47_algorithms :
    (Alg.sha256.H = Spec.Sha2.digest Spec.Sha2.SHA256 ∧ Alg.sha256.length = 32 ∧ Alg.sha256.blockSize = 64) ∧
    (Alg.sha384.H = Spec.Sha2.digest Spec.Sha2.SHA384 ∧ Alg.sha384.length = 48 ∧ Alg.sha384.blockSize = 128) ∧
    (Alg.sha512.H = Spec.Sha2.digest Spec.Sha2.SHA512 ∧ Alg.sha512.length = 64 ∧ Alg.sha512.blockSize = 128) :=
  ⟨⟨rfl, rfl, rfl⟩, ⟨rfl, rfl, rfl⟩, ⟨rfl, rfl, rfl⟩⟩

/-- C47. `hash_to_field_fp`: up to 127 elements, each the number in its 64 bytes of the expanded message modulo `p`; the error code for more. -/
theorem C47_hash_to_field (h : BlsCurve K) (msg : List Byte) (count : Nat) (dst : List Byte) :
    (127 < count → hashToFieldFp K msg count dst = some (.error .hashToFieldError)) ∧
    (count ≤ 127 → ∃ bytes us, Spec.H2c.expand (Spec.Sha2.digest Spec.Sha2.SHA256) 32 64 msg (64 * count) dst = some bytes ∧
      hashToFieldFp K msg count dst = some (.ok us) ∧ us.length = count ∧
      ∀ i (hi : i < us.length), Normed K.P K.p us[i] ∧ residue K.P K.p us[i] = (beNat ((bytes.drop (64 * i)).take 64) : ZMod K.p)) :=
  hashToField_ok h msg count dst

/-- test vector of the draft (section I.1, SHA-256, empty message, 32 bytes), evaluated on the model -/
example : (expandMessageXmd .sha256 [] 32 (("QUUX-V01-CS02-with-expander".toList).map fun c => BitVec.ofNat 8 c.toNat)).map (fun r => r.toOption.map beNat)
    = some (some 0xf659819a6473c1835b25ea59e3d38914c98b374f0970b7e4c92181df928fca88) := by decide +kernel

/-- a case with an oversized tag: both sides of the theorem are defined and give 33 bytes -/
example : ∃ r, expandMessageXmd .sha256 [0x61, 0x62, 0x63] 33 (List.replicate 300 0x41) = some (.ok r) ∧ r.length = 33 :=
  (C47_length .sha256 _ 33 _).2 (by decide)

end Verif.Props
