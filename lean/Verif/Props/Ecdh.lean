import Verif.Ecdh.Ecies
/-
Property theorems for the symmetric part of ecdh.rs (C31 – C36).
Model: `Verif/Ecdh/Model.lean`.  Specification: `Verif/Spec/Kdf.lean`.
Buffers are byte lists, `some` means the call returns, `none` that it panics.
`Spec.ShaLen n` says `n` is one of the three hash sizes 32, 48, 64.
-/
namespace Verif.Props
open Verif.Ecdh
open Spec (Byte ShaLen beBytes)

/-- C31. `kdf2` writes the ISO 18033-2 KDF2 output to the first `olen` bytes of the buffer and leaves the rest. -/
theorem C31_kdf2 (n : Nat) (hn : ShaLen n) (z : List Byte) (p : Option (List Byte)) (olen : Nat) (k : List Byte) (hk : olen ≤ k.length) :
    kdf2 n z p olen k = some (Spec.kdf2 n z (p.getD []) olen ++ k.drop olen) := kdf2_eq hn z p olen k hk

/-- C31. The derived key has the requested length. -/
theorem C31_kdf2_length (n : Nat) (hn : ShaLen n) (z p : List Byte) (olen : Nat) : (Spec.kdf2 n z p olen).length = olen :=
  kdf2_length hn z p olen

/-- C32. `kdf1` is KDF1 except that the first block is `H(Z)` instead of `H(Z ‖ 0)`. -/
theorem C32_kdf1 (n : Nat) (hn : ShaLen n) (z : List Byte) (olen : Nat) (k : List Byte) (hk : olen ≤ k.length) :
    kdf1 n z olen k = some (((List.range (Spec.ceilDiv olen n)).flatMap fun i =>
      Spec.sha n (if i = 0 then z else z ++ beBytes 4 i)).take olen ++ k.drop olen) := by
  rw [kdf1_eq hn z olen k hk]
  congr 4
  funext i
  by_cases h : i = 0
  · subst h; simp [ctr]
  · rw [if_neg h, ctr, if_pos (by omega)]

/-- C32. From the second block on it agrees with the standard KDF1. -/
theorem C32_kdf1_tail (n : Nat) (hn : ShaLen n) (z : List Byte) (olen : Nat) (k r : List Byte) (hk : olen ≤ k.length)
    (hr : kdf1 n z olen k = some r) : (r.take olen).drop n = (Spec.kdf1 n z olen).drop n := by
  rw [C32_kdf1 n hn z olen k hk] at hr
  have h0 : 0 < n := by have := sha_ge hn; omega
  cases hr
  have key : ∀ (F : Nat → List Byte), (∀ i, (F i).length = n) → ∀ (rest : List Byte),
      (((((List.range (Spec.ceilDiv olen n)).flatMap F).take olen ++ rest).take olen).drop n)
        = (((List.range (Spec.ceilDiv olen n - 1)).flatMap fun i => F (i + 1)).take (olen - n)) := by
    intro F hF rest
    have hlen : ((List.range (Spec.ceilDiv olen n)).flatMap F).length = Spec.ceilDiv olen n * n := by
      rw [List.length_flatMap]; simp [hF]
    have := ceil_mul h0 olen
    rw [List.take_append_of_le_length (by rw [List.length_take]; omega), List.take_take, Nat.min_self, List.drop_take]
    cases hc : Spec.ceilDiv olen n with
    | zero => simp
    | succ c =>
      rw [List.range_succ_eq_map, List.flatMap_cons, List.drop_append_of_le_length (by rw [hF]), List.drop_of_length_le (by rw [hF]), List.nil_append,
        List.flatMap_map]
      rfl
  rw [key _ (fun i => sha_length hn _)]
  have := key (fun i => Spec.sha n (z ++ beBytes 4 i)) (fun i => sha_length hn _) []
  rw [List.append_nil, List.take_take, Nat.min_self] at this
  rw [Spec.kdf1, this]
  congr 2

/-- C32. The deviation is real: with an empty secret and 32 bytes of output the two differ. -/
theorem C32_kdf1_nonstandard : ∃ r, kdf1 32 [] 32 (List.replicate 32 0) = some r ∧ r ≠ Spec.kdf1 32 [] 32 := by
  refine ⟨_, C32_kdf1 32 (Or.inl rfl) [] 32 _ (by simp), ?_⟩
  decide +kernel

/-- C33. Exactly what `pbkdf2` computes, for every password, salt of at most 32 bytes, repeat count, output
length and hash size: the stream of blocks `F_1, F_2, …`, each padded with zeros to 64 bytes and
cut to `efs` bytes, truncated to `min olen 64` bytes; in `F_i` the iterated MACs are over the previous
value padded with zeros to 64 bytes. -/
theorem C33_pbkdf2_exact (n : Nat) (hn : ShaLen n) (efs : Nat) (pass salt : List Byte) (rep olen : Nat) (k : List Byte)
    (hs : salt.length ≤ 32) (hk : olen ≤ k.length) :
    pbkdf2 efs n pass salt rep olen k = some (
      let S := (List.range (Spec.ceilDiv olen n)).flatMap fun i =>
        (codeF (Spec.mac n pass) n salt (i + 1) (rep - 1) ++ List.replicate (64 - n) 0).take efs
      S.take (min olen 64) ++ k.drop (min (min olen 64) S.length)) :=
  pbkdf2_eq hn efs pass salt rep olen k hs hk

theorem codeF_std (prf : List Byte → List Byte) (n : Nat) (s : List Byte) (i c : Nat) (h : n = 64 ∨ c ≤ 1) :
    codeF prf n s i (c - 1) = Spec.pbkdf2F prf s i (c - 1) := by
  rcases h with rfl | h
  · have hU : ∀ j, codeU prf 64 s i j = Spec.pbkdf2U prf s i j := by
      intro j
      induction j with
      | zero => rfl
      | succ j ih => rw [codeU, ih]; simp [Spec.pbkdf2U]
    generalize c - 1 = r
    induction r with
    | zero => exact hU 0
    | succ r ih => rw [codeF, ih, hU, Spec.pbkdf2F]
  · rw [show c - 1 = 0 by omega]; rfl

/-- C33. `pbkdf2` returns the RFC 8018 key when the hash is SHA-512 or the repeat count is 1, and the output
fits in one block and one field element, or the field elements are as long as the hash and the
output has at most 64 bytes. -/
theorem C33_pbkdf2_standard (n : Nat) (hn : ShaLen n) (efs : Nat) (pass salt : List Byte) (rep olen : Nat) (k : List Byte)
    (hs : salt.length ≤ 32) (hk : olen ≤ k.length) (hrep : n = 64 ∨ rep ≤ 1)
    (hfit : (olen ≤ n ∧ olen ≤ efs) ∨ (efs = n ∧ olen ≤ 64)) :
    pbkdf2 efs n pass salt rep olen k = some (Spec.pbkdf2 n pass salt rep olen ++ k.drop olen) := by
  rw [C33_pbkdf2_exact n hn efs pass salt rep olen k hs hk]
  have h64 := sha_le hn
  have h32 := sha_ge hn
  have h0 : 0 < n := by omega
  have ho : min olen 64 = olen := by omega
  have lF := fun i => codeF_length hn pass salt i (rep - 1)
  have hcm := ceil_mul h0 olen
  dsimp only
  rw [ho]
  unfold Spec.pbkdf2
  rcases hfit with ⟨h1, h2⟩ | ⟨rfl, _⟩
  · by_cases hz : olen = 0
    · subst hz; simp
    · have hc : Spec.ceilDiv olen n = 1 := by
        unfold Spec.ceilDiv
        exact Nat.div_eq_of_lt_le (by omega) (by omega)
      rw [hc]
      simp only [List.range_one, List.flatMap_singleton]
      rw [codeF_std _ _ _ _ _ hrep] at *
      have lS : (Spec.pbkdf2F (Spec.mac n pass) salt (0 + 1) (rep - 1)).length = n := by rw [← codeF_std _ _ _ _ _ hrep]; exact lF _
      rw [List.take_take, Nat.min_eq_left h2, List.take_append_of_le_length (by omega)]
      congr 3
      simp only [List.length_take, List.length_append, List.length_replicate, lS]
      omega
  · have e : (fun i => (codeF (Spec.mac efs pass) efs salt (i + 1) (rep - 1) ++ List.replicate (64 - efs) 0).take efs)
        = fun i => Spec.pbkdf2F (Spec.mac efs pass) salt (i + 1) (rep - 1) := by
      funext i
      rw [List.take_append_of_le_length (by rw [lF]), List.take_of_length_le (by rw [lF]), codeF_std _ _ _ _ _ hrep]
    rw [e]
    congr 3
    rw [List.length_flatMap, Nat.min_eq_left]
    have : ((List.range (Spec.ceilDiv olen efs)).map fun i => (Spec.pbkdf2F (Spec.mac efs pass) salt (i + 1) (rep - 1)).length)
        = (List.range (Spec.ceilDiv olen efs)).map fun _ => efs := by
      apply List.map_congr_left
      intro i _
      rw [← codeF_std _ _ _ _ _ hrep, lF]
    rw [this]
    simpa using hcm

/-- C33. A salt longer than 32 bytes makes `pbkdf2` panic (unless no output is requested). -/
theorem C33_long_salt_panics (n : Nat) (hn : ShaLen n) (efs : Nat) (pass salt : List Byte) (rep olen : Nat) (k : List Byte)
    (hs : 32 < salt.length) (ho : 0 < olen) : pbkdf2 efs n pass salt rep olen k = none := by
  have h0 : 0 < n := by have := sha_ge hn; omega
  have hc : 0 < Spec.ceilDiv olen n := by
    have := ceil_mul h0 olen
    rcases Nat.eq_zero_or_pos (Spec.ceilDiv olen n) with h | h
    · rw [h] at this; omega
    · exact h
  unfold pbkdf2
  rw [threshold_eq h0]
  obtain ⟨c, hc⟩ : ∃ c, Spec.ceilDiv olen n = c + 1 := ⟨_, (Nat.succ_pred_eq_of_pos hc).symm⟩
  dsimp only
  rw [hc, List.range_succ_eq_map, List.foldlM_cons]
  have hb : ∀ st : Pb, st.s.length = 36 → st.n.length = 4 → pbkdfBlock efs n pass salt rep olen st 0 = none := by
    intro st h36 hn4
    unfold pbkdfBlock
    by_cases h : salt.length ≤ 36
    · rw [write_eq _ _ _ (by omega)]
      simp only [Option.bind_eq_bind, Option.bind_some]
      have hl : (inttobytes (0 + 1) st.n).length = 4 := by
        obtain ⟨a, b, c, d, e⟩ : ∃ a b c d, st.n = [a, b, c, d] := by
          match h : st.n, hn4 with
          | [a, b, c, d], _ => exact ⟨a, b, c, d, rfl⟩
        rw [e]; rfl
      rw [write_panic _ _ _ (by intro h; rw [h] at hl; simp at hl) (by rw [hl]; simp; omega)]
      rfl
    · rw [write_panic _ _ _ (by intro h'; rw [h'] at h; simp at h) (by omega)]
      rfl
  rw [hb _ (by simp) (by simp)]
  rfl

/-- C33. With SHA-256 and two iterations the result is not the RFC 8018 key. -/
theorem C33_pbkdf2_nonstandard : ∃ r, pbkdf2 32 32 [0x70] [0x73] 2 32 (List.replicate 32 0) = some r ∧ r ≠ Spec.pbkdf2 32 [0x70] [0x73] 2 32 := by
  refine ⟨_, C33_pbkdf2_exact 32 (Or.inl rfl) 32 _ _ 2 32 _ (by simp) (by simp), ?_⟩
  decide +kernel

/-- C33. With a 48-byte field and SHA-256, output beyond 32 bytes contains 16 zero bytes instead of key material. -/
theorem C33_pbkdf2_gap (pass salt k : List Byte) (rep : Nat) (hs : salt.length ≤ 32) (hk : 48 ≤ k.length) :
    ∃ r, pbkdf2 48 32 pass salt rep 48 k = some r ∧ (r.drop 32).take 16 = List.replicate 16 0 := by
  refine ⟨_, C33_pbkdf2_exact 32 (Or.inl rfl) 48 pass salt rep 48 k hs hk, ?_⟩
  have lF := fun i => codeF_length (n := 32) (Or.inl rfl) pass salt i (rep - 1)
  have hc : Spec.ceilDiv 48 32 = 2 := by decide
  dsimp only
  rw [hc]
  simp only [show List.range 2 = [0, 1] from rfl, List.flatMap_cons, List.flatMap_nil, List.append_nil]
  have e : ∀ (a b r : List Byte), a.length = 32 →
      (((((a ++ List.replicate (64 - 32) (0 : Byte)).take 48 ++ b).take (min 48 64)) ++ r).drop 32).take 16 = List.replicate 16 0 := by
    intro a b r ha
    rw [List.take_append_of_le_length (l₁ := (a ++ List.replicate (64 - 32) (0 : Byte)).take 48) (by simp [ha]), List.take_take, show min (min 48 64) 48 = 48 from rfl,
      List.take_append, List.take_of_length_le (l := a) (by omega), ha, List.append_assoc, List.drop_append_of_le_length (by omega), List.drop_of_length_le (by omega),
      List.nil_append, List.take_append_of_le_length (by simp)]
    simp
  exact e _ _ _ (lF _)

/-- C34. For `olen ≥ 4` `hmac` returns true and the tag is the HMAC cut to `olen` bytes, or, when more bytes
are asked for than the hash has, the HMAC with zeros in front; the rest of the buffer is untouched. -/
theorem C34_hmac (n : Nat) (hn : ShaLen n) (m k : List Byte) (olen : Nat) (h4 : 4 ≤ olen) (tag : List Byte) (ht : olen ≤ tag.length) :
    hmac n m k olen tag = some (true,
      (if olen ≤ n then (Spec.mac n k m).take olen else List.replicate (olen - n) 0 ++ Spec.mac n k m) ++ tag.drop olen) := by
  rw [hmac_eq hn m k olen h4 tag ht, padTo, if_neg (by omega)]

/-- C34. For `olen < 4` it returns false and does not touch the tag. -/
theorem C34_hmac_short (n : Nat) (m k : List Byte) (olen : Nat) (h4 : olen < 4) (tag : List Byte) : hmac n m k olen tag = some (false, tag) := by
  rw [hmac, if_pos h4]

/-- C34. The block-size constants and truncation agree with the HMAC of the hash objects (C21). -/
example (m k : List Byte) : Spec.mac 32 k m = Sha2.hmac Sha2.P256 k m := (Sha2.hmac_eq Sha2.agrees256 k m).symm

/-- key lengths AES accepts -/
def CbcKey (k : List Byte) : Prop := k.length = 16 ∨ k.length = 24 ∨ k.length = 32

/-- C35. The ciphertext is the CBC encryption (SP 800-38A, zero IV) of the PKCS#7-padded message. -/
theorem C35_encrypt (k : List Byte) (hk : CbcKey k) (m : List Byte) :
    cbcIv0Encrypt k m = (Spec.Modes.cbc (Spec.Aes.cipher (k.length / 4) k) (List.replicate 16 0)
      (Spec.pieces 16 (m.length / 16 + 1) (Spec.pkcs7 m))).flatten :=
  encLoop_cbc m _ _ (chain_new k hk)

/-- C35. Its length is the next multiple of 16 above the message length. -/
theorem C35_length (k : List Byte) (hk : CbcKey k) (m : List Byte) : (cbcIv0Encrypt k m).length = 16 * (m.length / 16 + 1) :=
  encLoop_length m _ _ (chain_new k hk)

/-- C35. Decryption returns `m` exactly for the ciphertext of `m`: it inverts encryption and rejects every
string that is not the encryption of a message. -/
theorem C35_decrypt_iff (k : List Byte) (hk : CbcKey k) (c m : List Byte) : cbcIv0Decrypt k c = some m ↔ cbcIv0Encrypt k m = c := by
  unfold cbcIv0Decrypt
  by_cases hc : c = []
  · rw [if_pos hc]
    constructor
    · intro h; cases h
    · intro h
      have := C35_length k hk m
      rw [h, hc] at this
      simp at this
  · rw [if_neg hc, cbc_iff (k.length / 4) k _ c rfl hc _ _ _ _ [] m (chain_new k hk) (chain_new k hk) (by simp)]
    constructor
    · rintro ⟨t, rfl, h⟩; exact h
    · intro h; exact ⟨m, rfl, h⟩

/-- C35. Round trip. -/
theorem C35_roundtrip (k : List Byte) (hk : CbcKey k) (m : List Byte) : cbcIv0Decrypt k (cbcIv0Encrypt k m) = some m :=
  (C35_decrypt_iff k hk _ m).mpr rfl

/-- C35. Empty ciphertexts and those whose length is not a multiple of 16 are rejected. -/
theorem C35_reject_length (k : List Byte) (hk : CbcKey k) (c : List Byte) (hc : c.length = 0 ∨ c.length % 16 ≠ 0) : cbcIv0Decrypt k c = none := by
  cases h : cbcIv0Decrypt k c with
  | none => rfl
  | some m =>
    have := C35_length k hk m
    rw [(C35_decrypt_iff k hk c m).mp h] at this
    omega

/-- C35. Different messages have different ciphertexts. -/
theorem C35_injective (k : List Byte) (hk : CbcKey k) (m m' : List Byte) (h : cbcIv0Encrypt k m = cbcIv0Encrypt k m') : m = m' := by
  have h1 := C35_roundtrip k hk m
  rw [h, C35_roundtrip k hk m'] at h1
  exact (Option.some.inj h1).symm

/-- the keys ECIES derives from the ephemeral public key `v` and the shared secret `z` -/
def eciesK1 (efs aeskey n : Nat) (p1 v z : List Byte) : List Byte := (Spec.kdf2 n (v.take (2 * efs + 1) ++ z) p1 (2 * aeskey)).take aeskey
def eciesK2 (efs aeskey n : Nat) (p1 v z : List Byte) : List Byte := (Spec.kdf2 n (v.take (2 * efs + 1) ++ z) p1 (2 * aeskey)).drop aeskey
/-- the tag of IEEE 1363 ECIES: HMAC of ciphertext, parameter and parameter length -/
def eciesTag (efs aeskey n : Nat) (p1 p2 v z c : List Byte) (len : Nat) : List Byte :=
  (Spec.mac n (eciesK2 efs aeskey n p1 v z) (c ++ p2 ++ beBytes 8 p2.length)).take len

/-- C36. For a tag of 4 to 32 bytes `ecies_decrypt` returns a message exactly when the tag is the
authentication tag of the ciphertext and the ciphertext decrypts (under the derived key) to the message. -/
theorem C36_authenticated (efs aeskey n : Nat) (hn : ShaLen n) (p1 p2 v z c t m : List Byte)
    (hv : 2 * efs + 1 ≤ v.length) (ht4 : 4 ≤ t.length) (ht32 : t.length ≤ 32) :
    eciesDecrypt efs aeskey n p1 p2 v (some z) c t = some (some m) ↔
      t = eciesTag efs aeskey n p1 p2 v z c t.length ∧ cbcIv0Decrypt (eciesK1 efs aeskey n p1 v z) c = some m := by
  have h32 := sha_ge hn
  unfold eciesDecrypt
  rw [write_eq _ _ _ (by simp; omega)]
  simp only [Option.bind_eq_bind, Option.bind_some]
  rw [eciesKeys_eq hn efs aeskey p1 v z hv, Option.bind_some]
  change (match cbcIv0Decrypt (eciesK1 efs aeskey n p1 v z) c with
    | none => _ | some m => _) = _ ↔ _
  cases hd : cbcIv0Decrypt (eciesK1 efs aeskey n p1 v z) c with
  | none => simp
  | some m' =>
    dsimp only
    rw [hmac_eq hn _ _ _ ht4 _ (by simp), Option.bind_some]
    have hl : (Spec.mac n (eciesK2 efs aeskey n p1 v z) (macInput c p2)).length = n := mac_length hn _ _
    rw [ncomp_eq _ _ _ le_rfl (by rw [List.length_append, padTo_length _ _ (mac_length hn _ _), if_neg (by omega)]; simp), Option.bind_some]
    have e : (padTo n t.length (Spec.mac n (eciesK2 efs aeskey n p1 v z) (macInput c p2)) ++ ((List.replicate 32 (0 : Byte)).take 0 ++ t ++ (List.replicate 32 (0 : Byte)).drop (0 + t.length)).drop t.length).take t.length
        = eciesTag efs aeskey n p1 p2 v z c t.length := by
      rw [padTo, if_neg (by omega), if_pos (by omega), List.take_append_of_le_length (by simp [hl]; omega), List.take_take, Nat.min_self, eciesTag, macInput_eq]
    change some (if decide (t.take t.length = _) = true then some m' else none) = some (some m) ↔ _
    rw [show Spec.mac n (Spec.kdf2 n (v.take (2 * efs + 1) ++ z) p1 (2 * aeskey)|>.drop aeskey) (macInput c p2) = Spec.mac n (eciesK2 efs aeskey n p1 v z) (macInput c p2) from rfl, e]
    rw [List.take_of_length_le le_rfl]
    by_cases h : t = eciesTag efs aeskey n p1 p2 v z c t.length
    · rw [if_pos (by simpa using h)]
      simp [← h]
    · rw [if_neg (by simpa using h)]
      simp [h]

/-- C36. The code does not check a tag of fewer than 4 bytes: whatever it is, the plaintext is released. -/
theorem C36_short_tag_accepted (efs aeskey n : Nat) (hn : ShaLen n) (p1 p2 v z c t : List Byte)
    (hv : 2 * efs + 1 ≤ v.length) (ht4 : t.length < 4) :
    eciesDecrypt efs aeskey n p1 p2 v (some z) c t = some (cbcIv0Decrypt (eciesK1 efs aeskey n p1 v z) c) := by
  unfold eciesDecrypt
  rw [write_eq _ _ _ (by simp; omega)]
  simp only [Option.bind_eq_bind, Option.bind_some]
  rw [eciesKeys_eq hn efs aeskey p1 v z hv, Option.bind_some]
  change (match cbcIv0Decrypt (eciesK1 efs aeskey n p1 v z) c with
    | none => _ | some m => _) = _
  cases hd : cbcIv0Decrypt (eciesK1 efs aeskey n p1 v z) c with
  | none => rfl
  | some m' =>
    dsimp only
    rw [C34_hmac_short _ _ _ _ ht4, Option.bind_some, ncomp_eq _ _ _ le_rfl (by simp), Option.bind_some]
    rw [List.take_zero, List.nil_append, List.take_append_of_le_length le_rfl]
    simp

/-- C36. A tag longer than 32 bytes makes decryption panic. -/
theorem C36_long_tag_panics (efs aeskey n : Nat) (p1 p2 v c t : List Byte) (dh : Option (List Byte)) (ht : 32 < t.length) :
    eciesDecrypt efs aeskey n p1 p2 v dh c t = none := by
  unfold eciesDecrypt
  rw [write_panic _ _ _ (by intro h; rw [h] at ht; simp at ht) (by simp; omega)]
  rfl

/-- C36. A failed Diffie-Hellman step returns no message. -/
theorem C36_dh_error (efs aeskey n : Nat) (p1 p2 v c t : List Byte) (ht : t.length ≤ 32) :
    eciesDecrypt efs aeskey n p1 p2 v none c t = some none := by
  unfold eciesDecrypt
  rw [write_eq _ _ _ (by simp; omega)]
  rfl

/-- C36. Decryption inverts encryption: if both sides compute the same shared secret `z`, then for every tag
buffer of at most 32 bytes `ecies_encrypt` returns a ciphertext and a tag that `ecies_decrypt` accepts, returning
the message. -/
theorem C36_roundtrip (efs aeskey n : Nat) (hn : ShaLen n) (hk : aeskey = 16 ∨ aeskey = 24 ∨ aeskey = 32) (p1 p2 v z m t : List Byte)
    (hv : 2 * efs + 1 ≤ v.length) (ht : t.length ≤ 32) :
    ∃ c t', eciesEncrypt efs aeskey n p1 p2 v (some z) m t = some (some c, t') ∧ t'.length = t.length ∧
      eciesDecrypt efs aeskey n p1 p2 v (some z) c t' = some (some m) := by
  have h32 := sha_ge hn
  have hck : CbcKey (eciesK1 efs aeskey n p1 v z) := by
    have : (eciesK1 efs aeskey n p1 v z).length = aeskey := by simp [eciesK1, kdf2_length hn]; omega
    unfold CbcKey
    omega
  have hrt := C35_roundtrip _ hck m
  by_cases h4 : 4 ≤ t.length
  · have hl : ∀ c, (Spec.mac n (eciesK2 efs aeskey n p1 v z) (macInput c p2)).length = n := fun c => mac_length hn _ _
    have hlt : (eciesTag efs aeskey n p1 p2 v z (cbcIv0Encrypt (eciesK1 efs aeskey n p1 v z) m) t.length).length = t.length := by
      rw [eciesTag, ← macInput_eq, List.length_take, hl]; omega
    refine ⟨cbcIv0Encrypt (eciesK1 efs aeskey n p1 v z) m, eciesTag efs aeskey n p1 p2 v z (cbcIv0Encrypt (eciesK1 efs aeskey n p1 v z) m) t.length, ?_, hlt, ?_⟩
    · unfold eciesEncrypt
      dsimp only
      rw [eciesKeys_eq hn efs aeskey p1 v z hv]
      simp only [Option.bind_eq_bind, Option.bind_some]
      rw [hmac_eq hn _ _ _ h4 _ le_rfl, Option.bind_some, padTo, if_neg (by omega), if_pos (by omega), List.drop_of_length_le le_rfl, List.append_nil, macInput_eq]
      rfl
    · rw [C36_authenticated efs aeskey n hn p1 p2 v z _ _ m hv (by omega) (by omega), hlt]
      exact ⟨rfl, hrt⟩
  · refine ⟨cbcIv0Encrypt (eciesK1 efs aeskey n p1 v z) m, t, ?_, rfl, ?_⟩
    · unfold eciesEncrypt
      dsimp only
      rw [eciesKeys_eq hn efs aeskey p1 v z hv]
      simp only [Option.bind_eq_bind, Option.bind_some]
      rw [C34_hmac_short _ _ _ _ (by omega), Option.bind_some]
      rfl
    · rw [C36_short_tag_accepted efs aeskey n hn p1 p2 v z _ t hv (by omega), hrt]

/-- C36, forgery: without any key, any tag of 3 bytes is accepted for any well-formed ciphertext. -/
example (v z m : List Byte) (hv : 97 ≤ v.length) (tag : List Byte) (h : tag.length = 3) :
    eciesDecrypt 48 16 32 [] [] v (some z) (cbcIv0Encrypt (eciesK1 48 16 32 [] v z) m) tag = some (some m) := by
  rw [C36_short_tag_accepted 48 16 32 (Or.inl rfl) _ _ v z _ tag (by omega) (by omega), C35_roundtrip]
  left
  simp [eciesK1, kdf2_length (n := 32) (Or.inl rfl)]

end Verif.Props
