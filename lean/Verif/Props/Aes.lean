import Verif.Aes.ModeSpec
import Verif.Aes.Wipe
/-
Property theorems for AES (C24 – C26, C56, C57).
Model: `Verif/Aes/Model.lean`.  Specification: `Verif/Spec/Aes.lean` (FIPS-197), `Verif/Spec/AesModes.lean`.
`a` is any AES object, however it was used before; its key array has 60 words by its type.
-/
namespace Verif.Props
open Verif.Aes

/-- the three key lengths in bytes -/
def AesKeyLen (n : Nat) : Prop := n = 16 ∨ n = 24 ∨ n = 32

/-- C24. `init` with a key of 16, 24 or 32 bytes succeeds in every mode, and `ecb_encrypt` is then the
FIPS-197 cipher of the block under this key. -/
theorem C24_encrypt_fips197 (a : AES) (ha : a.fkey.length = 60) (mode n : Nat) (hn : AesKeyLen n) (key : List Byte)
    (hk : key.length = n) (iv : Option (List Byte)) (block : List Byte) (hb : block.length = 16) :
    (init a mode n key iv).1 = true ∧
    ecbEncrypt (init a mode n key iv).2 block = Spec.Aes.cipher (n / 4) key block := by
  have h4 : n / 4 = 4 ∨ n / 4 = 6 ∨ n / 4 = 8 := by rcases hn with rfl | rfl | rfl <;> simp
  have hl : 4 * (n / 4) ≤ key.length := by rcases hn with rfl | rfl | rfl <;> omega
  refine ⟨?_, ecbEncrypt_eq (init_keyed a ha mode n key iv h4 hl) block hb⟩
  unfold init
  rw [if_neg (by omega)]

/-- C24. `ecb_decrypt` is the FIPS-197 inverse cipher. -/
theorem C24_decrypt_fips197 (a : AES) (ha : a.fkey.length = 60) (mode n : Nat) (hn : AesKeyLen n) (key : List Byte)
    (hk : key.length = n) (iv : Option (List Byte)) (block : List Byte) (hb : block.length = 16) :
    ecbDecrypt (init a mode n key iv).2 block = Spec.Aes.invCipher (n / 4) key block := by
  have h4 : n / 4 = 4 ∨ n / 4 = 6 ∨ n / 4 = 8 := by rcases hn with rfl | rfl | rfl <;> simp
  have hl : 4 * (n / 4) ≤ key.length := by rcases hn with rfl | rfl | rfl <;> omega
  exact ecbDecrypt_eq (init_keyed a ha mode n key iv h4 hl) block hb

/-- C24. Key lengths below 16, of 20–23, 28–31 or above 35 bytes are refused and leave the object as it was. -/
theorem C24_bad_key_refused (a : AES) (mode n : Nat) (key : List Byte) (iv : Option (List Byte))
    (hn : n < 16 ∨ (20 ≤ n ∧ n < 24) ∨ (28 ≤ n ∧ n < 32) ∨ 36 ≤ n) : init a mode n key iv = (false, a) := by
  unfold init
  rw [if_pos (by omega)]

/-- C24. Every lookup table has its algebraic definition: the S-box and its inverse, the round
constants, the two tables merging S-box and (inverse) column mixing, and the tables of powers and
logarithms to the base 3. -/
theorem C24_tables :
    (∀ x : Byte, FBSUB.getD x.toNat 0 = Spec.Aes.sbox x) ∧
    (∀ x : Byte, RBSUB.getD x.toNat 0 = Spec.Aes.invSbox x) ∧
    (∀ k, k < 14 → RCO.getD k 0 = Spec.Aes.rcon (k + 1)) ∧
    (∀ x : Byte, unpack (FTABLE.getD x.toNat 0)
      = [Spec.Aes.gmul 2 (Spec.Aes.sbox x), Spec.Aes.sbox x, Spec.Aes.sbox x, Spec.Aes.gmul 3 (Spec.Aes.sbox x)]) ∧
    (∀ x : Byte, unpack (RTABLE.getD x.toNat 0)
      = [Spec.Aes.gmul 0xE (Spec.Aes.invSbox x), Spec.Aes.gmul 0x9 (Spec.Aes.invSbox x),
         Spec.Aes.gmul 0xD (Spec.Aes.invSbox x), Spec.Aes.gmul 0xB (Spec.Aes.invSbox x)]) ∧
    (PTAB.getD 0 0 = 1 ∧ ∀ k, k < 255 → PTAB.getD (k + 1) 0 = Spec.Aes.gmul 3 (PTAB.getD k 0)) ∧
    (∀ k, k < 255 → LTAB.getD (PTAB.getD (k + 1) 0).toNat 0 = BitVec.ofNat 8 (k + 1)) := by
  refine ⟨fbsub_get, rbsub_get, rco_table, fun x => ?_, fun x => ?_, ⟨by decide +kernel, by decide +kernel⟩, by decide +kernel⟩
  · have := ft_get x
    rw [ft, toNat_sw, wd] at this
    rw [this, unpack_pack]
  · have := rt_get x
    rw [rt, toNat_sw, wd] at this
    rw [this, unpack_pack]

/-- The specification itself: the example of FIPS-197 Appendix C.1. -/
example : Spec.Aes.cipher 4 [0, 1, 2, 3, 4, 5, 6, 7, 8, 9, 10, 11, 12, 13, 14, 15]
    [0x00, 0x11, 0x22, 0x33, 0x44, 0x55, 0x66, 0x77, 0x88, 0x99, 0xaa, 0xbb, 0xcc, 0xdd, 0xee, 0xff] =
    [0x69, 0xc4, 0xe0, 0xd8, 0x6a, 0x7b, 0x04, 0x30, 0xd8, 0xcd, 0xb7, 0x80, 0x70, 0xb4, 0xc5, 0x5a] := by
  decide +kernel

/-- C25. `ecb_decrypt (ecb_encrypt b) = b` and `ecb_encrypt (ecb_decrypt b) = b`. -/
theorem C25_decrypt_inverts (a : AES) (ha : a.fkey.length = 60) (mode n : Nat) (hn : AesKeyLen n) (key : List Byte)
    (hk : key.length = n) (iv : Option (List Byte)) (block : List Byte) (hb : block.length = 16) :
    let o := (init a mode n key iv).2
    ecbDecrypt o (ecbEncrypt o block) = block ∧ ecbEncrypt o (ecbDecrypt o block) = block := by
  have h4 : n / 4 = 4 ∨ n / 4 = 6 ∨ n / 4 = 8 := by rcases hn with rfl | rfl | rfl <;> simp
  have hl : 4 * (n / 4) ≤ key.length := by rcases hn with rfl | rfl | rfl <;> omega
  have h := init_keyed a ha mode n key iv h4 hl
  refine ⟨?_, ?_⟩
  · rw [ecbEncrypt_eq h _ hb, ecbDecrypt_eq h _ (cipher_length h4 hl _), invCipher_cipher h4 hl _ hb]
  · rw [ecbDecrypt_eq h _ hb, ecbEncrypt_eq h _ (invCipher_length h4 hl _), cipher_invCipher h4 hl _ hb]

/-- C26. In every mode number, for every key, IV and sequence of 16-byte buffers: a second object set up
with the same key, mode and IV decrypts the encrypted sequence to the original one, and returns the
same words. -/
theorem C26_modes_roundtrip (a b : AES) (ha : a.fkey.length = 60) (hb : b.fkey.length = 60) (mode n : Nat) (hn : AesKeyLen n)
    (key : List Byte) (hk : key.length = n) (iv : Option (List Byte)) (hiv : ∀ v ∈ iv, v.length = 16)
    (ms : List (List Byte)) (hms : ∀ x ∈ ms, x.length = 16) :
    (decryptAll (init b mode n key iv).2 (encryptAll (init a mode n key iv).2 ms).1).1 = ms ∧
    (decryptAll (init b mode n key iv).2 (encryptAll (init a mode n key iv).2 ms).1).2 = (encryptAll (init a mode n key iv).2 ms).2 := by
  have h4 : n / 4 = 4 ∨ n / 4 = 6 ∨ n / 4 = 8 := by rcases hn with rfl | rfl | rfl <;> simp
  have hl : 4 * (n / 4) ≤ key.length := by rcases hn with rfl | rfl | rfl <;> omega
  have := all_roundtrip ms hms (init_inStep a b ha hb mode n key iv h4 hl hiv)
  rw [this]
  exact ⟨rfl, rfl⟩

/-- the mode numbers the code supports -/
def supportedModes : List Nat := [ECB, CBC, CFB1, CFB2, CFB4, OFB1, OFB2, OFB4, OFB8, OFB16, CTR1, CTR2, CTR4, CTR8, CTR16]

/-- C26. A mode number outside the list leaves buffer and object unchanged and returns 0. -/
theorem C26_unknown_mode (a : AES) (x : List Byte) (h : a.mode ∉ supportedModes) :
    encrypt a x = (a, x, 0) ∧ decrypt a x = (a, x, 0) := by
  simp only [supportedModes, List.mem_cons, List.not_mem_nil, or_false, not_or] at h
  obtain ⟨h0, h1, h2, h3, h4, h5, h6, h7, h8, h9, h10, h11, h12, h13, h14⟩ := h
  constructor
  · rw [encrypt, if_neg h0, if_neg h1, if_neg (by simp [*]), if_neg (by simp [*]), if_neg (by simp [*])]
  · rw [decrypt, if_neg h0, if_neg h1, if_neg (by simp [*]), if_neg (by simp [*]), if_neg (by simp [*])]

/-- C56. ECB, CBC, CFB, OFB and CTR with any unit size are the modes of NIST SP 800-38A over the FIPS-197
cipher; the counter is the little-endian number IV, IV+1, ... modulo 2^128. -/
theorem C56_modes_sp800_38a (a : AES) (ha : a.fkey.length = 60) (n : Nat) (hn : AesKeyLen n)
    (key : List Byte) (hk : key.length = n) (iv : List Byte) (hiv : iv.length = 16)
    (ms : List (List Byte)) (hms : ∀ x ∈ ms, x.length = 16) :
    let E := Spec.Aes.cipher (n / 4) key
    let out := fun mode => (encryptAll (init a mode n key (some iv)).2 ms).1
    out ECB = Spec.Modes.ecb E ms ∧
    out CBC = Spec.Modes.cbc E iv ms ∧
    out CFB1 = Spec.Modes.cfb E 1 iv ms ∧ out CFB2 = Spec.Modes.cfb E 2 iv ms ∧ out CFB4 = Spec.Modes.cfb E 4 iv ms ∧
    out OFB1 = Spec.Modes.ofb E 1 iv ms ∧ out OFB2 = Spec.Modes.ofb E 2 iv ms ∧ out OFB4 = Spec.Modes.ofb E 4 iv ms ∧
    out OFB8 = Spec.Modes.ofb E 8 iv ms ∧ out OFB16 = Spec.Modes.ofb E 16 iv ms ∧
    out CTR1 = Spec.Modes.ctr E 1 iv ms ∧ out CTR2 = Spec.Modes.ctr E 2 iv ms ∧ out CTR4 = Spec.Modes.ctr E 4 iv ms ∧
    out CTR8 = Spec.Modes.ctr E 8 iv ms ∧ out CTR16 = Spec.Modes.ctr E 16 iv ms := by
  have h4 : n / 4 = 4 ∨ n / 4 = 6 ∨ n / 4 = 8 := by rcases hn with rfl | rfl | rfl <;> simp
  have hl : 4 * (n / 4) ≤ key.length := by rcases hn with rfl | rfl | rfl <;> omega
  have K := fun m => init_keyed a ha m n key (some iv) h4 hl
  have em : ∀ m, (init a m n key (some iv)).2.mode = m := fun m => by
    unfold init; rw [if_neg (by omega)]; rfl
  have ef : ∀ m, m ≠ 0 → (init a m n key (some iv)).2.f = iv := fun m hm => by
    unfold init; rw [if_neg (by omega)]
    show (if m ≠ ECB then iv else _) = iv
    exact if_pos hm
  have lf : ∀ m, m ≠ 0 → (init a m n key (some iv)).2.f.length = 16 := fun m hm => by rw [ef m hm, hiv]
  intro E out
  have cf : ∀ m, (m = CFB1 ∨ m = CFB2 ∨ m = CFB4) → out m = Spec.Modes.cfb E (m - CFB1 + 1) iv ms := fun m hm => by
    have h0 : m ≠ 0 := by rcases hm with rfl | rfl | rfl <;> decide
    have := cfb_all (K m) (by rw [em]; exact hm) (lf m h0) ms hms
    rwa [em, ef m h0] at this
  have of : ∀ m, (m = OFB1 ∨ m = OFB2 ∨ m = OFB4 ∨ m = OFB8 ∨ m = OFB16) → out m = Spec.Modes.ofb E (m - OFB1 + 1) iv ms := fun m hm => by
    have h0 : m ≠ 0 := by rcases hm with rfl | rfl | rfl | rfl | rfl <;> decide
    have := ofb_all (K m) (by rw [em]; exact hm) (lf m h0) ms hms
    rwa [em, ef m h0] at this
  have ct : ∀ m, (m = CTR1 ∨ m = CTR2 ∨ m = CTR4 ∨ m = CTR8 ∨ m = CTR16) → out m = Spec.Modes.ctr E (m - CTR1 + 1) iv ms := fun m hm => by
    have h0 : m ≠ 0 := by rcases hm with rfl | rfl | rfl | rfl | rfl <;> decide
    have := ctr_all (K m) (by rw [em]; exact hm) (lf m h0) ms hms
    rwa [em, ef m h0] at this
  refine ⟨ecb_all (K ECB) (em _) ms hms, ?_, cf _ (by simp), cf _ (by simp), cf _ (by simp), of _ (by simp), of _ (by simp), of _ (by simp), of _ (by simp),
    of _ (by simp), ct _ (by simp), ct _ (by simp), ct _ (by simp), ct _ (by simp), ct _ (by simp)⟩
  have := cbc_all (K CBC) (em _) (lf _ (by decide)) ms hms
  rwa [ef _ (by decide)] at this

/-- C56. The counter of CTR mode does not repeat within 2^128 blocks. -/
theorem C56_counter_no_repeat (iv : List Byte) (i j : Nat) (hij : i < j) (hj : j < i + 2 ^ 128) :
    (Spec.Modes.leNat iv + i) % 2 ^ 128 ≠ (Spec.Modes.leNat iv + j) % 2 ^ 128 := by
  generalize Spec.Modes.leNat iv = v
  intro h
  omega

/-- Non-vacuity: an AES-256 object set up in CTR mode satisfies the hypotheses of all theorems above. -/
example : new.fkey.length = 60 ∧ AesKeyLen 32 ∧ (List.replicate 32 (7 : Byte)).length = 32 ∧
    (init new CTR16 32 (List.replicate 32 7) (some (List.replicate 16 9))).1 = true := by
  refine ⟨rfl, Or.inr (Or.inr rfl), rfl, ?_⟩
  exact (C24_encrypt_fips197 new rfl CTR16 32 (Or.inr (Or.inr rfl)) _ rfl _ (List.replicate 16 0) rfl).1

/-! ### C57 -/

/-- C57. On an object initialised once, `end` leaves no key-dependent word: both key schedules and the chaining register are zero, whatever
the key, the mode and the calls in between. -/
theorem C57_end (m nkey : Nat) (hk : AesKeyLen nkey) (key : List Byte) (iv : Option (List Byte)) (calls : List Call) :
    (finish (after (init new m nkey key iv).2 calls)).fkey = List.replicate 60 0 ∧
    (finish (after (init new m nkey key iv).2 calls)).rkey = List.replicate 60 0 ∧
    (finish (after (init new m nkey key iv).2 calls)).f = List.replicate 16 0 := by
  have hnk : nkey / 4 = 4 ∨ nkey / 4 = 6 ∨ nkey / 4 = 8 := by rcases hk with rfl | rfl | rfl <;> simp
  obtain ⟨d1, d2, d3, _⟩ := init_drop new m nkey key iv hnk rfl
  obtain ⟨k1, k2, k3⟩ := after_keys (init new m nkey key iv).2 calls
  unfold finish
  simp only [k1, k2, k3, d3]
  have e : 4 * (nkey / 4 + 6 + 1) = 4 * (nkey / 4 + 7) := by omega
  rw [e, d1, d2]
  have z : List.replicate (4 * (nkey / 4 + 7)) (0 : BitVec 32) ++ (List.replicate 60 0).drop (4 * (nkey / 4 + 7)) = List.replicate 60 0 := by
    rw [List.drop_replicate, ← List.replicate_add]
    congr 1
    omega
  exact ⟨z, z, trivial⟩

/-- C57. But on an object first used with a 32-byte key and re-initialised with a 16-byte key, `end` leaves the last four round keys of
the 32-byte key in place, in both schedules. -/
theorem C57_end_reinit (m m' : Nat) (key key' : List Byte) (iv iv' : Option (List Byte)) (calls calls' : List Call) :
    (finish (after (init (after (init new m 32 key iv).2 calls) m' 16 key' iv').2 calls')).fkey.drop 44 = (init new m 32 key iv).2.fkey.drop 44 ∧
    (finish (after (init (after (init new m 32 key iv).2 calls) m' 16 key' iv').2 calls')).rkey.drop 44 = (init new m 32 key iv).2.rkey.drop 44 := by
  obtain ⟨_, _, _, c4⟩ := init_drop new m 32 key iv (by simp) rfl
  obtain ⟨k1, k2, _⟩ := after_keys (init new m 32 key iv).2 calls
  obtain ⟨d1, d2, d3, _⟩ := init_drop (after (init new m 32 key iv).2 calls) m' 16 key' iv' (by simp) (by rw [k2]; exact c4)
  obtain ⟨j1, j2, j3⟩ := after_keys (init (after (init new m 32 key iv).2 calls) m' 16 key' iv').2 calls'
  have e : 4 * (16 / 4 + 7) = 44 := rfl
  rw [e] at d1 d2
  rw [k1] at d1
  rw [k2] at d2
  generalize hA : init (after (init new m 32 key iv).2 calls) m' 16 key' iv' = A at d1 d2 d3 j1 j2 j3 ⊢
  unfold finish
  simp only [j1, j2, j3, d3]
  have e2 : 4 * (16 / 4 + 6 + 1) = 44 := rfl
  rw [e2, List.drop_left' (by simp), List.drop_left' (by simp)]
  exact ⟨d1, d2⟩

/-- for example, a word of the 32-byte key that is not zero -/
example : wd (finish (after (init (after (init new ECB 32 (List.replicate 32 7) none).2 []) ECB 16 (List.replicate 16 5) none).2 [])).fkey 44 ≠ 0 := by
  decide +kernel

end Verif.Props
