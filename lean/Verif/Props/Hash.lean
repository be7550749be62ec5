import Verif.Sha2.Hmac
/-
Property theorems for the SHA-2 hash objects, HMAC and HKDF (C18 – C21).
Model: `Verif/Sha2/Model.lean`.  Specification: `Verif/Spec/Sha2.lean` (FIPS 180-4, RFC 2104, RFC 5869).
-/
namespace Verif.Props
open Verif.Sha2
open Spec (Byte)

/-- C18. `HASH256` fed with any byte string returns its FIPS 180-4 SHA-256 digest. -/
theorem C18_sha256 (m : List Byte) :
    (hash P256 (processArray P256 (new P256) m)).1 = Spec.Sha2.digest Spec.Sha2.SHA256 m := by
  have := processArray_inv agrees256 [] m _ (new_inv agrees256)
  exact (hash_eq agrees256 _ _ (by simpa using this)).1

/-- Test vector: SHA-256("abc"), computed by the specification. -/
example : Spec.Sha2.digest Spec.Sha2.SHA256 [0x61, 0x62, 0x63] =
    [0xba, 0x78, 0x16, 0xbf, 0x8f, 0x01, 0xcf, 0xea, 0x41, 0x41, 0x40, 0xde, 0x5d, 0xae, 0x22, 0x23,
     0xb0, 0x03, 0x61, 0xa3, 0x96, 0x17, 0x7a, 0x9c, 0xb4, 0x10, 0xff, 0x61, 0xf2, 0x00, 0x15, 0xad] := by
  decide +kernel

/-- C19. `HASH512` fed with any byte string returns its FIPS 180-4 SHA-512 digest. -/
theorem C19_sha512 (m : List Byte) :
    (hash P512 (processArray P512 (new P512) m)).1 = Spec.Sha2.digest Spec.Sha2.SHA512 m := by
  have := processArray_inv agrees512 [] m _ (new_inv agrees512)
  exact (hash_eq agrees512 _ _ (by simpa using this)).1

/-- C19. `HASH384` fed with any byte string returns its FIPS 180-4 SHA-384 digest. -/
theorem C19_sha384 (m : List Byte) :
    (hash P384 (processArray P384 (new P384) m)).1 = Spec.Sha2.digest Spec.Sha2.SHA384 m := by
  have := processArray_inv agrees384 [] m _ (new_inv agrees384)
  exact (hash_eq agrees384 _ _ (by simpa using this)).1

/-- Test vector from hash512.rs `test_hash512_simple` (first four bytes). -/
example : (Spec.Sha2.digest Spec.Sha2.SHA512 [0x01]).take 4 = [0x7b, 0x54, 0xb6, 0x68] := by
  decide +kernel

/-- C20. Any sequence of calls (single bytes, arrays, numbers, resets, several `hash` calls) on one
`HASH256` object returns exactly the digests that an object which just remembers the bytes fed since
the last reset or `hash` would return. -/
theorem C20_sha256_history (ops : List Spec.Sha2.Op) :
    run P256 (new P256) ops = Spec.Sha2.specRun Spec.Sha2.SHA256 [] ops :=
  run_refines agrees256 ops [] _ (new_inv agrees256)

theorem C20_sha384_history (ops : List Spec.Sha2.Op) :
    run P384 (new P384) ops = Spec.Sha2.specRun Spec.Sha2.SHA384 [] ops :=
  run_refines agrees384 ops [] _ (new_inv agrees384)

theorem C20_sha512_history (ops : List Spec.Sha2.Op) :
    run P512 (new P512) ops = Spec.Sha2.specRun Spec.Sha2.SHA512 [] ops :=
  run_refines agrees512 ops [] _ (new_inv agrees512)

/-- C20, chunking spelled out: any way of cutting the message into `process_array` calls gives the
digest of the concatenation. -/
theorem C20_sha256_chunking (chunks : List (List Byte)) :
    (hash P256 (chunks.foldl (processArray P256) (new P256))).1
      = Spec.Sha2.digest Spec.Sha2.SHA256 chunks.flatten := by
  have h : chunks.foldl (processArray P256) (new P256) = processArray P256 (new P256) chunks.flatten := by
    generalize new P256 = st
    induction chunks generalizing st with
    | nil => rfl
    | cons c cs ih => simp only [List.foldl_cons, ih, processArray, List.flatten_cons, List.foldl_append]
  rw [h]; exact C18_sha256 _

/-- A history with two digests: the second is not influenced by the first message. -/
example : (Spec.Sha2.specRun Spec.Sha2.SHA256 []
    [.array [1, 2], .hash, .byte 0x61, .num 0x62630000, .hash]).length = 2 := by rfl

/-- C21. `HASH256::hmac` is RFC 2104 HMAC-SHA-256 (block size 64) for keys of every length. -/
theorem C21_hmac_sha256 (key text : List Byte) :
    hmac P256 key text = Spec.hmac (Spec.Sha2.digest Spec.Sha2.SHA256) 64 key text :=
  hmac_eq agrees256 key text

theorem C21_hmac_sha384 (key text : List Byte) :
    hmac P384 key text = Spec.hmac (Spec.Sha2.digest Spec.Sha2.SHA384) 128 key text :=
  hmac_eq agrees384 key text

theorem C21_hmac_sha512 (key text : List Byte) :
    hmac P512 key text = Spec.hmac (Spec.Sha2.digest Spec.Sha2.SHA512) 128 key text :=
  hmac_eq agrees512 key text

/-- C21. `hkdf_extract(salt, ikm)` is HMAC keyed by the salt. -/
theorem C21_hkdf_extract_sha256 (salt ikm : List Byte) :
    hkdfExtract P256 salt ikm = Spec.hmac (Spec.Sha2.digest Spec.Sha2.SHA256) 64 salt ikm :=
  hmac_eq agrees256 salt ikm

/-- C21. `hkdf_extend(prk, info, l)` is RFC 5869 HKDF-Expand for every length `l : u8`. -/
theorem C21_hkdf_expand_sha256 (prk info : List Byte) (l : BitVec 8) :
    hkdfExtend P256 prk info l
      = Spec.hkdfExpand (Spec.hmac (Spec.Sha2.digest Spec.Sha2.SHA256) 64) 32 prk info l.toNat :=
  hkdfExtend_eq agrees256 prk info l (by decide +kernel) (by decide)

theorem C21_hkdf_expand_sha384 (prk info : List Byte) (l : BitVec 8) :
    hkdfExtend P384 prk info l
      = Spec.hkdfExpand (Spec.hmac (Spec.Sha2.digest Spec.Sha2.SHA384) 128) 48 prk info l.toNat :=
  hkdfExtend_eq agrees384 prk info l (by decide +kernel) (by decide)

theorem C21_hkdf_expand_sha512 (prk info : List Byte) (l : BitVec 8) :
    hkdfExtend P512 prk info l
      = Spec.hkdfExpand (Spec.hmac (Spec.Sha2.digest Spec.Sha2.SHA512) 128) 64 prk info l.toNat :=
  hkdfExtend_eq agrees512 prk info l (by decide +kernel) (by decide)

/-- Test vector: HMAC-SHA-256 of hash256.rs `test_hmac_simple` (first four bytes), by the model. -/
example : (hmac P256 [0x0b] [0x0a]).take 4 = [0xb1, 0x74, 0x61, 0x17] := by decide +kernel

end Verif.Props
