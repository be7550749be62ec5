{
 "claims": [
  {
   "property": "C01",
   "status": "proved",
   "theorems": [
    "Verif.Props.C01_norm",
    "Verif.Props.C01_canonical"
   ],
   "note": "any length, any word size/BASEBITS with 3 spare bits; covers Big and DBig (same loop)"
  },
  {
   "property": "C02",
   "status": "proved",
   "theorems": [
    "Verif.Props.C02_comp",
    "Verif.Props.C02_ord",
    "Verif.Props.C02_zero_one"
   ],
   "note": ""
  },
  {
   "property": "C03",
   "status": "proved",
   "theorems": [
    "Verif.Props.C03_add_sub",
    "Verif.Props.C03_multiples",
    "Verif.Props.C03_inc_dec",
    "Verif.Props.C03_pmul",
    "Verif.Props.C03_div3"
   ],
   "note": "pxmul is pmul with the carry stored in the next limb; its model is in Model.lean"
  },
  {
   "property": "C04",
   "status": "proved",
   "theorems": [
    "Verif.Props.C04_mul",
    "Verif.Props.C04_smul",
    "Verif.Props.C04_muladd",
    "Verif.Props.rom_parameters_ok"
   ],
   "note": "machine arithmetic modelled as wrapping, exactness is the proof that no wrap matters"
  },
  {
   "property": "C05",
   "status": "proved",
   "theorems": [
    "Verif.Props.C05_sqr"
   ],
   "note": "odd and even limb counts"
  },
  {
   "property": "C06",
   "status": "proved",
   "theorems": [
    "Verif.Props.C06_monty"
   ],
   "note": ""
  },
  {
   "property": "C07",
   "status": "proved",
   "theorems": [
    "Verif.Props.C07_shifts",
    "Verif.Props.C07_fast_shifts",
    "Verif.Props.C07_bits",
    "Verif.Props.C07_nbits",
    "Verif.Props.C07_shr_panics"
   ],
   "note": ""
  },
  {
   "property": "C08",
   "status": "proved",
   "theorems": [
    "Verif.Props.C08_rmod_div",
    "Verif.Props.C08_dmod_ddiv",
    "Verif.Props.C08_rmod_zero_diverges"
   ],
   "note": "termination with an explicit fuel bound; modulus 0 diverges"
  },
  {
   "property": "C09",
   "status": "proved",
   "theorems": [
    "Verif.Props.C09_modmul",
    "Verif.Props.C09_powmod",
    "Verif.Props.C09_modneg"
   ],
   "note": "powmod needs m > 1: with m = 1 and e = 0 the code returns 1"
  },
  {
   "property": "C10",
   "status": "proved",
   "theorems": [
    "Verif.Props.C10_invmodp"
   ],
   "note": "includes divergence for non-units"
  },
  {
   "property": "C11",
   "status": "proved",
   "theorems": [
    "Verif.Props.C11_jacobi",
    "Verif.Props.C11_residuosity"
   ],
   "note": "against Mathlib's jacobiSym"
  },
  {
   "property": "C12",
   "status": "proved",
   "theorems": [
    "Verif.Props.C12_tobytes",
    "Verif.Props.C12_frombytes",
    "Verif.Props.C12_roundtrip",
    "Verif.Props.C12_roundtrip_bytes"
   ],
   "note": ""
  },
  {
   "property": "C13",
   "status": "proved",
   "theorems": [
    "Verif.Props.C13_select"
   ],
   "note": ""
  },
  {
   "property": "C14",
   "status": "proved",
   "theorems": [
    "Verif.Props.C14_invmod256",
    "Verif.Props.C14_invmod2m",
    "Verif.Props.C14_invmod2m_not_reduced"
   ],
   "note": "the congruence is proved; the range part is false of the code and refuted: invmod2m(1) = 2^384+1"
  },
  {
   "property": "C15",
   "status": "proved",
   "theorems": [
    "Verif.Props.C15_random",
    "Verif.Props.C15_randomnum"
   ],
   "note": "for every generator, as a function of its byte stream"
  },
  {
   "property": "C16",
   "status": "proved",
   "theorems": [
    "Verif.Props.C16_residue",
    "Verif.Props.C16_excess",
    "Verif.Props.C16_room",
    "Verif.Props.C16_sqrt",
    "Verif.Props.C16_imul_zero",
    "Verif.Props.C16_neg_imul_zero",
    "Verif.Props.C16_rom64",
    "Verif.Props.C16_rom32",
    "Verif.Props.C16_sqrt_plain",
    "Verif.Props.C16_pm64",
    "Verif.Props.C16_pm32",
    "Verif.Props.C16_nums384_32_overflow",
    "Verif.Props.C16_nums384e_same",
    "Verif.Props.C16_sqrt5",
    "Verif.Props.C16_sqrt_zero64",
    "Verif.Props.C16_sqrt_zero32",
    "Verif.Props.C16_bounded",
    "Verif.Props.C16_bounded_sqrt",
    "Verif.Props.C16_gm64",
    "Verif.Props.C16_gm32",
    "Verif.Props.C16_nums384_32",
    "Verif.Props.C16_goldilocks_overflow64",
    "Verif.Props.C16_goldilocks_overflow32"
   ],
   "note": "all bundled ROM files; Goldilocks and nums384 with 32-bit words up to a bound on the product of excess counters (C16_bounded), beyond which the product is proved wrong (C16_goldilocks_overflow*, C16_nums384_32_overflow); imul by 0 breaks the invariant (proved)"
  },
  {
   "property": "C17",
   "status": "proved",
   "theorems": [
    "Verif.Props.C17_nres_redc",
    "Verif.Props.C17_equals",
    "Verif.Props.C17_iszilch",
    "Verif.Props.C17_redc",
    "Verif.Props.C17_reduce_redc",
    "Verif.Props.C17_sgn0",
    "Verif.Props.C17_jacobi",
    "Verif.Props.C17_minus_zero",
    "Verif.Props.C17_reduce_sgn0",
    "Verif.Props.C17_plain_unreduced",
    "Verif.Props.C17_bounded"
   ],
   "note": "all ROM files of C16; zero stored as p is encoded as p (C17_minus_zero), and in plain form redc does not reduce (C17_plain_unreduced): elsewhere each element has one encoding"
  },
  {
   "property": "C18",
   "status": "proved",
   "theorems": [
    "Verif.Props.C18_sha256"
   ],
   "note": "bit-exact model of hash256.rs against FIPS 180-4 with constants derived from prime roots; holds for every length because both sides encode the bit length modulo 2^64"
  },
  {
   "property": "C19",
   "status": "proved",
   "theorems": [
    "Verif.Props.C19_sha512",
    "Verif.Props.C19_sha384"
   ],
   "note": "as C18"
  },
  {
   "property": "C20",
   "status": "proved",
   "theorems": [
    "Verif.Props.C20_sha256_history",
    "Verif.Props.C20_sha384_history",
    "Verif.Props.C20_sha512_history",
    "Verif.Props.C20_sha256_chunking"
   ],
   "note": "refinement over all call histories"
  },
  {
   "property": "C21",
   "status": "proved",
   "theorems": [
    "Verif.Props.C21_hmac_sha256",
    "Verif.Props.C21_hmac_sha384",
    "Verif.Props.C21_hmac_sha512",
    "Verif.Props.C21_hkdf_extract_sha256",
    "Verif.Props.C21_hkdf_expand_sha256",
    "Verif.Props.C21_hkdf_expand_sha384",
    "Verif.Props.C21_hkdf_expand_sha512"
   ],
   "note": "for every key length and every l : u8"
  },
  {
   "property": "C22",
   "status": "proved",
   "theorems": [
    "Verif.Props.C22_sha3",
    "Verif.Props.C22_shake",
    "Verif.Props.C22_shake_prefix"
   ],
   "note": "bit-level FIPS 202 specification; messages below 2^64-200 bytes"
  },
  {
   "property": "C23",
   "status": "proved",
   "theorems": [
    "Verif.Props.C23_stream",
    "Verif.Props.C23_deterministic",
    "Verif.Props.C23_clean",
    "Verif.Props.C23_pool_length",
    "Verif.Props.C23_empty_seed_keeps_state"
   ],
   "note": "against a subtract-with-borrow specification over the integers"
  },
  {
   "property": "C24",
   "status": "proved",
   "theorems": [
    "Verif.Props.C24_encrypt_fips197",
    "Verif.Props.C24_decrypt_fips197",
    "Verif.Props.C24_bad_key_refused",
    "Verif.Props.C24_tables"
   ],
   "note": "table-driven word model against byte-oriented FIPS-197; tables checked entry by entry against GF(2^8)"
  },
  {
   "property": "C25",
   "status": "proved",
   "theorems": [
    "Verif.Props.C25_decrypt_inverts"
   ],
   "note": ""
  },
  {
   "property": "C26",
   "status": "proved",
   "theorems": [
    "Verif.Props.C26_modes_roundtrip",
    "Verif.Props.C26_unknown_mode"
   ],
   "note": "for every mode number and any previously used pair of objects"
  },
  {
   "property": "C27",
   "status": "proved",
   "theorems": [
    "Verif.Props.C27_any_session",
    "Verif.Props.C27_encrypt",
    "Verif.Props.C27_len_argument"
   ],
   "note": "against a bit-list GF(2^128) GHASH and SP 800-38D GCM; any session of calls"
  },
  {
   "property": "C28",
   "status": "proved",
   "theorems": [
    "Verif.Props.C28_decrypt"
   ],
   "note": ""
  },
  {
   "property": "C29",
   "status": "proved",
   "theorems": [
    "Verif.Props.C29_chunking"
   ],
   "note": ""
  },
  {
   "property": "C30",
   "status": "proved",
   "theorems": [
    "Verif.Props.C30_header_refused",
    "Verif.Props.C30_text_refused",
    "Verif.Props.C30_finished"
   ],
   "note": ""
  },
  {
   "property": "C31",
   "status": "proved",
   "theorems": [
    "Verif.Props.C31_kdf2",
    "Verif.Props.C31_kdf2_length"
   ],
   "note": ""
  },
  {
   "property": "C32",
   "status": "proved",
   "theorems": [
    "Verif.Props.C32_kdf1",
    "Verif.Props.C32_kdf1_tail",
    "Verif.Props.C32_kdf1_nonstandard"
   ],
   "note": "includes a concrete deviation from the standard"
  },
  {
   "property": "C33",
   "status": "proved",
   "theorems": [
    "Verif.Props.C33_pbkdf2_exact",
    "Verif.Props.C33_pbkdf2_standard",
    "Verif.Props.C33_long_salt_panics",
    "Verif.Props.C33_pbkdf2_nonstandard",
    "Verif.Props.C33_pbkdf2_gap"
   ],
   "note": ""
  },
  {
   "property": "C34",
   "status": "proved",
   "theorems": [
    "Verif.Props.C34_hmac",
    "Verif.Props.C34_hmac_short"
   ],
   "note": ""
  },
  {
   "property": "C35",
   "status": "proved",
   "theorems": [
    "Verif.Props.C35_encrypt",
    "Verif.Props.C35_length",
    "Verif.Props.C35_decrypt_iff",
    "Verif.Props.C35_roundtrip",
    "Verif.Props.C35_reject_length",
    "Verif.Props.C35_injective"
   ],
   "note": ""
  },
  {
   "property": "C36",
   "status": "proved",
   "theorems": [
    "Verif.Props.C36_authenticated",
    "Verif.Props.C36_short_tag_accepted",
    "Verif.Props.C36_long_tag_panics",
    "Verif.Props.C36_dh_error",
    "Verif.Props.C36_roundtrip",
    "Verif.Props.C36_ecies",
    "Verif.Props.C36_ecies_auth"
   ],
   "note": "tags of fewer than 4 bytes are accepted unchecked (C36_short_tag_accepted); C36_ecies and C36_ecies_auth include key generation and Diffie-Hellman, on the curves of C37"
  },
  {
   "property": "C37",
   "status": "proved",
   "theorems": [
    "Verif.Props.C37_keypair",
    "Verif.Props.C37_generate",
    "Verif.Props.C37_keypair_ok",
    "Verif.Props.C37_generate_ok",
    "Verif.Props.C37_agree",
    "Verif.Props.C37_dh",
    "Verif.Props.C37_rejects",
    "Verif.Props.C37_validate",
    "Verif.Props.C37_validate_own",
    "Verif.Props.C37_rom64",
    "Verif.Props.C37_rom32",
    "Verif.Props.C37_cof64",
    "Verif.Props.C37_cof32",
    "Verif.Props.no_abscissa_a0",
    "Verif.Props.no_abscissa_b",
    "Verif.Props.C37_bundled64",
    "Verif.Props.C37_bundled32"
   ],
   "note": "the shared point must not have abscissa 0 (its representative is not unique); no such point exists in the group on curves with A = 0 or B a non-square (no_abscissa_*), only on nist256 and nist384; primality of p and r is proved for BLS12-381 and a hypothesis for the other curves"
  },
  {
   "property": "C38",
   "status": "proved",
   "theorems": [
    "Verif.Props.C38_sign",
    "Verif.Props.C38_sign_total",
    "Verif.Props.C38_accepts",
    "Verif.Props.C38_roundtrip",
    "Verif.Props.C38_roundtrip_free",
    "Verif.Props.C38_sound",
    "Verif.Props.C38_rejects",
    "Verif.Props.C38_bad_key"
   ],
   "note": "same curves as C37; the digest is cut to MODBYTES bytes as the code does, not to the bit length of the order"
  },
  {
   "property": "C39",
   "status": "proved",
   "theorems": [
    "Verif.Props.C39_encode",
    "Verif.Props.C39_encode_standard",
    "Verif.Props.C39_too_long",
    "Verif.Props.C39_roundtrip",
    "Verif.Props.C39_decode_total",
    "Verif.Props.C39_decode_sound",
    "Verif.Props.C39_wrong_parameter",
    "Verif.Props.C39_nonzero_first",
    "Verif.Props.C39_short_panics",
    "Verif.Props.C39_empty_message",
    "Verif.Props.C39_nonstandard"
   ],
   "note": "the code is not standard OAEP for SHA-256/384 (seed padded to 64 bytes before MGF1), proved"
  },
  {
   "property": "C40",
   "status": "proved",
   "theorems": [
    "Verif.Props.C40_pkcs15",
    "Verif.Props.C40_digestInfo",
    "Verif.Props.C40_pkcs15_boundary"
   ],
   "note": "for even modulus byte lengths, which all FF sizes have"
  },
  {
   "property": "C41",
   "status": "proved",
   "theorems": [
    "Verif.Props.C41_rsa2048_64",
    "Verif.Props.C41_rsa2048_32",
    "Verif.Props.C41_rsa3072_32",
    "Verif.Props.C41_rsa4096_64",
    "Verif.Props.C41_integers",
    "Verif.Props.C41_equal_primes"
   ],
   "note": "limb-level model of key_pair after the primes are chosen (the random choice, FF::prime and FF::cfactor are not modelled), encrypt and decrypt; C41_equal_primes: false for p = q"
  },
  {
   "property": "C42",
   "status": "proved",
   "theorems": [
    "Verif.Props.C42_mgf1",
    "Verif.Props.C42_length"
   ],
   "note": ""
  },
  {
   "property": "C43",
   "status": "proved",
   "theorems": [
    "Verif.Props.C43_size",
    "Verif.Props.C43_range",
    "Verif.Props.C43_accept",
    "Verif.Props.C43_roundtrip",
    "Verif.Props.C43_keygen"
   ],
   "note": "both BLS12-381 ROM files; zero is accepted as a secret key; also key_generate against the draft"
  },
  {
   "property": "C44",
   "status": "proved",
   "theorems": [
    "Verif.Props.C44_g1_serialize",
    "Verif.Props.C44_g1_decode",
    "Verif.Props.C44_g1_roundtrip",
    "Verif.Props.C44_g1_accept",
    "Verif.Props.C44_g1_reject",
    "Verif.Props.C44_g1_injective",
    "Verif.Props.C44_g2_serialize",
    "Verif.Props.C44_g2_decode",
    "Verif.Props.C44_g2_roundtrip",
    "Verif.Props.C44_g2_accept",
    "Verif.Props.C44_g2_reject",
    "Verif.Props.C44_g2_injective",
    "Verif.Props.C44_g2_imaginary",
    "Verif.Props.C44_g2_imaginary_bls381",
    "Verif.Props.C44_g2_sign_lost",
    "Verif.Props.bls381_g2",
    "Verif.Props.bls381_g2_32"
   ],
   "note": "all byte strings and all points; the exceptions for compressed G2 points are proved as defects"
  },
  {
   "property": "C45",
   "status": "proved",
   "theorems": [
    "Verif.Props.C45_real64",
    "Verif.Props.C45_real32",
    "Verif.Props.C45_real64_partial",
    "Verif.Props.C45_real32_partial",
    "Verif.Props.C45_values",
    "Verif.Props.C45_bad_secret",
    "Verif.Props.C45_verify_exact",
    "Verif.Props.C45_unique",
    "Verif.Props.C45_verify",
    "Verif.Props.C45_key_pair",
    "Verif.Props.C45_aggregate_sum",
    "Verif.Props.C45_aggregate_error",
    "Verif.Props.C45_aggregate_exact",
    "Verif.Props.C45_aggregate",
    "Verif.Props.C45_aggregate_basic",
    "Verif.Props.C45_aggregate_aug",
    "Verif.Props.C45_aggregate_pop",
    "Verif.Props.C45_pop",
    "Verif.Props.C45_fast",
    "Verif.Props.C45_fast_aggregate",
    "Verif.Props.toy_backend"
   ],
   "note": "C45_real64/32: the point code of BLS12-381 (encodings, scalar multiplications, subgroup checks, hashing) and the pairing test of core.rs (initmp, another, miller, fexp, isunity), no assumption left; the *_partial theorems have the pairing test as a parameter (PairOk); the others are the protocol code of all schemes for any point/pairing backend that implements a pairing setting (BackendOk). Signatures and keys on the twist with a zero coordinate part are excluded (Ordinary; their encodings lose the sign, C44); fast_aggregate_verify needs its first key in the other (SEC1) format"
  },
  {
   "property": "C46",
   "status": "proved",
   "theorems": [
    "Verif.Props.C46_identity_real64",
    "Verif.Props.C46_real64",
    "Verif.Props.C46_real32",
    "Verif.Props.C46_identity64",
    "Verif.Props.C46_identity32",
    "Verif.Props.C46_undecodable",
    "Verif.Props.C46_subgroup",
    "Verif.Props.C46_aggregate",
    "Verif.Props.C46_repeated",
    "Verif.Props.C46_aug",
    "Verif.Props.C46_aug_panics",
    "Verif.Props.C46_fast",
    "Verif.Props.C46_fast_panics"
   ],
   "note": "C46_real64/32 are about the modelled point code of BLS12-381 (codecs, subgroup checks, hashing), for whatever the pairing test answers; the other theorems are for any backend. Deviations proved: two panics (C46_aug_panics, C46_fast_panics), and the key at infinity accepts the signature at infinity on every message (C46_identity*, given a bilinear pairing test). fast_aggregate_verify makes no subgroup checks"
  },
  {
   "property": "C47",
   "status": "proved",
   "theorems": [
    "Verif.Props.C47_expand",
    "Verif.Props.C47_length",
    "Verif.Props.C47_algorithms",
    "Verif.Props.C47_hash_to_field"
   ],
   "note": "also hash_to_field_fp"
  },
  {
   "property": "C48",
   "status": "proved",
   "theorems": [
    "Verif.Props.C48_add",
    "Verif.Props.C48_dbl",
    "Verif.Props.C48_neg",
    "Verif.Props.C48_sub",
    "Verif.Props.C48_zero",
    "Verif.Props.C48_equals",
    "Verif.Props.C48_affine",
    "Verif.Props.C48_unique",
    "Verif.Props.C48_generator",
    "Verif.Props.C48_rom64",
    "Verif.Props.C48_rom32"
   ],
   "note": "every Weierstrass ROM file (given that its modulus is prime; the modulus of several is proved prime in Rom/Primes.lean) except nums384w in 32-bit chunks, whose field arithmetic overflows; against Mathlib's group law; no point of order two is proved for each curve by a certificate"
  },
  {
   "property": "C49",
   "status": "proved",
   "theorems": [
    "Verif.Props.C49_mul",
    "Verif.Props.C49_mul2",
    "Verif.Props.C49_pinmul",
    "Verif.Props.C49_pinmul_mul",
    "Verif.Props.C49_mul_panics",
    "Verif.Props.C49_range64",
    "Verif.Props.C49_range32",
    "Verif.Props.C49_cfp",
    "Verif.Props.C49_cof64",
    "Verif.Props.C49_cof32"
   ],
   "note": "Weierstrass curves; every scalar with four bits to spare in a Big, which includes every scalar below the group order; full-length scalars are proved to panic"
  },
  {
   "property": "C50",
   "status": "proved",
   "theorems": [
    "Verif.Props.C50_frombytes",
    "Verif.Props.C50_frombytes_uncompressed",
    "Verif.Props.C50_frombytes_short",
    "Verif.Props.C50_tobytes",
    "Verif.Props.C50_tobytes_projective",
    "Verif.Props.C50_roundtrip",
    "Verif.Props.C50_infinity_compressed",
    "Verif.Props.C50_plain_sign",
    "Verif.Props.C50_plain_sign_p521",
    "Verif.Props.C50_rom64",
    "Verif.Props.C50_rom32"
   ],
   "note": "the exceptions are C50_infinity_compressed and C50_plain_sign; Edwards curves are C61, Montgomery curves C62"
  },
  {
   "property": "C51",
   "status": "proved",
   "theorems": [
    "Verif.Props.C51_fp2_spmt",
    "Verif.Props.C51_fp4_div_i",
    "Verif.Props.C51_fp12_trace",
    "Verif.Props.C51_field2",
    "Verif.Props.C51_field4",
    "Verif.Props.C51_field12",
    "Verif.Props.C51_fp2_add",
    "Verif.Props.C51_fp2_neg",
    "Verif.Props.C51_fp2_sub",
    "Verif.Props.C51_fp2_mul",
    "Verif.Props.C51_fp2_sqr",
    "Verif.Props.C51_fp2_inverse",
    "Verif.Props.C51_fp2_inverse_zero",
    "Verif.Props.C51_fp2_conj",
    "Verif.Props.C51_fp2_mul_ip",
    "Verif.Props.C51_fp2_div_ip",
    "Verif.Props.C51_fp2_equals",
    "Verif.Props.C51_fp4_add",
    "Verif.Props.C51_fp4_neg",
    "Verif.Props.C51_fp4_sub",
    "Verif.Props.C51_fp4_mul",
    "Verif.Props.C51_fp4_sqr",
    "Verif.Props.C51_fp4_inverse",
    "Verif.Props.C51_fp4_inverse_zero",
    "Verif.Props.C51_fp4_conj",
    "Verif.Props.C51_fp4_times_i",
    "Verif.Props.C51_fp4_equals",
    "Verif.Props.C51_fp12_history",
    "Verif.Props.C51_fp12_equals",
    "Verif.Props.C51_fp12_inverse",
    "Verif.Props.C51_fp12_inverse_zero",
    "Verif.Props.C51_fp12_unitary",
    "Verif.Props.C51_rom64",
    "Verif.Props.C51_rom32",
    "Verif.Props.bls381_tower",
    "Verif.Props.bls381_tower32",
    "Verif.Props.C51_bundled64",
    "Verif.Props.C51_bundled32"
   ],
   "note": "The tower rings are proved to be fields; histories of FP12 calls include sparse products, cyclotomic squaring, conjugation (= p^6-th power) and Frobenius (= p-th power) with the ROM constants. Curves other than BLS12-381 need primality of their modulus as a hypothesis."
  },
  {
   "property": "C52",
   "status": "proved",
   "theorems": [
    "Verif.Props.C52_unpack_pack",
    "Verif.Props.C52_pack_unpack",
    "Verif.Props.C52_compress_error",
    "Verif.Props.C52_compress_decompress"
   ],
   "note": ""
  },
  {
   "property": "C53",
   "status": "proved",
   "theorems": [
    "Verif.Props.C53_redc",
    "Verif.Props.C53_modmul",
    "Verif.Props.C53_nres",
    "Verif.Props.C53_reduce",
    "Verif.Props.C53_transform_product"
   ],
   "note": "also the number-theoretic transforms: pointwise product and inverse transform multiply in Z/q[x]/(x^1024+1)"
  },
  {
   "property": "C54",
   "status": "proved",
   "theorems": [
    "Verif.Props.C54_agree"
   ],
   "note": "bit-exact model of server_1, client and server_2 for arbitrary byte sources"
  },
  {
   "property": "C55",
   "status": "proved",
   "theorems": [
    "Verif.Props.C55_rom64",
    "Verif.Props.C55_rom32",
    "Verif.Props.C55_order64",
    "Verif.Props.C55_order32",
    "Verif.Props.C55_fp512bn_32_inconsistent",
    "Verif.Props.C55_mod8_wrong",
    "Verif.Props.C55_primes64",
    "Verif.Props.C55_primes32",
    "Verif.Props.C55_generator_order64",
    "Verif.Props.C55_generator_order32"
   ],
   "note": "all 51 curve ROM files except rom_fp512bn_32, which is proved inconsistent; CURVE_ORDER times the generator is proved to be infinity for every Weierstrass curve, and every modulus and group order is proved prime (Pocklington and elliptic-curve certificates), so the generator has exactly that order; pairing constants not included"
  },
  {
   "property": "C56",
   "status": "proved",
   "theorems": [
    "Verif.Props.C56_modes_sp800_38a",
    "Verif.Props.C56_counter_no_repeat"
   ],
   "note": ""
  },
  {
   "property": "C57",
   "status": "proved",
   "theorems": [
    "Verif.Props.C57_end",
    "Verif.Props.C57_end_reinit"
   ],
   "note": "C57_end_reinit is a deviation: end() clears only the words of the current key size."
  },
  {
   "property": "C58",
   "status": "proved",
   "theorems": [
    "Verif.Props.C58_add",
    "Verif.Props.C58_dbl",
    "Verif.Props.C58_neg",
    "Verif.Props.C58_sub",
    "Verif.Props.C58_zero",
    "Verif.Props.C58_equals",
    "Verif.Props.C58_affine",
    "Verif.Props.C58_unique",
    "Verif.Props.C58_mul",
    "Verif.Props.C58_new_fp2s",
    "Verif.Props.C58_new_fp2",
    "Verif.Props.C58_rom64",
    "Verif.Props.C58_rom32",
    "Verif.Props.C58_generator64",
    "Verif.Props.C58_generator32"
   ],
   "note": "all points of the twist; excess counters of the operands at most 16384 (mul: 1820, sub: 1820 for the second operand)"
  },
  {
   "property": "C59",
   "status": "proved",
   "theorems": [
    "Verif.Props.C59_sqrt",
    "Verif.Props.C59_sqrt_real",
    "Verif.Props.C59_sqrt_fail",
    "Verif.Props.C59_sgn0"
   ],
   "note": ""
  },
  {
   "property": "C60",
   "status": "proved",
   "theorems": [
    "Verif.Props.C60_rom64",
    "Verif.Props.C60_rom32",
    "Verif.Props.C60_group",
    "Verif.Props.C60_add",
    "Verif.Props.C60_dbl",
    "Verif.Props.C60_neg",
    "Verif.Props.C60_sub",
    "Verif.Props.C60_zero",
    "Verif.Props.C60_equals",
    "Verif.Props.C60_affine",
    "Verif.Props.C60_unique",
    "Verif.Props.C60_mul",
    "Verif.Props.C60_mul2",
    "Verif.Props.C60_pinmul",
    "Verif.Props.C60_cfp",
    "Verif.Props.C60_generator",
    "Verif.Props.C60_order64",
    "Verif.Props.C60_order32",
    "Verif.Props.ed25519_curve",
    "Verif.Props.ed25519_generator"
   ],
   "note": "all bundled Edwards curves except Goldilocks and 32-bit NUMS-384, whose field arithmetic overflows (C16)"
  },
  {
   "property": "C61",
   "status": "proved",
   "theorems": [
    "Verif.Props.C61_new_bigs",
    "Verif.Props.C61_frombytes",
    "Verif.Props.C61_reencode",
    "Verif.Props.C61_roundtrip",
    "Verif.Props.C61_new_bigint",
    "Verif.Props.C61_rom64",
    "Verif.Props.C61_rom32"
   ],
   "note": "the round trip of a point whose third coordinate is one needs reduced coordinates (Prints); the sign of a decompressed point with a pseudo-Mersenne modulus is arbitrary, as in C50_plain_sign"
  },
  {
   "property": "C62",
   "status": "proved",
   "theorems": [
    "Verif.Props.C62_unique",
    "Verif.Props.C62_dbl",
    "Verif.Props.C62_dadd",
    "Verif.Props.C62_mul",
    "Verif.Props.C62_order_two",
    "Verif.Props.C62_zero",
    "Verif.Props.C62_equals",
    "Verif.Props.C62_equals_new",
    "Verif.Props.C62_affine",
    "Verif.Props.C62_cfp",
    "Verif.Props.C62_new_big",
    "Verif.Props.C62_tobytes",
    "Verif.Props.C62_frombytes",
    "Verif.Props.C62_roundtrip",
    "Verif.Props.C62_agree",
    "Verif.Props.C62_order64",
    "Verif.Props.C62_order32",
    "Verif.Props.C62_rom64",
    "Verif.Props.C62_rom32"
   ],
   "note": "C62_tobytes and C62_roundtrip need a reduced abscissa when the third coordinate is already one (PrintsX); C62_order_two and C62_equals_new are the deviations"
  },
  {
   "property": "C63",
   "status": "proved",
   "theorems": [
    "Verif.Props.C63_groups64",
    "Verif.Props.C63_groups32"
   ],
   "note": "32-bit: the representation must have 19 spare bits (all bundled 32-bit curves but one)"
  },
  {
   "property": "C64",
   "status": "proved",
   "theorems": [
    "Verif.Props.C64_checks64",
    "Verif.Props.C64_checks32"
   ],
   "note": ""
  },
  {
   "property": "C65",
   "status": "proved",
   "theorems": [
    "Verif.Props.C65_cofactor64",
    "Verif.Props.C65_cofactor32",
    "Verif.Props.C65_constants"
   ],
   "note": ""
  },
  {
   "property": "C66",
   "status": "proved",
   "theorems": [
    "Verif.Props.C66_sswu_fp",
    "Verif.Props.C66_sswu_fp2"
   ],
   "note": "64-bit; in the 32-bit build the products of unnormalised sums in iso3 may exceed a double word in the worst case, so it is not covered. C66_sswu_fp2 exhibits a panic (deviation from RFC 9380)"
  },
  {
   "property": "C67",
   "status": "proved",
   "theorems": [
    "Verif.Props.C67_map_g1",
    "Verif.Props.C67_map_g2"
   ],
   "note": "64-bit; exhibits an input of map_to_curve_g1 whose result is (0:0:0), no point, and an input on which map_to_curve_g2 panics"
  },
  {
   "property": "C68",
   "status": "proved",
   "theorems": [
    "Verif.Props.C68_hash_g1",
    "Verif.Props.C68_hash_g2",
    "Verif.Props.C68_heff",
    "Verif.Props.C68_reached"
   ],
   "note": "64-bit; C68_reached: a message that meets the hypotheses"
  },
  {
   "property": "C69",
   "status": "proved",
   "theorems": [
    "Verif.Props.C69_mul",
    "Verif.Props.C69_sqr"
   ],
   "note": ""
  },
  {
   "property": "C70",
   "status": "proved",
   "theorems": [
    "Verif.Props.C70_rmod",
    "Verif.Props.C70_dmod"
   ],
   "note": ""
  },
  {
   "property": "C71",
   "status": "proved",
   "theorems": [
    "Verif.Props.C71_invmod2m",
    "Verif.Props.C71_modmul",
    "Verif.Props.C71_modsqr"
   ],
   "note": "a one-digit modulus must be prime (else redc may return p for 0)"
  },
  {
   "property": "C72",
   "status": "proved",
   "theorems": [
    "Verif.Props.C72_skpow",
    "Verif.Props.C72_skpows",
    "Verif.Props.C72_power",
    "Verif.Props.C72_pow",
    "Verif.Props.C72_pow2"
   ],
   "note": "Room (Spec/Ff.lean) is the headroom condition of skpow/skpows; power with e = 0 returns x/R (not covered: e > 0)"
  },
  {
   "property": "C73",
   "status": "proved",
   "theorems": [
    "Verif.Props.C73_invmodp"
   ],
   "note": ""
  },
  {
   "property": "C74",
   "status": "proved",
   "theorems": [
    "Verif.Props.C74_frombytes",
    "Verif.Props.C74_tobytes",
    "Verif.Props.C74_roundtrip",
    "Verif.Props.C74_comp",
    "Verif.Props.C74_shr",
    "Verif.Props.C74_shl",
    "Verif.Props.C74_add_sub"
   ],
   "note": ""
  },
  {
   "property": "C75",
   "status": "partial",
   "theorems": [
    "Verif.Props.C75_rsa3072_64_partial",
    "Verif.Props.C75_rsa4096_32_partial",
    "Verif.Props.rsa_roundtrip"
   ],
   "note": "missing: primes within 1/127 (1/511) of the top of the range, where the lazily reduced factor of the ladder may gain the modulus at each zero bit"
  },
  {
   "property": "C76",
   "status": "proved",
   "theorems": [
    "Verif.Props.C76_pow64",
    "Verif.Props.C76_pow32"
   ],
   "note": "includes the panic on exponent 0"
  },
  {
   "property": "C77",
   "status": "proved",
   "theorems": [
    "Verif.Props.C77_pow4_64",
    "Verif.Props.C77_pow4_32"
   ],
   "note": ""
  },
  {
   "property": "C78",
   "status": "proved",
   "theorems": [
    "Verif.Props.C78_pinpow64",
    "Verif.Props.C78_pinpow32"
   ],
   "note": ""
  },
  {
   "property": "C79",
   "status": "proved",
   "theorems": [
    "Verif.Props.C79_gtpow64",
    "Verif.Props.C79_gtpow32"
   ],
   "note": ""
  },
  {
   "property": "C80",
   "status": "proved",
   "theorems": [
    "Verif.Props.C80_fexp64",
    "Verif.Props.C80_fexp32"
   ],
   "note": ""
  },
  {
   "property": "C81",
   "status": "proved",
   "theorems": [
    "Verif.Props.C81_fexp_group64",
    "Verif.Props.C81_fexp_group32"
   ],
   "note": ""
  },
  {
   "property": "C82",
   "status": "proved",
   "theorems": [
    "Verif.Props.C82_codec64",
    "Verif.Props.C82_codec32",
    "Verif.Props.enc12_inj"
   ],
   "note": ""
  },
  {
   "property": "C83",
   "status": "proved",
   "theorems": [
    "Verif.Props.C83_ecp2_codec64",
    "Verif.Props.C83_ecp2_codec32"
   ],
   "note": ""
  },
  {
   "property": "C84",
   "status": "proved",
   "theorems": [
    "Verif.Props.C84_keypair",
    "Verif.Props.C84_generate",
    "Verif.Props.C84_dh",
    "Verif.Props.C84_agree",
    "Verif.Props.C84_rejects",
    "Verif.Props.C84_validate",
    "Verif.Props.C84_validate_own",
    "Verif.Props.C84_reduced_edwards",
    "Verif.Props.C84_reduced_weierstrass",
    "Verif.Props.C84_weierstrass64",
    "Verif.Props.C84_weierstrass32",
    "Verif.Props.C84_edwards64",
    "Verif.Props.C84_edwards32"
   ],
   "note": "under the stated proviso on printed coordinates (RedMul), discharged by C84_reduced_* when the third coordinate is not 1; the curve over 2^384-317 on 32-bit words is excluded (C16)"
  },
  {
   "property": "C85",
   "status": "proved",
   "theorems": [
    "Verif.Props.C85_sign",
    "Verif.Props.C85_sign_total",
    "Verif.Props.C85_accepts",
    "Verif.Props.C85_roundtrip",
    "Verif.Props.C85_rejects",
    "Verif.Props.C85_bad_key",
    "Verif.Props.C85_sound",
    "Verif.Props.C84_weierstrass64",
    "Verif.Props.C84_weierstrass32",
    "Verif.Props.C84_edwards64",
    "Verif.Props.C84_edwards32"
   ],
   "note": "same proviso as C84"
  },
  {
   "property": "C86",
   "status": "proved",
   "theorems": [
    "Verif.Props.C86_keypair",
    "Verif.Props.C86_generate",
    "Verif.Props.C86_dh",
    "Verif.Props.C86_rejects",
    "Verif.Props.C86_agree",
    "Verif.Props.C86_validate",
    "Verif.Props.C86_reduced",
    "Verif.Props.C86_rom64",
    "Verif.Props.C86_rom32"
   ],
   "note": "same proviso, discharged by C86_reduced"
  },
  {
   "property": "C87",
   "status": "proved",
   "theorems": [
    "Verif.Props.C87_hash_id",
    "Verif.Props.C87_hashit",
    "Verif.Props.C87_hash_id_bad"
   ],
   "note": ""
  },
  {
   "property": "C88",
   "status": "proved",
   "theorems": [
    "Verif.Props.C88_mapit",
    "Verif.Props.C88_unique",
    "Verif.Props.C89_curves64",
    "Verif.Props.C89_curves32"
   ],
   "note": "on the curves of C89_curves64/32"
  },
  {
   "property": "C89",
   "status": "proved",
   "theorems": [
    "Verif.Props.C89_random",
    "Verif.Props.C89_server_secret",
    "Verif.Props.C89_g1_multiple",
    "Verif.Props.C89_client_secret",
    "Verif.Props.C89_client_permit",
    "Verif.Props.C89_recombine_g1",
    "Verif.Props.C89_recombine_g2",
    "Verif.Props.C89_shares",
    "Verif.Props.C89_curves64",
    "Verif.Props.C89_curves32"
   ],
   "note": "points of the second group whose coordinates have a zero real or imaginary part are excluded where they are encoded (Generic4)"
  },
  {
   "property": "C90",
   "status": "proved",
   "theorems": [
    "Verif.Props.C90_extract",
    "Verif.Props.C90_restore",
    "Verif.Props.C90_roundtrip",
    "Verif.Props.C90_extract_pin",
    "Verif.Props.C89_curves64",
    "Verif.Props.C89_curves32"
   ],
   "note": ""
  },
  {
   "property": "C91",
   "status": "proved",
   "theorems": [
    "Verif.Props.C91_get_y",
    "Verif.Props.C91_mpin64",
    "Verif.Props.C91_mpin32",
    "Verif.Props.C91_server_decides_partial",
    "Verif.Props.C91_protocol_partial",
    "Verif.Props.C91_permit_partial",
    "Verif.Props.C91_server_refuses",
    "Verif.Props.C89_curves64",
    "Verif.Props.C89_curves32"
   ],
   "note": "embedding degree 12; C91_mpin64/32: server_2 with the pairing of pair.rs, no assumption left (the *_partial theorems have the pairing test as a parameter); 32-bit: the representation must have 19 bits to spare; the outputs of server_2 for the kangaroo search are not modelled"
  },
  {
   "property": "C92",
   "status": "proved",
   "theorems": [
    "Verif.Props.C92_prime_order64",
    "Verif.Props.C92_prime_order32",
    "Verif.Props.C92_group_order64",
    "Verif.Props.C92_group_order32"
   ],
   "note": "32-bit: the curve over 2^384-317 excluded (C16); curves of embedding degree 24 and 48 not covered"
  },
  {
   "property": "C93",
   "status": "proved",
   "theorems": [
    "Verif.Props.C93_miller64",
    "Verif.Props.C93_miller32"
   ],
   "note": "embedding degree 12; the values are shown non-zero, and identified with the optimal ate pairing, in C94"
  },
  {
   "property": "C94",
   "status": "proved",
   "theorems": [
    "Verif.Props.C94_ate64",
    "Verif.Props.C94_ate32"
   ],
   "note": "embedding degree 12; 32-bit: the representation must have 19 bits to spare"
  },
  {
   "property": "C95",
   "status": "proved",
   "theorems": [
    "Verif.Props.C95_bilinear64",
    "Verif.Props.C95_bilinear32"
   ],
   "note": "embedding degree 12; on the twist: the group of order r on which the Frobenius endomorphism is multiplication by p (the multiples of the generator); 32-bit: the representation must have 19 bits to spare"
  },
  {
   "property": "C96",
   "status": "proved",
   "theorems": [
    "Verif.Props.C96_nondegenerate64",
    "Verif.Props.C96_nondegenerate32"
   ],
   "note": "embedding degree 12; 32-bit: the representation must have 19 bits to spare"
  }
 ]
}