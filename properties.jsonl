{"id": "C01", "title": "Normalisation keeps the number and makes it canonical", "statement": "Normalising a multi-limb integer (Big or DBig) never changes the integer it denotes, leaves every limb but the top one in [0,2^BASEBITS), and two normalised integers with the same limbs count denote the same number exactly when they are limb-for-limb equal.", "quantifier": "every limb vector of every length whose limbs leave carry headroom in the machine word, for both word sizes and every BASEBITS in use", "why_tests_cant": "carry chains that ripple across every limb, negative limbs and limbs near the word limit are 2^(64*NLEN) cases; a test samples a handful", "anchors": ["src/big.rs: Big::norm", "src/dbig.rs: DBig::norm"]}
{"id": "C02", "title": "Comparison of normalised integers is numeric order", "statement": "Comparing two normalised integers returns -1, 0 or 1 exactly when the first is numerically smaller, equal or larger; equality (==) and ordering (<) on Big agree with it, and the zero and one tests hold exactly for the values 0 and 1.", "quantifier": "all pairs of normalised limb vectors of equal length", "why_tests_cant": "the answer depends on the first differing limb among all of them; tests cover few positions", "anchors": ["src/big.rs: Big::comp, Big::iszilch, Big::isunity, PartialEq/Ord", "src/dbig.rs: DBig::comp"]}
{"id": "C03", "title": "Addition, subtraction and small multiples are exact", "statement": "add, sub, rsub, plus, minus, dbl, imul, inc, dec compute exactly the integer sum, difference, double and multiple, with no silent wrap-around, as long as limbs stay in the documented excess; pmul and pxmul return the exact multiple together with the carry; div3 returns the exact quotient and remainder.", "quantifier": "all limb vectors within the documented bounds and all small multipliers", "why_tests_cant": "wrap-around only shows up at particular limb magnitudes", "anchors": ["src/big.rs: add, sub, rsub, plus, minus, dbl, imul, inc, dec, pmul, pxmul, div3"]}
{"id": "C04", "title": "Double-length multiplication is exact", "statement": "Multiplying two normalised Big integers yields a DBig whose value is exactly the product, with all limbs canonical, in spite of the fixed-width double-word accumulators; smul and muladd give the product modulo the word array and the two-digit product-sum.", "quantifier": "all pairs of normalised limb vectors, every NLEN and BASEBITS with the stated headroom", "why_tests_cant": "overflow of an accumulator column needs extreme limbs in many positions at once", "anchors": ["src/big.rs: Big::mul, Big::muladd, Big::smul"]}
{"id": "C05", "title": "Squaring agrees with multiplication", "statement": "Squaring a Big gives exactly the same number as multiplying it by itself, for odd and even limb counts.", "quantifier": "all normalised limb vectors, every NLEN >= 3", "why_tests_cant": "the squaring loop takes different index paths for odd and even NLEN and each column", "anchors": ["src/big.rs: Big::sqr"]}
{"id": "C06", "title": "Montgomery reduction is correct and bounded", "statement": "Montgomery reduction of a double-length d modulo an odd m returns a value t with t*R = d (mod m), where R = 2^(BASEBITS*NLEN), and 0 <= t < 2m whenever 0 <= d < m*R, in spite of the fixed-width accumulators.", "quantifier": "all moduli with a correct Montgomery constant and all in-range d", "why_tests_cant": "an error in a single column or carry only shows for particular residues", "anchors": ["src/big.rs: Big::monty", "src/fp.rs: FP::modulo"]}
{"id": "C07", "title": "Shifts and truncation are multiplication, division and remainder by powers of two", "statement": "shl/fshl multiply by 2^k, shr/fshr divide by 2^k rounding down and fshr returns the bits shifted out, mod2m reduces modulo 2^m, lastbits/parity/bit return the corresponding binary digits, and nbits is the bit length.", "quantifier": "all normalised integers and all shift counts in range, including counts crossing limb borders", "why_tests_cant": "interaction of shift count with limb border and limb contents is a product of large domains", "anchors": ["src/big.rs: fshl, fshr, shl, shr, mod2m, lastbits, parity, bit, nbits", "src/dbig.rs: shl, shr, mod2m, nbits"]}
{"id": "C08", "title": "Division and remainder are Euclidean", "statement": "For a positive modulus, rmod and DBig::dmod leave exactly x mod m, and div/DBig::div exactly floor(x/m), and their loops terminate.", "quantifier": "all non-negative normalised x and positive normalised m for which m shifted past x still fits", "why_tests_cant": "quotient digits are decided one bit at a time from the sign of a trial subtraction; errors show only for special alignments", "anchors": ["src/big.rs: rmod, div", "src/dbig.rs: dmod, div"]}
{"id": "C09", "title": "Modular arithmetic on Big", "statement": "modmul, modsqr and powmod return exactly a*b mod m, a^2 mod m and a^e mod m; modneg returns a value congruent to -a mod m.", "quantifier": "all normalised a, b, e and positive m in range", "why_tests_cant": "unbounded exponent and operand domain", "anchors": ["src/big.rs: modmul, modsqr, modneg, powmod"]}
{"id": "C10", "title": "Modular inverse really is the inverse", "statement": "For an odd modulus p>1 and x coprime to p, invmodp terminates with a value y in [0,p) such that x*y = 1 mod p.", "quantifier": "all odd p > 1 and all x coprime to p", "why_tests_cant": "binary Euclid takes a data-dependent path per input", "anchors": ["src/big.rs: Big::invmodp"]}
{"id": "C11", "title": "Jacobi symbol", "statement": "jacobi(x,p) returns the Jacobi symbol of x over p for every odd p > 1, and 0 for even p; for prime p it decides quadratic residuosity.", "quantifier": "all x and all odd p", "why_tests_cant": "reciprocity-based recursion on arbitrary integers", "anchors": ["src/big.rs: Big::jacobi"]}
{"id": "C12", "title": "Fixed-length byte encoding of integers round-trips", "statement": "Writing a Big in [0,256^MODBYTES) to bytes and reading it back gives the same integer, the bytes are its big-endian base-256 digits, and reading any MODBYTES bytes and writing them again gives the same bytes.", "quantifier": "every integer below 256^MODBYTES and every byte string of that length", "why_tests_cant": "domain of size 2^384 and more", "anchors": ["src/big.rs: tobytearray, frombytearray, tobytes, frombytes", "src/dbig.rs: DBig::frombytes"]}
{"id": "C13", "title": "Constant-time select and swap", "statement": "cmove(g,d) leaves the value unchanged for d=0 and copies g for d=1; cswap(b,d) does nothing for d=0 and exchanges both for d=1, limb for limb.", "quantifier": "all limb vectors (also non-normalised) and both flag values", "why_tests_cant": "bit-mask arithmetic must be right on every bit of every limb", "anchors": ["src/big.rs: cmove, cswap", "src/dbig.rs: cmove"]}
{"id": "C14", "title": "Inversion modulo powers of two", "statement": "invmod256 returns the inverse of every odd byte modulo 256 and invmod2m a number congruent to the inverse of every odd Big modulo 2^(8*MODBYTES). The result need not be reduced (finding: invmod2m(1) = 2^384+1 on BLS12-381, which is proved).", "quantifier": "all odd inputs", "why_tests_cant": "Newton/Arazi-Qi lifting must be right at every doubling for every odd number", "anchors": ["src/big.rs: invmod256, invmod2m"]}
{"id": "C15", "title": "Random numbers are in range", "statement": "randomnum(q) returns a value strictly below q for every generator state, and random() a value below 2^(8*MODBYTES); both are functions of the generator's byte stream alone.", "quantifier": "every generator state and every q > 0", "why_tests_cant": "must hold for every stream of random bytes", "anchors": ["src/big.rs: random, randomnum"]}
{"id": "C16", "title": "Prime-field operations compute in Z/p despite lazy reduction", "statement": "Every FP operation (add, sub, neg, mul, sqr, imul, dbl, div2, inverse, pow) yields an element whose residue is the field result, whatever the lazily accumulated excess of the operands, and sqrt of a square yields a root; the excess counter always bounds the stored representative so that later operations never overflow. Exceptions, each shown to be real: imul by 0 loses the counter, and for Goldilocks and for NUMS-384 with 32-bit words a product whose factors' counters multiply to more than 3837 / 253 (Goldilocks 64/32 bits) or 4096 (NUMS-384) can be wrong although FEXCESS allows it.", "quantifier": "all histories of field operations starting from reduced elements", "why_tests_cant": "overflow needs particular sequences of unreduced additions before a multiplication", "anchors": ["src/fp.rs: FP::{add,sub,neg,mul,sqr,imul,dbl,div2,inverse,pow,reduce,norm,redc,nres}"]}
{"id": "C17", "title": "Field elements have one canonical encoding", "statement": "Converting an integer below p to a field element and back (nres then redc) returns the same integer, equality of field elements is equality of residues, and printing/encoding depends only on the residue, with exactly these exceptions: zero held as a non-zero multiple of p prints as p, and in plain (pseudo-Mersenne) form an element must be reduced first.", "quantifier": "all integers below p, all representatives of a residue", "why_tests_cant": "a residue has many internal representatives; tests see few", "anchors": ["src/fp.rs: FP::{nres,redc,equals,tostring,iszilch,sgn0}"]}
{"id": "C18", "title": "SHA-256 computes FIPS 180-4 on every message", "statement": "Feeding any byte string to HASH256 and finishing returns the SHA-256 digest of FIPS 180-4 of exactly these bytes (message length below 2^61 bytes).", "quantifier": "all byte strings of all lengths", "why_tests_cant": "padding has 64 length classes times multi-block messages; lengths are unbounded", "anchors": ["src/hash256.rs: HASH256::{init,process,process_array,hash,transform}"]}
{"id": "C19", "title": "SHA-384 and SHA-512 compute FIPS 180-4 on every message", "statement": "Feeding any byte string to HASH384 / HASH512 and finishing returns the FIPS 180-4 digest of exactly these bytes.", "quantifier": "all byte strings of all lengths (below 2^61 bytes)", "why_tests_cant": "padding classes and block counts are unbounded", "anchors": ["src/hash384.rs: HASH384", "src/hash512.rs: HASH512"]}
{"id": "C20", "title": "Incremental hashing does not depend on how input is split, and hash objects are reusable", "statement": "For SHA-2 objects, any way of splitting the input over process/process_array/process_num calls yields the digest of the concatenation; after hash() the object behaves as freshly created.", "quantifier": "all splittings of all messages, all histories of earlier hashes on the same object", "why_tests_cant": "number of splittings is exponential and histories unbounded", "anchors": ["src/hash256.rs", "src/hash384.rs", "src/hash512.rs"]}
{"id": "C21", "title": "HMAC and HKDF follow RFC 2104 / RFC 5869", "statement": "hmac computes HMAC for every key length (shorter, equal or longer than the block) and hkdf_extract/hkdf_extend compute RFC 5869 extract and expand for every requested length.", "quantifier": "all keys, salts, infos, messages and output lengths", "why_tests_cant": "key-length classes and output lengths are unbounded", "anchors": ["src/hash256.rs: hmac, hkdf_extract, hkdf_extend", "src/hash512.rs: hmac, hkdf_extract, hkdf_extend"]}
{"id": "C22", "title": "SHA-3 and SHAKE compute FIPS 202 on every message", "statement": "Absorbing any byte string and finishing with hash() or shake(n) gives the FIPS 202 sponge output for the configured capacity and any requested output length, independent of how the input was split.", "quantifier": "all byte strings, all four digest sizes, all shake output lengths", "why_tests_cant": "padding positions, multi-block absorb and squeeze lengths are unbounded", "anchors": ["src/sha3.rs: SHA3::{init,process,hash,shake,squeeze,pad,transform}"]}
{"id": "C23", "title": "The random generator is a deterministic function of its seed and never runs dry", "statement": "After seeding with the same non-empty bytes, two generators return the same byte stream for every number of calls; every byte comes from a 32-byte pool refreshed exactly every 32 bytes by hashing generator output; seeding with at least one byte forgets all earlier state (seeding with none does not).", "quantifier": "all seeds, all numbers of getbyte calls, all earlier histories", "why_tests_cant": "unbounded call sequences", "anchors": ["src/rand.rs: RAND::{clean,seed,getbyte,sbrand,fill_pool}"]}
{"id": "C24", "title": "AES block encryption is FIPS-197", "statement": "ecb_encrypt of any block under any 128/192/256-bit key is the FIPS-197 cipher of that block, and every lookup table equals its algebraic definition.", "quantifier": "all keys of the three lengths and all blocks", "why_tests_cant": "2^128 blocks times 2^256 keys", "anchors": ["src/aes.rs: AES::{init,ecb_encrypt}, FSM, FBSUB tables"]}
{"id": "C25", "title": "AES decryption inverts encryption", "statement": "For every key and block ecb_decrypt(ecb_encrypt(b)) = b and ecb_encrypt(ecb_decrypt(b)) = b.", "quantifier": "all keys of all three lengths, all blocks", "why_tests_cant": "2^128 blocks", "anchors": ["src/aes.rs: AES::{ecb_encrypt,ecb_decrypt}"]}
{"id": "C26", "title": "AES modes round-trip on any sequence of blocks", "statement": "In each supported mode (ECB, CBC, CFB, OFB, CTR of any unit size) decrypting with the same key and IV the sequence of blocks produced by encrypting any sequence of blocks returns the original sequence; an unknown mode leaves the data unchanged.", "quantifier": "all keys, IVs, modes and all finite block sequences", "why_tests_cant": "chaining makes behaviour depend on the whole history", "anchors": ["src/aes.rs: AES::{encrypt,decrypt,reset,increment}"]}
{"id": "C27", "title": "GCM produces SP 800-38D ciphertext and tag", "statement": "Feeding header and plaintext to GCM and finishing returns the ciphertext and the tag of NIST SP 800-38D for a 12-byte or any other IV length.", "quantifier": "all keys, IVs, headers, plaintexts", "why_tests_cant": "lengths are unbounded and GHASH is over GF(2^128)", "anchors": ["src/gcm.rs: GCM::{init,add_header,add_plain,finish,gf2mul,precompute,ghash,wrap}"]}
{"id": "C28", "title": "GCM decryption inverts encryption and reproduces the tag", "statement": "For every key, IV, header and message, decrypting the ciphertext gives back the message and finish() on the receiving side yields the same tag as on the sending side.", "quantifier": "all keys, IVs, headers and messages of all lengths", "why_tests_cant": "unbounded lengths", "anchors": ["src/gcm.rs: GCM::{add_plain,add_cipher,finish}, encrypt, decrypt"]}
{"id": "C29", "title": "GCM chunking does not matter", "statement": "Splitting header or text over several add_header/add_plain calls at multiples of 16 bytes gives the same ciphertext and tag as one call.", "quantifier": "all splittings at block borders", "why_tests_cant": "exponentially many splittings", "anchors": ["src/gcm.rs: GCM::{add_header,add_plain,add_cipher}"]}
{"id": "C30", "title": "GCM accepts calls only in the documented order", "statement": "Header data is rejected (false, no state change) once text processing started or a partial header block was given; text is rejected after a partial text block or after finish.", "quantifier": "all call sequences", "why_tests_cant": "unbounded call histories", "anchors": ["src/gcm.rs: GCM::{add_header,add_plain,add_cipher,finish}"]}
{"id": "C31", "title": "KDF2 follows IEEE 1363 / ISO 18033", "statement": "kdf2 returns the first olen bytes of H(Z||1||P) || H(Z||2||P) || ... for every olen and each hash size.", "quantifier": "all secrets, parameters and output lengths", "why_tests_cant": "unbounded output lengths and counters", "anchors": ["src/ecdh.rs: kdf2, hashit"]}
{"id": "C32", "title": "KDF1 output and its counter-zero deviation", "statement": "kdf1(z,olen) returns the first olen bytes of H(Z) || H(Z||1) || H(Z||2) || ... with 4-byte big-endian counters, for each hash size; it differs from standard KDF1 exactly in that the first block omits the counter 0, so every byte from position hlen on agrees with the standard.", "quantifier": "all secrets and output lengths", "why_tests_cant": "needs the relation for every input", "anchors": ["src/ecdh.rs: kdf1, hashit"]}
{"id": "C33", "title": "PBKDF2: exact output, and agreement with RFC 8018", "statement": "pbkdf2(pass,salt,rep,olen) returns the RFC 8018 derived key whenever (the hash is 64 bytes or rep <= 1) and (olen is at most min(hash,EFS), or EFS equals the hash size and olen <= 64); outside that region the returned bytes are given by an explicit formula and do differ from RFC 8018; a salt longer than 32 bytes panics.", "quantifier": "all passwords, salts of at most 32 bytes, rep >= 1, olen", "why_tests_cant": "the iteration is unbounded", "anchors": ["src/ecdh.rs: pbkdf2, hmac"]}
{"id": "C34", "title": "ecdh::hmac is (truncated) HMAC and refuses short tags", "statement": "ecdh::hmac writes the first olen bytes of HMAC for 4 <= olen <= hash length and returns true, and for olen < 4 returns false and leaves the output untouched.", "quantifier": "all messages, keys, tag lengths", "why_tests_cant": "unbounded lengths", "anchors": ["src/ecdh.rs: hmac"]}
{"id": "C35", "title": "CBC with PKCS padding round-trips and rejects malformed input", "statement": "cbc_iv0_decrypt(k, cbc_iv0_encrypt(k,m)) = m for every message; the ciphertext is the unique multiple of 16 longer than m; ciphertext of length not a positive multiple of 16 or with bad padding is rejected with an empty result.", "quantifier": "all keys and messages of all lengths", "why_tests_cant": "unbounded message lengths and all malformed ciphertexts", "anchors": ["src/ecdh.rs: cbc_iv0_encrypt, cbc_iv0_decrypt"]}
{"id": "C36", "title": "ECIES authenticates before releasing plaintext", "statement": "With a tag of 4 to 32 bytes ecies_decrypt returns a message only if the tag equals the HMAC of the ciphertext, parameters and length under the keys derived from the shared point; ecies_decrypt inverts ecies_encrypt for every tag length up to 32. (Findings, proved: shorter tags are not checked at all, longer ones panic.)", "quantifier": "all ciphertexts, tags and parameters", "why_tests_cant": "adversarially chosen ciphertext/tag pairs", "anchors": ["src/ecdh.rs: ecies_encrypt, ecies_decrypt, hmac"]}
{"id": "C37", "title": "Diffie-Hellman parties agree", "statement": "On the Weierstrass curves with a Montgomery-form modulus (13 of the bundled curves, both word sizes): for any two key pairs ecpsvdp_dh(s_A, W_B) and ecpsvdp_dh(s_B, W_A) return the same secret with success status, strings that are no point of the curve are rejected, and public_key_validate accepts exactly the points whose multiple by the cofactor is finite.", "quantifier": "all private keys", "why_tests_cant": "2^512 pairs", "anchors": ["src/ecdh.rs: key_pair_generate, ecpsvdp_dh, public_key_validate"]}
{"id": "C38", "title": "ECDSA signatures verify", "statement": "On the same curves: every signature (c,d) returned by ecpsp_dsa for a private key is accepted by ecpvp_dsa under the matching public key, ecpvp_dsa accepts nothing but pairs satisfying the ECDSA equation, and out-of-range components (0 or >= r) are rejected.", "quantifier": "all private keys, messages and generator states", "why_tests_cant": "unbounded", "anchors": ["src/ecdh.rs: ecpsp_dsa, ecpvp_dsa"]}
{"id": "C39", "title": "OAEP encoding round-trips and detects corruption of structure", "statement": "oaep_decode(oaep_encode(m)) = m for every message short enough for the modulus, for all three hash sizes and any optional parameter; wrong parameter hash, non-zero first byte or missing separator is rejected; too long messages are refused.", "quantifier": "all messages, seeds and parameters", "why_tests_cant": "unbounded combinations", "anchors": ["src/rsa.rs: oaep_encode, oaep_decode, mgf1"]}
{"id": "C40", "title": "PKCS#1 v1.5 signature encoding", "statement": "pkcs15 produces 00 01 FF..FF 00 DigestInfo H(m) of exactly RFS bytes, deterministic, with at least the required padding, and fails exactly when the modulus is too small.", "quantifier": "all messages and all hash sizes", "why_tests_cant": "all inputs", "anchors": ["src/rsa.rs: pkcs15"]}
{"id": "C41", "title": "RSA decryption inverts encryption (RSA-2048; RSA-3072 on 32-bit; RSA-4096 on 64-bit words)", "statement": "For distinct primes p, q congruent to 3 mod 4 and an odd one-word public exponent e invertible modulo (p-1)/2 and (q-1)/2, the key computed from p and q makes decrypt(encrypt(m)) = m for every block m of the length of the modulus denoting a number below it; the ciphertext is m^e mod pq in big-endian form. Stated for the limb arithmetic of ff.rs: no intermediate carry, excess or loop bound fails. For p = q (which key_pair does not exclude) it is false.", "quantifier": "all primes in range, exponents, message blocks", "why_tests_cant": "unbounded; the failing inputs of a carry bug have negligible density", "anchors": ["src/rsa.rs: key_pair, encrypt, decrypt", "src/ff.rs"]}
{"id": "C42", "title": "MGF1", "statement": "mgf1 returns the first olen bytes of H(Z||0)||H(Z||1)||... with 4-byte big-endian counters.", "quantifier": "all seeds and output lengths", "why_tests_cant": "unbounded output lengths", "anchors": ["src/rsa.rs: mgf1, hashit"]}
{"id": "C43", "title": "Secret key byte codec", "statement": "secret_key_from_bytes accepts exactly 32-byte strings denoting integers below the group order and secret_key_to_bytes inverts it.", "quantifier": "all byte strings", "why_tests_cant": "2^256 strings and all lengths", "anchors": ["src/bls381/core.rs: secret_key_from_bytes, secret_key_to_bytes"]}
{"id": "C44", "title": "Point encodings are canonical and round-trip", "statement": "deserialize(serialize(P)) = P for every curve point in compressed and uncompressed form, every accepted byte string is the encoding of the point returned, and strings with malformed flags, lengths or out-of-range coordinates are rejected with the documented error. For compressed G2 points this holds when the ordinate has non-zero real and imaginary parts; the two exceptions are defects: points with a purely imaginary ordinate are refused, and the sign of a real ordinate is lost.", "quantifier": "all curve points and all byte strings", "why_tests_cant": "2^384 and more strings", "anchors": ["src/bls381/core.rs: serialize_g1, deserialize_g1, serialize_uncompressed_g1, serialize_g2, deserialize_g2"]}
{"id": "C45", "title": "BLS signatures verify and aggregate", "statement": "For every secret key and message verify(pk(sk), m, sign(sk,m)) is true; the aggregate of signatures verifies under aggregate_verify for distinct messages and fast_aggregate_verify for a common one; given a non-degenerate bilinear pairing verification accepts exactly the point sk*H(m).", "quantifier": "all keys, message lists of all lengths, all schemes", "why_tests_cant": "unbounded lists, algebraic identity", "anchors": ["src/bls381/core.rs: core_sign_*, core_verify_*, aggregate_*, core_aggregate_verify_*", "src/bls381/basic.rs", "src/bls381/message_augmentation.rs", "src/bls381/proof_of_possession.rs"]}
{"id": "C46", "title": "Verification rejects malformed inputs", "statement": "verify and pop_verify return false (without panicking) on undecodable keys or signatures and on points outside the prime-order subgroup; aggregate_verify returns false on undecodable or out-of-subgroup signatures, empty lists, lists of different lengths (message augmentation panics when there are more messages than keys) and, in the basic scheme, repeated messages, and on a list with an undecodable or out-of-subgroup key it never returns true, and returns false unless hashing a message panics.", "quantifier": "all byte strings and all lists", "why_tests_cant": "adversarial inputs", "anchors": ["src/bls381/core.rs", "src/bls381/basic.rs: aggregate_verify_*", "src/bls381/message_augmentation.rs: aggregate_verify_*", "src/bls381/proof_of_possession.rs: fast_aggregate_verify_*"]}
{"id": "C47", "title": "expand_message_xmd follows the hash-to-curve draft", "statement": "expand_message_xmd returns exactly len_in_bytes bytes, equal to the draft's construction for every message, tag and length, and an error exactly when more than 255 blocks are needed.", "quantifier": "all messages, domain tags (also over 255 bytes), lengths", "why_tests_cant": "unbounded lengths", "anchors": ["src/hash_to_curve.rs: HashAlgorithm::expand_message, hash_to_field_*"]}
{"id": "C48", "title": "Point addition and doubling implement the elliptic-curve group law", "statement": "Projective add and dbl on Weierstrass curves give the group-law sum for every pair of curve points, including equal, opposite and infinite inputs.", "quantifier": "all points of all short Weierstrass curves of odd order over fields of characteristic other than 2 and 3", "why_tests_cant": "exceptional cases are a negligible fraction of inputs", "anchors": ["src/ecp.rs: ECP::{add,dbl,sub,neg,is_infinity,equals,affine}"]}
{"id": "C49", "title": "Scalar multiplication computes e*P", "statement": "ECP::mul(e) returns the e-fold sum of P for every scalar and point including 0 and infinity; mul2 returns e*P+f*Q; pinmul agrees with mul.", "quantifier": "all scalars of any bit length and all points", "why_tests_cant": "window recoding over unbounded scalars", "anchors": ["src/ecp.rs: ECP::{mul,mul2,pinmul,select}"]}
{"id": "C50", "title": "Octet encoding of curve points round-trips", "statement": "On the bundled Weierstrass curves with a Montgomery-form modulus frombytes(tobytes(P)) = P for every finite point in compressed and uncompressed form; for every modulus, coordinates >= p, off-curve inputs and unknown tags decode to infinity and strings that are too short panic. The point at infinity does not survive the compressed form, and with a pseudo-Mersenne modulus the sign of a decompressed point is not the encoded one.", "quantifier": "all points and all byte strings", "why_tests_cant": "unbounded", "anchors": ["src/ecp.rs: ECP::{tobytes,frombytes}"]}
{"id": "C51", "title": "Extension-field towers implement their field operations", "statement": "FP2, FP4 and FP12 add, multiply, square, invert and conjugate exactly as the quotient rings they represent, and inverse returns the multiplicative inverse of every non-zero element.", "quantifier": "all elements, all reduction states of their coefficients within the stated counters, all sequences of FP12 calls, every bundled curve of embedding degree 12 whose limbs leave 19 spare bits (all but 32-bit BLS461)", "why_tests_cant": "Karatsuba/Chung-Hasan formulas must hold identically", "anchors": ["src/fp2.rs", "src/fp4.rs", "src/fp12.rs"]}
{"id": "C52", "title": "New Hope polynomial packing round-trips", "statement": "Packing 1024 coefficients of 14 bits to 1792 bytes and unpacking returns the same coefficients, and compressed reconciliation data round-trips.", "quantifier": "all coefficient vectors below 2^14 and all compressed vectors below 8", "why_tests_cant": "2^14336 vectors", "anchors": ["src/nhs.rs: nhs_pack, nhs_unpack, pack, unpack, compress, decompress"]}
{"id": "C53", "title": "New Hope modular reduction is correct and bounded", "statement": "redc, nres, modmul, soft_reduce and hard reduction return the right residue modulo 12289 within their stated bounds for every 32-bit operand in range.", "quantifier": "all in-range 32-bit words", "why_tests_cant": "2^32 or 2^64 operand pairs", "anchors": ["src/nhs.rs: redc, nres, modmul, nabs, round"]}
{"id": "C54", "title": "New Hope key agreement succeeds for bounded noise", "statement": "If every accumulated noise coefficient stays below the decoding threshold, both parties derive the same 32-byte key bits.", "quantifier": "all keys and all noise vectors under the bound", "why_tests_cant": "noise vectors are 1024-dimensional", "anchors": ["src/nhs.rs: encode, decode, client, server_2, compress, decompress"]}
{"id": "C55", "title": "ROM constants are consistent", "statement": "For each bundled curve/field the Montgomery constant, R^2 mod p, excess bounds and generator/order constants satisfy the equations the arithmetic relies on.", "quantifier": "all bundled ROM files", "why_tests_cant": "a wrong digit may only matter for rare operands", "anchors": ["src/roms/"]}
{"id": "C56", "title": "AES modes are those of SP 800-38A", "statement": "ECB, CBC, CFB, OFB and CTR encryption of any sequence of buffers is the SP 800-38A mode over the FIPS-197 cipher (only the first unit bytes of a buffer are processed, the counter is IV, IV+1, ... little-endian modulo 2^128, so no counter block repeats within 2^128 blocks).", "quantifier": "all keys, IVs, unit sizes and block sequences", "why_tests_cant": "round-trip tests pass even if both directions share a wrong chaining rule", "anchors": ["src/aes.rs: AES::encrypt, AES::increment"]}
{"id": "C57", "title": "Ending an AES object erases its key", "statement": "After end() on an object that was initialised once, both key schedules and the chaining register are zero, for every key, mode and sequence of calls; an object re-initialised with a shorter key keeps round keys of the longer one.", "quantifier": "all keys, modes, IVs and call sequences", "why_tests_cant": "a leftover word depends on the history of the object", "anchors": ["src/aes.rs: AES::end, AES::init"]}
{"id": "C58", "title": "Points of the sextic twist form a group under ECP2 operations", "statement": "ECP2 add, dbl, sub, neg and mul give the group-law result for every pair of points of the twist, including equal, opposite and infinite ones; equals and is_infinity decide equality of points whatever the projective representatives; new_fp2s accepts exactly the solutions of the curve equation; the ROM generator is on the twist.", "quantifier": "all pairs of points, all projective representatives, all scalars, all bundled curves of embedding degree 12", "why_tests_cant": "a complete formula can fail on a thin set of special inputs; excess counters depend on the history of the operands", "anchors": ["src/ecp2.rs: ECP2::{add,dbl,sub,neg,mul,affine,equals,is_infinity,new_fp2s,new_fp2,generator}"]}
{"id": "C59", "title": "FP2 square roots and signs", "statement": "FP2::sqrt returns true exactly for squares with a non-zero imaginary part and then leaves a root; for real elements it returns true exactly for residues modulo p, although every real element is a square in FP2; on failure the value is zero. sgn0 is the RFC 9380 sign of every non-zero element.", "quantifier": "all elements of FP2 and all representatives", "why_tests_cant": "half of the field are squares; the case split depends on which of two candidates is a residue", "anchors": ["src/fp2.rs: FP2::sqrt, FP2::sgn0"]}
{"id": "C60", "title": "Points of Edwards curves form a group under ECP operations", "statement": "On the bundled twisted Edwards curves ECP add, dbl, sub, neg give the group-law result for every pair of points, mul, mul2, pinmul and cfp the corresponding multiples, equals and is_infinity decide equality of points whatever the projective representatives, and the group order annihilates the generator.", "quantifier": "all pairs of points, all projective representatives, all scalars with four spare bits, all bundled Edwards curves with a pseudo-Mersenne modulus", "why_tests_cant": "the unified formulas are exception-free only if d is a non-square; excess counters depend on the history of the operands", "anchors": ["src/ecp.rs: ECP::{add,dbl,sub,neg,mul,mul2,pinmul,cfp,affine,equals,is_infinity,generator} with CURVETYPE == EDWARDS", "src/roms/rom_ed25519_64.rs and other Edwards ROM files"]}
{"id": "C61", "title": "Edwards point construction and encoding", "statement": "new_bigs accepts exactly the solutions of the curve equation; frombytes of an uncompressed string gives exactly the encoded point or the neutral element, never an off-curve point; decoding and encoding give the same bytes back and encoding and decoding the same point; new_bigint gives a point with the requested abscissa exactly when there is one (other than the abscissae +-1/sqrt(a)).", "quantifier": "all byte strings, all points, all field elements", "why_tests_cant": "half of the abscissae are not on the curve; strings are too many to enumerate", "anchors": ["src/ecp.rs: ECP::{new_bigs,new_bigint,frombytes,tobytes,rhs} with CURVETYPE == EDWARDS"]}
{"id": "C62", "title": "Montgomery curves: the ladder, encodings and comparison", "statement": "On Curve25519 dbl and dadd give the abscissa of the group-law result, mul the abscissa of the multiple for every scalar and every point except the point (0,0) of order two (odd multiples of which come out as infinity); two parties multiplying each other's abscissae agree; new_big and frombytes accept exactly the abscissae of curve points that are not their own negative and give infinity otherwise; encoding and decoding round-trip; equals compares up to sign, except that the infinity made by new equals everything; the group order annihilates the generator.", "quantifier": "all points, all projective representatives, all scalars, all byte strings", "why_tests_cant": "the differential addition has exceptional inputs; half of the abscissae are on the twist", "anchors": ["src/ecp.rs: ECP::{dbl,dadd,mul,affine,equals,cfp,new_big,frombytes,tobytes,rhs,generator} with CURVETYPE == MONTGOMERY", "src/roms/rom_c25519_64.rs", "src/roms/rom_c25519_32.rs"]}
{"id": "C63", "title": "GLV and Galbraith-Scott multiplication compute multiples", "statement": "pair::g1mul and pair::g2mul return the multiple of the point by the scalar, for every scalar up to the group order: g1mul for every point of G1 killed by the order, g2mul for every multiple of the generator of G2, on every bundled curve of embedding degree 12.", "quantifier": "all scalars up to the group order, all points of the prime-order groups, all projective representatives", "why_tests_cant": "the decomposition into short scalars is correct only if the eigenvalues of the endomorphisms are the right ones and rounding never overflows; a wrong carry shows up for rare scalars", "anchors": ["src/pair.rs: glv, gs, g1mul, g2mul", "src/ecp2.rs: ECP2::mul4, ECP2::frob", "src/ecp.rs: ECP::mul2, ECP::cfp"]}
{"id": "C64", "title": "The subgroup checks of BLS12-381 are exact", "statement": "subgroup_check_g1 (subgroup_check_g2) returns true for a point of the curve (twist) exactly when the prime group order annihilates it; it never panics on a curve point.", "quantifier": "all points of the curve and of the twist over the field, all projective representatives", "why_tests_cant": "the points outside the subgroup have many possible small orders; a check by an endomorphism may accept some of them", "anchors": ["src/bls381/core.rs: subgroup_check_g1, subgroup_check_g2", "src/pair.rs: g1mul, g2mul"]}
{"id": "C65", "title": "Clearing the cofactor of BLS12-381 lands in the prime-order subgroup", "statement": "The curve and its twist have h1*r and h2*r points; multiplication by H_EFF_G1 = 1-x maps every curve point, and clear_cofactor every twist point, to a point annihilated by r; on the subgroup itself clear_cofactor is multiplication by a number prime to r.", "quantifier": "all points of the curve and the twist, all projective representatives", "why_tests_cant": "the kernel of the map must contain every cofactor component; only group orders show it", "anchors": ["src/ecp2.rs: ECP2::clear_cofactor", "src/bls381/core.rs: hash_to_curve_g1, hash_to_curve_g2"]}
{"id": "C66", "title": "The simplified SWU maps of BLS12-381 follow RFC 9380", "statement": "In the 64-bit build simplified_swu_fp returns, for every field element u, the abscissa that RFC 9380 6.6.2 prescribes and a square root of the right-hand side with the sign of u; simplified_swu_fp2 does the same, except that it panics exactly when the right-hand side at the prescribed abscissa is a real number that is not a square in the prime field (such inputs exist).", "quantifier": "all field elements, all their internal representations with excess one", "why_tests_cant": "the exceptional cases have negligible density; the code works on unnormalised sums whose limbs must not overflow", "anchors": ["src/hash_to_curve.rs: simplified_swu_fp, simplified_swu_fp2", "src/roms/rom_bls381_64.rs: SSWU constants"]}
{"id": "C67", "title": "map_to_curve_g1 and map_to_curve_g2 return the prescribed curve point", "statement": "In the 64-bit build map_to_curve_g1(u) is a point of the curve, namely the image under the 11-isogeny of RFC 9380 E.2 of the SWU point of u, unless that point lies in the kernel of the isogeny; then the result is (0:0:0), which is no point (such u exist; RFC 9380 asks for the neutral element). map_to_curve_g2(u) is the image under the 3-isogeny of E.3 of the SWU point, which is never in the kernel, or a panic where the SWU map panics.", "quantifier": "all field elements, all their internal representations with excess one", "why_tests_cant": "the isogeny is a rational map of degree 11 with 48 constants of 381 bits; the kernel is hit by five abscissae", "anchors": ["src/bls381/core.rs: map_to_curve_g1, map_to_curve_g2", "src/bls381/iso.rs: iso11_to_ecp, iso3_to_ecp2", "src/roms/rom_bls381_64.rs: ISO_11_*, ISO_3_* constants"]}
{"id": "C68", "title": "hash_to_curve_g1 and hash_to_curve_g2 compute RFC 9380's hash into the prime-order groups", "statement": "In the 64-bit build, for every message and tag, hash_to_curve_g1 and hash_to_curve_g2 return h_eff times the sum of the images of the two field elements made from expand_message_xmd, with the effective cofactors of RFC 9380 8.8.1 and 8.8.2 (clear_cofactor is multiplication by that number on the whole twist); the result is a curve point annihilated by the group order. hash_to_curve_g2 panics exactly when one of the two elements is one where map_to_curve_g2 panics; hash_to_curve_g1 is unspecified when one of the two elements maps into the kernel of the isogeny.", "quantifier": "all messages and domain separation tags", "why_tests_cant": "two random oracles, two maps with exceptional inputs and a cofactor with many prime factors; equality with the RFC's function is a statement about all messages", "anchors": ["src/bls381/core.rs: hash_to_curve_g1, hash_to_curve_g2", "src/hash_to_curve.rs: hash_to_field_fp, hash_to_field_fp2, expand_message_xmd", "src/ecp2.rs: ECP2::clear_cofactor"]}
{"id": "C69", "title": "Products of multi-precision numbers are exact", "statement": "FF::mul of two numbers of n digits and FF::sqr followed by norm give the product, in 2n canonical digits, for every power of two n the code uses.", "quantifier": "all canonical operands, the six RSA configurations (three sizes, two word sizes)", "why_tests_cant": "Karatsuba with lazy carries on up to 8 digits of 384 to 1024 bits; a lost carry needs a rare digit pattern", "anchors": ["src/ff.rs: FF::mul, FF::sqr, FF::karmul, FF::karsqr, FF::rnorm"]}
{"id": "C70", "title": "Remainders of multi-precision numbers", "statement": "FF::rmod and FF::dmod return the canonical remainder modulo any positive modulus, for any argument of the single and double length; the loops end.", "quantifier": "all arguments and moduli", "why_tests_cant": "as above", "anchors": ["src/ff.rs: FF::rmod, FF::dmod, FF::comp, FF::shl, FF::shr"]}
{"id": "C71", "title": "Montgomery arithmetic of multi-precision numbers", "statement": "FF::invmod2m inverts every odd number modulo the power of two; nres, modmul or modsqr, and redc with that constant give the canonical product modulo an odd modulus (a prime one if it has a single digit).", "quantifier": "all operands, all odd moduli above one", "why_tests_cant": "quadratically many carries; the single-digit branch returns the modulus instead of 0 in rare cases for composite moduli", "anchors": ["src/ff.rs: FF::invmod2m, FF::nres, FF::redc, FF::reduce, FF::modmul, FF::modsqr, FF::karmul_lower, FF::karmul_upper"]}
{"id": "C72", "title": "Modular exponentiation of multi-precision numbers", "statement": "FF::pow, FF::power (positive exponent), FF::pow2, FF::skpow and FF::skpows return the canonical x^e mod p (x^e y^f for pow2). For skpow and skpows with several digits the modulus must not lie in the top 1/P_FEXCESS of its range unless P_FEXCESS exceeds sixteen times the number of exponent bits.", "quantifier": "all bases, exponents and odd moduli as above", "why_tests_cant": "the excess of intermediate values depends on the whole history of the ladder; the problem cases need a modulus within 1/128 of the top", "anchors": ["src/ff.rs: FF::skpow, FF::skpows, FF::power, FF::pow, FF::pow2, FF::pexceed, FF::sexceed"]}
{"id": "C73", "title": "Modular inverse of multi-precision numbers", "statement": "FF::invmodp returns the inverse in canonical form for every non-zero argument coprime to an odd modulus; the loops end within twice the bit length.", "quantifier": "all arguments and odd moduli", "why_tests_cant": "binary Euclid: the path depends on every bit", "anchors": ["src/ff.rs: FF::invmodp"]}
{"id": "C74", "title": "Encodings, comparison and shifts of multi-precision numbers", "statement": "frombytes/tobytes are big-endian and inverse to each other; comp orders the numbers; shr halves, shl doubles, add and sub followed by norm are exact.", "quantifier": "all byte strings and numbers", "why_tests_cant": "carries across digits", "anchors": ["src/ff.rs: FF::frombytes, FF::tobytes, FF::comp, FF::shr, FF::shl, FF::add, FF::sub, FF::norm"]}
{"id": "C75", "title": "RSA decryption inverts encryption (RSA-3072 on 64-bit and RSA-4096 on 32-bit words)", "statement": "The same as for the other RSA configurations.", "quantifier": "all primes in range, exponents, message blocks", "why_tests_cant": "the headroom above a digit is only 7 or 9 bits, so the excess of the intermediate values matters", "anchors": ["src/rsa.rs: key_pair, encrypt, decrypt", "src/ff.rs: FF::skpow, FF::modmul"]}
{"id": "C76", "title": "Powers in the cyclotomic subgroup", "statement": "FP12::pow raises every element x with x^(p^4-p^2+1) = 1 to every positive exponent e with 3e within the range of Big, and returns the fully reduced power; exponent 0 makes it panic (the index nb-1 underflows).", "quantifier": "all cyclotomic elements in any lazily reduced form with counters up to 2800, all exponents; the seven 64-bit and five of the 32-bit curves of embedding degree 12", "why_tests_cant": "the lazy-reduction counters of the running element grow with each negative digit of the recoded exponent, so the overflow question depends on the whole exponent", "anchors": ["src/fp12.rs: FP12::pow, FP12::usqr, FP12::conj, FP12::mul"]}
{"id": "C77", "title": "Product of four powers in the cyclotomic subgroup", "statement": "FP12::pow4 returns the fully reduced product of the four powers, for every four cyclotomic elements and every four exponents below the range of Big minus one; no index leaves its table.", "quantifier": "all elements and exponents, as above", "why_tests_cant": "joint recoding of four exponents; table of eight products; constant-time selection", "anchors": ["src/fp12.rs: FP12::pow4, FP12::select, FP12::cmove"]}
{"id": "C78", "title": "Small powers in the cyclotomic subgroup", "statement": "FP12::pinpow raises to every exponent that fits the stated number of bits, including 0.", "quantifier": "all cyclotomic elements, exponents below 2^31, bit counts up to 32", "why_tests_cant": "ladder over the bits of the exponent", "anchors": ["src/fp12.rs: FP12::pinpow"]}
{"id": "C79", "title": "Exponentiation in the target group", "statement": "pair::gtpow raises every fully reduced element of the group of order r to every exponent up to r, and returns a fully reduced result.", "quantifier": "all elements of the target group, all exponents up to the group order", "why_tests_cant": "decomposition of the exponent along the Frobenius map, signs, and the four-fold exponentiation", "anchors": ["src/pair.rs: gtpow, gs", "src/fp12.rs: FP12::pow4, FP12::frob"]}
{"id": "C80", "title": "Final exponentiation", "statement": "pair::fexp returns, for every non-zero m, the fully reduced m^(c(p^12-1)/r) with c = 1 on BN curves and c = 3 on BLS curves; it never panics.", "quantifier": "all non-zero elements", "why_tests_cant": "a chain of some thirty operations whose exponent identity must hold modulo p^4-p^2+1 for each curve, and whose lazy-reduction counters must never overflow", "anchors": ["src/pair.rs: fexp"]}
{"id": "C81", "title": "The final exponentiation is a homomorphism onto the target group", "statement": "The results of fexp have order dividing r; fexp of a product is the product; it kills every factor of the subfield of degree six; the result passes isunity exactly when m^((p^12-1)/r) = 1; it is not constant; gtpow of a result raises it to the given power.", "quantifier": "all non-zero elements, all exponents up to the group order", "why_tests_cant": "statement about all pairs of field elements", "anchors": ["src/pair.rs: fexp, gtpow", "src/fp12.rs: FP12::isunity"]}
{"id": "C82", "title": "Encoding of target group elements", "statement": "FP12::tobytes of a fully reduced element writes its twelve coefficients big-endian and leaves the rest of the buffer alone; frombytes inverts it, whatever follows; tobytes after frombytes reproduces the bytes if every block is below the modulus; the encoding is injective; both panic on less than twelve blocks.", "quantifier": "all elements, all byte strings", "why_tests_cant": "p^12 elements", "anchors": ["src/fp12.rs: FP12::tobytes, FP12::frombytes"]}
{"id": "C83", "title": "Encoding of points of the twist", "statement": "ECP2::tobytes of a finite point writes its four affine coefficients big-endian and leaves the rest of the buffer alone; frombytes gives the point back, whatever follows; four numbers below the modulus that are not on the twist decode to the point at infinity; both panic on less than four blocks.", "quantifier": "all points and all byte strings", "why_tests_cant": "about p^2 points, every representation with lazy-reduction slack", "anchors": ["src/ecp2.rs: ECP2::tobytes, ECP2::frombytes"]}
{"id": "C84", "title": "Diffie-Hellman on Weierstrass and Edwards curves with a pseudo-Mersenne modulus", "statement": "key_pair_generate stores the secret reduced modulo the order and the uncompressed encoding of that multiple of the generator; ecpsvdp_dh returns the first coordinate of the product, or an error exactly when the peer string with tag 4 encodes no point or the product is neutral; both parties obtain the same bytes; public_key_validate returns 0 exactly for points whose multiple by the cofactor is not neutral, in particular for generated keys.  (As long as the point ECP::mul computes prints coordinates below the modulus, which it does whenever it had to be divided by its third coordinate.)", "quantifier": "all secrets, all peer strings with tag 4, all generator states, all bundled curves of these forms", "why_tests_cant": "two scalars of 256 bits or more", "anchors": ["src/ecdh.rs: key_pair_generate, public_key_validate, ecpsvdp_dh", "src/ecp.rs: ECP::getx, ECP::affine"]}
{"id": "C85", "title": "ECDSA on Weierstrass and Edwards curves with a pseudo-Mersenne modulus", "statement": "ecpsp_dsa returns a pair (c, d) with c the first coordinate of u G modulo the order, d u = e + s c, both in range and non-zero, where u is the generator's number of some pass; verification accepts exactly the pairs satisfying the equation for some nonce, refuses components out of range and strings which are no points.  (Same proviso on printed coordinates as for Diffie-Hellman.)", "quantifier": "all secrets, messages, generator states, signatures", "why_tests_cant": "keys, nonces and messages range over astronomically many values", "anchors": ["src/ecdh.rs: ecpsp_dsa, ecpvp_dsa"]}
{"id": "C86", "title": "Diffie-Hellman on Montgomery curves", "statement": "On C25519 a public key is the byte 6 and the abscissa of the secret multiple of the generator; ecpsvdp_dh returns the abscissa of the product for every abscissa of the curve, and an error for abscissae of the twist, numbers not below the modulus, the point of order two and points annihilated by the secret; both parties agree; public_key_validate accepts exactly the points not annihilated by the cofactor.  (Same proviso on printed coordinates.)", "quantifier": "all secrets, all peer strings", "why_tests_cant": "two scalars of 252 bits", "anchors": ["src/ecdh.rs: key_pair_generate, public_key_validate, ecpsvdp_dh", "src/ecp.rs: ECP::mul, ECP::frombytes, ECP::tobytes (MONTGOMERY)"]}
{"id": "C87", "title": "M-Pin hashing of identities", "statement": "hash_id writes the SHA-2 digest of the identity, cut to the length of a field element or padded with zeros on the left, at the start of the buffer, and leaves the rest; an unknown hash length is reported by the result and writes zeros.", "quantifier": "all identities, buffers and hash lengths", "why_tests_cant": "the identity is unbounded", "anchors": ["src/mpin.rs: hashit, hash_id"]}
{"id": "C88", "title": "M-Pin maps hashed identities into the prime-order group", "statement": "The point of a hashed identity is the cofactor times the point with even ordinate at the first abscissa v, v+1, ... for which this is a finite point; it is unique and is killed by the order.", "quantifier": "all hash values, all numbers of trials before the abscissa wraps around", "why_tests_cant": "the search has no fixed length, and the field has 2^254 elements or more", "anchors": ["src/ecp.rs: ECP::mapit, ECP::new_bigint, ECP::cfp"]}
{"id": "C89", "title": "M-Pin secrets and their recombination", "statement": "get_server_secret writes the encoding of s Q; get_client_secret and get_client_permit the encoding of s times the point of the hashed identity (with the date); get_g1_multiple multiplies a decoded or hashed point; recombine_g1 and recombine_g2 add decoded points and refuse other strings; secrets issued by two authorities recombine to the secret of the sum of the master secrets.", "quantifier": "all master secrets up to the order, all identities, dates, strings", "why_tests_cant": "secrets and identities range over astronomically many values", "anchors": ["src/mpin.rs: random_generate, get_server_secret, get_g1_multiple, get_client_secret, get_client_permit, recombine_g1, recombine_g2"]}
{"id": "C90", "title": "M-Pin factor extraction and restoration are inverse", "statement": "extract_factor and extract_pin replace the token T by T - k H with k the masked factor and H the point of the identity, restore_factor adds it back, and restoring what was extracted gives the identical buffer; strings which are no points are refused and left unchanged.", "quantifier": "all tokens, identities, factors and bit counts", "why_tests_cant": "tokens range over a group of 2^254 elements or more", "anchors": ["src/mpin.rs: extract_factor, extract_pin, restore_factor"]}
{"id": "C91", "title": "M-Pin authentication accepts exactly the right PIN", "statement": "From setup through registration to log-in, with and without a time permit, every step succeeds and server_2 returns 0 exactly when the PIN typed equals the PIN extracted modulo 10000, and the wrong-PIN code otherwise; server_2 refuses strings which are no points.", "quantifier": "all master secrets, identities, dates, random commitments and challenges (up to the exceptional multiples of the order), all PINs", "why_tests_cant": "the completeness statement ranges over five group elements", "anchors": ["src/mpin.rs: client_1, server_1, client_2, get_y, server_2"]}
{"id": "C92", "title": "Bundled curves have exactly as many points as their ROM files state", "statement": "On a bundled Weierstrass curve with cofactor 1 the number of points equals the stated order, so that every decoded point is a multiple of the generator and no subgroup check is needed; on the pairing-friendly curves of embedding degree 12 the number of points is the order times the cofactor.", "quantifier": "all points of the curves", "why_tests_cant": "no test can enumerate 2^254 points", "anchors": ["src/roms/*: CURVE_ORDER, CURVE_COF", "src/ecp.rs: ECP::frombytes"]}
{"id": "C93", "title": "Miller loops: double and multiple pairings are products of single ones", "statement": "On every pair of points of the twist and the curve, ate returns without failing and within the bounds of the other operations; ate2 returns the product of the two values of ate; the multi-pairing initmp / another / miller over any list of pairs (of any length) returns the product of the values of ate; the final exponentiation of that product is the product of the final exponentiations and isunity decides whether it is 1.", "quantifier": "all points, all lists of pairs", "why_tests_cant": "the shared squarings and merged sparse lines make the double loop a different computation from two single loops; equality must hold for all points", "anchors": ["src/pair.rs: ate, ate2, initmp, another, miller, linedbl, lineadd, lbits", "src/fp12.rs: smul, ssmul"]}
{"id": "C94", "title": "The pairing computed is the optimal ate pairing", "statement": "ate followed by fexp returns, on points of the two groups of order r (not both infinity), the optimal ate pairing defined by Miller's algorithm with affine lines on a signed binary expansion of the loop parameter (|u| for BLS, |6u+2| with two further Frobenius lines for BN) raised to c(p^12-1)/r; ate2 and the multi-pairing give the products, and isunity decides whether a product of pairings is 1; every value has order dividing r.", "quantifier": "all pairs of points of the two groups, including infinity in one place, in any projective representation; all lists of pairs", "why_tests_cant": "projective line coefficients differ from the affine ones by factors that only the final exponentiation removes; a test on a few points cannot show the factors always vanish", "anchors": ["src/pair.rs: ate, ate2, initmp, another, miller, fexp, linedbl, lineadd"]}
{"id": "C95", "title": "The pairing is bilinear", "statement": "There is a function e on pairs of points, computed by ate followed by fexp on points of the two groups of order r in any projective representation, with e(S+S',U) = e(S,U) e(S',U), e(S,U+U') = e(S,U) e(S,U'), e(aS,bU) = e(S,U)^(ab) and e(S,U)^r = 1.", "quantifier": "all points of the two groups and all scalars, on every bundled curve of embedding degree 12", "why_tests_cant": "bilinearity is an identity between the products of lines of three different Miller loops; tests sample a vanishing fraction of the points", "anchors": ["src/pair.rs: ate, fexp, linedbl, lineadd"]}
{"id": "C96", "title": "The pairing is not degenerate", "statement": "With G the generator of the second group in the ROM file, ate followed by fexp on (kG, U), in any projective representation, returns one exactly when kG or U is the point at infinity; so does isunity.", "quantifier": "all multiples of the generator and all points of the group of order r of the first curve, on every bundled curve of embedding degree 12", "why_tests_cant": "a degenerate pairing makes every signature and every PIN valid; that it is trivial on no pair of points cannot be sampled", "anchors": ["src/pair.rs: ate, fexp", "src/fp12.rs: isunity"]}
