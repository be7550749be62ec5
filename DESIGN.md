# Formal model of incubator-milagro-crypto-rust (AMCL, grandinetech fork) in Lean 4

## Layout

* `properties.jsonl` – the properties, in terms of the API.
* `lean/Verif/Spec/*.lean` – independent specifications (FIPS / RFC / plain integer and field arithmetic / Mathlib's curves), written without the model's helpers.
* `lean/Verif/<Area>/Model.lean` (and neighbours that say "Model of …") – executable model of the Rust code; each definition cites file and lines in `/repo/src`.
* other files under `lean/Verif/<Area>/` – helper lemmas and proofs.
* `lean/Verif/Props/<Area>.lean` – the property theorems (names `Cnn_…`), with an `example` or a companion theorem showing a concrete, non-trivial case meeting the hypotheses.
* `MANIFEST.json` – property → theorems, status.
* `seeded/LOG.jsonl` – mutation experiments against the model.

## Trusted base

* Lean 4.33.0's kernel. Axioms: only `propext`, `Classical.choice`, `Quot.sound` (what Lean core and Mathlib use); no own axioms, no compiled evaluation.
* The reading of the Rust source by a human-style translation: nothing was compiled or run. Every definition cites the lines it models.
* Rust semantics assumed: fixed-width two's-complement integers; *release-mode* arithmetic (wrapping) unless a definition says otherwise. Where the bit-exact model is used (`BitVec`), theorems conclude the exact integer result, so under their hypotheses the debug build does not panic on overflow either.  Array indexing out of bounds is a panic; it is either modelled (`Option`, `none` = panic) or excluded by a stated length hypothesis.
* Not modelled: memory zeroisation, timing/constant-time behaviour, `Display`/`Debug` formatting, the host OS.

## Modelling conventions

* `&mut self` functions return the new value. Loops become folds/structural recursion, or well-founded/fuel recursion where the Rust loop is data dependent (then termination is part of what is proved).
* `Chunk` = `BitVec C` (C = 32 or 64, generic), `DChunk` = `BitVec (2*C)`; limb arrays are lists.
* Hash/cipher words: `BitVec 32` / `BitVec 64`; bytes `BitVec 8` / `UInt8`.

## Per-property plan

| Prop | Modelled | Proof |
|---|---|---|
| C01–C15 | `big.rs`, `dbig.rs` bit-exact on limb lists, generic in C, BASEBITS and NLEN | value function `val : List (BitVec C) → Int`; each op is proved to commute with `val`; loops by induction / termination measure; `jacobi` against Mathlib's `jacobiSym` |
| C16–C17 | `fp.rs` on top of Big, with the excess counter | invariant `0 ≤ x < xes·p` kept by each op; residue in `ZMod p` |
| C18–C21 | `hash256.rs`, `hash384.rs`, `hash512.rs` bit-exact | spec: FIPS 180-4 padding + block fold; invariant relating streaming state to consumed prefix; HMAC/HKDF against RFC text |
| C22 | `sha3.rs` | spec: FIPS 202 sponge; keccak-f against step maps θ ρ π χ ι |
| C23 | `rand.rs` | state machine; determinism as equality of streams for all histories |
| C24–C26 | `aes.rs` | T-tables vs FIPS-197 by whole-table kernel evaluation and linearity; inverse by round cancellation; modes by induction on the block list |
| C27–C30 | `gcm.rs` | state machine, invariant; `gf2mul` against carry-less multiplication |
| C31–C36 | `ecdh.rs` symmetric part | byte-list refinement to RFC formulae; deviations proved as negations with witnesses |
| C37–C38 | `ecdh.rs` public-key part | bit-exact model over the Weierstrass model of `ecp.rs`; scalars in `ZMod r`, points in Mathlib's group; order facts of the generator from C55 |
| C39–C42 | `rsa.rs` | byte-list model; CRT in `ZMod` |
| C43–C47 | `bls381/*`, `hash_to_curve.rs` | byte codecs over the field/curve; protocol logic over an abstract bilinear pairing (the pairing is a parameter, its bilinearity a hypothesis, `PairOk`); `C45_real64/32` (Props/BlsPair.lean) take the multi-pairing of `pair.rs` and derive `PairOk` from C94–C96 |
| C48–C51 | `ecp.rs`, `fp2.rs`, `fp4.rs`, `fp12.rs` | formulas over an arbitrary field; group law from Mathlib's Weierstrass curves |
| C58 | `ecp2.rs` | as C48, over `Z/p[i]`; no point of order two by a cubic-residue test on the norm |
| C60 | `ecp.rs`, Edwards | affine Edwards group law proved associative from scratch (complete: a square, d not); projective formulas evaluated and compared |
| C61 | `ecp.rs`, Edwards codecs | as C50 |
| C62 | `ecp.rs`, Montgomery | abscissae of Mathlib's group law on `y² = x³ + Ax² + x`; doubling and differential addition identities; ladder by induction on the bits |
| C63 | `pair.rs` glv, gs, g1mul, g2mul; `ecp2.rs` mul4, frob | eigenvalue of the endomorphisms on the whole torsion; the decomposition is exact modulo the order; window methods as in C48 |
| C64 | `bls381/core.rs` subgroup checks | the check evaluates an explicit polynomial in the endomorphism; its norm and the group order have gcd r |
| C65 | `ecp2.rs` clear_cofactor | group orders from explicit torsion points and the point-count bound; the map kills generators of the group |
| C66 | `hash_to_curve.rs` simplified_swu_fp/fp2 | abstract SWU theory over a field (`SswuTheory`), limb bounds of unnormalised operands (`Wide`), the exceptional denominators and the missed square roots treated exactly |
| C67 | `iso.rs`, map_to_curve_g1/g2 | Horner evaluation on limbs = polynomial evaluation; the isogeny identity is a polynomial identity checked on coefficient lists by the kernel (`IsoCert`), the kernel polynomial's roots and their right-hand sides likewise |
| C68 | hash_to_curve_g1/g2, hash_to_field | composition of C47, C67, the group law and C65; clear_cofactor = h_eff on all of the twist by eigenvalues on the subgroup and coprimality |
| C41, C75 | `rsa.rs` key_pair (after the primes), encrypt, decrypt on `ff.rs` numbers | composition of C70–C74 with the CRT argument on integers (`decrypt_core`); the headroom condition `Room` is discharged for four of six configurations |
| C69 | `ff.rs` karmul, karsqr, rnorm | induction on the number of digits with an explicit excess budget per digit (`FRep`, Spec/Ff.lean) |
| C70 | rmod, dmod | loop invariants with fuel; the theorems give the sufficient fuel |
| C71 | invmod2m, reduce, nres, redc, modmul, modsqr | Newton step modulo 2^(R·i); Montgomery context `MCtx`/`MArith` tracks value and excess |
| C72 | skpow, skpows, power, pow, pow2 | ladder invariant with excess growing along zero runs |
| C73 | invmodp | binary Euclid invariant and decreasing bit length |
| C74 | codecs, comp, shifts, add/sub | digit-list induction |
| C76–C79 | `fp12.rs` pow, pow4, pinpow, select, cmove; `pair.rs` gtpow | invariant of each loop over the exponent digits, in the group of units; the counters of the running element by an abstract interpretation that separates the components `conj` negates (`Gt/Slack.lean`) |
| C80, C81 | `pair.rs` fexp | each step is an integer power of the easy part (`Wp`); the resulting exponent polynomial is compared with c(p^4-p^2+1)/r modulo p^4-p^2+1 by kernel evaluation for each curve |
| C82 | `fp12.rs` tobytes, frombytes | block decomposition of the byte string; canonical form of reduced components |
| C83 | `ecp2.rs` tobytes, frombytes | as C82, with the affine form of C43 |
| C84, C85 | `ecdh.rs` public-key part on pseudo-Mersenne moduli | one proof over an abstract group with coordinates (`Form`, `FormOk` in `Spec/DhGen.lean`), instantiated with Mathlib's Weierstrass group (C48) and the Edwards group (C60); the program prints a coordinate without reducing it when Z ≡ 1, so reduction is a hypothesis (`RedMul`), shown for Z ≢ 1 |
| C86 | `ecdh.rs` key generation, validation, Diffie-Hellman on Montgomery curves | the ladder of C62; points up to sign |
| C87-C90 | `mpin.rs` hashing, secrets, recombination, factors | each function over the models of `ecp.rs`, `ecp2.rs`, `pair.rs` (`g1mul`, `g2mul`); group law of C48, C58, multiplication of C63, encodings of C37, C83; `mapit` as a bounded search, whose bound is the number of trials before the abscissa wraps around |
| C91 | `mpin.rs` `client_1`, `server_1`, `client_2`, `get_y`, `server_2` | algebra in the group of order r; the pairing test of `server_2` is first a parameter with the hypothesis `AteOk` (the `_partial` theorems); `C91_mpin64/32` take the pairing of `pair.rs` and derive `AteOk` from C95, C96 |
| C92 | group orders | r divides the number of points, which is odd (no point of order two) and at most 2(p+1); for the BLS curves the prime factors of the cofactor are certified by points of that order and their images under the curve's automorphism of order three |
| C93 | Miller loops | one round of each loop multiplies the accumulator by the value of the line; induction over the digits of the loop parameter, with the bounds of the tower operations as invariant; the shared loop and the stored products of the multi-pairing are the products of the single ones |
| C94 | pairing value | each projective line is the affine line of Spec/Ate.lean times a factor the easy part of the exponent removes; no round meets an exceptional case because the multiples involved are not divisible by r (checked per ROM file); points with x = 0 have order three |
| C95 | bilinearity | for three pairs with S+S'+S''=0 (same U), or with U, U', U'' on a line (same S), the product of the lines of each round is Phi(m)^2/Phi(2m), Phi(a)Phi(b)/Phi(a+b) for one function Phi: a line through mS, mS' (nine points of two cubics, by unique factorisation of ideals of the coordinate ring) resp. the line through U, U' at the point mS (reciprocity of two lines); the loop telescopes to Phi(1)^m/Phi(m), which is 1 as the loop parameter is a polynomial in p modulo r and Phi(pa) = Phi(a)^p |
| C96 | non-degeneracy | the group of order r of the first curve is cyclic (r^2 does not divide the number of points), so by bilinearity one value other than one is enough: that of the two generators of the ROM file, computed in the kernel on residues (Bilin/NonDegN.lean; Bilin/NonDeg.lean shows the computation equal to the pairing up to the factors the final exponentiation removes; the ROM files are fixed, the points quantified over are not enumerated) |
| C59 | `fp2.rs` sqrt, sgn0 | case split on the norm and on which of the two candidates is a residue |
| C52–C54 | `nhs.rs` | bit-level packing, interval arithmetic for reductions, error-tolerance lemma |
| C55 | `roms/*` | kernel evaluation of the defining equations of the constants; primality of every modulus and order by Pocklington and elliptic-curve (Goldwasser–Kilian/Atkin–Morain) certificates whose soundness is proved in `Common/{Pocklington,Ecpp}.lean` |


## What is modelled, area by area

| Area | Code modelled (bit-exact unless said otherwise) | Not modelled |
|---|---|---|
| `Big/` | `big.rs`, `dbig.rs`: all arithmetic, shifts, comparison, byte codecs, modular operations, Jacobi symbol, both chunk sizes | `Display`, `tostring` |
| `Fp/` | `fp.rs`: all operations incl. excess counters, Montgomery, pseudo-Mersenne and Goldilocks reduction, `fpow` addition chain, `sqrt` for p = 3 mod 4 and p = 5 mod 8 | the Montgomery-friendly reduction (modelled, used by no ROM file), `rand`, string formatting |
| `Rom/` | all 51 curve ROM files, literally (generated from the source text) | the pairing-only constants (Frobenius, BNU, …) |
| `Ecp/`, `Prog/` | `ecp.rs` for Weierstrass curves: `add`, `dbl`, `neg`, `affine`, `equals`, `mul`, `mul2`, `pinmul`, codecs.  The straight-line field code of `add`/`dbl` is translated instruction by instruction and interpreted with the excess counters (`Prog/`).  `Edwards/`, `Montgomery/`: the other two branches | — |
| `Tower/` | `fp2.rs`, `fp4.rs` (but XTR), with `FP2::sqrt` and `sgn0`, `fp12.rs` (products, sparse products, squares, inverse, conjugate, Frobenius, trace, comparisons): the straight-line bodies are the Rust statements, executed over abstract counters and over the ring | hex/strings, `pow*`, `compow` |
| `Ecp2/` | `ecp2.rs`: constructors, `add`, `dbl`, `sub`, `neg`, `affine`, `equals`, `mul`, `generator`, for M- and D-type twists; the straight-line bodies are the Rust statements over `FP2` | `mapit`, strings |
| `Pair/` | `pair.rs`: `glv`, `gs`, `g1mul`, `g2mul`; `ecp2.rs`: `mul4`, `frob`, `clear_cofactor`; `core.rs`: subgroup checks; with the pairing constants of the ROM files | `ate`, `miller` |
| `Gt/` | `fp12.rs`: `pow`, `pow4`, `pinpow`, `select`, `cmove`, `tobytes`, `frombytes`; `pair.rs`: `fexp`, `gtpow` (curves of embedding degree 12) | `powinv`, `xtr_*`, `compow` |
| `Ate/` | `pair.rs`: `linedbl`, `lineadd`, `lbits`, `ate`, `ate2`, `initmp`, `another`, `miller`; `fp12.rs`: `smul`, `ssmul` on the sparse types these produce | curves of embedding degree 24 and 48 |
| `Sha2/`, `Sha3/` | `hash256.rs`, `hash384.rs`, `hash512.rs`, `sha3.rs`, HMAC and HKDF of `hmac.rs` | |
| `Aes/`, `Gcm/` | `aes.rs`, `gcm.rs` | |
| `Ecdh/` | all of `ecdh.rs`: kdf2, pbkdf2, hmac, cbc, ecies; key generation, validation and Diffie-Hellman over Weierstrass, Edwards and Montgomery curves, ECDSA over Weierstrass and Edwards curves | the curve over 2^384-317 on 32-bit words; Goldilocks (generalised Mersenne modulus) |
| `Mpin/` | `mpin.rs`: hashing, secrets, recombination, factor extraction, `client_1`, `client_2`, `server_1`, `server_2`, `get_y`; `ECP::mapit`. The pairing test of `server_2` is a parameter | `encoding`, `decoding`, `precompute`, `kangaroo`, `hash_all`, `client_key`, `server_key`, `today`, `get_time` |
| `Rsa/` | `rsa.rs` encodings; `encrypt`/`decrypt`/`key_pair` over the integers (`Model`) and on `ff.rs` numbers (`FfModel`) | the choice of the primes |
| `Ff/` | `ff.rs`: all arithmetic, `skpow`, `skpows`, `power`, `pow`, `pow2`, `invmodp`, codecs | `random`, `randomnum`, `cfactor`, `prime`, `tostring` |
| `Rand/` | `rand.rs` | |
| `Nhs/` | `nhs.rs` completely; the random source is a parameter | |
| `Bls/` | `hash_to_curve.rs` and `bls381/iso.rs` completely (theorems for the 64-bit ROM; in the 32-bit one the worst-case limb product of `iso3_to_ecp2` may exceed the double word, 1.02·2^63 by our bound, so C66-C68 are not claimed there); `map_to_curve_*`, `hash_to_curve_*`; `bls381/core.rs`: secret keys, `key_generate`, G1 and G2 encodings; all signature schemes (`core.rs`, `basic.rs`, `message_augmentation.rs`, `proof_of_possession.rs`) over a record of point and pairing operations (`Bls/Scheme.lean`), specified by `BackendOk` in `Spec/BlsScheme.lean`; the record is filled with the modelled point code of BLS12-381 in `Bls/ModelReal.lean`, and `Spec/BlsReal.lean` states what is then assumed of the pairing test (`PairOk`) | the pairing (`miller`, `another`, `fexp`) |

## Deviations of the code found while proving (all proved as theorems unless marked *)

* `ecies_decrypt` accepts any message whose tag has length 0–3 and panics on tags above 32 bytes; `pbkdf2` and `kdf1` deviate from their RFCs (Props/Ecdh).
* `rsa.rs`: PKCS#1 v1.5 length check off by one; OAEP decoding returns length 0 both for failure and for the empty message; short buffers panic (Props/Rsa).
* `ecp.rs`: the compressed encoding of infinity decodes to a finite point; on plain-form moduli the sign bit is not that of the canonical coordinate; `frombytes` panics on short strings; `mul` panics on full-length scalars (Props/Ecp).
* `fp.rs`: `nums384e/w` with 32-bit chunks overflow in `modulo`; the Goldilocks `modulo` overflows a word (`carry << (224 % BASEBITS)`) for lazily accumulated operands that FEXCESS allows; `imul` by 0 breaks the excess invariant; `redc` of the representative p returns p (Props/Fp).
* `roms/rom_fp512bn_32.rs` is inconsistent; a `MOD8` constant is wrong (Props/Rom).
* `big.rs`: `invmod2m` returns values above the modulus; `modneg(0) = m`; shifts panic for large counts (Props/Big).
* `aes.rs`: `end` clears only the words of the current key size, so re-initialising with a shorter key leaves round keys of the longer one (C57_end_reinit).
* `bls381/core.rs`: `deserialize_g2` refuses the compressed encodings of points with a purely imaginary ordinate (because `FP2::sqrt` misses roots of non-residues of Z/p), and `serialize_g2` loses the sign of real ordinates (C44_g2_imaginary, C44_g2_sign_lost).
* `rand.rs`: an empty seed does not reset the generator (Props/Rand).
* `proof_of_possession.rs`: `fast_aggregate_verify` parses its first key in another format than the other keys and panics on the keys the library prints (C46_fast_panics); `message_augmentation.rs`: `aggregate_verify` panics when there are more messages than keys (C46_aug_panics).
* `proof_of_possession.rs`: `fast_aggregate_verify` makes no subgroup checks, neither of the keys nor of the signature.
* `core.rs`: the public key at infinity is not refused; it accepts the signature at infinity on every message (C46_identity64, C46_identity32).  `pair.rs`: on a pair of two points at infinity `lineadd` returns zero, so the product of pairings is zero and no test succeeds; `PairOk` excludes such pairs.
* `hash_to_curve.rs`: `simplified_swu_fp2`, hence `map_to_curve_g2` and `hash_to_curve_g2`, panics when the right-hand side at the chosen abscissa is a real non-residue (C66_sswu_fp2, C67_map_g2 exhibit such an input); `map_to_curve_g1` returns (0:0:0), which is no point, on inputs that reach the kernel of the 11-isogeny (C67_map_g1 exhibits one).
* `ff.rs`*: `modmul` reduces only one factor when the excesses are too large, so along a run of zero exponent bits `skpow` can push the other factor beyond its headroom when the modulus lies within 1/P_FEXCESS of the top of its range (RSA-3072 on 64-bit, RSA-4096 on 32-bit words: the missing part of C75); `power` with exponent 0 returns x/R and with a negative exponent loops for ever; the one-digit `redc` may return p instead of 0 for composite moduli.
* `rsa.rs`: `key_pair` does not check p ≠ q; with equal primes decryption is wrong (C41_equal_primes).
* `fp12.rs`: `pow` with exponent 0 panics in debug builds and indexes out of range otherwise (`nb - 1` underflows; C76_pow64, C76_pow32 state it as a refusal). `pow`, `pow4` and `pinpow` square with `usqr`, so they compute powers of cyclotomic elements only; the documentation does not say so.*  `tobytes` of an element that was not reduced prints a zero component as p when it is held as a multiple of p (hence the hypothesis of C82).*
* `pair.rs`: on BLS curves `fexp` raises to 3(p^12-1)/r, not to (p^12-1)/r (C80_fexp64); this changes the value of the pairing but none of its uses (C81).
* `ecp2.rs`*: `frombytes` does not refuse blocks that are not below the modulus; `tobytes` of the point at infinity prints its raw coordinates, which decode to a point only by accident (C83 speaks about finite points).
* `ecp.rs`*: with a plain (pseudo-Mersenne) modulus `getx`, `gety` and `tobytes` print the representative a coordinate happens to have when Z ≡ 1 already, which need not be below the modulus; on moduli that fill all their bytes it would even be truncated.  `affine` reduces only after a division.  C84-C86 carry the condition as a hypothesis.
* `mpin.rs`*: the result of `hashit` is ignored by all callers but `hash_id`, so with an unknown hash length every identity is mapped to the same point; `client_1` with a date but without a permit adds the PIN multiple twice; a negative PIN is reduced by the remainder of a negative number and used with its low bits; `server_2` makes no subgroup checks.
