import Verif.Spec.Sha2
/-
Model of `src/hash256.rs`, `src/hash384.rs`, `src/hash512.rs`.
The three files are textually the same up to word type, block size, number of rounds, rotation
amounts, initial values, round constants and digest length; the model is one set of definitions over
those parameters (`Params`), instantiated three times.
-/
namespace Verif.Sha2

open Spec (Byte)  -- `u8` as `BitVec 8`

/-- The places where the three source files differ.  `w` is the width of the word type. -/
structure Params (w : Nat) where
  /-- number of entries of the `w` array = number of rounds (hash256.rs:52,88,102; hash512.rs:124,161,175) -/
  rounds : Nat
  /-- digest length `HASH_BYTES` (hash256.rs:43, hash384.rs:115, hash512.rs:115) -/
  hashBytes : Nat
  /-- rotation amounts of `sig0` (hash256.rs:70-72, hash384.rs:143-145, hash512.rs:143-145) -/
  sig0 : Nat × Nat × Nat
  /-- rotation amounts of `sig1` (hash256.rs:74-76, hash512.rs:147-149) -/
  sig1 : Nat × Nat × Nat
  /-- rotation/shift amounts of `theta0` (hash256.rs:78-80, hash512.rs:151-153) -/
  theta0 : Nat × Nat × Nat
  /-- rotation/shift amounts of `theta1` (hash256.rs:82-84, hash512.rs:155-157) -/
  theta1 : Nat × Nat × Nat
  /-- initial values `HASHxxx_H0 … H7` -/
  iv : List (BitVec w)
  /-- round constants `HASHxxx_K` -/
  k : List (BitVec w)

/-- bytes per word -/
def wordBytes (w : Nat) : Nat := w / 8
/-- `BLOCK_SIZE` in bytes: 64 for 32-bit words (hash256.rs:41), 128 for 64-bit words (hash512.rs:113) -/
def blockBytes (w : Nat) : Nat := 16 * wordBytes w

/-- `struct HASHxxx` (hash256.rs:49-53, hash384.rs:121-125, hash512.rs:121-125) -/
structure St (w : Nat) where
  length0 : BitVec w
  length1 : BitVec w
  h : List (BitVec w)
  w : List (BitVec w)
deriving DecidableEq

variable {w : Nat}

/-- `fn s` – rotate right (hash256.rs:56-58) -/
def s (n : Nat) (x : BitVec w) : BitVec w := (x >>> n) ||| (x <<< (w - n))
/-- `fn r` – shift right (hash256.rs:59-61) -/
def r (n : Nat) (x : BitVec w) : BitVec w := x >>> n
/-- `fn ch` (hash256.rs:63-65) -/
def ch (x y z : BitVec w) : BitVec w := (x &&& y) ^^^ (~~~x &&& z)
/-- `fn maj` (hash256.rs:67-69) -/
def maj (x y z : BitVec w) : BitVec w := (x &&& y) ^^^ (x &&& z) ^^^ (y &&& z)
/-- `fn sig0` (hash256.rs:70-72) -/
def sig0 (P : Params w) (x : BitVec w) : BitVec w := s P.sig0.1 x ^^^ s P.sig0.2.1 x ^^^ s P.sig0.2.2 x
/-- `fn sig1` (hash256.rs:74-76) -/
def sig1 (P : Params w) (x : BitVec w) : BitVec w := s P.sig1.1 x ^^^ s P.sig1.2.1 x ^^^ s P.sig1.2.2 x
/-- `fn theta0` (hash256.rs:78-80) -/
def theta0 (P : Params w) (x : BitVec w) : BitVec w :=
  s P.theta0.1 x ^^^ s P.theta0.2.1 x ^^^ r P.theta0.2.2 x
/-- `fn theta1` (hash256.rs:82-84) -/
def theta1 (P : Params w) (x : BitVec w) : BitVec w :=
  s P.theta1.1 x ^^^ s P.theta1.2.1 x ^^^ r P.theta1.2.2 x

/-- The working variables `a … hh` of `transform`. -/
structure Work (w : Nat) where
  (a b c d e f g hh : BitVec w)
deriving DecidableEq

/-- One step of the schedule loop `for j in 16..64` (hash256.rs:86-91, hash512.rs:161-166). -/
def schedStep (P : Params w) (wv : List (BitVec w)) (j : Nat) : List (BitVec w) :=
  wv.set j (theta1 P (wv.getD (j - 2) 0) + wv.getD (j - 7) 0 + theta0 P (wv.getD (j - 15) 0)
    + wv.getD (j - 16) 0)

/-- One step of the round loop (hash256.rs:100-117, hash512.rs:175-192). -/
def roundStep (P : Params w) (wv : List (BitVec w)) (v : Work w) (j : Nat) : Work w :=
  let t1 := v.hh + sig1 P v.e + ch v.e v.f v.g + P.k.getD j 0 + wv.getD j 0
  let t2 := sig0 P v.a + maj v.a v.b v.c
  { hh := v.g, g := v.f, f := v.e, e := v.d + t1, d := v.c, c := v.b, b := v.a, a := t1 + t2 }

/-- `fn transform` (hash256.rs:86-127, hash384.rs:159-200, hash512.rs:159-200). -/
def transform (P : Params w) (st : St w) : St w :=
  let wv := (List.range' 16 (P.rounds - 16)).foldl (schedStep P) st.w
  let v0 : Work w :=
    { a := st.h.getD 0 0, b := st.h.getD 1 0, c := st.h.getD 2 0, d := st.h.getD 3 0,
      e := st.h.getD 4 0, f := st.h.getD 5 0, g := st.h.getD 6 0, hh := st.h.getD 7 0 }
  let v := (List.range P.rounds).foldl (roundStep P wv) v0
  { st with
    w := wv
    h := [st.h.getD 0 0 + v.a, st.h.getD 1 0 + v.b, st.h.getD 2 0 + v.c, st.h.getD 3 0 + v.d,
          st.h.getD 4 0 + v.e, st.h.getD 5 0 + v.f, st.h.getD 6 0 + v.g, st.h.getD 7 0 + v.hh] }

/-- `fn init` (hash256.rs:130-145, hash384.rs:203-218, hash512.rs:203-218): the loop
`for i in 0..64 { self.w[i] = 0 }` clears only the first 64 words in all three files. -/
def init (P : Params w) (st : St w) : St w :=
  { w := List.replicate 64 0 ++ st.w.drop 64, length0 := 0, length1 := 0, h := P.iv }

/-- `fn new` (hash256.rs:147-155, hash512.rs:220-228). -/
def new (P : Params w) : St w :=
  init P { length0 := 0, length1 := 0, h := List.replicate 8 0, w := List.replicate P.rounds 0 }

/-- Word `w[cnt]` after `<<= 8; |= byt` (hash256.rs:160-161). -/
def pushByte (x : BitVec w) (b : Byte) : BitVec w := (x <<< 8) ||| (b &&& 0xFF#8).setWidth w

/-- `fn process` (hash256.rs:157-171, hash384.rs:231-244, hash512.rs:231-244); `32`/`64` and
`512`/`1024` are the word and block size in bits; release-mode (wrapping) `+=`. -/
def process (P : Params w) (st : St w) (byt : Byte) : St w :=
  let cnt := (st.length0.toNat / w) % 16
  let st := { st with w := st.w.set cnt (pushByte (st.w.getD cnt 0) byt) }
  let st := { st with length0 := st.length0 + 8 }
  let st := if st.length0 = 0 then { st with length1 := st.length1 + 1, length0 := 0 } else st
  if st.length0.toNat % (16 * w) = 0 then transform P st else st

/-- `fn process_array` (hash256.rs:174-178). -/
def processArray (P : Params w) (st : St w) (b : List Byte) : St w := b.foldl (process P) st

/-- `fn process_num` (hash256.rs:181-186): arithmetic shifts of an `i32`, masked to a byte. -/
def processNum (P : Params w) (st : St w) (n : BitVec 32) : St w :=
  let st := process P st (((n.sshiftRight 24) &&& 0xff).setWidth 8)
  let st := process P st (((n.sshiftRight 16) &&& 0xff).setWidth 8)
  let st := process P st (((n.sshiftRight 8) &&& 0xff).setWidth 8)
  process P st ((n &&& 0xff).setWidth 8)

/-- The loop `while (self.length[0] % 512) != 448 { self.process(0) }` of `hash`
(hash256.rs:195-197).  `fuel` bounds the number of iterations; `blockBytes w` is always enough
(the digest theorem would fail otherwise). -/
def padLoop (P : Params w) : Nat → St w → St w
  | 0, st => st
  | fuel + 1, st =>
    if st.length0.toNat % (16 * w) ≠ 14 * w then padLoop P fuel (process P st 0) else st

/-- `fn hash` (hash256.rs:189-207, hash384.rs:262-279, hash512.rs:263-280). -/
def hash (P : Params w) (st : St w) : List Byte × St w :=
  let len0 := st.length0
  let len1 := st.length1
  let st := process P st 0x80
  let st := padLoop P (blockBytes w) st
  let st := { st with w := (st.w.set 14 len1).set 15 len0 }
  let st := transform P st
  let digest := (List.range P.hashBytes).map fun i =>
    (((st.h.getD (i / wordBytes w) 0) >>> (8 * (wordBytes w - 1 - i % wordBytes w))) &&& 0xff).setWidth 8
  (digest, init P st)

/-- `new(); init(); process_array(x); hash()` as used throughout the crate. -/
def digest (P : Params w) (x : List Byte) : List Byte :=
  (hash P (processArray P (init P (new P)) x)).1

/-- `fn hmac` (hash256.rs:212-253, hash384.rs:285-326, hash512.rs:286-327). -/
def hmac (P : Params w) (key text : List Byte) : List Byte :=
  let k := if key.length > blockBytes w then digest P key else key
  -- `for (i, byte) in k.iter().enumerate() { inner[i] ^= byte; outer[i] ^= byte }`
  let upd := fun (v : List Byte) (i : Nat) => v.set i (v.getD i 0 ^^^ k.getD i 0)
  let inner := (List.range k.length).foldl upd (List.replicate (blockBytes w) 0x36#8)
  let outer := (List.range k.length).foldl upd (List.replicate (blockBytes w) 0x5c#8)
  let inner := digest P (inner ++ text)
  digest P (outer ++ inner)

/-- `fn hkdf_extract` (hash256.rs:256-258). -/
def hkdfExtract (P : Params w) (salt ikm : List Byte) : List Byte := hmac P salt ikm

/-- `fn hkdf_extend` (hash256.rs:263-291, hash512.rs:337-363).  `l : u8`; all `u8` arithmetic
modelled as 8-bit words. The final `okm.resize(l, 0)` truncates or zero-extends. -/
def hkdfExtend (P : Params w) (prk info : List Byte) (l : BitVec 8) : List Byte :=
  let n := l / BitVec.ofNat 8 P.hashBytes
  let n := if n * BitVec.ofNat 8 P.hashBytes < l then n + 1 else n
  let (okm, _) := (List.range n.toNat).foldl
    (fun (acc : List Byte × List Byte) i =>
      let text := acc.2 ++ info ++ [BitVec.ofNat 8 (i + 1)]
      let previous := hmac P prk text
      (acc.1 ++ previous, previous)) ([], [])
  (okm ++ List.replicate (l.toNat - okm.length) 0).take l.toNat

/-- One public call on a hash object (the mutating methods above); `hash` returns a digest. -/
def step (P : Params w) (st : St w) : Spec.Sha2.Op → St w × Option (List Byte)
  | .byte b => (process P st b, none)
  | .array bs => (processArray P st bs, none)
  | .num n => (processNum P st n, none)
  | .init => (init P st, none)
  | .hash => ((hash P st).2, some (hash P st).1)

/-- All digests returned by a sequence of public calls. -/
def run (P : Params w) : St w → List Spec.Sha2.Op → List (List Byte)
  | _, [] => []
  | st, op :: ops => (step P st op).2.toList ++ run P (step P st op).1 ops

/-- Constants of `src/hash256.rs:20-38` and rotation amounts of lines 70-84. -/
def P256 : Params 32 where
  rounds := 64
  hashBytes := 32
  sig0 := (2, 13, 22)
  sig1 := (6, 11, 25)
  theta0 := (7, 18, 3)
  theta1 := (17, 19, 10)
  iv := [0x6A09E667, 0xBB67AE85, 0x3C6EF372, 0xA54FF53A, 0x510E527F, 0x9B05688C, 0x1F83D9AB, 0x5BE0CD19]
  k := [
   0x428a2f98, 0x71374491, 0xb5c0fbcf, 0xe9b5dba5, 0x3956c25b, 0x59f111f1, 0x923f82a4, 0xab1c5ed5,
   0xd807aa98, 0x12835b01, 0x243185be, 0x550c7dc3, 0x72be5d74, 0x80deb1fe, 0x9bdc06a7, 0xc19bf174,
   0xe49b69c1, 0xefbe4786, 0x0fc19dc6, 0x240ca1cc, 0x2de92c6f, 0x4a7484aa, 0x5cb0a9dc, 0x76f988da,
   0x983e5152, 0xa831c66d, 0xb00327c8, 0xbf597fc7, 0xc6e00bf3, 0xd5a79147, 0x06ca6351, 0x14292967,
   0x27b70a85, 0x2e1b2138, 0x4d2c6dfc, 0x53380d13, 0x650a7354, 0x766a0abb, 0x81c2c92e, 0x92722c85,
   0xa2bfe8a1, 0xa81a664b, 0xc24b8b70, 0xc76c51a3, 0xd192e819, 0xd6990624, 0xf40e3585, 0x106aa070,
   0x19a4c116, 0x1e376c08, 0x2748774c, 0x34b0bcb5, 0x391c0cb3, 0x4ed8aa4a, 0x5b9cca4f, 0x682e6ff3,
   0x748f82ee, 0x78a5636f, 0x84c87814, 0x8cc70208, 0x90befffa, 0xa4506ceb, 0xbef9a3f7, 0xc67178f2]

/-- Constants of `src/hash512.rs:20-110` and rotation amounts of lines 143-157. -/
def P512 : Params 64 where
  rounds := 80
  hashBytes := 64
  sig0 := (28, 34, 39)
  sig1 := (14, 18, 41)
  theta0 := (1, 8, 7)
  theta1 := (19, 61, 6)
  iv := [0x6a09e667f3bcc908, 0xbb67ae8584caa73b, 0x3c6ef372fe94f82b, 0xa54ff53a5f1d36f1, 0x510e527fade682d1, 0x9b05688c2b3e6c1f, 0x1f83d9abfb41bd6b, 0x5be0cd19137e2179]
  k := [
   0x428a2f98d728ae22, 0x7137449123ef65cd, 0xb5c0fbcfec4d3b2f, 0xe9b5dba58189dbbc,
   0x3956c25bf348b538, 0x59f111f1b605d019, 0x923f82a4af194f9b, 0xab1c5ed5da6d8118,
   0xd807aa98a3030242, 0x12835b0145706fbe, 0x243185be4ee4b28c, 0x550c7dc3d5ffb4e2,
   0x72be5d74f27b896f, 0x80deb1fe3b1696b1, 0x9bdc06a725c71235, 0xc19bf174cf692694,
   0xe49b69c19ef14ad2, 0xefbe4786384f25e3, 0x0fc19dc68b8cd5b5, 0x240ca1cc77ac9c65,
   0x2de92c6f592b0275, 0x4a7484aa6ea6e483, 0x5cb0a9dcbd41fbd4, 0x76f988da831153b5,
   0x983e5152ee66dfab, 0xa831c66d2db43210, 0xb00327c898fb213f, 0xbf597fc7beef0ee4,
   0xc6e00bf33da88fc2, 0xd5a79147930aa725, 0x06ca6351e003826f, 0x142929670a0e6e70,
   0x27b70a8546d22ffc, 0x2e1b21385c26c926, 0x4d2c6dfc5ac42aed, 0x53380d139d95b3df,
   0x650a73548baf63de, 0x766a0abb3c77b2a8, 0x81c2c92e47edaee6, 0x92722c851482353b,
   0xa2bfe8a14cf10364, 0xa81a664bbc423001, 0xc24b8b70d0f89791, 0xc76c51a30654be30,
   0xd192e819d6ef5218, 0xd69906245565a910, 0xf40e35855771202a, 0x106aa07032bbd1b8,
   0x19a4c116b8d2d0c8, 0x1e376c085141ab53, 0x2748774cdf8eeb99, 0x34b0bcb5e19b48a8,
   0x391c0cb3c5c95a63, 0x4ed8aa4ae3418acb, 0x5b9cca4f7763e373, 0x682e6ff3d6b2b8a3,
   0x748f82ee5defb2fc, 0x78a5636f43172f60, 0x84c87814a1f0ab72, 0x8cc702081a6439ec,
   0x90befffa23631e28, 0xa4506cebde82bde9, 0xbef9a3f7b2c67915, 0xc67178f2e372532b,
   0xca273eceea26619c, 0xd186b8c721c0c207, 0xeada7dd6cde0eb1e, 0xf57d4f7fee6ed178,
   0x06f067aa72176fba, 0x0a637dc5a2c898a6, 0x113f9804bef90dae, 0x1b710b35131c471b,
   0x28db77f523047d84, 0x32caab7b40c72493, 0x3c9ebe0a15c9bebc, 0x431d67c49c100d4c,
   0x4cc5d4becb3e42b6, 0x597f299cfc657e2a, 0x5fcb6fab3ad6faec, 0x6c44198c4a475817]

/-- Constants of `src/hash384.rs:20-110` and rotation amounts of lines 143-157. -/
def P384 : Params 64 where
  rounds := 80
  hashBytes := 48
  sig0 := (28, 34, 39)
  sig1 := (14, 18, 41)
  theta0 := (1, 8, 7)
  theta1 := (19, 61, 6)
  iv := [0xcbbb9d5dc1059ed8, 0x629a292a367cd507, 0x9159015a3070dd17, 0x152fecd8f70e5939, 0x67332667ffc00b31, 0x8eb44a8768581511, 0xdb0c2e0d64f98fa7, 0x47b5481dbefa4fa4]
  k := [
   0x428a2f98d728ae22, 0x7137449123ef65cd, 0xb5c0fbcfec4d3b2f, 0xe9b5dba58189dbbc,
   0x3956c25bf348b538, 0x59f111f1b605d019, 0x923f82a4af194f9b, 0xab1c5ed5da6d8118,
   0xd807aa98a3030242, 0x12835b0145706fbe, 0x243185be4ee4b28c, 0x550c7dc3d5ffb4e2,
   0x72be5d74f27b896f, 0x80deb1fe3b1696b1, 0x9bdc06a725c71235, 0xc19bf174cf692694,
   0xe49b69c19ef14ad2, 0xefbe4786384f25e3, 0x0fc19dc68b8cd5b5, 0x240ca1cc77ac9c65,
   0x2de92c6f592b0275, 0x4a7484aa6ea6e483, 0x5cb0a9dcbd41fbd4, 0x76f988da831153b5,
   0x983e5152ee66dfab, 0xa831c66d2db43210, 0xb00327c898fb213f, 0xbf597fc7beef0ee4,
   0xc6e00bf33da88fc2, 0xd5a79147930aa725, 0x06ca6351e003826f, 0x142929670a0e6e70,
   0x27b70a8546d22ffc, 0x2e1b21385c26c926, 0x4d2c6dfc5ac42aed, 0x53380d139d95b3df,
   0x650a73548baf63de, 0x766a0abb3c77b2a8, 0x81c2c92e47edaee6, 0x92722c851482353b,
   0xa2bfe8a14cf10364, 0xa81a664bbc423001, 0xc24b8b70d0f89791, 0xc76c51a30654be30,
   0xd192e819d6ef5218, 0xd69906245565a910, 0xf40e35855771202a, 0x106aa07032bbd1b8,
   0x19a4c116b8d2d0c8, 0x1e376c085141ab53, 0x2748774cdf8eeb99, 0x34b0bcb5e19b48a8,
   0x391c0cb3c5c95a63, 0x4ed8aa4ae3418acb, 0x5b9cca4f7763e373, 0x682e6ff3d6b2b8a3,
   0x748f82ee5defb2fc, 0x78a5636f43172f60, 0x84c87814a1f0ab72, 0x8cc702081a6439ec,
   0x90befffa23631e28, 0xa4506cebde82bde9, 0xbef9a3f7b2c67915, 0xc67178f2e372532b,
   0xca273eceea26619c, 0xd186b8c721c0c207, 0xeada7dd6cde0eb1e, 0xf57d4f7fee6ed178,
   0x06f067aa72176fba, 0x0a637dc5a2c898a6, 0x113f9804bef90dae, 0x1b710b35131c471b,
   0x28db77f523047d84, 0x32caab7b40c72493, 0x3c9ebe0a15c9bebc, 0x431d67c49c100d4c,
   0x4cc5d4becb3e42b6, 0x597f299cfc657e2a, 0x5fcb6fab3ad6faec, 0x6c44198c4a475817]

end Verif.Sha2
