/-
Independent specification: SHA-2 (FIPS PUB 180-4), HMAC (RFC 2104), HKDF (RFC 5869).
Nothing here refers to the Rust code or its model.
-/
namespace Spec

abbrev Byte := BitVec 8

/-- Big-endian byte string to number. -/
def beNat (bs : List Byte) : Nat := bs.foldl (fun acc b => 256 * acc + b.toNat) 0

/-- The `n`-byte big-endian encoding of `x mod 256^n`. -/
def beBytes : (n : Nat) → (x : Nat) → List Byte
  | 0, _ => []
  | n + 1, x => beBytes n (x / 256) ++ [BitVec.ofNat 8 x]

/-- Cut a list into consecutive pieces of length `n` (`k` of them). -/
def pieces {α : Type} (n : Nat) : (k : Nat) → List α → List (List α)
  | 0, _ => []
  | k + 1, l => l.take n :: pieces n k (l.drop n)

/-! ### FIPS 180-4 constants from their definition (§4.2.2, §4.2.3, §5.3): fractional parts of
square and cube roots of the first primes. -/

/-- Largest `c < 2^bits` with `c^e ≤ n`, found bit by bit from the top. -/
def iroot (e n : Nat) : (bits : Nat) → (c : Nat) → Nat
  | 0, c => c
  | b + 1, c => iroot e n b (if (c + 2 ^ b) ^ e ≤ n then c + 2 ^ b else c)

/-- The first `w` bits of the fractional part of the `e`-th root of `p` (`p < 2^12`). -/
def fracRoot (w e p : Nat) : BitVec w := BitVec.ofNat w (iroot e (p * 2 ^ (e * w)) (w + 12) 0)

def isPrimeB (n : Nat) : Bool := 2 ≤ n && (List.range n).all fun d => d < 2 || n % d ≠ 0

/-- The first `n` primes (all below 512 for `n ≤ 80`). -/
def firstPrimes (n : Nat) : List Nat := ((List.range 512).filter isPrimeB).take n

namespace Sha2

/-- What distinguishes the members of the SHA-2 family with word size `w`. -/
structure Variant (w : Nat) where
  rounds : Nat
  /-- rotation amounts of Σ₀, Σ₁ and rotation/rotation/shift amounts of σ₀, σ₁ (§4.1.2, §4.1.3) -/
  (bigS0 bigS1 smallS0 smallS1 : Nat × Nat × Nat)
  /-- initial hash value (§5.3) -/
  iv : List (BitVec w)
  /-- number of digest bytes kept (§6) -/
  outBytes : Nat

variable {w : Nat}

/-- Rotation right by `n` (§3.2). -/
def rotr (n : Nat) (x : BitVec w) : BitVec w := x.rotateRight n
def Ch (x y z : BitVec w) : BitVec w := (x &&& y) ^^^ (~~~x &&& z)
def Maj (x y z : BitVec w) : BitVec w := (x &&& y) ^^^ (x &&& z) ^^^ (y &&& z)
def bigSigma (r : Nat × Nat × Nat) (x : BitVec w) : BitVec w :=
  rotr r.1 x ^^^ rotr r.2.1 x ^^^ rotr r.2.2 x
def smallSigma (r : Nat × Nat × Nat) (x : BitVec w) : BitVec w :=
  rotr r.1 x ^^^ rotr r.2.1 x ^^^ (x >>> r.2.2)

/-- Round constants `K` (§4.2.2/§4.2.3): fractional parts of the cube roots of the first primes. -/
def roundK (V : Variant w) : List (BitVec w) := (firstPrimes V.rounds).map (fracRoot w 3)

/-- Append `W_t = σ₁(W_{t-2}) + W_{t-7} + σ₀(W_{t-15}) + W_{t-16}` (§6.2.2 step 1). -/
def extend (V : Variant w) (W : List (BitVec w)) : List (BitVec w) :=
  let t := W.length
  W ++ [smallSigma V.smallS1 (W.getD (t - 2) 0) + W.getD (t - 7) 0
    + smallSigma V.smallS0 (W.getD (t - 15) 0) + W.getD (t - 16) 0]

/-- The message schedule of a 16-word block. -/
def schedule (V : Variant w) (M : List (BitVec w)) : List (BitVec w) :=
  Nat.repeat (extend V) (V.rounds - 16) M

/-- One round on `[a,b,c,d,e,f,g,h]` (§6.2.2 step 3). -/
def round (V : Variant w) (s : List (BitVec w)) (KtWt : BitVec w × BitVec w) : List (BitVec w) :=
  match s with
  | [a, b, c, d, e, f, g, h] =>
    let T1 := h + bigSigma V.bigS1 e + Ch e f g + KtWt.1 + KtWt.2
    let T2 := bigSigma V.bigS0 a + Maj a b c
    [T1 + T2, a, b, c, d + T1, e, f, g]
  | _ => s

/-- Hash computation for one block of 16 words (§6.2.2). -/
def compress (V : Variant w) (H : List (BitVec w)) (M : List (BitVec w)) : List (BitVec w) :=
  List.zipWith (· + ·) H (((roundK V).zip (schedule V M)).foldl (round V) H)

/-- The 16 big-endian words of a block (§5.2). -/
def blockWords (w : Nat) (block : List Byte) : List (BitVec w) :=
  (pieces (w / 8) 16 block).map fun bs => BitVec.ofNat w (beNat bs)

/-- Block size in bytes (512 or 1024 bits). -/
def blockBytes (w : Nat) : Nat := 16 * (w / 8)

/-- Padding (§5.1): a `1` bit, the fewest zero bits, and the bit length in two words, such that the
total length is a multiple of the block size. -/
def pad (w : Nat) (m : List Byte) : List Byte :=
  let B := blockBytes w
  let lenBytes := 2 * (w / 8)
  let zeros := (B - (m.length + 1 + lenBytes) % B) % B
  m ++ [0x80#8] ++ List.replicate zeros 0 ++ beBytes lenBytes (8 * m.length)

/-- The digest of a message (§6). -/
def digest (V : Variant w) (m : List Byte) : List Byte :=
  let p := pad w m
  let H := ((pieces (blockBytes w) (p.length / blockBytes w) p).map (blockWords w)).foldl (compress V) V.iv
  (H.flatMap fun x => beBytes (w / 8) x.toNat).take V.outBytes

def SHA256 : Variant 32 where
  rounds := 64
  bigS0 := (2, 13, 22)
  bigS1 := (6, 11, 25)
  smallS0 := (7, 18, 3)
  smallS1 := (17, 19, 10)
  iv := (firstPrimes 8).map (fracRoot 32 2)
  outBytes := 32

def SHA512 : Variant 64 where
  rounds := 80
  bigS0 := (28, 34, 39)
  bigS1 := (14, 18, 41)
  smallS0 := (1, 8, 7)
  smallS1 := (19, 61, 6)
  iv := (firstPrimes 8).map (fracRoot 64 2)
  outBytes := 64

/-- SHA-384 is SHA-512 with the 9th to 16th primes for the initial value, truncated (§5.3.4, §6.5). -/
def SHA384 : Variant 64 := { SHA512 with
  iv := ((firstPrimes 16).drop 8).map (fracRoot 64 2)
  outBytes := 48 }

/-! ### An incremental hash object, abstractly -/

/-- A call on a hash object. -/
inductive Op
  | byte (b : Byte)
  | array (bs : List Byte)
  | num (n : BitVec 32)
  | init
  | hash

/-- Abstract hash object: its state is the byte string fed since creation or the last reset; `hash`
returns the digest of that string and resets. `num` feeds a 32-bit number, most significant byte first. -/
def specStep (V : Variant w) (m : List Byte) : Op → List Byte × Option (List Byte)
  | .byte b => (m ++ [b], none)
  | .array bs => (m ++ bs, none)
  | .num n => (m ++ beBytes 4 n.toNat, none)
  | .init => ([], none)
  | .hash => ([], some (digest V m))

/-- All digests returned by a sequence of calls on an object holding `m`. -/
def specRun (V : Variant w) : List Byte → List Op → List (List Byte)
  | _, [] => []
  | m, op :: ops => (specStep V m op).2.toList ++ specRun V (specStep V m op).1 ops

end Sha2

/-! ### RFC 2104 -/

/-- `HMAC(K, text) = H(K ⊕ opad ‖ H(K ⊕ ipad ‖ text))` with `K` hashed if longer than the block
size `B` and padded with zeros to length `B`. -/
def hmac (H : List Byte → List Byte) (B : Nat) (key text : List Byte) : List Byte :=
  let k := if key.length ≤ B then key else H key
  let k := k ++ List.replicate (B - k.length) 0
  H (k.map (· ^^^ 0x5c#8) ++ H (k.map (· ^^^ 0x36#8) ++ text))

/-! ### RFC 5869 -/

/-- `T(0) = ""`, `T(i) = HMAC(PRK, T(i-1) ‖ info ‖ i)`. -/
def hkdfT (mac : List Byte → List Byte → List Byte) (prk info : List Byte) : Nat → List Byte
  | 0 => []
  | i + 1 => mac prk (hkdfT mac prk info i ++ info ++ [BitVec.ofNat 8 (i + 1)])

/-- `OKM` = first `L` bytes of `T(1) ‖ T(2) ‖ … ‖ T(N)`, `N = ⌈L / HashLen⌉`. -/
def hkdfExpand (mac : List Byte → List Byte → List Byte) (hashLen : Nat) (prk info : List Byte) (L : Nat) :
    List Byte :=
  ((List.range ((L + hashLen - 1) / hashLen)).flatMap fun i => hkdfT mac prk info (i + 1)).take L

end Spec
