import Verif.Spec.CurveRom
import Verif.Spec.Rom
import Verif.Spec.Rand
import Verif.Spec.Kdf
import Mathlib.Data.Nat.Size
/-
What a curve used for Diffie-Hellman and ECDSA provides, and the numbers read from byte strings.
-/
namespace Verif.Ecdh
open Verif.Big Verif.Fp Verif.Rom Verif.Curve Verif.Ecp Spec WeierstrassCurve

variable {C : Nat}

/-- the group order stated by the ROM file -/
def ordN (K : Rom C) : Nat := (K.val K.order).toNat

/-- A Weierstrass curve with a Montgomery-form modulus whose generator has the prime order stated in the ROM file. -/
structure DhCurve (K : Rom C) [Fact K.p.Prime] : Prop where
  curve : WCurve K
  mont : MontConsts K.P K.p
  bytes : BytesOk K
  sqrt : SqrtOk K.P K.p
  spare : 8 * K.modbytes + 2 ≤ K.P.b * K.P.n
  generator : (Ecp.curve K).Nonsingular (K.val K.gx : ZMod K.p) (K.val K.gy : ZMod K.p)
  base : IsPoint K (Ecp.generator K) (Affine.Point.some _ _ generator)
  orderRep : Rep K.P.b K.P.n K.order (ordN K : Int)
  orderPrime : (ordN K).Prime
  orderOdd : ordN K % 2 = 1
  orderRange : ordN K + 2 < 2 ^ (K.P.b * K.P.n - 4)
  orderBytes : ordN K ≤ 256 ^ K.modbytes
  annihilates : ordN K • Affine.Point.some _ _ generator = 0

/-- the generator as a point of the curve -/
noncomputable def DhCurve.G {K : Rom C} [Fact K.p.Prime] (h : DhCurve K) : (Ecp.curve K).Point := Affine.Point.some _ _ h.generator

/-- the cofactor stated by the ROM file -/
def cofN (K : Rom C) : Nat := (K.val K.cof).toNat

/-- the order and the cofactor are related as Hasse's bound requires: the cofactor is `(p + 2^((log p + 4)/2)) / order`, rounded down -/
structure CofOk (K : Rom C) : Prop where
  quot : (2 ^ ((K.p.size + 4) / 2) + K.p) / ordN K = cofN K
  pos : cofN K ≠ 0
  range : cofN K + 2 < 2 ^ (K.P.b * K.P.n - 4)
  room : 2 * (2 ^ ((K.p.size + 4) / 2) + K.p) < 2 ^ (K.P.b * K.P.n)

/-- the number a byte string is read as: big-endian, at most `MODBYTES` bytes -/
def num (K : Rom C) (s : List Byte) : Nat := beNat (s.take K.modbytes)

/-- the finite point has abscissa zero (the one case in which the representative of a coordinate is not unique) -/
def AbscissaZero {K : Rom C} [Fact K.p.Prime] (T : (Ecp.curve K).Point) : Prop := ∃ y hh, T = Affine.Point.some 0 y hh

/-- the byte string, read as SEC 1 (compressed or not; trailing bytes ignored), is an encoding of the finite point `T`, or of no point at
all when `T = 0`; it is long enough for its tag -/
structure Decodes (K : Rom C) [Fact K.p.Prime] (w : List Byte) (T : (Ecp.curve K).Point) : Prop where
  long : K.modbytes + 1 ≤ w.length
  longU : w.headD 0 = 0x04#8 → 2 * K.modbytes + 1 ≤ w.length
  point : ∀ x y hh, T = Affine.Point.some x y hh ↔ (sec1U K x y <+: w ∨ sec1C K x y <+: w)

/-- the generator bytes used for one random number modulo the order -/
def drawn (K : Rom C) : Nat := (2 * (ordN K).size + 7) / 8

/-- the random number modulo the order obtained from a generator state: twice as many bits as the order has -/
def scalar {σ : Type} (next : σ → Byte × σ) (K : Rom C) (rng : σ) : Nat :=
  bitsNat ((bitsLSB (draw next (drawn K) rng).1).take (2 * (ordN K).size)) % ordN K

/-- the hash of a message as the number used by ECDSA: the first `MODBYTES` bytes of the digest, or all of it when it is shorter -/
def digestNum (K : Rom C) (sha : Nat) (f : List Byte) : Nat := beNat ((Spec.sha sha f).take K.modbytes)

/-- ECDSA: the abscissa `x` of the nonce point gives the first signature component `c`.  The second alternative is the exceptional point
`(0, y)`, whose abscissa the program may read as `p`. -/
def Comp (K : Rom C) (x : ZMod K.p) (c : Nat) : Prop := c = x.val % ordN K ∨ x = 0 ∧ c = K.p % ordN K

/-- `(c, d)` is an ECDSA signature of the number `e` with the secret `s` and the nonce `u` -/
structure Signed {K : Rom C} [Fact K.p.Prime] (h : DhCurve K) (s e u c d : Nat) : Prop where
  nonce : u ≠ 0
  cRange : c ≠ 0 ∧ c < ordN K
  dRange : d ≠ 0 ∧ d < ordN K
  point : ∃ x y hh, u • h.G = Affine.Point.some x y hh ∧ Comp K x c
  eqn : d * u % ordN K = (e + s * c) % ordN K

/-- a key pair as left in the buffers: secret number `A` and public key `A G` -/
structure KeyPair {K : Rom C} [Fact K.p.Prime] (h : DhCurve K) (A : Nat) (s w : List Byte) : Prop where
  range : A ≠ 0 ∧ A < ordN K
  secret : num K s = A
  key : Decodes K w (A • h.G)

end Verif.Ecdh
