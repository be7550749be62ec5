import Verif.Spec.Dh
/-
Diffie-Hellman and ECDSA over any form of curve whose modulus is kept in plain form: what the curve has to provide.
-/
namespace Verif.Ecdh
open Verif.Big Verif.Fp Verif.Rom Verif.Curve Verif.Ecp Spec

variable {C : Nat}

/-- the numbers of the ROM file: the bytes fit the machine words, and the order is an odd prime that fits the bytes -/
structure DhNum (K : Rom C) [Fact K.p.Prime] : Prop where
  consts : Consts K.P K.p
  plain : K.P.plain = true
  bytes : BytesOk K
  spare : 8 * K.modbytes + 2 ≤ K.P.b * K.P.n
  orderRep : Rep K.P.b K.P.n K.order (ordN K : Int)
  orderPrime : (ordN K).Prime
  orderOdd : ordN K % 2 = 1
  orderRange : ordN K + 2 < 2 ^ (K.P.b * K.P.n - 4)
  orderBytes : ordN K ≤ 256 ^ K.modbytes

/-- the mathematical group of the curve: which element a point in memory stands for, the two coordinates of an element, and the generator -/
structure Form (K : Rom C) (Γ : Type) where
  isPt : Pt C → Γ → Prop
  X : Γ → ZMod K.p
  Y : Γ → ZMod K.p
  G : Γ

/-- The coordinates `getx` and `gety` return are below the modulus.  (They always are when the point has to be divided by its third
coordinate; with a plain modulus, if the third coordinate happens to be 1 already, the program prints whatever representative it has.) -/
def Reduced (K : Rom C) (s : Pt C) : Prop :=
  ∃ x y : Nat, x < K.p ∧ y < K.p ∧ Rep K.P.b K.P.n (getx K s) (x : Int) ∧ Rep K.P.b K.P.n (gety K s) (y : Int)

/-- the multiple of the point `s` by the number `u` that `ECP::mul` computes has reduced coordinates -/
def RedMul (K : Rom C) (s : Pt C) (u : Nat) : Prop := ∀ e W, Rep K.P.b K.P.n e (u : Int) → Ecp.mul K s e = some W → Reduced K W

/-- the same for the sum of two multiples that `ECP::mul2` computes -/
def RedMul2 (K : Rom C) (s : Pt C) (u : Nat) (q : Pt C) (v : Nat) : Prop :=
  ∀ e f W, Rep K.P.b K.P.n e (u : Int) → Rep K.P.b K.P.n f (v : Int) → Ecp.mul2 K s e q f = some W → Reduced K W

/-- the byte string starts with the uncompressed SEC 1 encoding of `T`, or of no element but the neutral one when `T = 0` -/
structure DecodesU {K : Rom C} {Γ : Type} [AddCommGroup Γ] (g : Form K Γ) (w : List Byte) (T : Γ) : Prop where
  long : 2 * K.modbytes + 1 ≤ w.length
  tag : w.headD 0 = 0x04#8
  point : ∀ S, S ≠ 0 → (T = S ↔ sec1U K (g.X S) (g.Y S) <+: w)

/-- the library computes in the group -/
structure FormOk {K : Rom C} [Fact K.p.Prime] {Γ : Type} [AddCommGroup Γ] (g : Form K Γ) : Prop where
  num : DhNum K
  base : g.isPt (Ecp.generator K) g.G
  ne : g.G ≠ 0
  annihilates : ordN K • g.G = 0
  coords : ∀ S T : Γ, S ≠ 0 → T ≠ 0 → g.X S = g.X T → g.Y S = g.Y T → S = T
  inf : ∀ s T, g.isPt s T → (isInfinity K s = true ↔ T = 0)
  dbl : ∀ s T, g.isPt s T → g.isPt (Ecp.dbl K s) (T + T)
  mul : ∀ s T e (E : Nat), g.isPt s T → Rep K.P.b K.P.n e (E : Int) → E + 2 < 2 ^ (K.P.b * K.P.n - 4) → ∃ r, Ecp.mul K s e = some r ∧ g.isPt r (E • T)
  mul2 : ∀ s S q T e f (E F : Nat), g.isPt s S → g.isPt q T → Rep K.P.b K.P.n e (E : Int) → E + 2 < 2 ^ (K.P.b * K.P.n - 4) →
    Rep K.P.b K.P.n f (F : Int) → F + 2 < 2 ^ (K.P.b * K.P.n - 4) → ∃ r, Ecp.mul2 K s e q f = some r ∧ g.isPt r (E • S + F • T)
  xy : ∀ s T, g.isPt s T → T ≠ 0 → residue K.P K.p (affine K s).x = g.X T ∧ residue K.P K.p (affine K s).y = g.Y T
  print : ∀ s T (buf : List Byte), Rep K.P.b K.P.n (getx K s) ((g.X T).val : Int) → Rep K.P.b K.P.n (gety K s) ((g.Y T).val : Int) →
    2 * K.modbytes + 1 ≤ buf.length → Ecp.tobytes K s buf false = some (sec1U K (g.X T) (g.Y T) ++ buf.drop (2 * K.modbytes + 1))
  decode : ∀ w : List Byte, 2 * K.modbytes + 1 ≤ w.length → w.headD 0 = 0x04#8 → ∃ r T, Ecp.frombytes K w = some r ∧ g.isPt r T ∧ DecodesU g w T

/-- a key pair as left in the buffers: secret number `A` and public key `A G` -/
structure KeyPairG {K : Rom C} {Γ : Type} [AddCommGroup Γ] (g : Form K Γ) (A : Nat) (s w : List Byte) : Prop where
  range : A ≠ 0 ∧ A < ordN K
  secret : num K s = A
  key : DecodesU g w (A • g.G)

/-- `(c, d)` is an ECDSA signature of the number `e` with the secret `s` and the nonce `u` -/
structure SignedG {K : Rom C} {Γ : Type} [AddCommGroup Γ] (g : Form K Γ) (s e u c d : Nat) : Prop where
  nonce : u ≠ 0
  cRange : c ≠ 0 ∧ c < ordN K
  dRange : d ≠ 0 ∧ d < ordN K
  point : u • g.G ≠ 0 ∧ c = (g.X (u • g.G)).val % ordN K
  eqn : d * u % ordN K = (e + s * c) % ordN K

end Verif.Ecdh
