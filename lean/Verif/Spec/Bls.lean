import Verif.Spec.Dh
import Verif.Spec.H2c
/-
Specification of the BLS12-381 key and point encodings.
-/
namespace Verif.Bls
open Verif.Big Verif.Fp Verif.Rom Verif.Curve Verif.Ecp Verif.Ecdh Spec WeierstrassCurve

variable {C : Nat}

/-- What the theorems assume about a BLS ROM file, besides a curve with a generator of prime order: coordinates leave
three bits of `MODBYTES` bytes free for flags, and the order fits in 32 bytes. -/
structure BlsCurve (K : Rom C) [Fact K.p.Prime] : Prop where
  dh : DhCurve K
  flags : 8 * K.p ≤ 256 ^ K.modbytes
  size : 48 = K.modbytes
  order : ordN K < 256 ^ 32

/-- Draft draft-irtf-cfrg-bls-signature-02, section 2.3: `SK = OS2IP(OKM) mod r` with
`OKM = HKDF-Expand(HKDF-Extract(salt, IKM || I2OSP(0, 1)), key_info || I2OSP(48, 2), 48)` -/
def keyGen (r : Nat) (ikm keyInfo : List Byte) : Nat :=
  let mac := Spec.hmac (Spec.Sha2.digest Spec.Sha2.SHA256) 64
  let salt := ("BLS-SIG-KEYGEN-SALT-".toList).map fun c => BitVec.ofNat 8 c.toNat
  let prk := mac salt (ikm ++ beBytes 1 0)
  beNat (Spec.hkdfExpand mac 32 prk (keyInfo ++ beBytes 2 48) 48) % r

/-- `y` is the larger of the two roots `y`, `-y` -/
def larger {p : Nat} (y : ZMod p) : Prop := (-y).val < y.val

instance {p : Nat} (y : ZMod p) : Decidable (larger y) := inferInstanceAs (Decidable (_ < _))

/-- Compressed form of a G1 point in `n` bytes: the big-endian abscissa with the top bit set, the second bit for infinity and the third
bit for the larger ordinate. -/
def enc1C {K : Rom C} [Fact K.p.Prime] : (curve K).Point → List Byte
  | .zero => beBytes K.modbytes (2 ^ (8 * K.modbytes - 1) + 2 ^ (8 * K.modbytes - 2))
  | .some x y _ => beBytes K.modbytes (2 ^ (8 * K.modbytes - 1) + (if larger y then 2 ^ (8 * K.modbytes - 3) else 0) + x.val)

/-- Uncompressed form: the two coordinates, the second bit set for infinity. -/
def enc1U {K : Rom C} [Fact K.p.Prime] : (curve K).Point → List Byte
  | .zero => beBytes (2 * K.modbytes) (2 ^ (16 * K.modbytes - 2))
  | .some x y _ => beBytes K.modbytes x.val ++ beBytes K.modbytes y.val

/-- The stored coordinates determine the printed ones: an abscissa that is zero is not held as a non-zero multiple of `p`. -/
def Faithful (K : Rom C) [Fact K.p.Prime] (s : Pt C) : Prop :=
  residue K.P K.p s.x = 0 → residue K.P K.p s.z = 1 → limbsVal K.P.b s.x.x = 0

/-- the decoder's verdict on a string that is no encoding -/
inductive Bad | size | yflag | point
deriving DecidableEq

/-- Lengths first, then the flag combinations, then the rest: `n` is `MODBYTES`. -/
def verdict (n : Nat) (bs : List Byte) : Bad :=
  match bs with
  | [] => .size
  | b :: _ =>
    if b.getLsbD 7 then (if bs.length = n then .point else .size)
    else if bs.length ≠ 2 * n then .size
    else if b.getLsbD 6 then .point
    else if b.getLsbD 5 then .yflag else .point

end Verif.Bls
