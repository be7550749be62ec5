import Verif.Spec.Kdf
/-
Independent specification: PKCS#1 (RFC 8017) MGF1, EME-OAEP and EMSA-PKCS1-v1_5.
-/
namespace Spec.Rsa
open Spec

/-- MGF1 (RFC 8017 B.2.1) with the SHA-2 function of digest length `n` -/
def mgf1 (n : Nat) (seed : List Byte) (len : Nat) : List Byte :=
  ((List.range (ceilDiv len n)).flatMap fun i => sha n (seed ++ beBytes 4 i)).take len

/-- EME-OAEP encoding (RFC 8017 7.1.1) into `k` bytes for a mask generation function applied to the
seed (`mgfSeed`) and one applied to the masked data block (`mgfDb`); both are MGF1 in the standard. -/
def oaepWith (mgfSeed mgfDb : List Byte → Nat → List Byte) (n k : Nat) (label seed m : List Byte) : List Byte :=
  let ps := List.replicate (k - m.length - 2 * n - 2) 0
  let db := sha n label ++ ps ++ [1] ++ m
  let maskedDb := xorBytes db (mgfSeed seed (k - n - 1))
  let maskedSeed := xorBytes seed (mgfDb maskedDb n)
  [0] ++ maskedSeed ++ maskedDb

/-- the standard encoding -/
def oaep (n k : Nat) (label seed m : List Byte) : List Byte := oaepWith (mgf1 n) (mgf1 n) n k label seed m

/-! ### DER -/

/-- a DER element with contents of fewer than 128 bytes -/
def der (tag : Byte) (contents : List Byte) : List Byte := tag :: BitVec.ofNat 8 contents.length :: contents

/-- base-128 digits of an object identifier component, most significant first, high bit set on all but the last
(`fuel` bounds the number of digits) -/
def base128 : (fuel : Nat) → Nat → List Byte
  | 0, _ => []
  | f + 1, x => if x < 128 then [BitVec.ofNat 8 x]
    else (base128 f (x / 128)).map (fun b => b ||| 0x80) ++ [BitVec.ofNat 8 (x % 128)]

/-- contents of an OBJECT IDENTIFIER -/
def oid (a b : Nat) (rest : List Nat) : List Byte := BitVec.ofNat 8 (40 * a + b) :: rest.flatMap (base128 4)

/-- the last component of the identifier 2.16.840.1.101.3.4.2.x of SHA-256, SHA-384, SHA-512 -/
def shaOid (n : Nat) : Nat := if n = 32 then 1 else if n = 48 then 2 else 3

/-- `DigestInfo ::= SEQUENCE { SEQUENCE { OID, NULL }, OCTET STRING }` -/
def digestInfo (n : Nat) (h : List Byte) : List Byte :=
  der 0x30 (der 0x30 (der 0x06 (oid 2 16 [840, 1, 101, 3, 4, 2, shaOid n]) ++ der 0x05 []) ++ der 0x04 h)

/-- EMSA-PKCS1-v1_5 (RFC 8017 9.2): `none` when the intended length is too short -/
def emsaPkcs1 (n : Nat) (m : List Byte) (emLen : Nat) : Option (List Byte) :=
  let T := digestInfo n (sha n m)
  if emLen < T.length + 11 then none
  else some ([0x00, 0x01] ++ List.replicate (emLen - T.length - 3) 0xff ++ [0x00] ++ T)

end Spec.Rsa
