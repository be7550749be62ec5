import Verif.Spec.Sha2
/-
Specification of `expand_message_xmd` (draft-irtf-cfrg-hash-to-curve-07, section 5.3.1) over an
arbitrary hash function `H` with digests of `b` bytes and blocks of `s` bytes.
-/
namespace Spec.H2c

/-- the ASCII text `H2C-OVERSIZE-DST-` -/
def oversize : List Byte := ("H2C-OVERSIZE-DST-".toList).map fun c => BitVec.ofNat 8 c.toNat

/-- section 5.3.3: tags longer than 255 bytes are replaced by a digest -/
def tag (H : List Byte → List Byte) (dst : List Byte) : List Byte :=
  if dst.length > 255 then H (oversize ++ dst) else dst

/-- `DST_prime = DST || I2OSP(len(DST), 1)` -/
def dstPrime (H : List Byte → List Byte) (dst : List Byte) : List Byte :=
  tag H dst ++ beBytes 1 (tag H dst).length

/-- `b_0 = H(Z_pad || msg || l_i_b_str || I2OSP(0, 1) || DST_prime)` -/
def b0 (H : List Byte → List Byte) (s : Nat) (msg : List Byte) (len : Nat) (dst : List Byte) : List Byte :=
  H (beBytes s 0 ++ msg ++ beBytes 2 len ++ beBytes 1 0 ++ dstPrime H dst)

/-- `b_1 = H(b_0 || I2OSP(1, 1) || DST_prime)`,
`b_i = H(strxor(b_0, b_(i - 1)) || I2OSP(i, 1) || DST_prime)` -/
def blk (H : List Byte → List Byte) (z dst' : List Byte) : Nat → List Byte
  | 0 => z
  | 1 => H (z ++ beBytes 1 1 ++ dst')
  | i + 2 => H (List.zipWith (· ^^^ ·) z (blk H z dst' (i + 1)) ++ beBytes 1 (i + 2) ++ dst')

/-- `ell = ceil(len_in_bytes / b_in_bytes)`; abort if `ell > 255`; otherwise the first `len_in_bytes`
bytes of `b_1 || ... || b_ell` -/
def expand (H : List Byte → List Byte) (b s : Nat) (msg : List Byte) (len : Nat) (dst : List Byte) :
    Option (List Byte) :=
  let ell := (len + b - 1) / b
  if ell > 255 then none
  else some (((List.range' 1 ell).flatMap (blk H (b0 H s msg len dst) (dstPrime H dst))).take len)

end Spec.H2c
