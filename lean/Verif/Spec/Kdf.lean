import Verif.Spec.Sha2
/-
Independent specification of the key derivation functions of ISO/IEC 18033-2 (KDF1, KDF2), PBKDF2
(RFC 8018 §5.2) and PKCS#7 padding (RFC 5652 §6.3).
-/
namespace Spec

/-- the SHA-2 function with a digest of 32, 48 or 64 bytes -/
def sha (n : Nat) : List Byte → List Byte :=
  if n = 32 then Sha2.digest Sha2.SHA256
  else if n = 48 then Sha2.digest Sha2.SHA384
  else Sha2.digest Sha2.SHA512

/-- the three digest lengths -/
def ShaLen (n : Nat) : Prop := n = 32 ∨ n = 48 ∨ n = 64

/-- block size of the hash function, for HMAC -/
def shaBlock (n : Nat) : Nat := if n = 32 then 64 else 128

/-- `⌈n / d⌉` -/
def ceilDiv (n d : Nat) : Nat := (n + d - 1) / d

/-- KDF1: first `olen` bytes of `H(Z ‖ 0) ‖ H(Z ‖ 1) ‖ …`, counters as 4-byte big-endian strings -/
def kdf1 (n : Nat) (z : List Byte) (olen : Nat) : List Byte :=
  ((List.range (ceilDiv olen n)).flatMap fun i => sha n (z ++ beBytes 4 i)).take olen

/-- KDF2: first `olen` bytes of `H(Z ‖ 1 ‖ P) ‖ H(Z ‖ 2 ‖ P) ‖ …` -/
def kdf2 (n : Nat) (z p : List Byte) (olen : Nat) : List Byte :=
  ((List.range (ceilDiv olen n)).flatMap fun i => sha n (z ++ beBytes 4 (i + 1) ++ p)).take olen

/-- the HMAC with the given digest length -/
def mac (n : Nat) (key text : List Byte) : List Byte := hmac (sha n) (shaBlock n) key text

def xorBytes (a b : List Byte) : List Byte := List.zipWith (· ^^^ ·) a b

/-- `U_1 = PRF(P, S ‖ INT(i))`, `U_{j+1} = PRF(P, U_j)`; `pbkdf2U … j` is `U_{j+1}` -/
def pbkdf2U (prf : List Byte → List Byte) (s : List Byte) (i : Nat) : Nat → List Byte
  | 0 => prf (s ++ beBytes 4 i)
  | j + 1 => prf (pbkdf2U prf s i j)

/-- `F(P, S, c, i) = U_1 ⊕ … ⊕ U_c` for `c = rest + 1` -/
def pbkdf2F (prf : List Byte → List Byte) (s : List Byte) (i : Nat) : (rest : Nat) → List Byte
  | 0 => pbkdf2U prf s i 0
  | r + 1 => xorBytes (pbkdf2F prf s i r) (pbkdf2U prf s i (r + 1))

/-- PBKDF2 with HMAC, iteration count `c ≥ 1` -/
def pbkdf2 (n : Nat) (pass salt : List Byte) (c olen : Nat) : List Byte :=
  ((List.range (ceilDiv olen n)).flatMap fun i => pbkdf2F (mac n pass) salt (i + 1) (c - 1)).take olen

/-- PKCS#7 padding to blocks of 16 bytes: `k` bytes of value `k`, `1 ≤ k ≤ 16` -/
def pkcs7 (m : List Byte) : List Byte :=
  m ++ List.replicate (16 - m.length % 16) (BitVec.ofNat 8 (16 - m.length % 16))

end Spec
