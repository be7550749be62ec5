/-
Independent specification of the modes of operation (NIST SP 800-38A) over an arbitrary block cipher
`E`.  A message is a list of 16-byte buffers.  In the modes with a unit of `s` bytes only the first
`s` bytes of each buffer carry data; the rest of the buffer is passed through.
-/
namespace Spec.Modes

abbrev Byte := BitVec 8

def xor (a b : List Byte) : List Byte := List.zipWith (· ^^^ ·) a b

/-- electronic codebook (§6.1) -/
def ecb (E : List Byte → List Byte) (ms : List (List Byte)) : List (List Byte) := ms.map E

/-- cipher block chaining (§6.2): `C_j = E(P_j ⊕ C_{j-1})`, `C_0 = IV` -/
def cbc (E : List Byte → List Byte) : List Byte → List (List Byte) → List (List Byte)
  | _, [] => []
  | c, p :: ps => E (xor p c) :: cbc E (E (xor p c)) ps

/-- cipher feedback with `s`-byte segments (§6.3): `C_j = P_j ⊕ MSB_s(E(I_j))`,
`I_{j+1} = LSB_{16-s}(I_j) ‖ C_j` -/
def cfb (E : List Byte → List Byte) (s : Nat) : List Byte → List (List Byte) → List (List Byte)
  | _, [] => []
  | i, p :: ps =>
    let c := xor (p.take s) ((E i).take s)
    (c ++ p.drop s) :: cfb E s (i.drop s ++ c) ps

/-- output feedback (§6.4) with full-block feedback: `O_j = E(O_{j-1})`, the first `s` bytes are used -/
def ofb (E : List Byte → List Byte) (s : Nat) : List Byte → List (List Byte) → List (List Byte)
  | _, [] => []
  | o, p :: ps => (xor (p.take s) ((E o).take s) ++ p.drop s) :: ofb E s (E o) ps

/-- little-endian number of a byte string, and back -/
def leNat : List Byte → Nat
  | [] => 0
  | x :: xs => x.toNat + 256 * leNat xs
def leBytes : Nat → Nat → List Byte
  | 0, _ => []
  | k + 1, n => BitVec.ofNat 8 n :: leBytes k (n / 256)

/-- counter mode (§6.5): buffer `j` is masked with `E(T_j)`, where the counter block `T_j` is the
little-endian number `IV + j` modulo `2^128` -/
def ctr (E : List Byte → List Byte) (s : Nat) (iv : List Byte) (ms : List (List Byte)) : List (List Byte) :=
  (List.range ms.length).map fun j =>
    let p := ms.getD j []
    let t := leBytes 16 ((leNat iv + j) % 2 ^ 128)
    xor (p.take s) ((E t).take s) ++ p.drop s

end Spec.Modes
