import Verif.Spec.Sha2
/-
Independent specification of GCM: NIST SP 800-38D over an arbitrary block cipher `E` on 16-byte blocks.
Blocks are byte strings; GF(2^128) elements are `BitVec 128` with the first bit of the block as most
significant bit.
-/
namespace Spec.Gcm
open Spec (Byte beNat beBytes)

/-- a 16-byte block as an element of GF(2^128), and back -/
def toBV (b : List Byte) : BitVec 128 := BitVec.ofNat 128 (beNat b)
def ofBV (x : BitVec 128) : List Byte := beBytes 16 x.toNat

/-- the reduction polynomial `R = 11100001 ‖ 0^120` (§6.3) -/
def R : BitVec 128 := 0xE1000000000000000000000000000000

/-- one step of Algorithm 1 on `V`: multiplication by the variable of the field -/
def mulX (V : BitVec 128) : BitVec 128 := if V.getLsbD 0 then (V >>> 1) ^^^ R else V >>> 1

/-- multiplication in GF(2^128) (§6.3, Algorithm 1): bits of `X` from the left -/
def mul (X Y : BitVec 128) : BitVec 128 :=
  ((List.range 128).foldl (fun (zv : BitVec 128 × BitVec 128) i =>
    ((if X.getMsbD i then zv.1 ^^^ zv.2 else zv.1), mulX zv.2)) (0, Y)).1

/-- GHASH (§6.4, Algorithm 2), continued from an intermediate value -/
def ghashFrom (H Y : BitVec 128) (xs : List (BitVec 128)) : BitVec 128 := xs.foldl (fun Y X => mul (Y ^^^ X) H) Y
def ghash (H : BitVec 128) (xs : List (BitVec 128)) : BitVec 128 := ghashFrom H 0 xs

/-- the 16-byte blocks of a byte string, the last one padded with zero bytes -/
def blocks (l : List Byte) : List (BitVec 128) :=
  (List.range ((l.length + 15) / 16)).map fun i =>
    let b := (l.drop (16 * i)).take 16
    toBV (b ++ List.replicate (16 - b.length) 0)

/-- the block of two 64-bit bit lengths -/
def lenBlock (a c : Nat) : BitVec 128 := (BitVec.ofNat 64 (8 * a)) ++ (BitVec.ofNat 64 (8 * c))

/-- increment of the last 32 bits (§6.2) -/
def inc32 (b : List Byte) : List Byte := b.take 12 ++ beBytes 4 ((beNat (b.drop 12) + 1) % 2 ^ 32)

/-- `inc32` applied `k` times -/
def incBy : Nat → List Byte → List Byte
  | 0, b => b
  | k + 1, b => inc32 (incBy k b)

/-- GCTR (§6.5, Algorithm 3) -/
def gctr (E : List Byte → List Byte) (icb x : List Byte) : List Byte :=
  List.zipWith (· ^^^ ·) x ((List.range ((x.length + 15) / 16)).flatMap fun i => E (incBy i icb))

def hashKey (E : List Byte → List Byte) : BitVec 128 := toBV (E (List.replicate 16 0))

/-- pre-counter block (§7.1 step 2) -/
def J0 (E : List Byte → List Byte) (iv : List Byte) : List Byte :=
  if iv.length = 12 then iv ++ [0, 0, 0, 1] else ofBV (ghash (hashKey E) (blocks iv ++ [lenBlock 0 iv.length]))

/-- the 16-byte tag of header `a` and ciphertext `c` (§7.1 steps 5, 6) -/
def tag (E : List Byte → List Byte) (iv a c : List Byte) : List Byte :=
  gctr E (J0 E iv) (ofBV (ghash (hashKey E) (blocks a ++ blocks c ++ [lenBlock a.length c.length])))

/-- authenticated encryption (§7.1): ciphertext and 16-byte tag -/
def encrypt (E : List Byte → List Byte) (iv a p : List Byte) : List Byte × List Byte :=
  let c := gctr E (inc32 (J0 E iv)) p
  (c, tag E iv a c)

/-! A session: header and text may arrive in pieces.  All pieces but the last of the header, and all
but the last of the text, must be multiples of 16 bytes. -/

inductive Phase where
  | header | text | closed
deriving DecidableEq

structure Session where
  phase : Phase
  a : List Byte
  c : List Byte

def start : Session := ⟨.header, [], []⟩

inductive Op where
  | header (h : List Byte)
  | plain (p : List Byte)
  | cipher (c : List Byte)

/-- what one call does: accepted or not, the bytes put out, the new session -/
def step (E : List Byte → List Byte) (iv : List Byte) (s : Session) : Op → (Bool × List Byte) × Session
  | .header h =>
    if s.phase = .header then
      ((true, []), { s with a := s.a ++ h, phase := if h.length % 16 = 0 then .header else .text })
    else ((false, []), s)
  | .plain p =>
    if s.phase = .closed then ((false, []), s)
    else
      let c := gctr E (incBy (s.c.length / 16 + 1) (J0 E iv)) p
      ((true, c), { s with c := s.c ++ c, phase := if p.length % 16 = 0 then .text else .closed })
  | .cipher c =>
    if s.phase = .closed then ((false, []), s)
    else
      ((true, gctr E (incBy (s.c.length / 16 + 1) (J0 E iv)) c),
        { s with c := s.c ++ c, phase := if c.length % 16 = 0 then .text else .closed })

/-- all calls, then the tag -/
def session (E : List Byte → List Byte) (iv : List Byte) : Session → List Op → List (Bool × List Byte) × List Byte
  | s, [] => ([], tag E iv s.a s.c)
  | s, op :: ops =>
    let r := step E iv s op
    let rest := session E iv r.2 ops
    (r.1 :: rest.1, rest.2)

end Spec.Gcm
