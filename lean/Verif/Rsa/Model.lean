import Verif.Ecdh.Model
/-
Model of the encoding functions of `src/rsa.rs` (lines 66-105, 179-419) and, at the level of integer values, of
key generation, encryption and decryption (lines 108-175, 431-468).
`none` is a panic.  `rfs` is the constant `RFS`.
-/
namespace Verif.Rsa
open Spec (Byte)
open Verif.Sha2 (P256 P384 P512)
open Verif.Ecdh (write threshold)

/-- one of the three branches of `hashit` (rsa.rs:67-79, 80-92, 93-105): the counter is hashed when `n ≥ 0` -/
def hashBranch {w : Nat} (P : Sha2.Params w) (a : Option (List Byte)) (n : Int) : List Byte :=
  let h := Sha2.new P
  let h := match a with | some x => Sha2.processArray P h x | none => h
  let h := if n ≥ 0 then Sha2.processNum P h (BitVec.ofInt 32 n) else h
  (Sha2.hash P h).1

/-- `hashit` (rsa.rs:66-106): other values of `sha` write nothing -/
def hashit (sha : Nat) (a : Option (List Byte)) (n : Int) (w : List Byte) : Option (List Byte) :=
  if sha = 32 then write w 0 (hashBranch P256 a n)
  else if sha = 48 then write w 0 (hashBranch P384 a n)
  else if sha = 64 then write w 0 (hashBranch P512 a n)
  else some w

/-- loop body of `mgf1` (rsa.rs:191-206) on `(k, j)` -/
def mgfStep (sha : Nat) (z : List Byte) (olen : Nat) (st : List Byte × Nat) (counter : Nat) : Option (List Byte × Nat) := do
  let b ← hashit sha (some z) counter (List.replicate 64 0)
  let cnt := if st.2 + sha > olen then olen % sha else sha
  let k ← write st.1 st.2 (b.take cnt)
  pure (k, st.2 + cnt)

/-- `mgf1` (rsa.rs:179-207): clears the whole buffer first -/
def mgf1 (sha : Nat) (z : List Byte) (olen : Nat) (k : List Byte) : Option (List Byte) := do
  let r ← (List.range (threshold olen sha)).foldlM (mgfStep sha z olen) (List.replicate k.length 0, 0)
  pure r.1

/-- SHAXXX identifier strings (rsa.rs:210-221) -/
def SHA256ID : List Byte := [0x30, 0x31, 0x30, 0x0d, 0x06, 0x09, 0x60, 0x86, 0x48, 0x01, 0x65, 0x03, 0x04, 0x02, 0x01, 0x05, 0x00, 0x04, 0x20]
def SHA384ID : List Byte := [0x30, 0x41, 0x30, 0x0d, 0x06, 0x09, 0x60, 0x86, 0x48, 0x01, 0x65, 0x03, 0x04, 0x02, 0x02, 0x05, 0x00, 0x04, 0x30]
def SHA512ID : List Byte := [0x30, 0x51, 0x30, 0x0d, 0x06, 0x09, 0x60, 0x86, 0x48, 0x01, 0x65, 0x03, 0x04, 0x02, 0x03, 0x05, 0x00, 0x04, 0x40]

/-- `pkcs15` (rsa.rs:223-273); `olen` is the constant `FF_BITS / 8` -/
def pkcs15 (olen sha : Nat) (m w : List Byte) : Option (Bool × List Byte) :=
  if olen < 19 + sha + 10 then some (false, w) else do
  let b ← hashit sha (some m) (-1) (List.replicate 64 0)
  let w := List.replicate w.length 0
  let w ← write w 0 [0]
  let w ← write w 1 [1]
  let np := olen - 19 - sha - 3
  let w ← write w 2 (List.replicate np 0xff)
  let w ← write w (2 + np) [0]
  let id := if sha = 32 then SHA256ID else if sha = 48 then SHA384ID else if sha = 64 then SHA512ID else []
  let w ← write w (3 + np) id
  let w ← write w (3 + np + id.length) (b.take sha)
  pure (true, w)

/-- `oaep_encode` (rsa.rs:276-331).  `seedBytes` are the `sha` bytes drawn from the generator.
A modulus too short for an empty message underflows `usize` and is a panic here. -/
def oaepEncode (rfs sha : Nat) (m seedBytes : List Byte) (p : Option (List Byte)) (f : List Byte) : Option (Bool × List Byte) :=
  let olen := rfs - 1
  if rfs = 0 ∨ olen < 2 * sha + 1 then none
  else if m.length > olen - sha - sha - 1 then some (false, f) else do
  let f ← hashit sha p (-1) f
  let slen := olen - m.length - sha - sha - 1
  let f ← write f sha (List.replicate slen 0)
  let f ← write f (sha + slen) [1]
  let f ← write f (sha + slen + 1) m
  let seed := seedBytes ++ List.replicate (64 - sha) 0
  let L := olen - sha
  let dbmask ← mgf1 sha seed L (List.replicate rfs 0)
  let dbmask := List.zipWith (· ^^^ ·) (dbmask.take L) (f.take L) ++ dbmask.drop L
  let f ← mgf1 sha (dbmask.take L) sha f
  let f := List.zipWith (· ^^^ ·) (f.take sha) (seed.take sha) ++ f.drop sha
  let f ← write f sha (dbmask.take L)
  if f.length < rfs then none
  else some (true, 0 :: f.take (rfs - 1) ++ f.drop rfs)

/-- `oaep_decode` (rsa.rs:334-419): returned length and new contents of `f`.
When `f` is shorter than `RFS` the shifting loop (rsa.rs:348-356) indexes out of bounds. -/
def oaepDecode (rfs sha : Nat) (p : Option (List Byte)) (f : List Byte) : Option (Nat × List Byte) :=
  let olen := rfs - 1
  if rfs = 0 then none
  else if olen < sha + sha + 1 then some (0, f)
  else if f.length < rfs then none else do
  let chash ← hashit sha p (-1) (List.replicate 64 0)
  let x := f.getD 0 0
  let L := olen - sha
  let dbmask := (f.drop (sha + 1)).take L ++ List.replicate (rfs - L) 0
  let seed ← mgf1 sha (dbmask.take L) sha (List.replicate 64 0)
  let seed := List.zipWith (· ^^^ ·) (seed.take sha) ((f.drop 1).take sha) ++ seed.drop sha
  let f ← mgf1 sha seed L f
  let dbmask := List.zipWith (· ^^^ ·) (dbmask.take L) (f.take L) ++ dbmask.drop L
  let comp := chash.take sha == dbmask.take sha
  let dbmask := (dbmask.drop sha).take (L - sha) ++ dbmask.drop (L - sha)
  let k := (dbmask.take (L - sha)).findIdx (· != 0)
  if k ≥ L - sha then pure (0, f)
  else
    let t := dbmask.getD k 0
    if !comp || x != 0 || t != 1 then pure (0, f)
    else do
      let f ← write f 0 ((dbmask.drop (k + 1)).take (L - sha - k - 1))
      pure (L - sha - k - 1, f)

/-! ### RSA on integer values.  Simplification: `FF` numbers are natural numbers and the `FF` operations
(`power`, `skpow`, `dmod`, `rmod`, `mul`, `add`, `sub`, `invmodp`) are the operations they implement. -/

/-- a private key (rsa.rs:35-41) -/
structure Priv where
  (p q dp dq c : Nat)

/-- the part of `key_pair` after the primes are chosen (rsa.rs:152-174): `dp` is an inverse of `e` modulo
`t = (p-1)/2`, made odd by adding `t`; `invmodp` is any inverse function -/
def halfExp (invmodp : Nat → Nat → Nat) (e p : Nat) : Nat :=
  let t := (p - 1) / 2
  let d := invmodp e t
  if d % 2 = 0 then d + t else d

/-- `key_pair` (rsa.rs:108-175) for given primes -/
def keyPair (invmodp : Nat → Nat → Nat) (e p q : Nat) : Priv × Nat :=
  ({ p := p, q := q, dp := halfExp invmodp e p, dq := halfExp invmodp e q, c := invmodp p q }, p * q)

/-- `encrypt` (rsa.rs:431-438) -/
def encrypt (e n : Nat) (f : Nat) : Nat := f ^ e % n

/-- `decrypt` (rsa.rs:441-469) -/
def decrypt (k : Priv) (g : Nat) : Nat :=
  let jp := (g % k.p) ^ k.dp % k.p
  let jq := (g % k.q) ^ k.dq % k.q
  let r := jp
  let jp := jp % k.q
  let jq := if jp > jq then jq + k.q else jq
  let jq := jq - jp
  let t := k.c * jq
  let jq := t % k.q
  let t := jq * k.p
  r + t

end Verif.Rsa
