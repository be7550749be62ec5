import Verif.Sha2.Model
import Verif.Aes.Model
/-
Model of the symmetric part of `src/ecdh.rs` (lines 44-389) and of ECIES (lines 599-742).
A function that may index out of bounds returns `Option`; `none` is a panic.
-/
namespace Verif.Ecdh
open Spec (Byte)
open Verif.Sha2 (P256 P384 P512)

/-- A loop `for i in 0..src.len() { dst[off + i] = src[i] }`: panics when the slice is too short.
(Simplification: the elements written before the panic are not observable and not modelled.) -/
def write (dst : List Byte) (off : Nat) (src : List Byte) : Option (List Byte) :=
  if src = [] then some dst
  else if off + src.length ≤ dst.length then some (dst.take off ++ src ++ dst.drop (off + src.length))
  else none

/-- `inttobytes` (ecdh.rs:44-52): writes the significant bytes of `n` at the end of `b`, keeps the
rest of `b`. Recursion on the bytes of `b` from the last one. -/
def intToBytesRev (n : Nat) : List Byte → List Byte
  | [] => []
  | x :: xs => if n > 0 then BitVec.ofNat 8 n :: intToBytesRev (n / 256) xs else x :: xs
def inttobytes (n : Nat) (b : List Byte) : List Byte := (intToBytesRev n b.reverse).reverse

/-- One of the three identical branches of `hashit` (ecdh.rs:57-70, 71-84, 85-98):
`process_array(a)`, `process_num(n)` if `n > 0`, `process_array(b)` if present, `hash`. -/
def hashBranch {w : Nat} (P : Sha2.Params w) (a : List Byte) (n : Nat) (b : Option (List Byte)) : List Byte :=
  let h := Sha2.processArray P (Sha2.new P) a
  let h := if n > 0 then Sha2.processNum P h (BitVec.ofNat 32 n) else h
  let h := match b with | some x => Sha2.processArray P h x | none => h
  (Sha2.hash P h).1

/-- the 64-byte local `r` of `hashit` after the three `if`s (ecdh.rs:56-98) -/
def hashR (sha : Nat) (a : List Byte) (n : Nat) (b : Option (List Byte)) : List Byte :=
  if sha = 32 then hashBranch P256 a n b ++ List.replicate 32 0
  else if sha = 48 then hashBranch P384 a n b ++ List.replicate 16 0
  else if sha = 64 then hashBranch P512 a n b
  else List.replicate 64 0

/-- `hashit` (ecdh.rs:55-118): new contents of `w`. `sha > 64` would index `r` out of bounds. -/
def hashit (sha : Nat) (a : List Byte) (n : Nat) (b : Option (List Byte)) (pad : Nat) (w : List Byte) :
    Option (List Byte) :=
  let r := hashR sha a n b
  if pad = 0 then
    if sha ≤ 64 then write w 0 (r.take sha) else none
  else if pad ≤ sha then
    if pad ≤ 64 then write w 0 (r.take pad) else none
  else if sha ≤ 64 then do
    let w ← write w (pad - sha) (r.take sha)
    write w 0 (List.replicate (pad - sha) 0)
  else none

/-- the loop body shared by `kdf1` (ecdh.rs:134-146) and `kdf2` (ecdh.rs:164-176); state is `(k, lk)` -/
def kdfStep (sha : Nat) (z : List Byte) (p : Option (List Byte)) (olen : Nat) (st : List Byte × Nat) (counter : Nat) :
    Option (List Byte × Nat) := do
  let b ← hashit sha z counter p 0 (List.replicate 64 0)
  let cnt := if st.2 + sha > olen then olen % sha else sha
  let k ← write st.1 st.2 (b.take cnt)
  pure (k, st.2 + cnt)

/-- number of blocks: `olen / hlen`, plus one if there is a remainder (ecdh.rs:128-131, 158-161, 184-187) -/
def threshold (olen sha : Nat) : Nat := olen / sha + if olen % sha ≠ 0 then 1 else 0

/-- `kdf1` (ecdh.rs:123-148): counters `0..cthreshold` -/
def kdf1 (sha : Nat) (z : List Byte) (olen : Nat) (k : List Byte) : Option (List Byte) := do
  let r ← (List.range (threshold olen sha)).foldlM (kdfStep sha z none olen) (k, 0)
  pure r.1

/-- `kdf2` (ecdh.rs:153-178): counters `1..=cthreshold` -/
def kdf2 (sha : Nat) (z : List Byte) (p : Option (List Byte)) (olen : Nat) (k : List Byte) : Option (List Byte) := do
  let r ← (List.range' 1 (threshold olen sha)).foldlM (kdfStep sha z p olen) (k, 0)
  pure r.1

/-- the key block of `hmac` (ecdh.rs:232, 243-256): 128 bytes, the first `lb` in use -/
def keyBlock (sha lb : Nat) (k : List Byte) : Option (List Byte) :=
  if k.length > lb then do
    let b ← hashit sha k 0 none 0 (List.replicate 64 0)
    write (List.replicate 128 0) 0 (b.take sha)
  else write (List.replicate 128 0) 0 k

/-- `hmac` (ecdh.rs:227-269): result and new contents of `tag`; `k0` is the 128-byte local -/
def hmac (sha : Nat) (m k : List Byte) (olen : Nat) (tag : List Byte) : Option (Bool × List Byte) :=
  if olen < 4 then some (false, tag) else do
  let lb := if sha > 32 then 128 else 64
  let k0 ← keyBlock sha lb k
  let k0 := (k0.take lb).map (· ^^^ 0x36) ++ k0.drop lb
  let b ← hashit sha (k0.take lb) 0 (some m) 0 (List.replicate 64 0)
  let k0 := (k0.take lb).map (· ^^^ 0x6a) ++ k0.drop lb
  let tag ← hashit sha (k0.take lb) 0 (some (b.take sha)) olen tag
  pure (true, tag)

/-- one pass of `for _ in 1..rep` of `pbkdf2` (ecdh.rs:210-216) on `(f, u, ku)`: the MAC is over the
whole 64-byte array `u` -/
def pbkdfIter (sha : Nat) (pass : List Byte) (st : List Byte × List Byte × List Byte) :
    Option (List Byte × List Byte × List Byte) := do
  let (_, ku) ← hmac sha st.2.1 pass sha st.2.2
  let u := ku.take sha ++ st.2.1.drop sha
  pure (List.zipWith (· ^^^ ·) (st.1.take sha) (u.take sha) ++ st.1.drop sha, u, ku)

/-- state of the outer loop of `pbkdf2`: arrays `f`, `u`, `ku`, `s`, `n`, the output `k` and `kp` -/
structure Pb where
  (f u ku s n k : List Byte)
  kp : Nat

/-- the output loop `for j in 0..EFS` of `pbkdf2` (ecdh.rs:217-222) -/
def pbkdfOut (f : List Byte) (olen : Nat) (st : List Byte × Nat) (j : Nat) : Option (List Byte × Nat) :=
  if st.2 < olen ∧ st.2 < f.length then do
    let x ← f[j]?
    let k ← write st.1 st.2 [x]
    pure (k, st.2 + 1)
  else pure (st.1, st.2 + 1)

/-- one pass of the outer loop of `pbkdf2` (ecdh.rs:196-223) -/
def pbkdfBlock (efs sha : Nat) (pass salt : List Byte) (rep olen : Nat) (st : Pb) (i : Nat) : Option Pb := do
  let s ← write st.s 0 salt
  let n := inttobytes (i + 1) st.n
  let s ← write s salt.length n
  let (_, f) ← hmac sha (s.take (salt.length + 4)) pass sha st.f
  let u := f.take sha ++ st.u.drop sha
  let (f, u, ku) ← (List.range (rep - 1)).foldlM (fun x _ => pbkdfIter sha pass x) (f, u, st.ku)
  let (k, kp) ← (List.range efs).foldlM (pbkdfOut f olen) (st.k, st.kp)
  pure { f := f, u := u, ku := ku, s := s, n := n, k := k, kp := kp }

/-- `pbkdf2` (ecdh.rs:183-224); `efs` is the constant `EFS` of the curve -/
def pbkdf2 (efs sha : Nat) (pass salt : List Byte) (rep olen : Nat) (k : List Byte) : Option (List Byte) := do
  let z := List.replicate 64 0
  let st ← (List.range (threshold olen sha)).foldlM (pbkdfBlock efs sha pass salt rep olen)
    { f := z, u := z, ku := z, s := List.replicate 36 0, n := List.replicate 4 0, k := k, kp := 0 }
  pure st.k

/-- the loop of `cbc_iv0_encrypt` (ecdh.rs:286-305) and the final block (ecdh.rs:309-318): a full block of
input is encrypted and pushed; when fewer than 16 bytes are left they are padded and encrypted. -/
def encLoop (a : Aes.AES) (m : List Byte) : List Byte :=
  if 16 ≤ m.length then
    let r := Aes.encrypt a (m.take 16)
    r.2.1 ++ encLoop r.1 (m.drop 16)
  else
    let padlen := 16 - m.length
    (Aes.encrypt a (m ++ List.replicate padlen (BitVec.ofNat 8 padlen))).2.1
termination_by m.length
decreasing_by simp; omega

/-- `cbc_iv0_encrypt` (ecdh.rs:272-321) -/
def cbcIv0Encrypt (k m : List Byte) : List Byte :=
  encLoop (Aes.init Aes.new Aes.CBC k.length k none).2 m

/-- the tail of `cbc_iv0_decrypt` (ecdh.rs:366-388): `i` is the index of the last byte read, `buff` the
last decrypted block, `m` the output so far -/
def unpad (i : Nat) (buff m : List Byte) : Option (List Byte) :=
  let padlen := (buff.getD 15 0).toNat
  let bad := i != 15 || padlen < 1 || padlen > 16
  let bad := bad || (2 ≤ padlen && padlen ≤ 16
    && (List.range' (16 - padlen) padlen).any fun j => buff.getD j 0 != BitVec.ofNat 8 padlen)
  if bad then none else some (m ++ buff.take (16 - padlen))

/-- the loop of `cbc_iv0_decrypt` (ecdh.rs:343-363) with one byte of lookahead: while more than 16 bytes
are left a block is decrypted and pushed; the last at most 16 bytes overwrite the start of the
buffer, which is decrypted and handed to `unpad`.  `c` is not empty. -/
def decLoop (a : Aes.AES) (buff m c : List Byte) : Option (List Byte) :=
  if 16 < c.length then
    let r := Aes.decrypt a (c.take 16)
    decLoop r.1 r.2.1 (m ++ r.2.1) (c.drop 16)
  else
    let r := Aes.decrypt a (c ++ buff.drop c.length)
    unpad (c.length - 1) r.2.1 m
termination_by c.length
decreasing_by simp; omega

/-- `cbc_iv0_decrypt` (ecdh.rs:324-389) -/
def cbcIv0Decrypt (k c : List Byte) : Option (List Byte) :=
  if c = [] then none
  else decLoop (Aes.init Aes.new Aes.CBC k.length k none).2 (List.replicate 16 0) [] c

/-- `ncomp` (ecdh.rs:661-670): `none` when an index is out of bounds -/
def ncomp (t1 t2 : List Byte) (n : Nat) : Option Bool :=
  if n ≤ t1.length ∧ n ≤ t2.length then
    some (((List.range n).foldl (fun acc i => acc ||| (t1.getD i 0 ^^^ t2.getD i 0)) (0 : Byte)) == 0)
  else none

/-- the string authenticated by ECIES: ciphertext, `p2`, 8-byte length of `p2` (ecdh.rs:639-649, 719-729) -/
def macInput (c p2 : List Byte) : List Byte := c ++ p2 ++ inttobytes p2.length (List.replicate 8 0)

/-- key derivation of ECIES (ecdh.rs:623-635, 699-711): `vz` is the first `2·EFS+1` bytes of `v` followed by
`z`, and `k1`, `k2` are the halves of the derived `2·AESKEY` bytes -/
def eciesKeys (efs aeskey sha : Nat) (p1 v z : List Byte) : Option (List Byte × List Byte) :=
  if v.length < 2 * efs + 1 then none else do
  let k ← kdf2 sha (v.take (2 * efs + 1) ++ z) (some p1) (2 * aeskey) (List.replicate (2 * aeskey) 0)
  pure (k.take aeskey, k.drop aeskey)

/-- `ecies_encrypt` (ecdh.rs:599-658) after key generation and Diffie-Hellman: `v` is the ephemeral public
key written by `key_pair_generate` and `dh` the result of `ecpsvdp_dh` (`none` is an error status).
The outer option is a panic; the result is the returned ciphertext and the new contents of `t`. -/
def eciesEncrypt (efs aeskey sha : Nat) (p1 p2 v : List Byte) (dh : Option (List Byte)) (m t : List Byte) :
    Option (Option (List Byte) × List Byte) :=
  match dh with
  | none => some (none, t)
  | some z => do
    let (k1, k2) ← eciesKeys efs aeskey sha p1 v z
    let c := cbcIv0Encrypt k1 m
    let (_, t) ← hmac sha (macInput c p2) k2 t.length t
    pure (some c, t)

/-- `ecies_decrypt` (ecdh.rs:674-742); `dh` is the result of `ecpsvdp_dh(u, v)` -/
def eciesDecrypt (efs aeskey sha : Nat) (p1 p2 v : List Byte) (dh : Option (List Byte)) (c t : List Byte) :
    Option (Option (List Byte)) := do
  let tag ← write (List.replicate 32 0) 0 t
  match dh with
  | none => pure none
  | some z =>
    let (k1, k2) ← eciesKeys efs aeskey sha p1 v z
    match cbcIv0Decrypt k1 c with
    | none => pure none
    | some m =>
      let (_, tag) ← hmac sha (macInput c p2) k2 t.length tag
      let ok ← ncomp t tag t.length
      pure (if ok then some m else none)

end Verif.Ecdh
