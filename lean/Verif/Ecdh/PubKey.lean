import Verif.Ecdh.Model
import Verif.Ecp.Model
/-
Model of the public-key part of `src/ecdh.rs` (lines 391-596): key generation, key validation, Diffie-Hellman and ECDSA.
`none` is a panic or a loop that does not end.  Status codes are the returned `isize`.  The random generator is a
parameter: `next` is `RAND::getbyte` in the program.
-/
namespace Verif.Ecdh
open Spec (Byte)
open Verif.Big Verif.Rom Verif.Ecp

variable {C : Nat} {σ : Type}

/-- `Big::tobytes` into a buffer (big.rs:402-415) -/
def bigInto (K : Rom C) (v : Limbs C) (buf : List Byte) : Option (List Byte) :=
  if buf.length < K.modbytes then none else some (toBytes K.P.b K.modbytes v ++ buf.drop K.modbytes)

/-- the tail of `key_pair_generate` (ecdh.rs:411-417): secret and public key buffers -/
def keyPairTail (K : Rom C) (sc : Limbs C) (s w : List Byte) : Option (List Byte × List Byte) := do
  let s ← bigInto K sc s
  let WP ← Ecp.mul K (generator K) sc
  let w ← Ecp.tobytes K WP w false
  pure (s, w)

/-- `key_pair_generate` with an external secret (ecdh.rs:397-420, `rng` absent) -/
def keyPairExternal (K : Rom C) (s w : List Byte) : Option (List Byte × List Byte) := do
  let sc ← rmod K.P.b (fuel K) (fromBytes K.P.b K.P.n K.modbytes s) K.order
  keyPairTail K sc s w

/-- `key_pair_generate` with a generator (ecdh.rs:397-420) -/
def keyPairGenerate (next : σ → Byte × σ) (K : Rom C) (rng : σ) (s w : List Byte) : Option (List Byte × List Byte × σ) :=
  let r := randomnum next K.P.b (fuel K) K.order rng
  r.1.bind fun sc => (keyPairTail K sc s w).map fun p => (p.1, p.2, r.2)

/-- the loop of `public_key_validate` (ecdh.rs:440-443) -/
def halve (K : Rom C) : Nat → Limbs C → Pt C → Option (Limbs C × Pt C)
  | 0, _, _ => none
  | f + 1, k, W => if parity k = 0 then halve K f (shr K.P.b 1 k) (Ecp.dbl K W) else some (k, W)

/-- `public_key_validate` (ecdh.rs:424-453): 0 or INVALID_PUBLIC_KEY = -2 -/
def publicKeyValidate (K : Rom C) (w : List Byte) : Option Int := do
  let WP ← Ecp.frombytes K w
  if isInfinity K WP then pure (-2)
  else
    let nb := nbits K.P.b K.P.md
    let k := add (shl K.P.b ((nb + 4) / 2) (Big.newInt C K.P.n 1)) K.P.md
    let k ← div K.P.b (fuel K) k K.order
    let (k, WP) ← halve K (fuel K) k WP
    let WP ← if isunity k then some WP else Ecp.mul K WP k
    pure (if isInfinity K WP then -2 else 0)

/-- `ecpsvdp_dh` (ecdh.rs:457-482): status (ERROR = -3) and the buffer `z` -/
def dh (K : Rom C) (s wd z : List Byte) : Option (Int × List Byte) := do
  let sc := fromBytes K.P.b K.P.n K.modbytes s
  let W ← Ecp.frombytes K wd
  if isInfinity K W then pure (-3, z)
  else
    let sc ← rmod K.P.b (fuel K) sc K.order
    let W ← Ecp.mul K W sc
    if isInfinity K W then pure (-3, z)
    else
      let z ← bigInto K (getx K W) z
      pure (0, z)

/-- the `while` loop of `ecpsp_dsa` (ecdh.rs:511-535).  `db` is zero at the head of every pass. -/
def dsaLoop (next : σ → Byte × σ) (K : Rom C) (sc fb : Limbs C) : Nat → σ → Option (Limbs C × Limbs C × σ)
  | 0, _ => none
  | f + 1, rng =>
    let b := K.P.b
    let r := K.order
    let ru := randomnum next b (fuel K) r rng
    let rw := randomnum next b (fuel K) r ru.2
    ru.1.bind fun u => rw.1.bind fun w =>
    (Ecp.mul K (generator K) u).bind fun V =>
    (rmod b (fuel K) (getx K V) r).bind fun cb =>
    if iszilch cb then dsaLoop next K sc fb f rw.2
    else
      (modmul b (fuel K) u w r).bind fun tb =>
      (invmodp b (fuel K) tb r).bind fun ui =>
      (modmul b (fuel K) sc cb r).bind fun db =>
      (modmul b (fuel K) (add db fb) w r).bind fun db =>
      (modmul b (fuel K) ui db r).bind fun db =>
      if iszilch db then dsaLoop next K sc fb f rw.2 else some (cb, db, rw.2)

/-- `ecpsp_dsa` (ecdh.rs:486-546): buffers `c`, `d` and the generator; `passes` bounds the passes of the loop -/
def sign (next : σ → Byte × σ) (K : Rom C) (passes sha : Nat) (rng : σ) (s f c d : List Byte) : Option (List Byte × List Byte × σ) := do
  let h ← hashit sha f 0 none K.modbytes (List.replicate K.modbytes 0)
  let sc := fromBytes K.P.b K.P.n K.modbytes s
  let fb := fromBytes K.P.b K.P.n K.modbytes h
  let r ← dsaLoop next K sc fb passes rng
  let c ← bigInto K r.1 c
  let d ← bigInto K r.2.1 d
  pure (c, d, r.2.2)

/-- `ecpvp_dsa` (ecdh.rs:550-596): 0, INVALID = -4 or ERROR = -3 -/
def verify (K : Rom C) (sha : Nat) (w f c d : List Byte) : Option Int := do
  let b := K.P.b
  let h ← hashit sha f 0 none K.modbytes (List.replicate K.modbytes 0)
  let r := K.order
  let cb := fromBytes b K.P.n K.modbytes c
  let db := fromBytes b K.P.n K.modbytes d
  if iszilch cb || decide (comp cb r ≥ 0) || iszilch db || decide (comp db r ≥ 0) then pure (-4)
  else
    let fb := fromBytes b K.P.n K.modbytes h
    let db ← invmodp b (fuel K) db r
    let fb ← modmul b (fuel K) fb db r
    let h2 ← modmul b (fuel K) cb db r
    let WP ← Ecp.frombytes K w
    if isInfinity K WP then pure (-3)
    else
      let P ← mul2 K WP h2 (generator K) fb
      if isInfinity K P then pure (-4)
      else
        let db ← rmod b (fuel K) (getx K P) r
        pure (if comp db cb ≠ 0 then -4 else 0)

/-- `ecies_encrypt` (ecdh.rs:599-657): ciphertext, buffers `v` and `t`, generator.  `eciesEncrypt` models the part after the Diffie-Hellman step. -/
def eciesEncryptRng (next : σ → Byte × σ) (K : Rom C) (aeskey sha : Nat) (p1 p2 : List Byte) (rng : σ) (w m v t : List Byte) :
    Option (Option (List Byte) × List Byte × List Byte × σ) := do
  let kp ← keyPairGenerate next K rng (List.replicate K.modbytes 0) v
  let z ← dh K kp.1 w (List.replicate K.modbytes 0)
  let r ← eciesEncrypt K.modbytes aeskey sha p1 p2 kp.2.1 (if z.1 = 0 then some z.2 else none) m t
  pure (r.1, kp.2.1, r.2, kp.2.2)

/-- `ecies_decrypt` (ecdh.rs:674-742).  The copy of the tag (a panic above 32 bytes) comes first in the code; a panic is a panic either way. -/
def eciesDecryptKey (K : Rom C) (aeskey sha : Nat) (p1 p2 v c t u : List Byte) : Option (Option (List Byte)) := do
  let z ← dh K u v (List.replicate K.modbytes 0)
  eciesDecrypt K.modbytes aeskey sha p1 p2 v (if z.1 = 0 then some z.2 else none) c t

end Verif.Ecdh
