import Verif.Ff.Model
/-
Model of the RSA functions of rsa.rs on the multi-precision arithmetic of ff.rs.
Parameters: `b` = BASEBITS, `n` = NLEN, `mb` = MODBYTES, `R = 8 * mb` = P_MBITS, half-size numbers have `2^k` digits.
`fuel` bounds every unbounded loop; `none` = the fuel ran out.
-/
namespace Verif.RsaFf
open Verif.Ff

variable {C : Nat}

/-- `RsaPrivateKey` (rsa.rs:37-43) -/
structure Priv (C : Nat) where
  (p q dp dq c : FF C)

/-- the private exponent for one prime (rsa.rs:155-161, 163-169): `t` is `(p - 1) >> 1` (`p1.dec(1)`, `t.shr()`,
rsa.rs:125-126, 155-156) -/
def halfExp (b n R fuel : Nat) (e : Int) (p : FF C) : Option (FF C) :=
  let t := shr b R (dec b R p 1)
  (invmodp b n R fuel (setInt n p.length e) t).map fun d =>
    norm b R (if parity d = 0 then add d t else d)

/-- `key_pair` (rsa.rs:108-174) after the primes `p`, `q` have been chosen: private key and modulus.  The choice of
the primes (`FF::random`, `FF::prime`, `FF::cfactor`) is not modelled. -/
def keyPair (b n R fuel k : Nat) (e : Int) (p q : FF C) : Option (Priv C × FF C) :=
  (halfExp b n R fuel e p).bind fun dp =>
  (halfExp b n R fuel e q).bind fun dq =>
  (invmodp b n R fuel p q).map fun c =>
    ({ p := p, q := q, dp := dp, dq := dq, c := c }, mul b n R k p q)

/-- `encrypt` (rsa.rs:431-438); the modulus has `2^(k+1)` digits -/
def encrypt (b n R mb fuel k : Nat) (e : Nat) (m : FF C) (f : List (BitVec 8)) : Option (List (BitVec 8)) :=
  (power b n R fuel (k + 1) (fromBytes b n mb (2 * 2 ^ k) f) e m).map (toBytes b mb)

/-- `decrypt` (rsa.rs:441-469) -/
def decrypt (b n R mb fuel k : Nat) (prv : Priv C) (g : List (BitVec 8)) : Option (List (BitVec 8)) :=
  let r := fromBytes b n mb (2 * 2 ^ k) g
  (dmod b n R fuel r prv.p).bind fun jp =>
  (dmod b n R fuel r prv.q).bind fun jq =>
  (skpow b n R fuel k jp prv.dp prv.p).bind fun jp =>
  (skpow b n R fuel k jq prv.dq prv.q).bind fun jq =>
  let r := jp ++ zero n jp.length
  (rmod b R fuel jp prv.q).bind fun jp =>
  let jq := if comp jp jq > 0 then add jq prv.q else jq
  let jq := norm b R (sub jq jp)
  let t := mul b n R k prv.c jq
  (dmod b n R fuel t prv.q).map fun jq =>
  let t := mul b n R k jq prv.p
  toBytes b mb (norm b R (add r t))

end Verif.RsaFf
