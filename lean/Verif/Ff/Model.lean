import Verif.Big.Model

/-
Model of ff.rs: numbers of `length` digits, each digit a `Big` (an array of `NLEN` limbs), radix
`2^(8*MODBYTES)`.  `C` is the word size, `b` = BASEBITS, `n` = NLEN, `R` = 8*MODBYTES = BIGBITS.

Simplifications, all about storage: the recursive routines of ff.rs write into slices of `self` and of
a workspace `t` addressed by offsets; here every slice is a value, so the model says nothing about a
read of a stale slice (the offsets used by ff.rs are disjoint: `tp + n` onwards is workspace of the
callee).  The lengths `n` of ff.rs, which are powers of two, are `2^k`, and the recursion is on `k`.
Loops that Lean cannot see to terminate carry fuel; `none` is "did not finish within the fuel".
-/
namespace Verif.Ff
open Verif.Big

variable {C : Nat}

/-- `FF` (ff.rs:42-45): digits, least significant first; `length` is the length of the list -/
abbrev FF (C : Nat) := List (Limbs C)

/-- `FF::new_int`, `FF::zero` (ff.rs:70-80, 82-86) -/
def zero (n len : Nat) : FF C := List.replicate len (Big.zero C n)

/-- `P_TBITS` (ff.rs:40) -/
def tbits (b R : Nat) : Nat := R % b

/-- `P_OMASK` (ff.rs:38): `(-1) << (P_MBITS % BASEBITS)` -/
def omask (C b R : Nat) : BitVec C := BitVec.allOnes C <<< tbits b R

/-- `P_FEXCESS` (ff.rs:39), a word -/
def fexcess (C b n R : Nat) : BitVec C := 1#C <<< (b * n - R - 1)

/-- `FF::excess` (ff.rs:48-50) -/
def excess (b R : Nat) (a : Limbs C) : BitVec C :=
  ((a.getLastD 0) &&& omask C b R).sshiftRight (tbits b R) + 1#C

/-- `FF::pexceed` (ff.rs:52-59): the product is taken in double width -/
def pexceed (b n R : Nat) (a c : Limbs C) : Bool :=
  (wide (fexcess C b n R)).toInt < (wide (excess b R a + 1#C) * wide (excess b R c + 1#C)).toInt

/-- `FF::sexceed` (ff.rs:61-67) -/
def sexceed (b n R : Nat) (a : Limbs C) : Bool :=
  (wide (fexcess C b n R)).toInt < (wide (excess b R a + 1#C) * wide (excess b R a + 1#C)).toInt

/-- `FF::one` (ff.rs:128-133) -/
def one (n len : Nat) : FF C := (zero n len).set 0 (newInt C n 1)

/-- `FF::set` (ff.rs:93-96) -/
def setInt (n len : Nat) (m : Int) : FF C := (zero n len).set 0 (newInt C n m)

/-- `FF::iszilch` (ff.rs:136-143) -/
def iszilch (x : FF C) : Bool := x.all Big.iszilch

/-- digit `i` -/
def dig (x : FF C) (i : Nat) : Limbs C := x.getD i []

/-- `FF::parity` (ff.rs:162-164) -/
def parity (x : FF C) : Int := Big.parity (dig x 0)

/-- `FF::lastbits` (ff.rs:166-168), returned value -/
def lastbits (b : Nat) (x : FF C) (m : Nat) : BitVec C := Big.lastbits b (dig x 0) m

/-- `FF::comp` (ff.rs:171-185): from the top digit down -/
def comp : FF C → FF C → Int
  | x :: xs, y :: ys => let j := comp xs ys
    if j ≠ 0 then j else Big.comp x y
  | _, _ => 0

/-- `FF::radd`, `FF::add`, `FF::rinc` (ff.rs:188-193, 225-229, 196-200) -/
def add (x y : FF C) : FF C := List.zipWith Big.add x y

/-- `FF::rsub`, `FF::sub`, `FF::rdec` (ff.rs:210-215, 232-236, 218-222) -/
def sub (x y : FF C) : FF C := List.zipWith Big.sub x y

/-- `FF::revsub` (ff.rs:239-243) -/
def revsub (x y : FF C) : FF C := List.zipWith Big.rsub x y

/-- `Big::xortop` (big.rs:122-124) -/
def xortop (d : Limbs C) (x : BitVec C) : Limbs C := d.set (d.length - 1) (d.getLastD 0 ^^^ x)

/-- `self.v[vp+i+1].w[0] += carry` (ff.rs:258) -/
def addLow (carry : BitVec C) (d : Limbs C) : Limbs C := d.set 0 (at' d 0 + carry)

/-- the carry returned by `norm` (big.rs:192) on an already normalised digit -/
def carryOf (b R : Nat) (d : Limbs C) : BitVec C := (d.getLastD 0).sshiftRight (tbits b R)

/-- loop of `FF::rnorm` (ff.rs:246-264); the first digit gets carry 0; `tr` is the truncation flag
(negative `n`) -/
def rnormGo (b R : Nat) (tr : Bool) (carry : BitVec C) : FF C → FF C
  | [] => []
  | [d] =>
    let d := Big.norm b (addLow carry d)
    [if tr then xortop d (carryOf b R d <<< tbits b R) else d]
  | d :: e :: r =>
    let d := Big.norm b (addLow carry d)
    let c := carryOf b R d
    xortop d (c <<< tbits b R) :: rnormGo b R tr c (e :: r)

/-- `FF::norm`, `FF::rnorm(vp, n)` with positive `n` (ff.rs:247-270) -/
def norm (b R : Nat) (x : FF C) : FF C := rnormGo b R false 0 x

/-- `FF::rnorm(vp, -n)` (ff.rs:247-265) -/
def normT (b R : Nat) (x : FF C) : FF C := rnormGo b R true 0 x

/-- `FF::inc` (ff.rs:272-275) -/
def inc (b R : Nat) (x : FF C) (m : Int) : FF C := norm b R (x.set 0 (Big.inc b (dig x 0) m))

/-- `FF::dec` (ff.rs:277-280) -/
def dec (b R : Nat) (x : FF C) (m : Int) : FF C := norm b R (x.set 0 (Big.dec b (dig x 0) m))

/-- loop of `FF::shl` (ff.rs:283-293); `fshl` returns the bits above `8*MODBYTES` (big.rs:246) -/
def shlGo (b R : Nat) (delay : Int) : FF C → FF C
  | [] => []
  | [d] => [Big.inc b (Big.fshl b 1 d) delay]
  | d :: e :: r =>
    let d := Big.fshl b 1 d
    let c := carryOf b R d
    xortop (Big.inc b d delay) (c <<< tbits b R) :: shlGo b R c.toInt (e :: r)

/-- `FF::shl` (ff.rs:283-293) -/
def shl (b R : Nat) (x : FF C) : FF C := shlGo b R 0 x

/-- `FF::shr` (ff.rs:297-305): from the top; the bit shifted out of a digit enters the digit below at
position `8*MODBYTES` before that digit is shifted.  Returns the new digits and the bit shifted out. -/
def shrGo (b R : Nat) : FF C → FF C × BitVec C
  | [] => ([], 0)
  | d :: ds =>
    let (ds', c) := shrGo b R ds
    let d := if ds.isEmpty then d else xortop d (c <<< tbits b R)
    (Big.fshr b 1 d :: ds', Big.fshrOut 1 d)

/-- `FF::shr` -/
def shr (b R : Nat) (x : FF C) : FF C := (shrGo b R x).1

/-- `FF::tobytes` (ff.rs:323-327): digit `i` at offset `(length-i-1)*MODBYTES`; a shorter slice panics
and the rest of a longer one is unchanged -/
def toBytes (b mb : Nat) (x : FF C) : List (BitVec 8) := (x.map (Big.toBytes b mb)).reverse.flatten

/-- `FF::frombytes` (ff.rs:329-333) into `len` digits from a slice of `len*MODBYTES` bytes -/
def fromBytes (b n mb : Nat) : (len : Nat) → List (BitVec 8) → FF C
  | 0, _ => []
  | len + 1, bs => Big.fromBytes b n mb (bs.drop (len * mb)) :: fromBytes b n mb len bs

/-- `FF::cswap` (ff.rs:336-340) -/
def cswap (x y : FF C) (d : Int) : FF C × FF C :=
  (List.zipWith (fun u v => (Big.cswap u v d).1) x y, List.zipWith (fun u v => (Big.cswap u v d).2) x y)

/-! ### Multiplication -/

/-- the case `n == 1` of `karmul`, `karsqr` (ff.rs:354-361, 381-387): `split`, then `dcopy` of the low
limbs -/
def splitDigits (b n R : Nat) (d : Limbs C) : FF C :=
  let hl := Big.split b n R d
  [hl.2.take n, hl.1]

/-- `FF::karmul` (ff.rs:343-378) -/
def karmul (b n R : Nat) : (k : Nat) → FF C → FF C → FF C
  | 0, x, y => splitDigits b n R (Big.mul b (dig x 0) (dig y 0))
  | k + 1, x, y =>
    let h := 2 ^ k
    let x0 := x.take h
    let x1 := (x.drop h).take h
    let y0 := y.take h
    let y1 := (y.drop h).take h
    let sx := norm b R (add x0 x1)
    let sy := norm b R (add y0 y1)
    let t := karmul b n R k sx sy
    let z0 := karmul b n R k x0 y0
    let z1 := karmul b n R k x1 y1
    let t := sub (sub t z0) z1
    let z := z0 ++ z1
    norm b R (z.take h ++ add ((z.drop h).take (2 * h)) t ++ z.drop (3 * h))

/-- `FF::karsqr` (ff.rs:380-398): only the middle part is normalised -/
def karsqr (b n R : Nat) : (k : Nat) → FF C → FF C
  | 0, x => splitDigits b n R (Big.sqr b (dig x 0))
  | k + 1, x =>
    let h := 2 ^ k
    let x0 := x.take h
    let x1 := (x.drop h).take h
    let z := karsqr b n R k x0 ++ karsqr b n R k x1
    let t := karmul b n R k x0 x1
    z.take h ++ norm b R (add (add ((z.drop h).take (2 * h)) t) t) ++ z.drop (3 * h)

/-- `FF::karmul_lower` (ff.rs:401-428) -/
def karmulLower (b n R : Nat) : (k : Nat) → FF C → FF C → FF C
  | 0, x, y => [Big.smul b (dig x 0) (dig y 0)]
  | k + 1, x, y =>
    let h := 2 ^ k
    let x0 := x.take h
    let x1 := (x.drop h).take h
    let y0 := y.take h
    let y1 := (y.drop h).take h
    let z := karmul b n R k x0 y0
    let t := karmulLower b n R k x1 y0
    let u := karmulLower b n R k x0 y1
    z.take h ++ normT b R (add (add (z.drop h) t) u)

/-- `FF::karmul_upper` (ff.rs:431-457) for `n = 2^(k+1)`: `z` is the lower half of the product
(`self[0..n]`); the result is all `2n` digits of `self` -/
def karmulUpper (b n R : Nat) (k : Nat) (z x y : FF C) : FF C :=
  let h := 2 ^ k
  let x0 := x.take h
  let x1 := (x.drop h).take h
  let y0 := y.take h
  let y1 := (y.drop h).take h
  let sx := norm b R (add x0 x1)
  let sy := norm b R (add y0 y1)
  let t := karmul b n R k sy sx
  let zh := karmul b n R k x1 y1
  let t := sub t zh
  -- rsinc(nd2); rdec(nd2, t, 0, nd2)
  let z := z.take h ++ sub (add ((z.drop h).take h) (z.take h)) (t.take h)
  let z := normT b R z
  let t := sub t z
  let z := z ++ zh
  z.take h ++ norm b R (add ((z.drop h).take (2 * h)) t) ++ z.drop (3 * h)

/-- `FF::mul` (ff.rs:460-466) on operands of `2^k` digits -/
def mul (b n R k : Nat) (x y : FF C) : FF C := karmul b n R k x y

/-- `FF::sqr` (ff.rs:506-512) -/
def sqr (b n R k : Nat) (x : FF C) : FF C := karsqr b n R k x

/-- `FF::lmul` (ff.rs:469-475) -/
def lmul (b n R k : Nat) (x y : FF C) : FF C := karmulLower b n R k x y

/-! ### Reduction -/

/-- first loop of `rmod` (ff.rs:490-493): `while self >= c { c <<= 1; k += 1 }` -/
def upLoop (b R : Nat) (x : FF C) : (fuel : Nat) → FF C → Nat → Option (FF C × Nat)
  | 0, _, _ => none
  | f + 1, c, k => if comp x c ≥ 0 then upLoop b R x f (shl b R c) (k + 1) else some (c, k)

/-- second loop of `rmod` (ff.rs:495-502) and of `dmod` (ff.rs:553-561) -/
def downLoop (b R : Nat) : Nat → FF C → FF C → FF C
  | 0, _, x => x
  | k + 1, c, x =>
    let c := shr b R c
    downLoop b R k c (if comp x c ≥ 0 then norm b R (sub x c) else x)

/-- `FF::rmod` (ff.rs:478-503) -/
def rmod (b R fuel : Nat) (x m : FF C) : Option (FF C) :=
  let x := norm b R x
  if comp x m < 0 then some x
  else (upLoop b R x fuel (shl b R m) 1).map fun ck => downLoop b R ck.2 ck.1 x

/-- first loop of `dmod` (ff.rs:548-551) -/
def subLoop (b R : Nat) (m : FF C) : (fuel : Nat) → FF C → Option (FF C)
  | 0, _ => none
  | f + 1, x => if comp x m ≥ 0 then subLoop b R m f (norm b R (sub x m)) else some x

/-- `FF::dmod` (ff.rs:537-566): `m` starts as `c` shifted up by `length` digits -/
def dmod (b n R fuel : Nat) (x c : FF C) : Option (FF C) :=
  let m := zero n c.length ++ c
  (subLoop b R m fuel (norm b R x)).bind fun x =>
    rmod b R fuel ((downLoop b R (R * c.length) m x).take c.length) c

/-- `FF::reduce` (ff.rs:515-532) for a modulus of `2^(k+1)` digits -/
def reduce (b n R k : Nat) (d ms md : FF C) : FF C :=
  let len := 2 ^ (k + 1)
  let r := d.drop len
  let m := karmulLower b n R (k + 1) (d.take len) md
  let d := karmulUpper b n R k (d.take len) ms m
  norm b R (sub (add r ms) (d.drop len))

/-- `FF::nres` (ff.rs:636-647) for a modulus of `2^k` digits -/
def nres (b n R fuel : Nat) (k : Nat) (x m : FF C) : Option (FF C) :=
  if k = 0 then (Big.dmod b fuel (Big.shl b (n * b) (newScopy b (dig x 0))) (dig m 0)).map fun r => [r]
  else dmod b n R fuel (zero n m.length ++ x) m

/-- the Montgomery constant the one-digit branches build from `nd` (ff.rs:655, 747, 766) -/
def mcOf (b : Nat) (nd : FF C) : BitVec C := (1#C <<< b) - at' (dig nd 0) 0

/-- `FF::redc` (ff.rs:649-665) -/
def redc (b n R fuel : Nat) : (k : Nat) → FF C → FF C → FF C → Option (FF C)
  | 0, x, m, md => some [Big.monty b (dig m 0) (mcOf b md) (newScopy b (dig x 0))]
  | k + 1, x, m, md =>
    (rmod b R fuel x m).bind fun x =>
      rmod b R fuel (reduce b n R k (x ++ zero n x.length) m md) m

/-- `FF::mod2m` (ff.rs:667-671) -/
def mod2m (n : Nat) (x : FF C) (m : Nat) : FF C := x.take m ++ zero n (x.length - m)

/-- `FF::shrw` (ff.rs:146-151): moves digits `m .. 2m` to `0 .. m` -/
def shrw (n : Nat) (x : FF C) (m : Nat) : FF C := (x.drop m).take m ++ zero n m ++ x.drop (2 * m)

/-- `FF::shlw` (ff.rs:154-159) -/
def shlw (n : Nat) (x : FF C) (m : Nat) : FF C := zero n m ++ x.take m ++ x.drop (2 * m)

/-- body of the loop of `FF::invmod2m` (ff.rs:687-708) at `i`; operands have `2^k` digits -/
def inv2Step (b n R k i : Nat) (a u : FF C) : FF C :=
  let bb := mod2m n a i
  let t := shrw n (mul b n R k u bb) i
  let bb := t.take a.length
  let c := mod2m n (shrw n a i) i
  let c := mod2m n (lmul b n R k c u) i
  let bb := norm b R (add bb c)
  let bb := mod2m n (lmul b n R k bb u) i
  let c := shlw n (one n a.length) i
  let bb := norm b R (revsub bb c)
  add u (shlw n bb i)

/-- loop of `FF::invmod2m` (ff.rs:685-710): `i = 1, 2, 4, …` while `i < length = 2^k`, that is for
`i = 2^0 … 2^(k-1)`; `j` rounds -/
def inv2Loop (b n R k : Nat) (a : FF C) : (j : Nat) → FF C
  | 0 => Big.invmod2m b R (dig a 0) :: zero n (a.length - 1)
  | j + 1 => inv2Step b n R k (2 ^ j) a (inv2Loop b n R k a j)

/-- `FF::invmod2m` (ff.rs:674-713) -/
def invmod2m (b n R k : Nat) (a : FF C) : FF C := norm b R (inv2Loop b n R k a k)

/-! ### Modular arithmetic -/

/-- `FF::modmul` (ff.rs:738-754): only `self` is reduced when the excesses are too large -/
def modmul (b n R fuel k : Nat) (x y p nd : FF C) : Option (FF C) :=
  (if pexceed b n R (x.getLastD []) (y.getLastD []) then rmod b R fuel x p else some x).map fun x =>
    match k with
    | 0 => [Big.monty b (dig p 0) (mcOf b nd) (Big.mul b (dig x 0) (dig y 0))]
    | k + 1 => reduce b n R k (mul b n R (k + 1) x y) p nd

/-- `FF::modsqr` (ff.rs:757-774) -/
def modsqr (b n R fuel k : Nat) (x p nd : FF C) : Option (FF C) :=
  (if sexceed b n R (x.getLastD []) then rmod b R fuel x p else some x).map fun x =>
    match k with
    | 0 => [Big.monty b (dig p 0) (mcOf b nd) (Big.sqr b (dig x 0))]
    | k + 1 => reduce b n R k (norm b R (sqr b n R (k + 1) x)) p nd

/-- bit `i` of an exponent (ff.rs:791, 890) -/
def bit (b R : Nat) (e : FF C) (i : Nat) : Int := Big.bit b (dig e (i / R)) (i % R)

/-- loop of `FF::skpow` and `FF::skpows` (ff.rs:789-804, 822-837): `bitAt i` is bit `i` of the exponent -/
def skLoop (b n R fuel k : Nat) (p nd : FF C) (bitAt : Nat → Int) : Nat → FF C → FF C → Option (FF C)
  | 0, r0, _ => some r0
  | i + 1, r0, r1 =>
    let d := bitAt i
    (modmul b n R fuel k r0 r1 p nd).bind fun s =>
    let rr := cswap r0 r1 d
    (modsqr b n R fuel k rr.1 p nd).bind fun r0 =>
    let rr := cswap r0 s d
    skLoop b n R fuel k p nd bitAt i rr.1 rr.2

/-- the common frame of `FF::skpow` and `FF::skpows` (ff.rs:777-807, 810-840) with `nb` exponent bits -/
def skFrame (b n R fuel k : Nat) (nb : Nat) (bitAt : Nat → Int) (x p : FF C) : Option (FF C) :=
  let nd := invmod2m b n R k p
  (rmod b R fuel x p).bind fun x =>
  (nres b n R fuel k (one n p.length) p).bind fun r0 =>
  (nres b n R fuel k x p).bind fun r1 =>
  (skLoop b n R fuel k p nd bitAt nb r0 r1).bind fun r0 =>
  redc b n R fuel k r0 p nd

/-- `FF::skpow` (ff.rs:777-807) -/
def skpow (b n R fuel k : Nat) (x e p : FF C) : Option (FF C) :=
  skFrame b n R fuel k (R * p.length) (bit b R e) x p

/-- `FF::skpows` (ff.rs:810-840) -/
def skpows (b n R fuel k : Nat) (x : FF C) (e : Limbs C) (p : FF C) : Option (FF C) :=
  skFrame b n R fuel k R (Big.bit b e) x p

/-- `if f { self.copy(&w); f = false } else { self.modmul(&w, p, &nd) }` (ff.rs:859-864) -/
def powerMul (b n R fuel k : Nat) (p nd : FF C) : Option (FF C) → FF C → Option (Option (FF C))
  | none, w => some (some w)
  | some x, w => (modmul b n R fuel k x w p nd).map some

/-- loop of `FF::power` (ff.rs:857-871); `none` for `self` stands for the flag `f` still being set;
`e` is non-negative -/
def powerLoop (b n R fuel k : Nat) (p nd : FF C) : (steps : Nat) → Nat → Option (FF C) → FF C → Option (Option (FF C))
  | 0, _, _, _ => none
  | s + 1, e, self, w =>
    (if e % 2 = 1 then powerMul b n R fuel k p nd self w else some self).bind fun self =>
    if e / 2 = 0 then some self
    else (modsqr b n R fuel k w p nd).bind fun w => powerLoop b n R fuel k p nd s (e / 2) self w

/-- `FF::power` (ff.rs:843-875) for an exponent `e ≥ 0` (a negative `isize` exponent loops for ever) -/
def power (b n R fuel k : Nat) (x : FF C) (e : Nat) (p : FF C) : Option (FF C) :=
  let nd := invmod2m b n R k p
  (nres b n R fuel k x p).bind fun w =>
  (if e = 2 then modsqr b n R fuel k w p nd
   else (powerLoop b n R fuel k p nd fuel e none w).map fun o => o.getD x).bind fun x =>
  redc b n R fuel k x p nd

/-- loop of `FF::pow` (ff.rs:887-898) -/
def powLoop (b n R fuel k : Nat) (p nd w : FF C) (bitAt : Nat → Int) : Nat → FF C → Option (FF C)
  | 0, x => some x
  | i + 1, x =>
    (modsqr b n R fuel k x p nd).bind fun x =>
    (if bitAt i = 1 then modmul b n R fuel k x w p nd else some x).bind fun x =>
    powLoop b n R fuel k p nd w bitAt i x

/-- `FF::pow` (ff.rs:878-900) -/
def pow (b n R fuel k : Nat) (x e p : FF C) : Option (FF C) :=
  let nd := invmod2m b n R k p
  (nres b n R fuel k (one n p.length) p).bind fun r =>
  (nres b n R fuel k x p).bind fun w =>
  (powLoop b n R fuel k p nd w (bit b R e) (R * p.length) r).bind fun r =>
  redc b n R fuel k r p nd

/-- loop of `FF::pow2` (ff.rs:919-939) -/
def pow2Loop (b n R fuel k : Nat) (p nd xn yn xy : FF C) (e f : Limbs C) : Nat → FF C → Option (FF C)
  | 0, x => some x
  | i + 1, x =>
    let eb := Big.bit b e i
    let fb := Big.bit b f i
    (modsqr b n R fuel k x p nd).bind fun x =>
    (if eb = 1 then
      if fb = 1 then modmul b n R fuel k x xy p nd else modmul b n R fuel k x xn p nd
     else if fb = 1 then modmul b n R fuel k x yn p nd else some x).bind fun x =>
    pow2Loop b n R fuel k p nd xn yn xy e f i x

/-- `FF::pow2` (ff.rs:903-941) -/
def pow2 (b n R fuel k : Nat) (x : FF C) (e : Limbs C) (y : FF C) (f : Limbs C) (p : FF C) : Option (FF C) :=
  let nd := invmod2m b n R k p
  (nres b n R fuel k x p).bind fun xn =>
  (nres b n R fuel k y p).bind fun yn =>
  (modmul b n R fuel k xn yn p nd).bind fun xy =>
  (nres b n R fuel k (one n p.length) p).bind fun r =>
  (pow2Loop b n R fuel k p nd xn yn xy e f R r).bind fun r =>
  redc b n R fuel k r p nd

/-! ### Modular inverse -/

/-- inner loops of `FF::invmodp` (ff.rs:588-595, 596-603) -/
def invHalve (b R : Nat) (p : FF C) : (fuel : Nat) → FF C → FF C → Option (FF C × FF C)
  | 0, _, _ => none
  | f + 1, u, x1 =>
    if parity u = 0 then
      let u := shr b R u
      let x1 := if parity x1 ≠ 0 then norm b R (add x1 p) else x1
      invHalve b R p f u (shr b R x1)
    else some (u, x1)

/-- the coefficient update `x1 -= x2` or `x1 += p - x2` (ff.rs:607-614, 618-625) -/
def invSub (b R : Nat) (p x1 x2 : FF C) : FF C :=
  norm b R (if comp x1 x2 ≥ 0 then sub x1 x2 else add x1 (sub p x2))

/-- main loop of `FF::invmodp` (ff.rs:587-627) and the final selection (ff.rs:628-632); state (u, v, x1, x2) -/
def invLoop (b R f0 : Nat) (p one : FF C) : (fuel : Nat) → FF C → FF C → FF C → FF C → Option (FF C)
  | 0, _, _, _, _ => none
  | f + 1, u, v, x1, x2 =>
    if comp u one ≠ 0 ∧ comp v one ≠ 0 then
      (invHalve b R p f0 u x1).bind fun ux =>
      (invHalve b R p f0 v x2).bind fun vx =>
        if comp ux.1 vx.1 ≥ 0 then
          invLoop b R f0 p one f (norm b R (sub ux.1 vx.1)) vx.1 (invSub b R p ux.2 vx.2) vx.2
        else
          invLoop b R f0 p one f ux.1 (norm b R (sub vx.1 ux.1)) ux.2 (invSub b R p vx.2 ux.2)
    else some (if comp u one = 0 then x1 else x2)

/-- `FF::invmodp` (ff.rs:570-633) -/
def invmodp (b n R fuel : Nat) (x p : FF C) : Option (FF C) :=
  invLoop b R fuel p (one n p.length) fuel x p (one n p.length) (zero n p.length)

end Verif.Ff
