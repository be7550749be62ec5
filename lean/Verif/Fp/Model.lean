import Verif.Big.Model
/-
Model of `src/fp.rs` (prime-field elements with lazy reduction) on top of the model of `src/big.rs`.

The constants of a ROM file (`src/roms/rom_*.rs`) and the derived constants of fp.rs:60-63 are the
fields of `Params`.  `xes` (`i32` in fp.rs:33) is a natural number: every value it takes is at least 1
and, by the theorems of this area, below `2^(SH+1)`, far from the `i32` bounds; `imul` by 0, which
sets it to 0, is treated separately.
-/
namespace Verif.Fp
open Verif.Big

variable {C : Nat}

/-- `types::ModType` (src/types.rs) -/
inductive ModType | NotSpecial | PseudoMersenne | MontgomeryFriendly | GeneralisedMersenne
  deriving DecidableEq

/-- constants of the ROM file: `BASEBITS`, `NLEN` (big.rs:33), `MODBITS`, `SH`, `MOD8`, `MODTYPE`,
`MODULUS`, `R2MODP`, `MCONST` -/
structure Params (C : Nat) where
  b : Nat
  n : Nat
  modbits : Nat
  sh : Nat
  mod8 : Nat
  modtype : ModType
  md : Limbs C
  r2 : Limbs C
  mc : BitVec C

/-- `FEXCESS = (1 << SH) - 1` (fp.rs:60) -/
def Params.fexcess (P : Params C) : Nat := 2 ^ P.sh - 1
/-- `TBITS = MODBITS % BASEBITS` (fp.rs:62) -/
def Params.tbits (P : Params C) : Nat := P.modbits % P.b
/-- `TMASK = (1 << TBITS) - 1` (fp.rs:63) -/
def Params.tmask (P : Params C) : BitVec C := bmask C P.tbits

/-- is the representation the plain residue (no Montgomery form)? the test of fp.rs:86, 117 -/
def Params.plain (P : Params C) : Bool :=
  P.modtype == ModType.PseudoMersenne || P.modtype == ModType.GeneralisedMersenne

/-- `struct FP` (fp.rs:31-34) -/
structure Fp (C : Nat) where
  x : Limbs C
  xes : Nat

/-- top limb `w[NLEN - 1]` -/
def top (w : Limbs C) : BitVec C := w.getLastD 0

/-- pseudo-Mersenne branch of `FP::modulo` (fp.rs:125-192) -/
def moduloPM (P : Params C) (d : Limbs C) : Limbs C :=
  let hl := split P.b P.n P.modbits d
  let tv := pmul P.b hl.1 P.mc.toInt
  let t := norm P.b (add tv.1 (hl.2.take P.n))
  let tw := top t
  let t := t.set (P.n - 1) (tw &&& P.tmask)
  let t := t.set 0 (at' t 0 + P.mc * (tw.sshiftRight P.tbits + (tv.2 <<< (P.b - P.tbits))))
  norm P.b t

/-- loop of the Montgomery-friendly branch (fp.rs:144-150) for index `i` -/
def moduloMFStep (P : Params C) (d : Limbs C) (i : Nat) : Limbs C :=
  let x := at' d i
  let t := muladd P.b x (P.mc - 1) x (at' d (P.n + i - 1))
  let d := d.set (P.n + i) (at' d (P.n + i) + t.1)
  d.set (P.n + i - 1) t.2

/-- Montgomery-friendly branch of `FP::modulo` (fp.rs:125-192) -/
def moduloMF (P : Params C) (d : Limbs C) : Limbs C :=
  let d := (List.range P.n).foldl (moduloMFStep P) d
  norm P.b ((d.drop P.n).take P.n)

/-- Goldilocks branch of `FP::modulo` (fp.rs:125-192) -/
def moduloGM (P : Params C) (d : Limbs C) : Limbs C :=
  let hl := split P.b P.n P.modbits d
  let t := hl.1
  let rm2 := P.modbits / 2
  let b := add (hl.2.take P.n) t
  let dd := shl P.b rm2 (newScopy P.b t)
  let hl2 := split P.b P.n P.modbits dd
  let tt := hl2.1
  let lo := hl2.2.take P.n
  let b := norm P.b (add (add b tt) lo)
  let b := add b (shl P.b rm2 tt)
  let carry := (top b).sshiftRight P.tbits
  let b := b.set (P.n - 1) (top b &&& P.tmask)
  let b := b.set 0 (at' b 0 + carry)
  let b := b.set (224 / P.b) (at' b (224 / P.b) + (carry <<< (224 % P.b)))
  norm P.b b

/-- `FP::modulo` (fp.rs:125-192) -/
def modulo (P : Params C) (d : Limbs C) : Limbs C :=
  match P.modtype with
  | .PseudoMersenne => moduloPM P d
  | .MontgomeryFriendly => moduloMF P d
  | .GeneralisedMersenne => moduloGM P d
  | .NotSpecial => monty P.b P.md P.mc d

/-- `FP::new` (fp.rs:66-71), also `zero` (fp.rs:240-243) -/
def zero (P : Params C) : Fp C := { x := Big.zero C P.n, xes := 1 }

/-- `FP::nres` (fp.rs:86-95) applied to the Big `x` -/
def nres (P : Params C) (x : Limbs C) : Fp C :=
  if P.plain then { x := x, xes := 1 } else { x := modulo P (mul P.b x P.r2), xes := 2 }

/-- `FP::new_int` (fp.rs:73-78) -/
def newInt (P : Params C) (a : Int) : Fp C := nres P (inc P.b (Big.zero C P.n) a)

/-- `FP::new_big`, `bcopy` (fp.rs:81-83, 239-242) -/
def newBig (P : Params C) (x : Limbs C) : Fp C := nres P x

/-- `FP::one` (fp.rs:246-249) -/
def one (P : Params C) : Fp C := nres P (Big.newInt C P.n 1)

/-- `FP::redc` (fp.rs:116-122) -/
def redc (P : Params C) (a : Fp C) : Limbs C :=
  if P.plain then a.x else modulo P (newScopy P.b a.x)

/-- `FP::logb2` (fp.rs:284-295): bit smearing, then a population count -/
def logb2 (w : BitVec 32) : Nat :=
  let v := w
  let v := v ||| v >>> 1
  let v := v ||| v >>> 2
  let v := v ||| v >>> 4
  let v := v ||| v >>> 8
  let v := v ||| v >>> 16
  let v := v - ((v >>> 1) &&& 0x55555555#32)
  let v := (v &&& 0x33333333#32) + ((v >>> 2) &&& 0x33333333#32)
  ((((v + (v >>> 4)) &&& 0xF0F0F0F#32) * 0x1010101#32) >>> 24).toNat

/-- `FP::logb2((xes - 1) as u32)` -/
def logXes (xes : Nat) : Nat := logb2 (BitVec.ofInt 32 ((xes : Int) - 1))

/-- `FP::quo` (fp.rs:300-313), the returned word -/
def quo (P : Params C) (n m : Limbs C) : BitVec C :=
  let hb := C / 2
  if P.tbits < hb then
    let sh := hb - P.tbits
    let num := (top n <<< sh) ||| (at' n (P.n - 2)).sshiftRight (P.b - sh)
    let den := (top m <<< sh) ||| (at' m (P.n - 2)).sshiftRight (P.b - sh)
    num.sdiv (den + 1)
  else
    (top n).sdiv (top m + 1)

/-- final loop of `FP::reduce` (fp.rs:200-224) -/
def reduceLoop (b : Nat) : Nat → Limbs C → Limbs C → Limbs C
  | 0, _, x => x
  | k + 1, m, x =>
    let t := ssn b x m
    reduceLoop b k t.1 (cmove x t.2.1 (1 - t.2.2))

/-- `FP::reduce` (fp.rs:200-224) -/
def reduce (P : Params C) (a : Fp C) : Fp C :=
  let x := norm P.b a.x
  if a.xes > 16 then
    let q := quo P x P.md
    let rc := pmul P.b P.md q.toInt
    let r := rc.1.set (P.n - 1) (at' rc.1 (P.n - 1) + (rc.2 <<< P.b))
    let x := norm P.b (sub x r)
    { x := reduceLoop P.b 2 (fshl P.b 2 P.md) x, xes := 1 }
  else
    let sb := logXes a.xes
    { x := reduceLoop P.b sb (fshl P.b sb P.md) x, xes := 1 }

/-- `FP::iszilch` (fp.rs:227-231) -/
def iszilch (P : Params C) (a : Fp C) : Bool := Big.iszilch (reduce P a).x

/-- `FP::norm` (fp.rs:252-254) -/
def norm (P : Params C) (a : Fp C) : Fp C := { a with x := Big.norm P.b a.x }

/-- `if self.xes > FEXCESS { self.reduce() }` (fp.rs:323-325, 369-371, …) -/
def check (P : Params C) (a : Fp C) : Fp C := if a.xes > P.fexcess then reduce P a else a

/-- `FP::mul` (fp.rs:274-282) -/
def mul (P : Params C) (a c : Fp C) : Fp C :=
  let a := if a.xes * c.xes > P.fexcess then reduce P a else a
  { x := modulo P (Big.mul P.b a.x c.x), xes := 2 }

/-- `FP::sqr` (fp.rs:358-366) -/
def sqr (P : Params C) (a : Fp C) : Fp C :=
  let a := if a.xes * a.xes > P.fexcess then reduce P a else a
  { x := modulo P (Big.sqr P.b a.x), xes := 2 }

/-- `FP::neg` (fp.rs:316-326) -/
def neg (P : Params C) (a : Fp C) : Fp C :=
  let sb := logXes a.xes
  check P { x := rsub a.x (fshl P.b sb P.md), xes := 2 ^ (sb + 1) }

/-- `FP::add` (fp.rs:369-375) -/
def add (P : Params C) (a c : Fp C) : Fp C := check P { x := Big.add a.x c.x, xes := a.xes + c.xes }

/-- `FP::dbl` (fp.rs:378-384) -/
def dbl (P : Params C) (a : Fp C) : Fp C := check P { x := Big.dbl a.x, xes := a.xes + a.xes }

/-- `FP::sub` (fp.rs:387-391) -/
def sub (P : Params C) (a c : Fp C) : Fp C := add P a (neg P c)

/-- `FP::rsub` (fp.rs:394-397): `b - self` -/
def rsub (P : Params C) (a c : Fp C) : Fp C := add P (neg P a) c

/-- `FP::imul` (fp.rs:329-355).  The test `self.xes * (cc as i32) <= FEXCESS` is evaluated without
`i32` overflow (`|c| * xes < 2^31`). -/
def imul (P : Params C) (a : Fp C) (c : Int) : Fp C :=
  let cc := c.natAbs
  let r :=
    if P.plain then { x := modulo P (pxmul P.b a.x cc), xes := 2 }
    else if a.xes * cc ≤ P.fexcess then { x := (pmul P.b a.x cc).1, xes := a.xes * cc }
    else mul P a (newInt P cc)
  if c < 0 then norm P (neg P r) else r

/-- `FP::div2` (fp.rs:400-409) -/
def div2 (P : Params C) (a : Fp C) : Fp C :=
  if parity a.x = 0 then { a with x := fshr P.b 1 a.x }
  else { a with x := fshr P.b 1 (Big.norm P.b (Big.add a.x P.md)) }

/-- `FP::cmove` (fp.rs:267-271), `d ∈ {0, 1}` -/
def cmove (a c : Fp C) (d : Nat) : Fp C :=
  { x := Big.cmove a.x c.x d, xes := if d = 1 then c.xes else a.xes }

/-- `FP::cswap` (fp.rs:257-264), `d ∈ {0, 1}` -/
def cswap (a c : Fp C) (d : Nat) : Fp C × Fp C :=
  let s := Big.cswap a.x c.x d
  ({ x := s.1, xes := if d = 1 then c.xes else a.xes }, { x := s.2, xes := if d = 1 then a.xes else c.xes })

/-- `FP::equals` (fp.rs:586-595) -/
def equals (P : Params C) (a c : Fp C) : Bool := comp (reduce P a).x (reduce P c).x == 0

/-- nibble loop of `FP::pow` (fp.rs:598-649): `k` nibbles of `t`, least significant first -/
def powDigits (b : Nat) : Nat → Limbs C → List Nat
  | 0, _ => []
  | k + 1, t =>
    let lsbs := (lastbits b t 4).toNat
    let t := Big.norm b t
    let t := Big.norm b (dec b t lsbs)
    lsbs :: powDigits b k (fshr b 4 t)

/-- table of `FP::pow` (fp.rs:598-649): powers 0..15 -/
def powTable (P : Params C) (a : Fp C) : List (Fp C) :=
  (List.range 14).foldl (fun tb i => tb ++ [mul P (tb.getD (i + 1) (zero P)) a]) [one P, a]

/-- `FP::pow` (fp.rs:598-649) -/
def pow (P : Params C) (a : Fp C) (e : Limbs C) : Fp C :=
  let a := norm P a
  let t := Big.norm P.b e
  let nb := 1 + (nbits P.b t + 3) / 4
  let w := powDigits P.b nb t
  let tb := powTable P a
  let r := tb.getD (w.getD (nb - 1) 0) (zero P)
  let r := (w.take (nb - 1)).reverse.foldl
    (fun r d => mul P (sqr P (sqr P (sqr P (sqr P r)))) (tb.getD d (zero P))) r
  reduce P r

/-- `k` squarings (the loops `for _ in 0..m { t.sqr() }` of fp.rs:513, 535, 542, 552) -/
def sqrN {α : Type} (sq : α → α) : Nat → α → α
  | 0, t => t
  | k + 1, t => sqrN sq k (sq t)

/-- the exponents `ac` of fp.rs:415 -/
def fpowAc : List Nat := [1, 2, 3, 6, 12, 15, 30, 60, 120, 240, 255]

/-- fp.rs:482-486: smallest power of two not below `c`: `(w, bw)` -/
def fpowBw : Nat → Nat → Nat → Nat → Nat × Nat
  | 0, _, w, bw => (w, bw)
  | f + 1, c, w, bw => if w < c then fpowBw f c (w * 2) (bw + 1) else (w, bw)

/-- fp.rs:493-495: largest index `i` with `ac[i] ≤ k`, downwards -/
def fpowTop (k : Nat) : Nat → Nat
  | 0 => 0
  | i + 1 => if fpowAc.getD (i + 1) 0 > k then fpowTop k i else i + 1

/-- fp.rs:499-506: the remaining factors of the key, for the indices below `i` -/
def fpowKey {α : Type} (mul : α → α → α) (z : α) (xp : List α) : Nat → Nat → α → α
  | _, 0, key => key
  | 0, _, key => key
  | i + 1, k + 1, key =>
    if fpowAc.getD i 0 > k + 1 then fpowKey mul z xp i (k + 1) key
    else fpowKey mul z xp i (k + 1 - fpowAc.getD i 0) (mul key (xp.getD i z))

/-- fp.rs:519-530: table of powers `2^m - 1` for `m = 1, 2, 4, 8, …`; result `(m, table)` -/
def fpowTab {α : Type} (sq : α → α) (mul : α → α → α) (z : α) (nw : Nat) : Nat → Nat → List α → Nat × List α
  | 0, m, tb => (m, tb)
  | f + 1, m, tb =>
    if 2 * m < nw then
      let x := tb.getLastD z
      fpowTab sq mul z nw f (2 * m) (tb ++ [mul x (sqrN sq m x)])
    else (m, tb)

/-- fp.rs:531-546: combination of the table entries below index `j` -/
def fpowLow {α : Type} (sq : α → α) (mul : α → α → α) (z : α) (tb : List α) : Nat → Nat → Nat → α → α
  | _, _, 0, r => r
  | 0, _, _, r => r
  | j + 1, m, lo + 1, r =>
    let m := m / 2
    if lo + 1 < m then fpowLow sq mul z tb j m (lo + 1) r
    else fpowLow sq mul z tb j m (lo + 1 - m) (mul (sqrN sq m r) (tb.getD j z))

/-- the key of `FP::fpow` (fp.rs:414-559): the power `k = w - c` from the table `xp` -/
def fpowKeyOf {α : Type} (mul : α → α → α) (z : α) (xp : List α) (k : Nat) : α :=
  if k = 0 then z
  else fpowKey mul z xp (fpowTop k 10) (k - fpowAc.getD (fpowTop k 10) 0) (xp.getD (fpowTop k 10) z)

/-- the power `2^nw - 1` of `FP::fpow` (fp.rs:414-559), from the table `tb` for `1, 2, 4, 8` -/
def fpowRun {α : Type} (sq : α → α) (mul : α → α → α) (z : α) (nw : Nat) (tb : List α) : α :=
  let t := fpowTab sq mul z nw 64 8 tb
  fpowLow sq mul z t.2 (t.2.length - 1) t.1 (nw - t.1) (t.2.getLastD z)

/-- `FP::fpow` (fp.rs:414-559), over an arbitrary set with squaring and multiplication; `z` stands for
`FP::new()`.  `mc` is `MCONST`, `five` says whether `MOD8 == 5`, `gm` whether the modulus is Goldilocks.
Array indices that would become negative (they do not, for the ROM constants) end the loops. -/
def fpowG {α : Type} (sq : α → α) (mul : α → α → α) (z : α) (modbits mc : Nat) (five gm : Bool) (a : α) : α :=
  let x1 := sq a
  let x2 := mul x1 a
  let x3 := sq x2
  let x4 := sq x3
  let x5 := mul x4 x2
  let x6 := sq x5
  let x7 := sq x6
  let x8 := sq x7
  let x9 := sq x8
  let x10 := mul x9 x5
  let n := if gm then modbits / 2 else modbits
  let n := if five then n - 3 else n - 2
  let c := if five then (mc + 5) / 8 else (mc + 3) / 4
  let w := fpowBw 64 c 1 0
  let bw := w.2
  let key := fpowKeyOf mul z [a, x1, x2, x3, x4, x5, x6, x7, x8, x9, x10] (w.1 - c)
  let r := fpowRun sq mul z (n - bw) [a, x2, x5, x10]
  let r := if bw = 0 then r else mul (sqrN sq bw r) key
  if gm then mul (sqrN sq (n + 1) (mul (sq r) a)) r else r

/-- `FP::fpow` -/
def fpow (P : Params C) (a : Fp C) : Fp C :=
  fpowG (sqr P) (mul P) (zero P) P.modbits P.mc.toNat (P.mod8 == 5) (P.modtype == .GeneralisedMersenne) a

/-- `FP::inverse` (fp.rs:562-583) -/
def inverse (P : Params C) (a : Fp C) : Fp C :=
  if P.plain then
    let y := fpow P a
    if P.mod8 = 5 then mul P (mul P a (sqr P a)) (sqr P (sqr P (sqr P y)))
    else mul P a (sqr P (sqr P y))
  else pow P a (Big.norm P.b (dec P.b P.md 2))

/-- `FP::sqrt` (fp.rs:652-690).  The branch `MOD8 == 5` with a Montgomery representation is used by no ROM file
and not modelled separately: it returns the other branch's value here. -/
def sqrt (P : Params C) (a : Fp C) : Fp C :=
  let a := reduce P a
  if P.plain then
    if P.mod8 = 5 then
      let i : Fp C := { a with x := shl P.b 1 a.x }
      let v := fpow P i
      let i := mul P (mul P i v) v
      let i : Fp C := { i with x := dec P.b i.x 1 }
      reduce P (mul P (mul P a v) i)
    else mul P (fpow P a) a
  else pow P a (shr P.b 2 (Big.norm P.b (inc P.b P.md 1)))

/-- `FP::jacobi` (fp.rs:693-697) -/
def jacobi (P : Params C) (fuel : Nat) (a : Fp C) : Option Int := Big.jacobi P.b fuel (redc P a) P.md

/-- `FP::sgn0` (fp.rs:706-713) -/
def sgn0 (P : Params C) (a : Fp C) : Bool := parity (redc P a) ≠ 0

end Verif.Fp
