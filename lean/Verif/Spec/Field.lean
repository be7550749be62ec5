import Verif.Fp.Model
import Verif.Spec.Limbs
import Mathlib.Data.ZMod.Basic
import Mathlib.Algebra.Field.ZMod
/-
Vocabulary of the statements about `fp.rs`: which field element a stored representative denotes, and
which representatives are legal.
-/
namespace Verif.Fp
open Verif.Big Spec

variable {C : Nat}

/-- The factor between the stored integer and the field element: `2^(BASEBITS*NLEN)` for Montgomery
representations, 1 for pseudo- and generalised Mersenne moduli. -/
def Params.factor (P : Params C) : Int := if P.plain then 1 else 2 ^ (P.b * P.n)

/-- The element of `Z/p` denoted by a representative: stored integer divided by the factor. -/
def residue (P : Params C) (p : Nat) (a : Fp C) : ZMod p := (limbsVal P.b a.x : ZMod p) * (P.factor : ZMod p)⁻¹

/-- Legal representative with lazy limbs: `NLEN` limbs of absolute value at most `k` digits, the stored
integer is non-negative and bounded by the excess counter: `0 ≤ X < xes * p`, `1 ≤ xes ≤ FEXCESS`. -/
structure Valid (P : Params C) (p k : Nat) (a : Fp C) : Prop where
  len : a.x.length = P.n
  lim : LimbsWithin (k * (2 ^ P.b - 1)) a.x
  nonneg : 0 ≤ limbsVal P.b a.x
  lt : limbsVal P.b a.x < a.xes * p
  xes1 : 1 ≤ a.xes
  xes2 : a.xes ≤ P.fexcess

/-- Legal and normalised: every limb is a base-`2^BASEBITS` digit. -/
structure Normed (P : Params C) (p : Nat) (a : Fp C) : Prop where
  valid : Valid P p 1 a
  digits : Digits P.b a.x

/-- `k` digits fit in a word -/
def Room (P : Params C) (k : Nat) : Prop := k * 2 ^ P.b ≤ 2 ^ (C - 1)

/-- What every (consistent) ROM file provides about its constants. `p` is the modulus. -/
structure Consts (P : Params C) (p : Nat) : Prop where
  ok : Ok C P.b
  hn : 2 ≤ P.n
  fits : Fits C P.b P.n
  mdlen : P.md.length = P.n
  mddig : Digits P.b P.md
  mdval : limbsVal P.b P.md = p
  toplimb : P.modbits / P.b = P.n - 1
  lower : 2 ^ (P.modbits - 1) ≤ p
  upper : p < 2 ^ P.modbits
  bits : 0 < P.tbits
  shtop : P.modbits + P.sh ≤ P.b * P.n
  sh5 : 5 ≤ P.sh
  shhalf : P.sh + 2 ≤ C / 2

/-- What a Montgomery (`NotSpecial`) ROM file provides in addition: `MCONST = -1/p mod 2^BASEBITS` and
`R2MODP = R^2 mod p`. -/
structure MontConsts (P : Params C) (p : Nat) : Prop extends Consts P p where
  type : P.modtype = .NotSpecial
  mc : ((at' P.md 0).toInt * P.mc.toInt + 1) % 2 ^ P.b = 0
  r2len : P.r2.length = P.n
  r2dig : Digits P.b P.r2
  r2val : limbsVal P.b P.r2 = (2 ^ (P.b * P.n) * 2 ^ (P.b * P.n)) % p

/-- Contract of `FP::modulo`: reduces a double-length number below `2^SH * p^2` to a representative below
`2p` of the number divided by the factor. -/
def ModuloSpec (P : Params C) (p : Nat) : Prop :=
  ∀ d : Limbs C, d.length = 2 * P.n → Digits P.b d → limbsVal P.b d < 2 ^ P.sh * (p * p) →
    (modulo P d).length = P.n ∧ Digits P.b (modulo P d) ∧ limbsVal P.b (modulo P d) < 2 * p ∧
      ∃ q : Int, limbsVal P.b (modulo P d) * P.factor = limbsVal P.b d + q * p

end Verif.Fp

namespace Verif.Fp
/-- Constants of a ROM file together with a correct `FP::modulo`. -/
structure FieldOk {C : Nat} (P : Params C) (p : Nat) : Prop extends Consts P p where
  modulo_ok : ModuloSpec P p
end Verif.Fp

namespace Verif.Fp
/-- What a pseudo-Mersenne ROM file provides: `p = 2^MODBITS - MCONST` with `MCONST` so small that the final
correction `MCONST * (high part)` neither overflows a word nor exceeds `2p`. -/
structure PMConsts {C : Nat} (P : Params C) (p : Nat) : Prop extends Consts P p where
  type : P.modtype = .PseudoMersenne
  mcpos : 0 < P.mc.toInt
  pval : (p : Int) = 2 ^ P.modbits - P.mc.toInt
  word : P.mc.toInt * (2 ^ P.sh * P.mc.toInt + 1) + 2 ^ P.b ≤ 2 ^ (C - 2)
  small : P.mc.toInt * (2 ^ P.sh * P.mc.toInt + 1) + 2 * P.mc.toInt ≤ 2 ^ P.modbits
  mcb : P.mc.toInt < 2 ^ P.b
end Verif.Fp

namespace Verif.Fp
open Verif.Big
/-- `a` is a legal representative of the field element `v` whose limbs lie between `-l` and `k` times the largest
digit, and such limbs do not overflow a word. `l = 0, k = 1` are the normalised representatives. -/
structure Elem {C : Nat} (P : Params C) (p : Nat) (l k : Nat) (a : Fp C) (v : ZMod p) : Prop where
  valid : Valid P p (max l k) a
  range : ∀ z ∈ a.x, -((l : Int) * (2 ^ P.b - 1)) ≤ z.toInt ∧ z.toInt ≤ (k : Int) * (2 ^ P.b - 1)
  res : residue P p a = v
  room : Room P (max l k)
  pos : 1 ≤ k
end Verif.Fp

namespace Verif.Fp
open Verif.Big
/-- What the Goldilocks ROM files provide: `p = 2^448 - 2^224 - 1`. -/
structure GMConsts {C : Nat} (P : Params C) (p : Nat) : Prop extends Consts P p where
  type : P.modtype = .GeneralisedMersenne
  mbits : P.modbits = 448
  pval : (p : Int) = 2 ^ P.modbits - 2 ^ 224 - 1
  mid : 1 < 224 / P.b ∧ 224 / P.b < P.n - 1

/-- Up to which product of excess counters the reduction modulo the Goldilocks prime is free of word overflow. -/
structure GMBound {C : Nat} (P : Params C) (B : Nat) : Prop where
  total : (2 * B + 4) * 2 ^ 448 ≤ 2 ^ (P.b * P.n)
  word : (2 * B + 4) * (1 + 2 ^ (224 % P.b)) + 2 * 2 ^ P.b + 2 ^ (C - 1 - P.b) ≤ 2 ^ (C - 1)
end Verif.Fp
