import Verif.Fp.Model
import Verif.Prog.Basic
/-
Model of `src/fp2.rs`: elements `a + i b` of the quadratic extension, `i^2 = -1`, with the lazy reduction of the components.
`tostring`, `to_hex`, `from_hex` are not modelled.  `FP2` is compiled only for pairing-friendly curves, whose ROM files
are all of Montgomery type.
-/
namespace Verif.Tower
open Verif.Big Verif.Fp

variable {C : Nat}

/-- `struct FP2` (fp2.rs:29-32) -/
structure Fp2 (C : Nat) where
  a : Fp C
  b : Fp C

namespace Fp2
/-- `FP2::new`, `zero` (fp2.rs:55-60, 156-159) -/
def zero (P : Params C) : Fp2 C := ⟨Fp.zero P, Fp.zero P⟩
/-- `FP2::new_int` (fp2.rs:62-67) -/
def newInt (P : Params C) (a : Int) : Fp2 C := ⟨Fp.newInt P a, Fp.zero P⟩
/-- `FP2::new_ints` (fp2.rs:69-74) -/
def newInts (P : Params C) (a b : Int) : Fp2 C := ⟨Fp.newInt P a, Fp.newInt P b⟩
/-- `FP2::new_bigs` (fp2.rs:80-85) -/
def newBigs (P : Params C) (c d : Limbs C) : Fp2 C := ⟨Fp.newBig P c, Fp.newBig P d⟩
/-- `FP2::one` (fp2.rs:148-151) -/
def one (P : Params C) : Fp2 C := ⟨Fp.one P, Fp.zero P⟩
/-- `FP2::reduce` (fp2.rs:99-102) -/
def reduce (P : Params C) (x : Fp2 C) : Fp2 C := ⟨Fp.reduce P x.a, Fp.reduce P x.b⟩
/-- `FP2::norm` (fp2.rs:105-108) -/
def norm (P : Params C) (x : Fp2 C) : Fp2 C := ⟨Fp.norm P x.a, Fp.norm P x.b⟩
/-- `FP2::iszilch` (fp2.rs:111-113) -/
def iszilch (P : Params C) (x : Fp2 C) : Bool := Fp.iszilch P x.a && Fp.iszilch P x.b
/-- `FP2::cmove` (fp2.rs:115-118) -/
def cmove (x g : Fp2 C) (d : Nat) : Fp2 C := ⟨Fp.cmove x.a g.a d, Fp.cmove x.b g.b d⟩
/-- `FP2::isunity` (fp2.rs:121-124) -/
def isunity (P : Params C) (x : Fp2 C) : Bool := Fp.equals P x.a (Fp.newInt P 1) && Fp.iszilch P x.b
/-- `FP2::equals` (fp2.rs:127-129) -/
def equals (P : Params C) (x y : Fp2 C) : Bool := Fp.equals P x.a y.a && Fp.equals P x.b y.b
/-- `FP2::geta` (fp2.rs:132-134) -/
def geta (P : Params C) (x : Fp2 C) : Limbs C := Fp.redc P x.a
/-- `FP2::getb` (fp2.rs:137-139) -/
def getb (P : Params C) (x : Fp2 C) : Limbs C := Fp.redc P x.b
/-- `FP2::neg` (fp2.rs:154-163) -/
def neg (P : Params C) (x : Fp2 C) : Fp2 C :=
  let m := Fp.neg P (Fp.add P x.a x.b)
  ⟨Fp.add P m x.b, Fp.add P m x.a⟩
/-- `FP2::conj` (fp2.rs:166-169) -/
def conj (P : Params C) (x : Fp2 C) : Fp2 C := ⟨x.a, Fp.norm P (Fp.neg P x.b)⟩
/-- `FP2::add` (fp2.rs:172-175) -/
def add (P : Params C) (x y : Fp2 C) : Fp2 C := ⟨Fp.add P x.a y.a, Fp.add P x.b y.b⟩
/-- `FP2::dbl` (fp2.rs:177-180) -/
def dbl (P : Params C) (x : Fp2 C) : Fp2 C := ⟨Fp.dbl P x.a, Fp.dbl P x.b⟩
/-- `FP2::sub` (fp2.rs:183-187) -/
def sub (P : Params C) (x y : Fp2 C) : Fp2 C := add P x (neg P y)
/-- `FP2::rsub` (fp2.rs:190-193): `y - self` -/
def rsub (P : Params C) (x y : Fp2 C) : Fp2 C := add P (neg P x) y
/-- `FP2::pmul` (fp2.rs:196-199) -/
def pmul (P : Params C) (x : Fp2 C) (s : Fp C) : Fp2 C := ⟨Fp.mul P x.a s, Fp.mul P x.b s⟩
/-- `FP2::imul` (fp2.rs:202-205) -/
def imul (P : Params C) (x : Fp2 C) (c : Int) : Fp2 C := ⟨Fp.imul P x.a c, Fp.imul P x.b c⟩
/-- `FP2::sqr` (fp2.rs:208-226) -/
def sqr (P : Params C) (x : Fp2 C) : Fp2 C :=
  let w1 := Fp.add P x.a x.b
  let w3 := Fp.norm P (Fp.add P x.a x.a)
  let b := Fp.mul P x.b w3
  let a := Fp.add P x.a (Fp.neg P x.b)
  let w1 := Fp.norm P w1
  let a := Fp.norm P a
  ⟨Fp.mul P a w1, b⟩
/-- the reduction of the first factor in `FP2::mul` (fp2.rs:229-271) -/
def mulPre (P : Params C) (x y : Fp2 C) : Fp2 C :=
  if (x.a.xes + x.b.xes) * (y.a.xes + y.b.xes) > P.fexcess then
    ⟨if x.a.xes > 1 then Fp.reduce P x.a else x.a, if x.b.xes > 1 then Fp.reduce P x.b else x.b⟩
  else x
/-- `FP2::mul` (fp2.rs:229-271) -/
def mul (P : Params C) (x y : Fp2 C) : Fp2 C :=
  let x := mulPre P x y
  let pr := ucopy P.md
  let a := Big.mul P.b x.a.x y.a.x
  let b := Big.mul P.b x.b.x y.b.x
  let c := Big.norm P.b (Big.add x.a.x x.b.x)
  let d := Big.norm P.b (Big.add y.a.x y.b.x)
  let e := Big.mul P.b c d
  let f := Big.add a b
  let b := Big.rsub b pr
  let a := Big.norm P.b (Big.add a b)
  let e := Big.norm P.b (Big.sub e f)
  ⟨{ x := modulo P a, xes := 3 }, { x := modulo P e, xes := 2 }⟩
/-- `w.jacobi() == 1`, with enough fuel for the loop of `Big::jacobi` (C11) -/
def isSq (P : Params C) (w : Fp C) : Bool := Fp.jacobi P (2 * (P.b * P.n) + 1) w == some 1
/-- `FP2::sqrt` (fp2.rs:275-310): the new value and the returned flag -/
def sqrt (P : Params C) (x : Fp2 C) : Fp2 C × Bool :=
  if iszilch P x then (x, true)
  else
    let w1 := Fp.add P (Fp.sqr P x.b) (Fp.sqr P x.a)
    if isSq P w1 = false then (zero P, false)
    else
      let w1 := Fp.sqrt P w1
      let w2 := Fp.div2 P (Fp.norm P (Fp.add P x.a w1))
      let w2' := Fp.div2 P (Fp.norm P (Fp.sub P x.a w1))
      let fin (w2 : Fp C) : Fp2 C × Bool :=
        let w1 := Fp.sqrt P w2
        (⟨w1, Fp.mul P x.b (Fp.inverse P (Fp.dbl P w1))⟩, true)
      if isSq P w2 then fin w2
      else if isSq P w2' then fin w2'
      else (zero P, false)
/-- `FP2::inverse` (fp2.rs:334-347) -/
def inverse (P : Params C) (x : Fp2 C) : Fp2 C :=
  let x := norm P x
  let w1 := Fp.inverse P (Fp.add P (Fp.sqr P x.a) (Fp.sqr P x.b))
  let a := Fp.mul P x.a w1
  let w1 := Fp.norm P (Fp.neg P w1)
  ⟨a, Fp.mul P x.b w1⟩
/-- `FP2::div2` (fp2.rs:350-353) -/
def div2 (P : Params C) (x : Fp2 C) : Fp2 C := ⟨Fp.div2 P x.a, Fp.div2 P x.b⟩
/-- `FP2::times_i` (fp2.rs:356-361) -/
def timesI (P : Params C) (x : Fp2 C) : Fp2 C := ⟨Fp.neg P x.b, x.a⟩
/-- `FP2::mul_ip` (fp2.rs:365-372) -/
def mulIp (P : Params C) (x : Fp2 C) : Fp2 C := add P ⟨Fp.neg P x.b, x.a⟩ x
/-- `FP2::div_ip2` (fp2.rs:374-383) -/
def divIp2 (P : Params C) (x : Fp2 C) : Fp2 C :=
  let x := norm P x
  norm P ⟨Fp.add P x.a x.b, Fp.sub P x.b x.a⟩
/-- `FP2::div_ip` (fp2.rs:386-396) -/
def divIp (P : Params C) (x : Fp2 C) : Fp2 C := div2 P (divIp2 P x)
/-- `FP2::spmt` (fp2.rs:399-404) -/
def spmt (P : Params C) (x : Fp2 C) : Fp2 C := ⟨Fp.add P x.a x.b, Fp.sub P x.a x.b⟩
/-- `FP2::sgn0` (fp2.rs:413-419) -/
def sgn0 (P : Params C) (x : Fp2 C) : Bool := if Fp.iszilch P x.a then Fp.sgn0 P x.b else Fp.sgn0 P x.a
end Fp2
open Verif.Prog in
/-- `FP2` (fp2.rs); further operations: 0 `mul_ip`, 1 `times_i`, 2 `conj`, 3 `reduce`, 4 `div_ip2`, 5 `div_ip`, 6 `div2`, 7 `inverse` -/
def fp2Ops (P : Params C) : Ops (Fp2 C) where
  mul := Fp2.mul P
  sqr := Fp2.sqr P
  add := Fp2.add P
  sub := Fp2.sub P
  rsub := Fp2.rsub P
  dbl := Fp2.dbl P
  neg := Fp2.neg P
  norm := Fp2.norm P
  imul := Fp2.imul P
  un i x := match i with
    | 0 => Fp2.mulIp P x
    | 1 => Fp2.timesI P x
    | 2 => Fp2.conj P x
    | 3 => Fp2.reduce P x
    | 4 => Fp2.divIp2 P x
    | 5 => Fp2.divIp P x
    | 6 => Fp2.div2 P x
    | 7 => Fp2.inverse P x
    | _ => x

end Verif.Tower
