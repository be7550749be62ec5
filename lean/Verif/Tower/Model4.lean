import Verif.Tower.Model2
/-
Model of `src/fp4.rs`: elements `a + b w` of the quadratic extension of `FP2`, `w^2 = 1 + i`.
`sqr`, `mul` and `inverse` are their Rust text, statement by statement (`Prog`), over the operations of `FP2`.
Not modelled: `tostring`, `to_hex`, `from_hex`, the `xtr_*` functions.
-/
namespace Verif.Tower
open Verif.Big Verif.Fp Verif.Prog

variable {C : Nat}

/-- `struct FP4` (fp4.rs:31-34) -/
structure Fp4 (C : Nat) where
  a : Fp2 C
  b : Fp2 C

/-- local variables of the functions of fp4.rs; `ya`, `yb` are the components of the argument -/
inductive R4 | a | b | ya | yb | t1 | t2 | t3 | t4
  deriving DecidableEq

namespace Fp4
/-- `FP4::new`, `zero` (fp4.rs:40-45, 130-133) -/
def zero (P : Params C) : Fp4 C := ⟨Fp2.zero P, Fp2.zero P⟩
/-- `FP4::new_int` (fp4.rs:47-52) -/
def newInt (P : Params C) (a : Int) : Fp4 C := ⟨Fp2.newInt P a, Fp2.zero P⟩
/-- `FP4::one` (fp4.rs:136-139) -/
def one (P : Params C) : Fp4 C := ⟨Fp2.one P, Fp2.zero P⟩
/-- `FP4::set_fp2` (fp4.rs:67-70), `new_fp2` (fp4.rs:58-60) -/
def ofFp2 (P : Params C) (c : Fp2 C) : Fp4 C := ⟨c, Fp2.zero P⟩
/-- `FP4::set_fp2h` (fp4.rs:72-75) -/
def ofFp2h (P : Params C) (c : Fp2 C) : Fp4 C := ⟨Fp2.zero P, c⟩
/-- `FP4::reduce` (fp4.rs:78-81) -/
def reduce (P : Params C) (x : Fp4 C) : Fp4 C := ⟨Fp2.reduce P x.a, Fp2.reduce P x.b⟩
/-- `FP4::norm` (fp4.rs:84-87) -/
def norm (P : Params C) (x : Fp4 C) : Fp4 C := ⟨Fp2.norm P x.a, Fp2.norm P x.b⟩
/-- `FP4::cmove` (fp4.rs:89-92) -/
def cmove (x g : Fp4 C) (d : Nat) : Fp4 C := ⟨Fp2.cmove x.a g.a d, Fp2.cmove x.b g.b d⟩
/-- `FP4::iszilch` (fp4.rs:95-97) -/
def iszilch (P : Params C) (x : Fp4 C) : Bool := Fp2.iszilch P x.a && Fp2.iszilch P x.b
/-- `FP4::isunity` (fp4.rs:100-103) -/
def isunity (P : Params C) (x : Fp4 C) : Bool := Fp2.equals P x.a (Fp2.newInt P 1) && Fp2.iszilch P x.b
/-- `FP4::equals` (fp4.rs:125-127) -/
def equals (P : Params C) (x y : Fp4 C) : Bool := Fp2.equals P x.a y.a && Fp2.equals P x.b y.b
/-- `FP4::neg` (fp4.rs:142-154) -/
def neg (P : Params C) (x : Fp4 C) : Fp4 C :=
  let x := norm P x
  let m := Fp2.neg P (Fp2.add P x.a x.b)
  norm P ⟨Fp2.add P m x.b, Fp2.add P m x.a⟩
/-- `FP4::conj` (fp4.rs:157-160) -/
def conj (P : Params C) (x : Fp4 C) : Fp4 C := norm P ⟨x.a, Fp2.neg P x.b⟩
/-- `FP4::nconj` (fp4.rs:163-166) -/
def nconj (P : Params C) (x : Fp4 C) : Fp4 C := norm P ⟨Fp2.neg P x.a, x.b⟩
/-- `FP4::add` (fp4.rs:169-172) -/
def add (P : Params C) (x y : Fp4 C) : Fp4 C := ⟨Fp2.add P x.a y.a, Fp2.add P x.b y.b⟩
/-- `FP4::padd` (fp4.rs:174-176) -/
def padd (P : Params C) (x : Fp4 C) (y : Fp2 C) : Fp4 C := ⟨Fp2.add P x.a y, x.b⟩
/-- `FP4::dbl` (fp4.rs:178-181) -/
def dbl (P : Params C) (x : Fp4 C) : Fp4 C := ⟨Fp2.dbl P x.a, Fp2.dbl P x.b⟩
/-- `FP4::sub` (fp4.rs:184-188) -/
def sub (P : Params C) (x y : Fp4 C) : Fp4 C := add P x (neg P y)
/-- `FP4::rsub` (fp4.rs:191-194) -/
def rsub (P : Params C) (x y : Fp4 C) : Fp4 C := add P (neg P x) y
/-- `FP4::pmul` (fp4.rs:197-200) -/
def pmul (P : Params C) (x : Fp4 C) (s : Fp2 C) : Fp4 C := ⟨Fp2.mul P x.a s, Fp2.mul P x.b s⟩
/-- `FP4::qmul` (fp4.rs:203-206) -/
def qmul (P : Params C) (x : Fp4 C) (s : Fp C) : Fp4 C := ⟨Fp2.pmul P x.a s, Fp2.pmul P x.b s⟩
/-- `FP4::imul` (fp4.rs:209-212) -/
def imul (P : Params C) (x : Fp4 C) (c : Int) : Fp4 C := ⟨Fp2.imul P x.a c, Fp2.imul P x.b c⟩
/-- `FP4::sqr` (fp4.rs:216-245) -/
def sqrProg : List (Ins R4) :=
  [.copy .t1 .a, .copy .t2 .b, .copy .t3 .a, .mul .t3 .b, .add .t1 .b, .un 0 .t2, .add .t2 .a, .norm .t1, .norm .t2,
   .copy .a .t1, .mul .a .t2, .copy .t2 .t3, .un 0 .t2, .add .t2 .t3, .norm .t2, .neg .t2, .add .a .t2, .dbl .t3, .copy .b .t3,
   .norm .a, .norm .b]
/-- `FP4::mul` (fp4.rs:248-281) -/
def mulProg : List (Ins R4) :=
  [.copy .t1 .a, .copy .t2 .b, .copy .t3 .yb, .copy .t4 .b, .mul .t1 .ya, .mul .t2 .yb, .add .t3 .ya, .add .t4 .a, .norm .t3,
   .norm .t4, .mul .t4 .t3, .copy .t3 .t1, .neg .t3, .add .t4 .t3, .norm .t4, .copy .t3 .t2, .neg .t3, .copy .b .t4, .add .b .t3,
   .un 0 .t2, .copy .a .t2, .add .a .t1, .norm .a, .norm .b]
/-- `FP4::inverse` (fp4.rs:305-321) -/
def invProg : List (Ins R4) :=
  [.copy .t1 .a, .copy .t2 .b, .sqr .t1, .sqr .t2, .un 0 .t2, .norm .t2, .sub .t1 .t2, .un 7 .t1, .mul .a .t1, .neg .t1,
   .norm .t1, .mul .b .t1]
/-- variables at the start of a function on `self = x` and argument `y` -/
def init {A : Type} (z xa xb ya yb : A) : R4 → A
  | .a => xa
  | .b => xb
  | .ya => ya
  | .yb => yb
  | _ => z
/-- running a program on `x` and `y` -/
def runOn (P : Params C) (pr : List (Ins R4)) (x y : Fp4 C) : Fp4 C :=
  let s := run (fp2Ops P) pr (init (Fp2.zero P) x.a x.b y.a y.b)
  ⟨s .a, s .b⟩
/-- `FP4::sqr` (fp4.rs:216-245) -/
def sqr (P : Params C) (x : Fp4 C) : Fp4 C := runOn P sqrProg x x
/-- `FP4::mul` (fp4.rs:248-281) -/
def mul (P : Params C) (x y : Fp4 C) : Fp4 C := runOn P mulProg x y
/-- `FP4::inverse` (fp4.rs:305-321) -/
def inverse (P : Params C) (x : Fp4 C) : Fp4 C := runOn P invProg x x
/-- `FP4::times_i` (fp4.rs:324-332): multiplication by `w` -/
def timesI (P : Params C) (x : Fp4 C) : Fp4 C := norm P ⟨Fp2.add P x.b (Fp2.timesI P x.b), x.a⟩
/-- `FP4::frob` (fp4.rs:335-339) -/
def frob (P : Params C) (x : Fp4 C) (f : Fp2 C) : Fp4 C := ⟨Fp2.conj P x.a, Fp2.mul P (Fp2.conj P x.b) f⟩
/-- `FP4::div2` (fp4.rs:585-588) -/
def div2 (P : Params C) (x : Fp4 C) : Fp4 C := ⟨Fp2.div2 P x.a, Fp2.div2 P x.b⟩
/-- `FP4::div_i` (fp4.rs:590-596) -/
def divI (P : Params C) (x : Fp4 C) : Fp4 C := ⟨x.b, Fp2.divIp P x.a⟩
/-- `FP4::div_2i` (fp4.rs:598-606) -/
def div2i (P : Params C) (x : Fp4 C) : Fp4 C := ⟨Fp2.norm P (Fp2.dbl P x.b), Fp2.divIp2 P x.a⟩
end Fp4
end Verif.Tower
