import Verif.Tower.Model4
/-
Model of `src/fp12.rs`: elements `a + b v + c v^2` of the cubic extension of `FP4`, `v^3 = w`, with the sparsity tag `stype`.
The formulas are their Rust text, statement by statement (`Prog`), over the operations of `FP4` (`smul`: of `FP2`).
Not modelled: `tostring`, `to_hex`, `from_hex`, `compow`, `pinpow`, `pow4`, `selector`.
-/
namespace Verif.Tower
open Verif.Big Verif.Fp Verif.Prog

variable {C : Nat}

/-- `struct FP12` (fp12.rs:36-41) -/
structure Fp12 (C : Nat) where
  a : Fp4 C
  b : Fp4 C
  c : Fp4 C
  stype : Nat

/-- sparsity tags (fp12.rs:29-33) -/
abbrev tZERO : Nat := 0
/-- sparsity tags (fp12.rs:29-33) -/
abbrev tONE : Nat := 1
/-- sparsity tags (fp12.rs:29-33) -/
abbrev tSPARSER : Nat := 2
/-- sparsity tags (fp12.rs:29-33) -/
abbrev tSPARSE : Nat := 3
/-- sparsity tags (fp12.rs:29-33) -/
abbrev tDENSE : Nat := 4

/-- `FP4` (fp4.rs); further operations: 0 `times_i`, 1 `conj`, 2 `nconj`, 3 `reduce`, 4 `inverse`, 5 `div2`; binary, on the
components of the second operand: 0 `d.pmul(&s.geta())`, 1 `d.pmul(&s.getb())`, 2 `d.padd(&s.geta())`, and the assignments
of `ssmul` through `ga`, `gb` (fp12.rs:378-390, 441-453): 3 `(0, d.b s.b)`, 4 `(d.b s.a, d.b s.b)`, 5 `(d.a s.a, 0)`, 6 `(d.a s.a, d.a s.b)` -/
def fp4Ops (P : Params C) : Ops (Fp4 C) where
  mul := Fp4.mul P
  sqr := Fp4.sqr P
  add := Fp4.add P
  sub := Fp4.sub P
  rsub := Fp4.rsub P
  dbl := Fp4.dbl P
  neg := Fp4.neg P
  norm := Fp4.norm P
  imul := Fp4.imul P
  un i x := match i with
    | 0 => Fp4.timesI P x
    | 1 => Fp4.conj P x
    | 2 => Fp4.nconj P x
    | 3 => Fp4.reduce P x
    | 4 => Fp4.inverse P x
    | 5 => Fp4.div2 P x
    | _ => x
  bin i d s := match i with
    | 0 => Fp4.pmul P d s.a
    | 1 => Fp4.pmul P d s.b
    | 2 => Fp4.padd P d s.a
    | 3 => ⟨Fp2.zero P, Fp2.mul P d.b s.b⟩
    | 4 => ⟨Fp2.mul P d.b s.a, Fp2.mul P d.b s.b⟩
    | 5 => ⟨Fp2.mul P d.a s.a, Fp2.zero P⟩
    | 6 => ⟨Fp2.mul P d.a s.a, Fp2.mul P d.a s.b⟩
    | _ => d

/-- local variables of the functions of fp12.rs; `x` is `self`, `y` the argument -/
inductive R12 | xa | xb | xc | ya | yb | yc | a | b | c | d | z0 | z1 | z2 | z3 | t0 | t1 | f0 | f1 | f2 | f3
  deriving DecidableEq
/-- local variables of `FP12::smul`; `xaa` is `self.a.geta()`, … -/
inductive S12 | xaa | xab | xbc | yaa | yab | ybc | w1 | w2 | w3 | ta | tb | tc | td | te | t
  deriving DecidableEq

namespace Fp12
/-- `FP12::usqr` (fp12.rs:203-241) -/
def usqrProg : List (Ins R12) :=
  [.copy .a .xa, .copy .b .xc, .copy .c .xb, .sqr .xa, .copy .d .xa, .add .d .xa, .add .xa .d, .norm .xa, .un 2 .a, .dbl .a,
   .add .xa .a, .sqr .b, .un 0 .b, .copy .d .b, .add .d .b, .add .b .d, .norm .b, .sqr .c, .copy .d .c, .add .d .c, .add .c .d,
   .norm .c, .un 1 .xb, .dbl .xb, .un 2 .xc, .dbl .xc, .add .xb .b, .add .xc .c, .un 3 .xa, .un 3 .xb, .un 3 .xc]
/-- `FP12::sqr` (fp12.rs:244-289) without the test on `stype` -/
def sqrProg : List (Ins R12) :=
  [.copy .a .xa, .copy .b .xb, .copy .c .xc, .copy .d .xa, .sqr .a, .mul .b .xc, .dbl .b, .norm .b, .sqr .c, .mul .d .xb,
   .dbl .d, .add .xc .xa, .add .xc .xb, .norm .xc, .sqr .xc, .copy .xa .a, .add .a .b, .norm .a, .add .a .c, .add .a .d,
   .norm .a, .neg .a, .un 0 .b, .un 0 .c, .add .xa .b, .copy .xb .c, .add .xb .d, .add .xc .a, .norm .xa, .norm .xb, .norm .xc]
/-- `FP12::mul` (fp12.rs:292-358) -/
def mulProg : List (Ins R12) :=
  [.copy .z0 .xa, .copy .z2 .xb, .copy .t0 .xa, .copy .t1 .ya, .mul .z0 .ya, .mul .z2 .yb, .add .t0 .xb, .add .t1 .yb,
   .norm .t0, .norm .t1, .copy .z1 .t0, .mul .z1 .t1, .copy .t0 .xb, .add .t0 .xc, .copy .t1 .yb, .add .t1 .yc, .norm .t0,
   .norm .t1, .copy .z3 .t0, .mul .z3 .t1, .copy .t0 .z0, .neg .t0, .copy .t1 .z2, .neg .t1, .add .z1 .t0, .copy .xb .z1,
   .add .xb .t1, .add .z3 .t1, .add .z2 .t0, .copy .t0 .xa, .add .t0 .xc, .norm .t0, .copy .t1 .ya, .add .t1 .yc, .norm .t1,
   .mul .t0 .t1, .add .z2 .t0, .copy .t0 .xc, .mul .t0 .yc, .copy .t1 .t0, .neg .t1, .copy .xc .z2, .add .xc .t1, .add .z3 .t1,
   .un 0 .t0, .add .xb .t0, .norm .z3, .un 0 .z3, .copy .xa .z0, .add .xa .z3, .norm .xa, .norm .xb, .norm .xc]
/-- `FP12::ssmul`, first product (fp12.rs:372-374) -/
def ssA : List (Ins R12) :=
  [.copy .z0 .xa, .mul .z0 .ya]
/-- `FP12::ssmul`, between the two tests on the twist (fp12.rs:399-438) -/
def ssB : List (Ins R12) :=
  [.copy .t0 .xa, .copy .t1 .ya, .add .t0 .xb, .norm .t0, .add .t1 .yb, .norm .t1, .copy .z1 .t0, .mul .z1 .t1, .copy .t0 .xb,
   .add .t0 .xc, .norm .t0, .copy .t1 .yb, .add .t1 .yc, .norm .t1, .copy .z3 .t0, .mul .z3 .t1, .copy .t0 .z0, .neg .t0,
   .copy .t1 .z2, .neg .t1, .add .z1 .t0, .copy .xb .z1, .add .xb .t1, .add .z3 .t1, .add .z2 .t0, .copy .t0 .xa, .add .t0 .xc,
   .norm .t0, .copy .t1 .ya, .add .t1 .yc, .norm .t1, .mul .t0 .t1, .add .z2 .t0]
/-- `FP12::ssmul`, after the second test, and the final `norm` (fp12.rs:462-473, 573) -/
def ssC : List (Ins R12) :=
  [.copy .t1 .t0, .neg .t1, .copy .xc .z2, .add .xc .t1, .add .z3 .t1, .un 0 .t0, .add .xb .t0, .norm .z3, .un 0 .z3,
   .copy .xa .z0, .add .xa .z3, .norm .xa, .norm .xb, .norm .xc]
/-- `FP12::ssmul`, value of `z2` (fp12.rs:376-398) -/
def ssZ2 (mt : Bool) (sx sy : Nat) : List (Ins R12) :=
  if mt && (sy == tSPARSE || sx == tSPARSE) then
    [.copy .z2 .xb, if sy == tSPARSE && sx == tSPARSE then .bin 3 .z2 .yb else if sy == tSPARSE then .bin 1 .z2 .yb else .bin 4 .z2 .yb, .un 0 .z2]
  else [.copy .z2 .xb, .mul .z2 .yb]
/-- `FP12::ssmul`, value of `t0` (fp12.rs:439-461) -/
def ssT0 (mt : Bool) (sx sy : Nat) : List (Ins R12) :=
  if !mt && (sy == tSPARSE || sx == tSPARSE) then
    [.copy .t0 .xc, if sy == tSPARSE && sx == tSPARSE then .bin 5 .t0 .yc else if sy == tSPARSE then .bin 0 .t0 .yc else .bin 6 .t0 .yc]
  else [.copy .t0 .xc, .mul .t0 .yc]
/-- `FP12::ssmul` when `y.stype >= SPARSE` (fp12.rs:371-473, 573) -/
def ssDense (mt : Bool) (sx sy : Nat) : List (Ins R12) := ssA ++ ssZ2 mt sx sy ++ ssB ++ ssT0 mt sx sy ++ ssC
/-- `FP12::ssmul`, dense by sparser, D-type twist (fp12.rs:479-520, 573) -/
def ssD : List (Ins R12) :=
  [.copy .z0 .xa, .copy .z2 .xb, .copy .z3 .xb, .copy .t1 .ya, .mul .z0 .ya, .bin 0 .z2 .yb, .add .xb .xa, .bin 2 .t1 .yb,
   .norm .t1, .norm .xb, .mul .xb .t1, .add .z3 .xc, .norm .z3, .bin 0 .z3 .yb, .copy .t0 .z0, .neg .t0, .copy .t1 .z2,
   .neg .t1, .add .xb .t0, .add .xb .t1, .add .z3 .t1, .add .z2 .t0, .copy .t0 .xa, .add .t0 .xc, .norm .t0, .norm .z3,
   .mul .t0 .ya, .copy .xc .z2, .add .xc .t0, .un 0 .z3, .copy .xa .z0, .add .xa .z3, .norm .xa, .norm .xb, .norm .xc]
/-- `FP12::ssmul`, dense by sparser, M-type twist (fp12.rs:521-570, 573) -/
def ssM : List (Ins R12) :=
  [.copy .z0 .xa, .copy .t0 .xa, .mul .z0 .ya, .add .t0 .xb, .norm .t0, .copy .z1 .t0, .mul .z1 .ya, .copy .t0 .xb,
   .add .t0 .xc, .norm .t0, .copy .z3 .t0, .bin 1 .z3 .yc, .un 0 .z3, .copy .t0 .z0, .neg .t0, .add .z1 .t0, .copy .xb .z1,
   .copy .z2 .t0, .copy .t0 .xa, .add .t0 .xc, .norm .t0, .copy .t1 .ya, .add .t1 .yc, .norm .t1, .mul .t0 .t1, .add .z2 .t0,
   .copy .t0 .xc, .bin 1 .t0 .yc, .un 0 .t0, .copy .t1 .t0, .neg .t1, .copy .xc .z2, .add .xc .t1, .add .z3 .t1, .un 0 .t0,
   .add .xb .t0, .norm .z3, .un 0 .z3, .copy .xa .z0, .add .xa .z3, .norm .xa, .norm .xb, .norm .xc]
/-- `FP12::inverse` (fp12.rs:702-746) -/
def invProg : List (Ins R12) :=
  [.copy .f0 .xa, .copy .f1 .xb, .copy .f2 .xa, .norm .xa, .norm .xb, .norm .xc, .sqr .f0, .mul .f1 .xc, .un 0 .f1,
   .sub .f0 .f1, .norm .f0, .copy .f1 .xc, .sqr .f1, .un 0 .f1, .mul .f2 .xb, .sub .f1 .f2, .norm .f1, .copy .f2 .xb, .sqr .f2,
   .copy .f3 .xa, .mul .f3 .xc, .sub .f2 .f3, .norm .f2, .copy .f3 .xb, .mul .f3 .f2, .un 0 .f3, .mul .xa .f0, .add .f3 .xa,
   .mul .xc .f1, .un 0 .xc, .add .f3 .xc, .norm .f3, .un 4 .f3, .copy .xa .f0, .mul .xa .f3, .copy .xb .f1, .mul .xb .f3,
   .copy .xc .f2, .mul .xc .f3]
/-- `FP12::smul`, D-type twist (fp12.rs:578-633); `xbc` is `self.b.geta()` -/
def smD : List (Ins S12) :=
  [.copy .w1 .xaa, .copy .w2 .xab, .copy .w3 .xbc, .mul .w1 .yaa, .mul .w2 .yab, .mul .w3 .ybc, .copy .ta .xaa, .copy .tb .yaa,
   .add .ta .xab, .norm .ta, .add .tb .yab, .norm .tb, .copy .tc .ta, .mul .tc .tb, .copy .t .w1, .add .t .w2, .neg .t,
   .add .tc .t, .copy .ta .xaa, .add .ta .xbc, .norm .ta, .copy .tb .yaa, .add .tb .ybc, .norm .tb, .copy .td .ta,
   .mul .td .tb, .copy .t .w1, .add .t .w3, .neg .t, .add .td .t, .copy .ta .xab, .add .ta .xbc, .norm .ta, .copy .tb .yab,
   .add .tb .ybc, .norm .tb, .copy .te .ta, .mul .te .tb, .copy .t .w2, .add .t .w3, .neg .t, .add .te .t, .un 0 .w2,
   .add .w1 .w2, .norm .w1, .norm .tc, .norm .td, .norm .te]
/-- `FP12::smul`, M-type twist (fp12.rs:634-697); `xbc` is `self.c.getb()` -/
def smM : List (Ins S12) :=
  [.copy .w1 .xaa, .copy .w2 .xab, .copy .w3 .xbc, .mul .w1 .yaa, .mul .w2 .yab, .mul .w3 .ybc, .copy .ta .xaa, .copy .tb .yaa,
   .add .ta .xab, .norm .ta, .add .tb .yab, .norm .tb, .copy .tc .ta, .mul .tc .tb, .copy .t .w1, .add .t .w2, .neg .t,
   .add .tc .t, .copy .ta .xaa, .add .ta .xbc, .norm .ta, .copy .tb .yaa, .add .tb .ybc, .norm .tb, .copy .td .ta,
   .mul .td .tb, .copy .t .w1, .add .t .w3, .neg .t, .add .td .t, .copy .ta .xab, .add .ta .xbc, .norm .ta, .copy .tb .yab,
   .add .tb .ybc, .norm .tb, .copy .te .ta, .mul .te .tb, .copy .t .w2, .add .t .w3, .neg .t, .add .te .t, .un 0 .w2,
   .add .w1 .w2, .un 0 .w3, .norm .w3, .norm .te, .un 0 .te, .norm .w1, .norm .tc, .norm .te, .norm .td]
/-- variables at the start of a function on `self = (xa, xb, xc)` and argument `(ya, yb, yc)` -/
def init {A : Type} (z xa xb xc ya yb yc : A) : R12 → A
  | .xa => xa
  | .xb => xb
  | .xc => xc
  | .ya => ya
  | .yb => yb
  | .yc => yc
  | _ => z
/-- variables at the start of `smul` -/
def init6 {A : Type} (z xaa xab xbc yaa yab ybc : A) : S12 → A
  | .xaa => xaa
  | .xab => xab
  | .xbc => xbc
  | .yaa => yaa
  | .yab => yab
  | .ybc => ybc
  | _ => z
/-- running a program on `x` and `y`, setting the tag `t` -/
def runOn (P : Params C) (pr : List (Ins R12)) (x y : Fp12 C) (t : Nat) : Fp12 C :=
  let s := run (fp4Ops P) pr (init (Fp4.zero P) x.a x.b x.c y.a y.b y.c)
  ⟨s .xa, s .xb, s .xc, t⟩
/-- `FP12::new` (fp12.rs:52-59), `zero` (fp12.rs:188-193) -/
def zero (P : Params C) : Fp12 C := ⟨Fp4.zero P, Fp4.zero P, Fp4.zero P, tZERO⟩
/-- `FP12::new_int` (fp12.rs:69-78) -/
def newInt (P : Params C) (a : Int) : Fp12 C := ⟨Fp4.newInt P a, Fp4.zero P, Fp4.zero P, if a = 1 then tONE else tSPARSER⟩
/-- `FP12::new_fp4s` (fp12.rs:80-87) -/
def newFp4s (a b c : Fp4 C) : Fp12 C := ⟨a, b, c, tDENSE⟩
/-- `FP12::new_fp4` (fp12.rs:89-96) -/
def newFp4 (P : Params C) (a : Fp4 C) : Fp12 C := ⟨a, Fp4.zero P, Fp4.zero P, tSPARSER⟩
/-- `FP12::reduce` (fp12.rs:99-103) -/
def reduce (P : Params C) (x : Fp12 C) : Fp12 C := ⟨Fp4.reduce P x.a, Fp4.reduce P x.b, Fp4.reduce P x.c, x.stype⟩
/-- `FP12::norm` (fp12.rs:106-110) -/
def norm (P : Params C) (x : Fp12 C) : Fp12 C := ⟨Fp4.norm P x.a, Fp4.norm P x.b, Fp4.norm P x.c, x.stype⟩
/-- `FP12::iszilch` (fp12.rs:113-116) -/
def iszilch (P : Params C) (x : Fp12 C) : Bool := Fp4.iszilch P x.a && (Fp4.iszilch P x.b && Fp4.iszilch P x.c)
/-- `FP12::isunity` (fp12.rs:157-160) -/
def isunity (P : Params C) (x : Fp12 C) : Bool := Fp4.equals P x.a (Fp4.newInt P 1) && (Fp4.iszilch P x.b && Fp4.iszilch P x.c)
/-- `FP12::equals` (fp12.rs:163-165) -/
def equals (P : Params C) (x y : Fp12 C) : Bool := Fp4.equals P x.a y.a && (Fp4.equals P x.b y.b && Fp4.equals P x.c y.c)
/-- `FP12::one` (fp12.rs:180-185) -/
def one (P : Params C) : Fp12 C := ⟨Fp4.one P, Fp4.zero P, Fp4.zero P, tONE⟩
/-- `FP12::conj` (fp12.rs:196-200) -/
def conj (P : Params C) (x : Fp12 C) : Fp12 C := ⟨Fp4.conj P x.a, Fp4.nconj P x.b, Fp4.conj P x.c, x.stype⟩
/-- `FP12::usqr` (fp12.rs:203-241) -/
def usqr (P : Params C) (x : Fp12 C) : Fp12 C := runOn P usqrProg x x tDENSE
/-- `FP12::sqr` (fp12.rs:244-289) -/
def sqr (P : Params C) (x : Fp12 C) : Fp12 C :=
  if x.stype = tONE then x else runOn P sqrProg x x (if x.stype = tSPARSER then tSPARSE else tDENSE)
/-- `FP12::mul` (fp12.rs:292-358) -/
def mul (P : Params C) (x y : Fp12 C) : Fp12 C := runOn P mulProg x y tDENSE
/-- `FP12::smul` (fp12.rs:577-699); `mt`: the twist of the curve is M-type -/
def smul (P : Params C) (mt : Bool) (x y : Fp12 C) : Fp12 C :=
  if mt then
    let s := run (fp2Ops P) smM (init6 (Fp2.zero P) x.a.a x.a.b x.c.b y.a.a y.a.b y.c.b)
    ⟨⟨s .w1, s .tc⟩, ⟨Fp2.zero P, s .w3⟩, ⟨s .te, s .td⟩, tSPARSE⟩
  else
    let s := run (fp2Ops P) smD (init6 (Fp2.zero P) x.a.a x.a.b x.b.a y.a.a y.a.b y.b.a)
    ⟨⟨s .w1, s .tc⟩, ⟨s .td, s .te⟩, ⟨s .w3, Fp2.zero P⟩, tSPARSE⟩
/-- `FP12::ssmul` (fp12.rs:363-574) -/
def ssmul (P : Params C) (mt : Bool) (x y : Fp12 C) : Fp12 C :=
  if x.stype = tONE then y
  else if y.stype = tONE then x
  else if y.stype ≥ tSPARSE then runOn P (ssDense mt x.stype y.stype) x y tDENSE
  else if x.stype = tSPARSER then smul P mt x y
  else runOn P (if mt then ssM else ssD) x y tDENSE
/-- `FP12::inverse` (fp12.rs:702-746) -/
def inverse (P : Params C) (x : Fp12 C) : Fp12 C := runOn P invProg x x tDENSE
/-- `FP12::frob` (fp12.rs:749-763) -/
def frob (P : Params C) (x : Fp12 C) (f : Fp2 C) : Fp12 C :=
  let f2 := Fp2.sqr P f
  let f3 := Fp2.mul P f f2
  ⟨Fp4.frob P x.a f3, Fp4.pmul P (Fp4.frob P x.b f3) f, Fp4.pmul P (Fp4.frob P x.c f3) f2, tDENSE⟩
/-- `FP12::trace` (fp12.rs:766-771) -/
def trace (P : Params C) (x : Fp12 C) : Fp4 C := Fp4.reduce P (Fp4.imul P x.a 3)
end Fp12
end Verif.Tower
