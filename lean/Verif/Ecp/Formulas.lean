import Verif.Prog.Basic
/-
The point formulas of `src/ecp.rs`, one instruction per Rust statement (see `Prog/Basic.lean`).
`getpx`, `getpy` are clones.
-/
namespace Verif.Ecp
open Verif.Prog

/-- The field variables of `ECP::dbl`, `add`, `dadd`: the coordinates of `self` (`x y z`), of `Q` (`qx qy qz`) and
of `W` (`wx`), and the local variables. -/
inductive Reg
  | x | y | z | qx | qy | qz | wx | t0 | t1 | t2 | t3 | t4 | x3 | y3 | z3
  | a | aa | b | bb | c | d | da | cb | e | f | g | h | j
  deriving DecidableEq

open Reg Ins

/-- `ECP::dbl`, Weierstrass, `CURVE_A == 0` (ecp.rs:472-510); `bI` is `CURVE_B_I` -/
def dblA0 (bI : Int) : List (Ins Reg) :=
  [copy t0 y, sqr t0, copy t1 y, mul t1 z, copy t2 z, sqr t2,
   copy z t0, add z t0, norm z, dbl z, dbl z, norm z, imul t2 (3 * bI),
   copy x3 t2, mul x3 z,
   copy y3 t0, add y3 t2, norm y3, mul z t1, copy t1 t2, add t1 t2, add t2 t1, sub t0 t2, norm t0, mul y3 t0, add y3 x3,
   copy t1 x, mul t1 y, copy x t0, norm x, mul x t1, dbl x, norm x, copy y y3, norm y]

/-- `t.mul(&b)` if `CURVE_B_I == 0`, else `t.imul(CURVE_B_I)` -/
def mulB (bI : Int) (t : Reg) : Ins Reg := if bI = 0 then mul t b else imul t bI

/-- `ECP::dbl`, Weierstrass, `CURVE_A == -3` (ecp.rs:511-598); register `b` holds `FP::new_big(CURVE_B)` -/
def dblA3 (bI : Int) : List (Ins Reg) :=
  [copy t0 x, copy t1 y, copy t2 z, copy t3 x, copy z3 z,
   sqr t0, sqr t1, sqr t2, mul t3 y, dbl t3, norm t3, mul z3 x, dbl z3, norm z3,
   copy y3 t2, mulB bI y3, sub y3 z3,
   copy x3 y3, add x3 y3, norm x3, add y3 x3, copy x3 t1, sub x3 y3, norm x3, add y3 t1, norm y3, mul y3 x3, mul x3 t3,
   copy t3 t2, add t3 t2, add t2 t3, mulB bI z3, sub z3 t2, sub z3 t0, norm z3,
   copy t3 z3, add t3 z3, add z3 t3, norm z3, copy t3 t0, add t3 t0, add t0 t3, sub t0 t2, norm t0,
   mul t0 z3, add y3 t0, copy t0 y, mul t0 z, dbl t0, norm t0, mul z3 t0, sub x3 z3, dbl t0, norm t0, dbl t1, norm t1,
   copy z3 t0, mul z3 t1, copy x x3, norm x, copy y y3, norm y, copy z z3, norm z]

/-- `ECP::add`, Weierstrass, `CURVE_A == 0` (ecp.rs:661-735) -/
def addA0 (bI : Int) : List (Ins Reg) :=
  [copy t0 x, mul t0 qx, copy t1 y, mul t1 qy, copy t2 z, mul t2 qz,
   copy t3 x, add t3 y, norm t3, copy t4 qx, add t4 qy, norm t4, mul t3 t4, copy t4 t0, add t4 t1,
   sub t3 t4, norm t3, copy t4 y, add t4 z, norm t4, copy x3 qy, add x3 qz, norm x3,
   mul t4 x3, copy x3 t1, add x3 t2, sub t4 x3, norm t4, copy x3 x, add x3 z, norm x3,
   copy y3 qx, add y3 qz, norm y3, mul x3 y3, copy y3 t0, add y3 t2, rsub y3 x3, norm y3,
   copy x3 t0, add x3 t0, add t0 x3, norm t0, imul t2 (3 * bI),
   copy z3 t1, add z3 t2, norm z3, sub t1 t2, norm t1, imul y3 (3 * bI),
   copy x3 y3, mul x3 t4, copy t2 t3, mul t2 t1, rsub x3 t2, mul y3 t0, mul t1 z3, add y3 t1, mul t0 t3, mul z3 t4, add z3 t0,
   copy x x3, norm x, copy y y3, norm y, copy z z3, norm z]

/-- `ECP::add`, Weierstrass, `CURVE_A == -3` (ecp.rs:736-850) -/
def addA3 (bI : Int) : List (Ins Reg) :=
  [copy t0 x, copy t1 y, copy t2 z, copy t3 x, copy t4 qx, copy y3 qx, copy x3 qy,
   mul t0 qx, mul t1 qy, mul t2 qz,
   add t3 y, norm t3, add t4 qy, norm t4, mul t3 t4, copy t4 t0, add t4 t1, sub t3 t4, norm t3,
   copy t4 y, add t4 z, norm t4, add x3 qz, norm x3, mul t4 x3, copy x3 t1, add x3 t2,
   sub t4 x3, norm t4, copy x3 x, add x3 z, norm x3, add y3 qz, norm y3,
   mul x3 y3, copy y3 t0, add y3 t2, rsub y3 x3, norm y3, copy z3 t2, mulB bI z3,
   copy x3 y3, sub x3 z3, norm x3, copy z3 x3, add z3 x3, add x3 z3, copy z3 t1, sub z3 x3, norm z3, add x3 t1, norm x3,
   mulB bI y3, copy t1 t2, add t1 t2, add t2 t1, sub y3 t2, sub y3 t0, norm y3, copy t1 y3, add t1 y3, add y3 t1, norm y3,
   copy t1 t0, add t1 t0, add t0 t1, sub t0 t2, norm t0, copy t1 t4, mul t1 y3, copy t2 t0, mul t2 y3,
   copy y3 x3, mul y3 z3, add y3 t2, mul x3 t3, sub x3 t1, mul z3 t4, copy t1 t3, mul t1 t0, add z3 t1,
   copy x x3, norm x, copy y y3, norm y, copy z z3, norm z]

/-- `ECP::dbl`, Edwards (ecp.rs:601-628); `neg1` says whether `CURVE_A == -1` -/
def dblEd (neg1 : Bool) : List (Ins Reg) :=
  [copy c x, copy d y, copy h z, mul x y, dbl x, norm x, sqr c, sqr d] ++ (if neg1 then [neg c] else []) ++
  [copy y c, add y d, norm y, sqr h, dbl h, copy z y, copy j y, sub j h, norm j, mul x j, sub c d, norm c, mul y c, mul z j]

/-- `ECP::add`, Edwards (ecp.rs:852-905); `CURVE_A` is 1 or -1, register `bb` holds `FP::new_big(CURVE_B)` -/
def addEd (neg1 : Bool) : List (Ins Reg) :=
  [copy a z, copy c x, copy d y, mul a qz, copy b a, sqr b, mul c qx, mul d qy,
   copy e c, mul e d, mul e bb, copy f b, sub f e, copy g b, add g e] ++
  (if neg1 then [] else [copy e d, sub e c]) ++
  [add c d, copy b x, add b y, copy d qx, add d qy, norm b, norm d, mul b d, sub b c, norm b, norm f, mul b f,
   copy x a, mul x b, norm g] ++
  (if neg1 then [norm c, mul c g] else [norm e, copy c e, mul c g]) ++
  [copy y a, mul y c, copy z f, mul z g]

/-- `ECP::dbl`, Montgomery (ecp.rs:629-655); `a24 = (CURVE_A + 2) / 4` -/
def dblMo (a24 : Int) : List (Ins Reg) :=
  [copy a x, copy b x, add a z, norm a, copy aa a, sqr aa, sub b z, norm b, copy bb b, sqr bb, copy c aa, sub c bb, norm c,
   copy x aa, mul x bb, copy a c, imul a a24, add bb a, norm bb, copy z bb, mul z c]

/-- `ECP::dadd` (ecp.rs:910-946) -/
def daddProg : List (Ins Reg) :=
  [copy a x, copy b x, copy c qx, copy d qx, add a z, sub b z, add c qz, sub d qz, norm a, norm d, copy da d, mul da a,
   norm c, norm b, copy cb c, mul cb b, copy a da, add a cb, norm a, sqr a, copy b da, sub b cb, norm b, sqr b,
   copy x a, copy z wx, mul z b]

end Verif.Ecp
