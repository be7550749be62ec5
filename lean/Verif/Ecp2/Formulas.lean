import Verif.Prog.Basic
/-
The point formulas of `src/ecp2.rs`, one instruction per Rust statement (see `Prog/Basic.lean`); `un 0` is `mul_ip`.
-/
namespace Verif.Ecp2
open Verif.Prog

/-- The field variables of `ECP2::dbl`, `add`: the coordinates of `self` (`x y z`), of `Q` (`qx qy qz`), and the local variables. -/
inductive Reg
  | x | y | z | qx | qy | qz | iy | t0 | t1 | t2 | t3 | t4 | x3 | y3 | z3
  deriving DecidableEq

open Reg Ins

/-- `ECP2::dbl` (ecp2.rs:333-390); `mt` says whether `SEXTIC_TWIST == MType`, `bI` is `CURVE_B_I` -/
def dblP (mt : Bool) (bI : Int) : List (Ins Reg) :=
  [copy iy y] ++
  (if mt then [] else [un 0 iy, norm iy]) ++
  [copy t0 y, sqr t0] ++
  (if mt then [] else [un 0 t0]) ++
  [copy t1 iy, mul t1 z, copy t2 z, sqr t2, copy z t0, add z t0, norm z, dbl z, dbl z, norm z, imul t2 (3 * bI)] ++
  (if mt then [un 0 t2, norm t2] else []) ++
  [copy x3 t2, mul x3 z, copy y3 t0, add y3 t2, norm y3, mul z t1, copy t1 t2, add t1 t2, add t2 t1, norm t2, sub t0 t2, norm t0, mul y3 t0, add y3 x3, copy t1 x, mul t1 iy, copy x t0, norm x, mul x t1, dbl x, norm x, copy y y3, norm y]

/-- `ECP2::add` (ecp2.rs:393-492) -/
def addP (mt : Bool) (bI : Int) : List (Ins Reg) :=
  [copy t0 x, mul t0 qx, copy t1 y, mul t1 qy, copy t2 z, mul t2 qz, copy t3 x, add t3 y, norm t3, copy t4 qx, add t4 qy, norm t4, mul t3 t4, copy t4 t0, add t4 t1, sub t3 t4, norm t3] ++
  (if mt then [] else [un 0 t3, norm t3]) ++
  [copy t4 y, add t4 z, norm t4, copy x3 qy, add x3 qz, norm x3, mul t4 x3, copy x3 t1, add x3 t2, sub t4 x3, norm t4] ++
  (if mt then [] else [un 0 t4, norm t4]) ++
  [copy x3 x, add x3 z, norm x3, copy y3 qx, add y3 qz, norm y3, mul x3 y3, copy y3 t0, add y3 t2, rsub y3 x3, norm y3] ++
  (if mt then [] else [un 0 t0, norm t0, un 0 t1, norm t1]) ++
  [copy x3 t0, add x3 t0, add t0 x3, norm t0, imul t2 (3 * bI)] ++
  (if mt then [un 0 t2, norm t2] else []) ++
  [copy z3 t1, add z3 t2, norm z3, sub t1 t2, norm t1, imul y3 (3 * bI)] ++
  (if mt then [un 0 y3, norm y3] else []) ++
  [copy x3 y3, mul x3 t4, copy t2 t3, mul t2 t1, rsub x3 t2, mul y3 t0, mul t1 z3, add y3 t1, mul t0 t3, mul z3 t4, add z3 t0, copy x x3, norm x, copy y y3, norm y, copy z z3, norm z]

end Verif.Ecp2
