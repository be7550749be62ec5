import Verif.Ecp.Formulas
import Verif.Ecp.Window
import Verif.Prog.Field
import Verif.Rom.Model
/-
Model of `src/ecp.rs` (points over the prime field), for the curve of a ROM file `K`.
Results are `none` where the Rust code panics (array index out of range).
-/
namespace Verif.Ecp
open Verif.Big Verif.Fp Verif.Prog Verif.Rom

variable {C : Nat}

/-- `struct ECP` (ecp.rs:32-37) -/
structure Pt (C : Nat) where
  x : Fp C
  y : Fp C
  z : Fp C

/-- `ECP::pnew` (ecp.rs:59-65) -/
def pnew (K : Rom C) : Pt C := ⟨zero K.P, newInt K.P 1, zero K.P⟩

/-- `ECP::new` (ecp.rs:67-73): the neutral element -/
def new (K : Rom C) : Pt C := if K.ctype = .edwards then { pnew K with z := one K.P } else pnew K

/-- `ECP::inf` (ecp.rs:160-170) -/
def inf (K : Rom C) (s : Pt C) : Pt C :=
  { x := zero K.P
    y := if K.ctype = .montgomery then s.y else one K.P
    z := if K.ctype = .edwards then one K.P else zero K.P }

/-- `ECP::rhs` (ecp.rs:173-215) -/
def rhs (K : Rom C) (x : Fp C) : Fp C :=
  let r := Fp.sqr K.P x
  let r :=
    match K.ctype with
    | .weierstrass =>
      let b := newBig K.P K.bv
      let r := Fp.mul K.P r x
      let r := if K.a = -3 then Fp.add K.P r (Fp.norm K.P (Fp.neg K.P (Fp.imul K.P x 3))) else r
      Fp.add K.P r b
    | .edwards =>
      let one := newInt K.P 1
      let b := Fp.norm K.P (Fp.sub K.P (Fp.mul K.P (newBig K.P K.bv) r) one)
      let r := if K.a = -1 then Fp.neg K.P r else r
      let r := Fp.norm K.P (Fp.sub K.P r one)
      Fp.mul K.P r (Fp.inverse K.P b)
    | .montgomery =>
      let x3 := Fp.mul K.P r x
      let r := Fp.imul K.P r K.a
      Fp.add K.P (Fp.add K.P r x3) x
  Fp.reduce K.P r

/-- enough iterations for `Big::jacobi` (C11) -/
def fuel (K : Rom C) : Nat := 2 * (K.P.b * K.P.n) + 1

/-- `rhs.jacobi() == 1` -/
def isSquare (K : Rom C) (r : Fp C) : Bool := Fp.jacobi K.P (fuel K) r == some 1

/-- `ECP::new_bigs` (ecp.rs:76-95) -/
def newBigs (K : Rom C) (ix iy : Limbs C) : Pt C :=
  let E : Pt C := ⟨Fp.norm K.P (newBig K.P ix), newBig K.P iy, one K.P⟩
  let r := rhs K E.x
  if K.ctype = .montgomery then if isSquare K r then E else inf K E
  else if Fp.equals K.P (Fp.sqr K.P E.y) r then E else inf K E

/-- `ECP::new_bigint` (ecp.rs:98-116) -/
def newBigint (K : Rom C) (ix : Limbs C) (s : Nat) : Pt C :=
  let E : Pt C := ⟨Fp.norm K.P (newBig K.P ix), (new K).y, one K.P⟩
  let r := rhs K E.x
  if isSquare K r then
    let ny := Fp.sqrt K.P r
    { E with y := if parity (redc K.P ny) ≠ s then Fp.neg K.P ny else ny }
  else inf K E

/-- `ECP::new_big` (ecp.rs:120-134) -/
def newBigX (K : Rom C) (ix : Limbs C) : Pt C :=
  let E : Pt C := ⟨Fp.norm K.P (newBig K.P ix), (new K).y, one K.P⟩
  let r := rhs K E.x
  if isSquare K r then (if K.ctype = .montgomery then E else { E with y := Fp.sqrt K.P r }) else inf K E

/-- `ECP::new_fps` (ecp.rs:137-151) -/
def newFps (K : Rom C) (x y : Fp C) : Pt C :=
  let E : Pt C := ⟨x, y, newInt K.P 1⟩
  if Fp.equals K.P (Fp.sqr K.P y) (rhs K x) then E else inf K E

/-- `ECP::is_infinity` (ecp.rs:218-224) -/
def isInfinity (K : Rom C) (s : Pt C) : Bool :=
  match K.ctype with
  | .edwards => Fp.iszilch K.P s.x && Fp.equals K.P s.y s.z
  | .weierstrass => Fp.iszilch K.P s.x && Fp.iszilch K.P s.z
  | .montgomery => Fp.iszilch K.P s.z

/-- `ECP::cswap` (ecp.rs:227-233) -/
def cswap (K : Rom C) (s q : Pt C) (d : Nat) : Pt C × Pt C :=
  let x := Fp.cswap s.x q.x d
  let y := if K.ctype = .montgomery then (s.y, q.y) else Fp.cswap s.y q.y d
  let z := Fp.cswap s.z q.z d
  (⟨x.1, y.1, z.1⟩, ⟨x.2, y.2, z.2⟩)

/-- `ECP::cmove` (ecp.rs:236-242) -/
def cmove (K : Rom C) (s q : Pt C) (d : Nat) : Pt C :=
  ⟨Fp.cmove s.x q.x d, if K.ctype = .montgomery then s.y else Fp.cmove s.y q.y d, Fp.cmove s.z q.z d⟩

/-- `ECP::neg` (ecp.rs:252-262) -/
def neg (K : Rom C) (s : Pt C) : Pt C :=
  match K.ctype with
  | .weierstrass => { s with y := Fp.norm K.P (Fp.neg K.P s.y) }
  | .edwards => { s with x := Fp.norm K.P (Fp.neg K.P s.x) }
  | .montgomery => s

/-- `ECP::equals` (ecp.rs:290-308) -/
def equals (K : Rom C) (s q : Pt C) : Bool :=
  if !Fp.equals K.P (Fp.mul K.P s.x q.z) (Fp.mul K.P q.x s.z) then false
  else if K.ctype ≠ .montgomery && !Fp.equals K.P (Fp.mul K.P s.y q.z) (Fp.mul K.P q.y s.z) then false
  else true

/-- `ECP::affine` (ecp.rs:311-328) -/
def affine (K : Rom C) (s : Pt C) : Pt C :=
  if isInfinity K s then s
  else
    let one := newInt K.P 1
    if Fp.equals K.P s.z one then s
    else
      let zi := Fp.inverse K.P s.z
      { x := Fp.reduce K.P (Fp.mul K.P s.x zi)
        y := if K.ctype = .montgomery then s.y else Fp.reduce K.P (Fp.mul K.P s.y zi)
        z := one }

/-- `ECP::getx` (ecp.rs:331-335) -/
def getx (K : Rom C) (s : Pt C) : Limbs C := redc K.P (affine K s).x

/-- `ECP::gety` (ecp.rs:338-342) -/
def gety (K : Rom C) (s : Pt C) : Limbs C := redc K.P (affine K s).y

/-- `ECP::gets` (ecp.rs:345-348) -/
def gets (K : Rom C) (s : Pt C) : Int := parity (gety K s)

/-- `ECP::tobytes` (ecp.rs:365-395): the buffer after the call -/
def tobytes (K : Rom C) (s : Pt C) (buf : List (BitVec 8)) (compress : Bool) : Option (List (BitVec 8)) :=
  let mb := K.modbytes
  let W := affine K s
  let t := toBytes K.P.b mb (redc K.P W.x)
  if buf.length < mb + 1 then none
  else if K.ctype = .montgomery then some (0x06#8 :: t ++ buf.drop (mb + 1))
  else if compress then
    some ((if parity (redc K.P W.y) = 1 then 0x03#8 else 0x02#8) :: t ++ buf.drop (mb + 1))
  else if buf.length < 2 * mb + 1 then none
  else some (0x04#8 :: t ++ toBytes K.P.b mb (redc K.P W.y) ++ buf.drop (2 * mb + 1))

/-- `ECP::frombytes` (ecp.rs:398-431) -/
def frombytes (K : Rom C) (bs : List (BitVec 8)) : Option (Pt C) :=
  let mb := K.modbytes
  if bs.length < mb + 1 then none
  else
    let px := fromBytes K.P.b K.P.n mb ((bs.drop 1).take mb)
    if comp px K.P.md ≥ 0 then some (new K)
    else if K.ctype = .montgomery then some (newBigX K px)
    else
      let b0 := bs.headD 0
      if b0 = 0x04#8 then
        if bs.length < 2 * mb + 1 then none
        else
          let py := fromBytes K.P.b K.P.n mb ((bs.drop (mb + 1)).take mb)
          if comp py K.P.md ≥ 0 then some (new K) else some (newBigs K px py)
      else if b0 = 0x02#8 ∨ b0 = 0x03#8 then some (newBigint K px (b0 &&& 1#8).toNat)
      else some (new K)

/-- Field variables at the start of `dbl`, `add`, `dadd`: `self`, `Q`, the abscissa of `W`, and the constant
`CURVE_B` in the variable that holds it (`b` in the Weierstrass formulas, `bb` in the Edwards ones).  The other
variables are assigned before they are read. -/
def init (K : Rom C) (s q : Pt C) (wx : Fp C) : Reg → Fp C
  | .x => s.x | .y => s.y | .z => s.z | .qx => q.x | .qy => q.y | .qz => q.z | .wx => wx
  | .b => newBig K.P K.bv | .bb => newBig K.P K.bv
  | _ => zero K.P

/-- `ECP::dbl` (ecp.rs:470-656) -/
def dblProg (K : Rom C) : List (Ins Reg) :=
  match K.ctype with
  | .weierstrass => if K.a = 0 then dblA0 K.bI else dblA3 K.bI
  | .edwards => dblEd (K.a == -1)
  | .montgomery => dblMo ((K.a + 2) / 4)

/-- `ECP::add` (ecp.rs:659-907); nothing happens on Montgomery curves -/
def addProg (K : Rom C) : List (Ins Reg) :=
  match K.ctype with
  | .weierstrass => if K.a = 0 then addA0 K.bI else addA3 K.bI
  | .edwards => addEd (K.a == -1)
  | .montgomery => []

/-- coordinates of `self` after a formula -/
def result (s : Reg → Fp C) : Pt C := ⟨s .x, s .y, s .z⟩

/-- `ECP::dbl` -/
def dbl (K : Rom C) (s : Pt C) : Pt C := result (run (fpOps K.P) (dblProg K) (init K s s (zero K.P)))

/-- `ECP::add` -/
def add (K : Rom C) (s q : Pt C) : Pt C := result (run (fpOps K.P) (addProg K) (init K s q (zero K.P)))

/-- `ECP::dadd` (ecp.rs:910-946): differential addition, `w = self - q` -/
def dadd (K : Rom C) (s q w : Pt C) : Pt C := result (run (fpOps K.P) daddProg (init K s q w.x))

/-- the operations used by the scalar multiplications -/
def ptOps (K : Rom C) : PtOps (Pt C) := ⟨dbl K, add K, neg K, cmove K⟩

/-- `ECP::sub` (ecp.rs:949-953) -/
def sub (K : Rom C) (s q : Pt C) : Pt C := (ptOps K).sub s q

/-- one step of the Montgomery ladder (ecp.rs:997-1004) -/
def ladderStep (K : Rom C) (D : Pt C) (R : Pt C × Pt C) (b : Nat) : Pt C × Pt C :=
  let P := dadd K R.2 R.1 D
  let R := cswap K R.1 R.2 b
  cswap K (dbl K R.1) P b

/-- Montgomery branch of `ECP::mul` (ecp.rs:979-1065) -/
def mulMont (K : Rom C) (s : Pt C) (e : Limbs C) : Pt C :=
  let D := affine K s
  let nb := nbits K.P.b e
  ((List.range (nb - 1)).reverse.foldl (fun R i => ladderStep K D R (bit K.P.b e i).toNat) (s, dbl K s)).1

/-- `ECP::mul` (ecp.rs:979-1065) -/
def mul (K : Rom C) (s : Pt C) (e : Limbs C) : Option (Pt C) :=
  if Big.iszilch e || isInfinity K s then some (new K)
  else if K.ctype = .montgomery then some (affine K (mulMont K s e))
  else (mulWin (ptOps K) K.P.b K.P.n s e).map (affine K)

/-- `ECP::mul2` (ecp.rs:1069-1169) -/
def mul2 (K : Rom C) (s : Pt C) (e : Limbs C) (q : Pt C) (f : Limbs C) : Option (Pt C) :=
  (mul2Win (ptOps K) K.P.b K.P.n s e q f).map (affine K)

/-- one step of the ladder of `ECP::pinmul` (ecp.rs:956-976) -/
def pinStep (K : Rom C) (R : Pt C × Pt C) (b : Nat) : Pt C × Pt C :=
  let P := add K R.2 R.1
  let R := cswap K R.1 R.2 b
  cswap K (dbl K R.1) P b

/-- `ECP::pinmul` (ecp.rs:956-976) for `0 ≤ bts < 32`; `e` is an `i32`.  On Montgomery curves it is `mul`
by `Big::new_int(e)`. -/
def pinmul (K : Rom C) (s : Pt C) (e : BitVec 32) (bts : Nat) : Option (Pt C) :=
  if K.ctype = .montgomery then mul K s (Big.newInt C K.P.n e.toInt)
  else
    some (affine K ((List.range bts).reverse.foldl (fun R i => pinStep K R ((e.sshiftRight i) &&& 1).toNat) (new K, s)).1)

/-- `ECP::cfp` (ecp.rs:1172-1191): multiplication by the cofactor -/
def cfp (K : Rom C) (s : Pt C) : Option (Pt C) :=
  if K.cofI = 1 then some s
  else if K.cofI = 4 then some (dbl K (dbl K s))
  else if K.cofI = 8 then some (dbl K (dbl K (dbl K s)))
  else mul K s K.cof

/-- `ECP::generator` (ecp.rs:1223-1235) -/
def generator (K : Rom C) : Pt C :=
  if K.ctype = .montgomery then newBigX K K.gx else newBigs K K.gx K.gy

end Verif.Ecp
