import Verif.Ecp2.Formulas
import Verif.Ecp.Window
import Verif.Tower.Model2
import Verif.Rom.Pair
/-
Model of `src/ecp2.rs` (points over the quadratic extension, on the sextic twist), for the constants `K` of a pairing-friendly ROM file.
`tostring`, `to_hex`, `from_hex` are not modelled.  Results are `none` where the Rust code panics (array index out of range).
-/
namespace Verif.Ecp2
open Verif.Big Verif.Fp Verif.Prog Verif.Rom Verif.Tower

variable {C : Nat}

/-- `struct ECP2` (ecp2.rs:29-34) -/
structure Pt2 (C : Nat) where
  x : Fp2 C
  y : Fp2 C
  z : Fp2 C

/-- `ECP2::new` (ecp2.rs:58-64): the neutral element -/
def new (K : PairRom C) : Pt2 C := ⟨Fp2.zero K.rom.P, Fp2.newInt K.rom.P 1, Fp2.zero K.rom.P⟩

/-- `ECP2::inf` (ecp2.rs:111-115) -/
def inf (K : PairRom C) : Pt2 C := ⟨Fp2.zero K.rom.P, Fp2.one K.rom.P, Fp2.zero K.rom.P⟩

/-- the coefficient of the twist, as `ECP2::rhs` computes it (ecp2.rs:315-323); `FP2::new_big` (fp2.rs:91-96) -/
def twistB (K : PairRom C) : Fp2 C :=
  let b : Fp2 C := ⟨newBig K.rom.P K.rom.bv, Fp.zero K.rom.P⟩
  if K.mtype then Fp2.norm K.rom.P (Fp2.mulIp K.rom.P (Fp2.norm K.rom.P b)) else Fp2.divIp K.rom.P b

/-- `ECP2::rhs` (ecp2.rs:312-330) -/
def rhs (K : PairRom C) (x : Fp2 C) : Fp2 C :=
  let r := Fp2.mul K.rom.P (Fp2.sqr K.rom.P x) x
  Fp2.reduce K.rom.P (Fp2.add K.rom.P r (twistB K))

/-- `ECP2::new_fp2s` (ecp2.rs:67-82) -/
def newFp2s (K : PairRom C) (x y : Fp2 C) : Pt2 C :=
  let x := Fp2.norm K.rom.P x
  if Fp2.equals K.rom.P (Fp2.sqr K.rom.P y) (rhs K x) then ⟨x, y, Fp2.newInt K.rom.P 1⟩ else inf K

/-- `ECP2::new_fp2` (ecp2.rs:85-98) -/
def newFp2 (K : PairRom C) (ix : Fp2 C) : Pt2 C :=
  let x := Fp2.norm K.rom.P ix
  let r := Fp2.sqrt K.rom.P (rhs K x)
  if r.2 then ⟨x, r.1, Fp2.one K.rom.P⟩ else inf K

/-- `ECP2::is_infinity` (ecp2.rs:106-108) -/
def isInfinity (K : PairRom C) (s : Pt2 C) : Bool := Fp2.iszilch K.rom.P s.x && Fp2.iszilch K.rom.P s.z

/-- `ECP2::neg` (ecp2.rs:118-122) -/
def neg (K : PairRom C) (s : Pt2 C) : Pt2 C :=
  { s with y := Fp2.norm K.rom.P (Fp2.neg K.rom.P (Fp2.norm K.rom.P s.y)) }

/-- `ECP2::cmove` (ecp2.rs:125-129) -/
def cmove (s q : Pt2 C) (d : Nat) : Pt2 C := ⟨Fp2.cmove s.x q.x d, Fp2.cmove s.y q.y d, Fp2.cmove s.z q.z d⟩

/-- `ECP2::equals` (ecp2.rs:160-178) -/
def equals (K : PairRom C) (s q : Pt2 C) : Bool :=
  if !Fp2.equals K.rom.P (Fp2.mul K.rom.P s.x q.z) (Fp2.mul K.rom.P q.x s.z) then false
  else if !Fp2.equals K.rom.P (Fp2.mul K.rom.P s.y q.z) (Fp2.mul K.rom.P q.y s.z) then false
  else true

/-- `ECP2::affine` (ecp2.rs:181-196) -/
def affine (K : PairRom C) (s : Pt2 C) : Pt2 C :=
  if isInfinity K s then s
  else if Fp2.equals K.rom.P s.z (Fp2.newInt K.rom.P 1) then s
  else
    let zi := Fp2.inverse K.rom.P s.z
    { x := Fp2.reduce K.rom.P (Fp2.mul K.rom.P s.x zi)
      y := Fp2.reduce K.rom.P (Fp2.mul K.rom.P s.y zi)
      z := Fp2.newInt K.rom.P 1 }

/-- `ECP2::getx` (ecp2.rs:199-203) -/
def getx (K : PairRom C) (s : Pt2 C) : Fp2 C := (affine K s).x

/-- `ECP2::gety` (ecp2.rs:206-210) -/
def gety (K : PairRom C) (s : Pt2 C) : Fp2 C := (affine K s).y

/-- `ECP2::tobytes` (ecp2.rs:226-249): the buffer after the call -/
def tobytes (K : PairRom C) (s : Pt2 C) (buf : List (BitVec 8)) : Option (List (BitVec 8)) :=
  let mb := K.rom.modbytes
  let by' := fun v => toBytes K.rom.P.b mb v
  let W := affine K s
  if buf.length < 4 * mb then none
  else some (by' (Fp2.geta K.rom.P W.x) ++ by' (Fp2.getb K.rom.P W.x) ++ by' (Fp2.geta K.rom.P W.y) ++ by' (Fp2.getb K.rom.P W.y) ++ buf.drop (4 * mb))

/-- `ECP2::frombytes` (ecp2.rs:252-277) -/
def frombytes (K : PairRom C) (bs : List (BitVec 8)) : Option (Pt2 C) :=
  let mb := K.rom.modbytes
  let rd := fun i => fromBytes K.rom.P.b K.rom.P.n mb ((bs.drop (i * mb)).take mb)
  if bs.length < 4 * mb then none
  else some (newFp2s K (Fp2.newBigs K.rom.P (rd 0) (rd 1)) (Fp2.newBigs K.rom.P (rd 2) (rd 3)))

/-- Field variables at the start of `dbl` and `add`: `self` and `Q`; the other variables are assigned before they are read. -/
def init (K : PairRom C) (s q : Pt2 C) : Reg → Fp2 C
  | .x => s.x | .y => s.y | .z => s.z | .qx => q.x | .qy => q.y | .qz => q.z
  | _ => Fp2.zero K.rom.P

/-- coordinates of `self` after a formula -/
def result (s : Reg → Fp2 C) : Pt2 C := ⟨s .x, s .y, s .z⟩

/-- `ECP2::dbl` (ecp2.rs:333-390) -/
def dbl (K : PairRom C) (s : Pt2 C) : Pt2 C := result (run (fp2Ops K.rom.P) (dblP K.mtype K.rom.bI) (init K s s))

/-- `ECP2::add` (ecp2.rs:393-492) -/
def add (K : PairRom C) (s q : Pt2 C) : Pt2 C := result (run (fp2Ops K.rom.P) (addP K.mtype K.rom.bI) (init K s q))

/-- the operations used by the scalar multiplications; `ECP2::selector` (ecp2.rs:139-157) repeats `ECP::selector` -/
def ptOps (K : PairRom C) : Ecp.PtOps (Pt2 C) := ⟨dbl K, add K, neg K, cmove⟩

/-- `ECP2::sub` (ecp2.rs:495-500) -/
def sub (K : PairRom C) (s q : Pt2 C) : Pt2 C := (ptOps K).sub s q

/-- `ECP2::frob` (ecp2.rs:503-513) -/
def frob (K : PairRom C) (s : Pt2 C) (x : Fp2 C) : Pt2 C :=
  let x2 := Fp2.sqr K.rom.P x
  { x := Fp2.mul K.rom.P (Fp2.conj K.rom.P s.x) x2
    y := Fp2.mul K.rom.P (Fp2.mul K.rom.P (Fp2.conj K.rom.P s.y) x2) x
    z := Fp2.reduce K.rom.P (Fp2.conj K.rom.P s.z) }

/-- `ECP2::mul` (ecp2.rs:516-582): the same window algorithm as `ECP::mul` -/
def mul (K : PairRom C) (s : Pt2 C) (e : Limbs C) : Option (Pt2 C) :=
  if isInfinity K s then some (new K)
  else (Ecp.mulWin (ptOps K) K.rom.P.b K.rom.P.n s e).map (affine K)

/-- `ECP2::generator` (ecp2.rs:761-772) -/
def generator (K : PairRom C) : Pt2 C := newFp2s K (Fp2.newBigs K.rom.P K.pxa K.pxb) (Fp2.newBigs K.rom.P K.pya K.pyb)

end Verif.Ecp2
