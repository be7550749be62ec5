import Verif.Pair.Model
import Verif.Tower.Model12
/-
Model of the Miller loops of `src/pair.rs` (`linedbl`, `lineadd`, `lbits`, `ate`, `ate2`, `initmp`, `another`, `miller`) for the curves of embedding degree 12.
The final exponentiation `fexp` is in `Gt/Model.lean`.  The statements of `linedbl` and `lineadd` on variables of type `FP2` are a straight-line program (`Prog`).
Results are `none` where the Rust code panics (index out of range, `nb - 1` with `nb = 0`).
-/
namespace Verif.Ate
open Verif.Big Verif.Fp Verif.Prog Verif.Rom Verif.Tower Verif.Ecp2 Verif.Pair

variable {C : Nat}

/-- local variables of `linedbl` (`xx`, `yy`, `zz`, `yz`) and `lineadd` (`x1`, `y1`, `t1`, `t2`); `bx`, `by'` are `B.getpx()`, `B.getpy()` -/
inductive LReg | xx | yy | zz | yz | x1 | y1 | t1 | t2 | bx | by' | qx | qy
  deriving DecidableEq

/-- the operations of `FP2`; `bin` is `FP2::pmul` (fp2.rs:226-229) with a variable of type `FP`, held in the real part of a register -/
def lineOps (P : Params C) : Ops (Fp2 C) := { fp2Ops P with bin := fun _ x s => Fp2.pmul P x s.a }

/-- `linedbl` (pair.rs:34-83): the statements on `FP2` variables -/
def dblL (mt : Bool) (bI : Int) : List (Ins LReg) :=
  [.copy .yz .yy, .mul .yz .zz, .sqr .xx, .sqr .yy, .sqr .zz, .imul .yz 4, .neg .yz, .norm .yz, .bin 0 .yz .qy, .imul .xx 6, .bin 0 .xx .qx,
   .imul .zz (3 * bI)] ++
  (if mt then [.un 0 .zz, .dbl .zz, .un 0 .yz, .norm .yz] else [.un 4 .zz]) ++
  [.norm .zz, .dbl .yy, .sub .zz .yy, .norm .zz]

/-- `lineadd` (pair.rs:86-131): the statements on `FP2` variables -/
def addL (mt : Bool) : List (Ins LReg) :=
  [.mul .t1 .by', .mul .t2 .bx, .sub .x1 .t2, .norm .x1, .sub .y1 .t1, .norm .y1, .copy .t1 .x1, .bin 0 .x1 .qy] ++
  (if mt then [.un 0 .x1, .norm .x1] else []) ++
  [.mul .t1 .by', .copy .t2 .y1, .mul .t2 .bx, .sub .t2 .t1, .norm .t2, .bin 0 .y1 .qx, .neg .y1, .norm .y1]

/-- an `FP` variable as a register -/
def lift (P : Params C) (a : Fp C) : Fp2 C := ⟨a, Fp.zero P⟩

/-- variables at the start of `linedbl` (pair.rs:34-83); the others are assigned before they are read -/
def initD (K : PairRom C) (A : Pt2 C) (qx qy : Fp C) : LReg → Fp2 C
  | .xx => A.x | .yy => A.y | .zz => A.z | .qx => lift K.rom.P qx | .qy => lift K.rom.P qy
  | _ => Fp2.zero K.rom.P

/-- variables at the start of `lineadd` (pair.rs:86-131) -/
def initA (K : PairRom C) (A B : Pt2 C) (qx qy : Fp C) : LReg → Fp2 C
  | .x1 => A.x | .y1 => A.y | .t1 => A.z | .t2 => A.z | .bx => B.x | .by' => B.y | .qx => lift K.rom.P qx | .qy => lift K.rom.P qy
  | _ => Fp2.zero K.rom.P

/-- the element of `FP12` made of the coefficients of a line (pair.rs:70-82, 119-131) -/
def mkLine (K : PairRom C) (u v w : Fp2 C) : Fp12 C :=
  let b := if K.mtype then Fp4.zero K.rom.P else Fp4.ofFp2 K.rom.P w
  let c := if K.mtype then Fp4.timesI K.rom.P (Fp4.ofFp2 K.rom.P w) else Fp4.zero K.rom.P
  { Fp12.newFp4s ⟨u, v⟩ b c with stype := tSPARSER }

/-- `linedbl` (pair.rs:34-83): `A` after the call, and the line -/
def linedbl (K : PairRom C) (A : Pt2 C) (qx qy : Fp C) : Pt2 C × Fp12 C :=
  let s := run (lineOps K.rom.P) (dblL K.mtype K.rom.bI) (initD K A qx qy)
  (Ecp2.dbl K A, mkLine K (s .yz) (s .zz) (s .xx))

/-- `lineadd` (pair.rs:86-131): `A` after the call, and the line -/
def lineadd (K : PairRom C) (A B : Pt2 C) (qx qy : Fp C) : Pt2 C × Fp12 C :=
  let s := run (lineOps K.rom.P) (addL K.mtype) (initA K A B qx qy)
  (Ecp2.add K A B, mkLine K (s .x1) (s .t2) (s .y1))

/-- `lbits` (pair.rs:135-150): `n` -/
def ateN (K : GlsRom C) : Limbs C :=
  let b := K.pair.rom.P.b
  let x := K.pair.bnx
  Big.norm b (if K.bn then (if K.pair.negx then dec b (Big.pmul b x 6).1 2 else inc b (Big.pmul b x 6).1 2) else x)

/-- `lbits` (pair.rs:135-150): `n3` -/
def ateN3 (K : GlsRom C) : Limbs C := Big.norm K.pair.rom.P.b (Big.pmul K.pair.rom.P.b (ateN K) 3).1

/-- `lbits` (pair.rs:135-150): the returned value `nb` -/
def lbits (K : GlsRom C) : Nat := nbits K.pair.rom.P.b (ateN3 K)

/-- the digit `bt` of round `i` (pair.rs:204, 267, 352) -/
def digit (K : GlsRom C) (i : Nat) : Int := bit K.pair.rom.P.b (ateN3 K) i - bit K.pair.rom.P.b (ateN K) i

/-- the lines of one round (pair.rs:202-213, 266-276): `A` after the round, and the line or product of two lines; `P`, `NP` are the base point and its negative -/
def lineStep (K : GlsRom C) (P NP : Pt2 C) (qx qy : Fp C) (A : Pt2 C) (i : Nat) : Pt2 C × Fp12 C :=
  let k := K.pair
  let d := linedbl k A qx qy
  if digit K i = 1 then
    let e := lineadd k d.1 P qx qy
    (e.1, Fp12.smul k.rom.P k.mtype d.2 e.2)
  else if digit K i = -1 then
    let e := lineadd k d.1 NP qx qy
    (e.1, Fp12.smul k.rom.P k.mtype d.2 e.2)
  else d

/-- the two lines of the R-ate fix-up of the BN curves (pair.rs:218-233, 285-300, 371-384, 386-395): `A` is the point after the loop, `P` the base point -/
def fixup (K : PairRom C) (P A : Pt2 C) (qx qy : Fp C) : Fp12 C :=
  let A := if K.negx then Ecp2.neg K A else A
  let Q := Ecp2.frob K P (frobC K)
  let l := lineadd K A Q qx qy
  let Q := Ecp2.neg K (Ecp2.frob K Q (frobC K))
  Fp12.smul K.rom.P K.mtype l.2 (lineadd K l.1 Q qx qy).2

/-- the rounds `i = k, …, 1` of `ate` (pair.rs:238-303) -/
def ateLoop (K : GlsRom C) (P NP : Pt2 C) (qx qy : Fp C) : Nat → Pt2 C × Fp12 C → Pt2 C × Fp12 C
  | 0, s => s
  | i + 1, s =>
    let t := lineStep K P NP qx qy s.1 (i + 1)
    ateLoop K P NP qx qy i (t.1, Fp12.ssmul K.pair.rom.P K.pair.mtype (Fp12.sqr K.pair.rom.P s.2) t.2)

/-- `ate` (pair.rs:238-303) -/
def ate (K : GlsRom C) (P1 : Pt2 C) (Q1 : Ecp.Pt C) : Option (Fp12 C) :=
  let k := K.pair
  let P := Ecp2.affine k P1
  let Q := Ecp.affine k.rom Q1
  if lbits K = 0 then none
  else
    let s := ateLoop K P (Ecp2.neg k P) Q.x Q.y (lbits K - 2) (P, Fp12.newInt k.rom.P 1)
    let r := if k.negx then Fp12.conj k.rom.P s.2 else s.2
    some (if K.bn then Fp12.ssmul k.rom.P k.mtype r (fixup k P s.1 Q.x Q.y) else r)

/-- one round of `ate2` (pair.rs:307-399) on `A`, `B`, `r` -/
def ate2Step (K : GlsRom C) (P NP R NR : Pt2 C) (qx qy sx sy : Fp C) (s : Pt2 C × Pt2 C × Fp12 C) (i : Nat) : Pt2 C × Pt2 C × Fp12 C :=
  let k := K.pair
  let r := Fp12.sqr k.rom.P s.2.2
  let a := linedbl k s.1 qx qy
  let b := linedbl k s.2.1 sx sy
  let r := Fp12.ssmul k.rom.P k.mtype r (Fp12.smul k.rom.P k.mtype a.2 b.2)
  if digit K i = 1 then
    let a := lineadd k a.1 P qx qy
    let b := lineadd k b.1 R sx sy
    (a.1, b.1, Fp12.ssmul k.rom.P k.mtype r (Fp12.smul k.rom.P k.mtype a.2 b.2))
  else if digit K i = -1 then
    let a := lineadd k a.1 NP qx qy
    let b := lineadd k b.1 NR sx sy
    (a.1, b.1, Fp12.ssmul k.rom.P k.mtype r (Fp12.smul k.rom.P k.mtype a.2 b.2))
  else (a.1, b.1, r)

/-- the rounds `i = k, …, 1` of `ate2` (pair.rs:307-399) -/
def ate2Loop (K : GlsRom C) (P NP R NR : Pt2 C) (qx qy sx sy : Fp C) : Nat → Pt2 C × Pt2 C × Fp12 C → Pt2 C × Pt2 C × Fp12 C
  | 0, s => s
  | i + 1, s => ate2Loop K P NP R NR qx qy sx sy i (ate2Step K P NP R NR qx qy sx sy s (i + 1))

/-- `ate2` (pair.rs:307-399) -/
def ate2 (K : GlsRom C) (P1 : Pt2 C) (Q1 : Ecp.Pt C) (R1 : Pt2 C) (S1 : Ecp.Pt C) : Option (Fp12 C) :=
  let k := K.pair
  let P := Ecp2.affine k P1
  let Q := Ecp.affine k.rom Q1
  let R := Ecp2.affine k R1
  let S := Ecp.affine k.rom S1
  if lbits K = 0 then none
  else
    let s := ate2Loop K P (Ecp2.neg k P) R (Ecp2.neg k R) Q.x Q.y S.x S.y (lbits K - 2) (P, R, Fp12.newInt k.rom.P 1)
    let r := if k.negx then Fp12.conj k.rom.P s.2.2 else s.2.2
    some (if K.bn then
      Fp12.ssmul k.rom.P k.mtype (Fp12.ssmul k.rom.P k.mtype r (fixup k P s.1 Q.x Q.y)) (fixup k R s.2.1 S.x S.y) else r)

/-- `initmp` (pair.rs:153-159); `ab` is `ATE_BITS` -/
def initmp (K : GlsRom C) (ab : Nat) : List (Fp12 C) := List.replicate ab (Fp12.newInt K.pair.rom.P 1)

/-- `r[i].ssmul(&lv)` (pair.rs:214, 233) -/
def mulAt (K : GlsRom C) (r : List (Fp12 C)) (i : Nat) (l : Fp12 C) : Option (List (Fp12 C)) :=
  r[i]?.map fun x => r.set i (Fp12.ssmul K.pair.rom.P K.pair.mtype x l)

/-- the rounds `i = k, …, 1` of `another` (pair.rs:178-234) -/
def anotherLoop (K : GlsRom C) (P NP : Pt2 C) (qx qy : Fp C) : Nat → Pt2 C × List (Fp12 C) → Option (Pt2 C × List (Fp12 C))
  | 0, s => some s
  | i + 1, s =>
    let t := lineStep K P NP qx qy s.1 (i + 1)
    (mulAt K s.2 (i + 1) t.2).bind fun r => anotherLoop K P NP qx qy i (t.1, r)

/-- `another` (pair.rs:178-234): the array `r` after the call -/
def another (K : GlsRom C) (r : List (Fp12 C)) (P1 : Pt2 C) (Q1 : Ecp.Pt C) : Option (List (Fp12 C)) :=
  let k := K.pair
  let P := Ecp2.affine k P1
  let Q := Ecp.affine k.rom Q1
  if lbits K = 0 then none
  else
    (anotherLoop K P (Ecp2.neg k P) Q.x Q.y (lbits K - 2) (P, r)).bind fun s =>
    if K.bn then mulAt K s.2 0 (fixup k P s.1 Q.x Q.y) else some s.2

/-- the rounds `i = k, …, 1` of `miller` (pair.rs:162-174) -/
def millerLoop (K : GlsRom C) (r : List (Fp12 C)) : Nat → Fp12 C → Option (Fp12 C)
  | 0, s => some s
  | i + 1, s => r[i + 1]?.bind fun x => millerLoop K r i (Fp12.ssmul K.pair.rom.P K.pair.mtype (Fp12.sqr K.pair.rom.P s) x)

/-- `miller` (pair.rs:162-174); `ab` is `ATE_BITS` -/
def miller (K : GlsRom C) (ab : Nat) (r : List (Fp12 C)) : Option (Fp12 C) :=
  let k := K.pair
  (millerLoop K r (ab - 1) (Fp12.newInt k.rom.P 1)).bind fun s =>
  let s := if k.negx then Fp12.conj k.rom.P s else s
  r[0]?.map fun x => Fp12.ssmul k.rom.P k.mtype s x

/-- a multi-pairing as its callers compute it (bls381/core.rs:398-427): `another` for each pair, then `miller` -/
def multi (K : GlsRom C) (ab : Nat) (l : List (Pt2 C × Ecp.Pt C)) : Option (Fp12 C) :=
  (l.foldlM (fun r x => another K r x.1 x.2) (initmp K ab)).bind (miller K ab)

end Verif.Ate
