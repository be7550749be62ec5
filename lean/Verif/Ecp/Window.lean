import Verif.Big.Model
/-
The scalar multiplication algorithms of `ecp.rs` (`mul`, `mul2`, `pinmul`), which `ecp2.rs`, `ecp4.rs`
and `ecp8.rs` repeat for points over extension fields, over an arbitrary type of points.
-/
namespace Verif.Ecp
open Verif.Big

variable {C : Nat}

/-- the point operations the algorithms use: `dbl`, `add`, `neg`, `cmove` (second argument if the flag is 1) -/
structure PtOps (X : Type) where
  dbl : X → X
  add : X → X → X
  neg : X → X
  cmove : X → X → Nat → X

variable {X : Type}

/-- `ECP::sub` (ecp.rs:949-953) -/
def PtOps.sub (o : PtOps X) (a q : X) : X := o.add a (o.neg q)

/-- `ECP::teq` (ecp.rs:245-249), `i32` arithmetic -/
def teq (b c : BitVec 32) : Nat := (((b ^^^ c) - 1).sshiftRight 31 &&& 1).toNat

/-- index and sign of `ECP::selector` (ecp.rs:270-273, 287): `babs` and `m & 1` -/
def selIndex (b : BitVec 32) : BitVec 32 × Nat :=
  let m := b.sshiftRight 31
  let babs := (b ^^^ m) - m
  ((babs - 1).sdiv 2, (m &&& 1).toNat)

/-- `ECP::selector` (ecp.rs:269-288) -/
def selector (o : PtOps X) (self : X) (W : List X) (b : BitVec 32) : X :=
  let r := selIndex b
  let s := (List.range 8).foldl (fun s i => o.cmove s (W.getD i s) (teq r.1 (BitVec.ofNat 32 i))) self
  o.cmove s (o.neg s) r.2

/-- table of `ECP::mul` (ecp.rs:1018-1025): `W[0] = P`, `W[i] = W[i-1] + Q` -/
def oddTable (o : PtOps X) (P Q : X) : List X :=
  (List.range 7).foldl (fun W i => W ++ [o.add (W.getD i P) Q]) [P]

/-- "make exponent odd" (ecp.rs:1027-1038, 1116-1139): the odd exponent and the parity `ns` -/
def makeOdd (b : Nat) (e : Limbs C) : Limbs C × Nat :=
  let s := parity e
  let t := norm b (inc b e 1)
  let ns := parity t
  let mt := norm b (inc b t 1)
  (Big.cmove t mt s, ns.toNat)

/-- one signed digit (ecp.rs:1044-1046 with `win = 4`, 1147-1154 with `win = 2`): the digit and the shifted exponent -/
def recodeStep (b win : Nat) (t : Limbs C) : Int × Limbs C :=
  let w := (lastbits b t (win + 1)).toInt - 2 ^ win
  (w, fshr b win (norm b (dec b t w)))

/-- `k` signed digits, least significant first, and the rest of the exponent -/
def recode (b win : Nat) : Nat → Limbs C → List Int × Limbs C
  | 0, t => ([], t)
  | k + 1, t =>
    let s := recodeStep b win t
    let r := recode b win k s.2
    (s.1 :: r.1, r.2)

/-- the window loop of `ECP::mul` (ecp.rs:1003-1060): table, recoding, four doublings and an addition per digit,
correction.  `n` is `NLEN`.  `none` is the panic when the digit array (of length `CT`) is too short. -/
def mulWin (o : PtOps X) (b n : Nat) (self : X) (e : Limbs C) : Option X :=
  let ct := 1 + (n * b + 3) / 4
  let Q := o.dbl self
  let W := oddTable o self Q
  let t := makeOdd b e
  let Q := o.cmove Q self t.2
  let nb := 1 + (nbits b t.1 + 3) / 4
  if ct ≤ nb then none
  else
    let r := recode b 4 nb t.1
    let wn := (lastbits b r.2 5).toNat
    let P := W.getD ((wn - 1) / 2) self
    let PQ := r.1.reverse.foldl
      (fun (s : X × X) w =>
        let Q := selector o s.2 W (BitVec.ofInt 32 w)
        (o.add (o.dbl (o.dbl (o.dbl (o.dbl s.1)))) Q, Q)) (P, Q)
    some (o.sub PQ.1 Q)

/-- table of `ECP::mul2` (ecp.rs:1087-1114): `±P ± Q`-combinations with coefficients 1 and 3 -/
def jointTable (o : PtOps X) (P Q S T : X) : List X :=
  let w1 := o.sub P Q
  let w2 := o.add P Q
  let w0 := o.sub w1 S
  let w3 := o.add w2 S
  let w5 := o.add w1 T
  let w6 := o.add w2 T
  let w4 := o.sub w5 S
  let w7 := o.add w6 S
  [w0, w1, w2, w3, w4, w5, w6, w7]

/-- digits of both exponents combined (ecp.rs:1145-1156): `4 a + b` -/
def recode2 (b : Nat) : Nat → Limbs C → Limbs C → List Int × Limbs C × Limbs C
  | 0, te, tf => ([], te, tf)
  | k + 1, te, tf =>
    let x := recodeStep b 2 te
    let y := recodeStep b 2 tf
    let r := recode2 b k x.2 y.2
    ((4 * x.1 + y.1) :: r.1, r.2)

/-- `ECP::mul2` (ecp.rs:1069-1169) without the final `affine`: `e * self + f * Q` -/
def mul2Win (o : PtOps X) (b n : Nat) (self : X) (e : Limbs C) (Q : X) (f : Limbs C) : Option X :=
  let ct := 1 + (n * b + 1) / 2
  let S := o.dbl Q
  let T := o.dbl self
  let W := jointTable o self Q S T
  let te := makeOdd b e
  let T := o.cmove T self te.2
  let tf := makeOdd b f
  let S := o.cmove S Q tf.2
  let Cc := o.add T S
  let mt := norm b (add te.1 tf.1)
  let nb := 1 + (nbits b mt + 1) / 2
  if ct ≤ nb then none
  else
    let r := recode2 b nb te.1 tf.1
    let wn := 4 * (lastbits b r.2.1 3).toNat + (lastbits b r.2.2 3).toNat
    let P := W.getD ((wn - 1) / 2) self
    let PT := r.1.reverse.foldl
      (fun (s : X × X) w =>
        let T := selector o s.2 W (BitVec.ofInt 32 w)
        (o.add (o.dbl (o.dbl s.1)) T, T)) (P, T)
    some (o.sub PT.1 Cc)

end Verif.Ecp
