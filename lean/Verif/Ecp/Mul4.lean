import Verif.Ecp.Window
/-
The four-dimensional scalar multiplication of `ecp2.rs` (`mul4`), over an arbitrary type of points.
-/
namespace Verif.Ecp
open Verif.Big

variable {C : Nat} {X : Type}

/-- table of `ECP2::mul4` (ecp2.rs:616-637): `Q0` plus the sums of the subsets of `Q1`, `Q2`, `Q3` -/
def table4 (o : PtOps X) (q0 q1 q2 q3 : X) : List X :=
  let t0 := q0
  let t1 := o.add t0 q1
  let t2 := o.add t0 q2
  let t3 := o.add t1 q2
  let t4 := o.add t0 q3
  let t5 := o.add t1 q3
  let t6 := o.add t2 q3
  let t7 := o.add t3 q3
  [t0, t1, t2, t3, t4, t5, t6, t7]

/-- sign pivot (ecp2.rs:654-658): the signs `s[0], …, s[k]`, the last one is `1` -/
def signs (b : Nat) : Nat → Limbs C → List Int
  | 0, _ => [1]
  | k + 1, t =>
    let t := fshr b 1 t
    (2 * parity t - 1) :: signs b k t

/-- one step of the recoding of a scalar (ecp2.rs:665-668): the digit `bt` and the rest of the scalar; `bt >> 1` rounds down -/
def digit4 (b : Nat) (s : Int) (t : Limbs C) : Int × Limbs C :=
  let bt := s * parity t
  (bt, norm b (dec b (fshr b 1 t) (bt / 2)))

/-- recoding of the last three scalars (ecp2.rs:661-672), with the digit `2 w[i] + s[i]` passed to `selector` (ecp2.rs:675, 678; the last sign is `1`) -/
def recode4 (b : Nat) : List Int → Limbs C → Limbs C → Limbs C → List Int
  | [], _, _, _ => []
  | s :: ss, t1, t2, t3 =>
    let d1 := digit4 b s t1
    let d2 := digit4 b s t2
    let d3 := digit4 b s t3
    (2 * (d1.1 + 2 * d2.1 + 4 * d3.1) + s) :: recode4 b ss d1.2 d2.2 d3.2

/-- `ECP2::mul4` (ecp2.rs:589-687) without the final `affine`; `inf` is `ECP2::new()`, `n` is `NLEN`. `none` is the panic when the digit array (of length
`CT`) is too short. -/
def mul4Win (o : PtOps X) (b n : Nat) (inf q0 q1 q2 q3 : X) (u0 u1 u2 u3 : Limbs C) : Option X :=
  let ct := 1 + n * b
  let T := table4 o q0 q1 q2 q3
  let t0 := norm b u0
  let t1 := norm b u1
  let t2 := norm b u2
  let t3 := norm b u3
  let pb := 1 - parity t0
  let t0 := norm b (inc b t0 pb)
  let mt := Big.or (Big.or (Big.or (Big.or (zero C n) t0) t1) t2) t3
  let nb := 1 + nbits b mt
  if ct < nb then none
  else
    match (recode4 b (signs b (nb - 1) t0) t1 t2 t3).reverse with
    | [] => none
    | d :: ds =>
      let P := selector o inf T (BitVec.ofInt 32 d)
      let PW := ds.foldl
        (fun (s : X × X) w =>
          let W := selector o s.2 T (BitVec.ofInt 32 w)
          (o.add (o.dbl s.1) W, W)) (P, T.getD 3 inf)
      some (o.cmove PW.1 (o.sub PW.1 q0) pb.toNat)

end Verif.Ecp
