import Verif.Bilin.Nat12
/-
The Miller loop of the generators on tuples of residues, and the check that their pairing is not one.
-/
namespace Verif.Ate
open Verif.Big Verif.Fp Verif.Rom Verif.Curve Verif.Tower Verif.Ecp Verif.Ecp2 Verif.Pair Verif.Gt Spec WeierstrassCurve

def forceT {α : Type} (x : Tri) (k : Tri → α) : α :=
  match x with
  | (a, b, c) => force2 a fun a => force2 b fun b => force2 c fun c => k (a, b, c)

theorem forceT_eq {α : Type} (x : Tri) (k : Tri → α) : forceT x k = k x := by
  obtain ⟨a, b, c⟩ := x
  simp only [forceT, force2_eq]

def lineN (mt : Bool) (u v w : N2) : N12 := if mt then ((u, v), ((0, 0), (0, 0)), ((0, 0), w)) else ((u, v), (w, (0, 0)), ((0, 0), (0, 0)))

/-- the tangent -/
def dblN (p : Nat) (mt : Bool) (b3 : N2) (A : Tri) (x y : Nat) : N12 :=
  let yz := mulN2 p A.2.1 A.2.2
  let m := subP p (0, 0) (mulN2 p (mulN2 p (4, 0) yz) (y, 0))
  lineN mt (if mt then xiP p m else m) (subP p (mulN2 p (2, 0) (mulN2 p b3 (mulN2 p A.2.2 A.2.2))) (mulN2 p (2, 0) (mulN2 p A.2.1 A.2.1)))
    (mulN2 p (mulN2 p (6, 0) (mulN2 p A.1 A.1)) (x, 0))

/-- the line through two points -/
def addN (p : Nat) (mt : Bool) (A B : Tri) (x y : Nat) : N12 :=
  force2 (subP p (mulN2 p A.1 B.2.2) (mulN2 p A.2.2 B.1)) fun a => force2 (subP p (mulN2 p A.2.1 B.2.2) (mulN2 p A.2.2 B.2.1)) fun b =>
  let m := mulN2 p (mulN2 p a B.2.2) (y, 0)
  lineN mt (if mt then xiP p m else m) (subP p (mulN2 p b B.1) (mulN2 p a B.2.1)) (subP p (0, 0) (mulN2 p (mulN2 p b B.2.2) (x, 0)))

/-- Miller's algorithm -/
def millN (p : Nat) (mt : Bool) (b3 : N2) (P NP : Tri) (x y : Nat) : List Int → Tri → N12 → Tri × N12
  | [], T, f => (T, f)
  | d :: ds, T, f =>
    force12 (mul12 p (mul12 p f f) (dblN p mt b3 T x y)) fun f => forceT (addT p b3 T T) fun T =>
      if d = 0 then millN p mt b3 P NP x y ds T f else
        let Q := if d = 1 then P else NP
        force12 (mul12 p f (addN p mt T Q x y)) fun f => forceT (addT p b3 T Q) fun T => millN p mt b3 P NP x y ds T f

def neg2 (p : Nat) (x : N2) : N2 := subP p (0, 0) x
def negT (p : Nat) (T : Tri) : Tri := (T.1, neg2 p T.2.1, T.2.2)
def conjN12 (p : Nat) (v : N12) : N12 := ((v.1.1, neg2 p v.1.2), (neg2 p v.2.1.1, v.2.1.2), (v.2.2.1, neg2 p v.2.2.2))

/-- the value of the Miller loop, up to factors the final exponentiation removes -/
def ateNum (p r : Nat) (mt bn ng : Bool) (b3 gx gy : N2) (x y : Nat) (ds : List Int) : N12 :=
  let P : Tri := (gx, gy, (1, 0))
  let s := millN p mt b3 P (negT p P) x y ds P one12
  let f := if ng then conjN12 p s.2 else s.2
  if bn then
    forceT (if ng then negT p s.1 else s.1) fun A => forceT (mulT p b3 P ((p % r).log2 + 1) (p % r)) fun B =>
      let e := r - p * p % r
      forceT (mulT p b3 P (e.log2 + 1) e) fun D => mul12 p f (mul12 p (addN p mt A B x y) (addN p mt (addT p b3 A B) D x y))
  else f

/-- the part of the exponent that is computed -/
def ndE (p r : Nat) (bn : Bool) : Nat := (p ^ 2 + 1) * ((if bn then 1 else 3) * ((p ^ 4 - p ^ 2 + 1) / r))

/-- its two factors -/
def ndE1 (p : Nat) : Nat := p ^ 2 + 1
def ndE2 (p r : Nat) (bn : Bool) : Nat := (if bn then 1 else 3) * ((p ^ 4 - p ^ 2 + 1) / r)

/-- the numbers of a ROM file the check needs -/
structure NdIn where
  p : Nat
  r : Nat
  mt : Bool
  bn : Bool
  ng : Bool
  b3 : N2
  gx : N2
  gy : N2
  x : Nat
  y : Nat
  ds : List Int
deriving DecidableEq

def ndIn {C : Nat} (K : GlsRom C) : NdIn :=
  { p := K.pair.rom.p, r := rN K.pair, mt := K.pair.mtype, bn := K.bn, ng := K.pair.negx, b3 := b3N K.pair, gx := (nv K.pair.rom.P.b K.pair.pxa, nv K.pair.rom.P.b K.pair.pxb),
    gy := (nv K.pair.rom.P.b K.pair.pya, nv K.pair.rom.P.b K.pair.pyb), x := nv K.pair.rom.P.b K.pair.rom.gx, y := nv K.pair.rom.P.b K.pair.rom.gy, ds := digs K (lbits K - 2) }

def ndC (k : NdIn) : Bool :=
  force12 (ateNum k.p k.r k.mt k.bn k.ng k.b3 k.gx k.gy k.x k.y k.ds) fun v =>
  force12 (pow12 k.p v ((ndE1 k.p).log2 + 1) (ndE1 k.p)) fun v =>
  force12 (pow12 k.p v ((ndE2 k.p k.r k.bn).log2 + 1) (ndE2 k.p k.r k.bn)) fun w =>
  decide (¬(w.1.2.1 % k.p = 0 ∧ w.1.2.2 % k.p = 0))

/-- the pairing of the generators, by computation, is not one -/
def ndB {C : Nat} (K : GlsRom C) : Bool := ndC (ndIn K)
end Verif.Ate
