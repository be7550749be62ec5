import Verif.Ecp.Model
import Verif.Ecp.Mul4
import Verif.Ecp2.Model
import Verif.Rom.Pair
/-
Model of the endomorphism-accelerated scalar multiplications of `src/pair.rs` (`glv`, `gs`, `g1mul`, `g2mul`) and of the subgroup checks of `src/bls381/core.rs`.
In every bundled ROM file `USE_GLV` and `USE_GS_G2` are true, so that the other branches are not modelled.  Results are `none` where the Rust code panics or does not
terminate; the loops of the integer division get `fuel`.  The pairing itself is in Ate/Model.lean and Gt/Model.lean.
-/
namespace Verif.Pair
open Verif.Big Verif.Fp Verif.Rom Verif.Ecp Verif.Tower

variable {C : Nat}

/-- the constants used by `glv` and `gs` (src/roms/rom_bn254_64.rs:94-190): the pairing type and the tables `CURVE_W`, `CURVE_SB`, `CURVE_WB`, `CURVE_BB` (all zero in
the files of the BLS curves) -/
structure GlsRom (C : Nat) where
  pair : PairRom C
  bn : Bool
  w : List (Limbs C)
  sb : List (List (Limbs C))
  wb : List (Limbs C)
  bb : List (List (Limbs C))

/-- inner loop of the BN branch of `glv` and `gs` (pair.rs:553-559, 589-595), for one index `i`: `v j` is `v[j]`, `t j` the entry `[j][i]` of the table -/
def coordinate (b f : Nat) (q : Limbs C) (dim : Nat) (v t : Nat → Limbs C) (u : Limbs C) : Option (Limbs C) :=
  (List.range dim).foldlM (fun u j => (modmul b f (v j) (t j) q).bind fun s => rmod b f (Big.sub (Big.add u q) s) q) u

/-- BN branch of `glv` and `gs` (pair.rs:541-560, 577-596), in dimension `dim`, with the tables `w` and `rows` -/
def decompose (K : GlsRom C) (w : List (Limbs C)) (rows : List (List (Limbs C))) (dim : Nat) (e : Limbs C) : Option (List (Limbs C)) :=
  let k := K.pair.rom
  let f := fuel k
  ((List.range dim).mapM fun i => ddiv k.P.b f (Big.mul k.P.b (w.getD i []) e) k.order).bind fun v =>
    (List.range dim).mapM fun i =>
      coordinate k.P.b f k.order dim (fun j => v.getD j []) (fun j => (rows.getD j []).getD i []) (if i = 0 then e else Big.zero C k.P.n)

/-- `glv` (pair.rs:538-571) -/
def glv (K : GlsRom C) (e : Limbs C) : Option (List (Limbs C)) :=
  let k := K.pair.rom
  let f := fuel k
  if K.bn then decompose K K.w K.sb 2 e
  else
    let x2 := smul k.P.b K.pair.bnx K.pair.bnx
    (rmod k.P.b f e x2).bind fun u0 =>
    (div k.P.b f e x2).bind fun u1 =>
    some [u0, Big.rsub u1 k.order]

/-- `gs` (pair.rs:575-612) -/
def gs (K : GlsRom C) (e : Limbs C) : Option (List (Limbs C)) :=
  let k := K.pair.rom
  let f := fuel k
  if K.bn then decompose K K.wb K.bb 4 e
  else
    (rmod k.P.b f e K.pair.bnx).bind fun u0 =>
    (div k.P.b f e K.pair.bnx).bind fun w1 =>
    (rmod k.P.b f w1 K.pair.bnx).bind fun u1 =>
    (div k.P.b f w1 K.pair.bnx).bind fun w2 =>
    (rmod k.P.b f w2 K.pair.bnx).bind fun u2 =>
    (div k.P.b f w2 K.pair.bnx).bind fun u3 =>
    if K.pair.negx then
      (modneg k.P.b f u1 k.order).bind fun u1 =>
      (modneg k.P.b f u3 k.order).bind fun u3 =>
      some [u0, u1, u2, u3]
    else some [u0, u1, u2, u3]

/-- the shorter of a scalar and its negation (pair.rs:626-632, 634-640, 669-676), normalised, and whether it was negated -/
def shorter (K : GlsRom C) (u : Limbs C) : Option (Limbs C × Bool) :=
  let k := K.pair.rom
  (modneg k.P.b (fuel k) u k.order).bind fun t =>
  if nbits k.P.b t < nbits k.P.b u then some (Big.norm k.P.b t, true) else some (Big.norm k.P.b u, false)

/-- `ECP::mulx` (ecp.rs:264-266) -/
def mulx (K : Rom C) (s : Pt C) (c : Fp C) : Pt C := { s with x := Fp.mul K.P s.x c }

/-- `g1mul` (pair.rs:616-647) -/
def g1mul (K : GlsRom C) (P : Pt C) (e : Limbs C) : Option (Pt C) :=
  let k := K.pair.rom
  let Q := mulx k (Ecp.affine k P) (newBig k.P K.pair.cru)
  (glv K e).bind fun u =>
  (u.mapM (shorter K)).bind fun
    | [u0, u1] => Ecp.mul2 k (if u0.2 then Ecp.neg k P else P) u0.1 (if u1.2 then Ecp.neg k Q else Q) u1.1
    | _ => none

/-- the constant with which `g2mul` calls `frob` (pair.rs:653-660) -/
def frobC (K : PairRom C) : Fp2 C :=
  let f := Fp2.newBigs K.rom.P K.fra K.frb
  if K.mtype then Fp2.norm K.rom.P (Fp2.inverse K.rom.P f) else f

/-- `g2mul` (pair.rs:651-683); `mul4` ends with `affine` (ecp2.rs:684) -/
def g2mul (K : GlsRom C) (P : Ecp2.Pt2 C) (e : Limbs C) : Option (Ecp2.Pt2 C) :=
  let k := K.pair
  let f := frobC k
  let Q1 := Ecp2.frob k P f
  let Q2 := Ecp2.frob k Q1 f
  let Q3 := Ecp2.frob k Q2 f
  (gs K e).bind fun u =>
  (u.mapM (shorter K)).bind fun
    | [u0, u1, u2, u3] =>
      let sel (u : Limbs C × Bool) (Q : Ecp2.Pt2 C) := if u.2 then Ecp2.neg k Q else Q
      (mul4Win (Ecp2.ptOps k) k.rom.P.b k.rom.P.n (Ecp2.new k) (sel u0 P) (sel u1 Q1) (sel u2 Q2) (sel u3 Q3) u0.1 u1.1 u2.1 u3.1).map (Ecp2.affine k)
    | _ => none

/-- `subgroup_check_g1` (bls381/core.rs:106-110) -/
def subgroupCheckG1 (K : GlsRom C) (P : Pt C) : Option Bool := (g1mul K P K.pair.rom.order).map (Ecp.isInfinity K.pair.rom)

/-- `subgroup_check_g2` (bls381/core.rs:113-117) -/
def subgroupCheckG2 (K : GlsRom C) (P : Ecp2.Pt2 C) : Option Bool := (g2mul K P K.pair.rom.order).map (Ecp2.isInfinity K.pair)

/-- `ECP2::clear_cofactor` (ecp2.rs:710-758), for the two families of pairing-friendly curves -/
def clearCofactor (K : GlsRom C) (s : Ecp2.Pt2 C) : Option (Ecp2.Pt2 C) :=
  let k := K.pair
  let X := frobC k
  if K.bn then
    (Ecp2.mul k s k.bnx).map fun T =>
      let T := if k.negx then Ecp2.neg k T else T
      let L := Ecp2.frob k (Ecp2.add k (Ecp2.dbl k T) T) X
      let s := Ecp2.frob k (Ecp2.frob k (Ecp2.frob k s X) X) X
      let s := Ecp2.add k (Ecp2.add k s T) L
      Ecp2.affine k (Ecp2.add k s (Ecp2.frob k (Ecp2.frob k T X) X))
  else
    (Ecp2.mul k s k.bnx).bind fun xQ =>
    (Ecp2.mul k xQ k.bnx).map fun x2Q =>
      let xQ := if k.negx then Ecp2.neg k xQ else xQ
      let x2Q := Ecp2.sub k (Ecp2.sub k x2Q xQ) s
      let xQ := Ecp2.frob k (Ecp2.sub k xQ s) X
      let s := Ecp2.frob k (Ecp2.frob k (Ecp2.dbl k s) X) X
      Ecp2.affine k (Ecp2.add k (Ecp2.add k s x2Q) xQ)

end Verif.Pair
