import Verif.Bls.Scheme
import Verif.Bls.ModelH2c
import Verif.Bls.ModelG2
/-
The signature schemes over the point code of BLS12-381; the pairing test stays a parameter.
-/
namespace Verif.Bls
open Verif.Big Verif.Rom Verif.H2c Verif.Ecp Verif.Ecp2 Verif.Pair

variable {C : Nat}

/-- the operations of the schemes on G1: `ECP`, `g1mul` (pair.rs:616-648), `serialize_g1`/`deserialize_g1` and `subgroup_check_g1` (core.rs:106-110, 218-309) -/
def sideG1 (K : GlsRom C) : Side C (Pt C) where
  gen := Ecp.generator K.pair.rom
  neg := Ecp.neg K.pair.rom
  add := Ecp.add K.pair.rom
  mul := g1mul K
  ser := serializeG1 K.pair.rom
  deser := deserializeG1 K.pair.rom
  sub := subgroupCheckG1 K
  frombytes := Ecp.frombytes K.pair.rom

/-- the operations of the schemes on G2: `ECP2`, `g2mul` (pair.rs:651-683), `serialize_g2`/`deserialize_g2` and `subgroup_check_g2` (core.rs:113-117, 312-480) -/
def sideG2 (K : GlsRom C) : Side C (Pt2 C) where
  gen := Ecp2.generator K.pair
  neg := Ecp2.neg K.pair
  add := Ecp2.add K.pair
  mul := g2mul K
  ser := serializeG2 K.pair
  deser := deserializeG2 K.pair
  sub := subgroupCheckG2 K
  frombytes := Ecp2.frombytes K.pair

/-- keys in G1, signatures in G2 (core.rs:485-634) -/
def backendSigG2 (K : GlsRom C) (check : List (Pt C × Pt2 C) → Option Bool) : Backend C (Pt C) (Pt2 C) where
  pk := sideG1 K
  sg := sideG2 K
  hash := hashToCurveG2 K
  check := check

/-- keys in G2, signatures in G1 (core.rs:637-790) -/
def backendSigG1 (K : GlsRom C) (check : List (Pt2 C × Pt C) → Option Bool) : Backend C (Pt2 C) (Pt C) where
  pk := sideG2 K
  sg := sideG1 K
  hash := hashToCurveG1 K.pair.rom
  check := check

end Verif.Bls
