import Verif.Bls.Model
import Verif.Bls.IsoConst
import Verif.Pair.Model
/-
Model of the maps to the curve: `hash_to_curve.rs` (simplified SWU), `bls381/iso.rs` and `hash_to_curve_g1`, `hash_to_curve_g2` of `bls381/core.rs`.
A result `none` is a panic (a failed assertion).
-/
namespace Verif.Bls
open Verif.Big Verif.Fp Verif.Rom Verif.Ecp Verif.Ecp2 Verif.Tower Verif.Pair Verif.H2c
open Spec (Byte beBytes)

variable {C : Nat}

/-- `FP::new_big(Big::frombytes(&hex::decode(..)))` for 48 bytes of text: the constants of iso.rs and of the ROM file -/
def cst (K : Rom C) (v : Nat) : Fp C := newBig K.P (fromBytes K.P.b K.P.n K.modbytes (beBytes K.modbytes v))

/-- `FP2::new_bigs` of two such numbers (`Big::new()` and `Big::new_int(k)` in the source give the same limbs) -/
def cst2 (K : Rom C) (v : Nat × Nat) : Fp2 C := ⟨cst K v.1, cst K v.2⟩

/-- `SSWU_A1`, `SSWU_B1`, `SSWU_Z1` (rom_bls381_64.rs:184-186) -/
structure Sswu1 (C : Nat) where
  A : Fp C
  B : Fp C
  Z : Fp C

def sswu1 (K : Rom C) : Sswu1 C := ⟨cst K sswuA1, cst K sswuB1, Fp.newInt K.P 11⟩

/-- `gx = x^3 + A * x + B` (hash_to_curve.rs:217-222, 235-240) -/
def gxFp (P : Params C) (S : Sswu1 C) (x : Fp C) : Fp C := Fp.add P (Fp.mul P (Fp.add P (Fp.sqr P x) S.A) x) S.B

/-- end of `simplified_swu_fp` (hash_to_curve.rs:249-254) -/
def finFp (P : Params C) (u x y : Fp C) : Fp C × Fp C := (x, if Fp.sgn0 P u ≠ Fp.sgn0 P y then Fp.neg P y else y)

/-- the first abscissa (hash_to_curve.rs:191-214), with `tmp1 = Z u^2` -/
def x1Fp (P : Params C) (S : Sswu1 C) (tmp1 : Fp C) : Fp C :=
  let tv1 := Fp.inverse P (Fp.add P (Fp.sqr P tmp1) tmp1)
  let x := Fp.neg P (Fp.mul P (Fp.add P tv1 (Fp.newInt P 1)) S.B)
  let ainv := Fp.inverse P S.A
  let x := Fp.mul P x ainv
  if Fp.iszilch P tv1 then Fp.mul P (Fp.mul P (Fp.inverse P S.Z) S.B) ainv else x

/-- `simplified_swu_fp` (hash_to_curve.rs:188-255) -/
def sswuFp (P : Params C) (S : Sswu1 C) (u : Fp C) : Option (Fp C × Fp C) :=
  let tmp1 := Fp.mul P (Fp.sqr P u) S.Z
  let x := x1Fp P S tmp1
  let gx := gxFp P S x
  let y := Fp.sqrt P gx
  if Fp.equals P gx (Fp.sqr P y) then some (finFp P u x y)
  else
    let x := Fp.mul P x tmp1
    let gx := gxFp P S x
    let y := Fp.sqrt P gx
    -- `sqrt` reduces its operand in place
    if Fp.equals P (Fp.reduce P gx) (Fp.sqr P y) then some (finFp P u x y) else none

/-- `SSWU_A2`, `SSWU_B2`, `SSWU_Z2` (rom_bls381_64.rs:189-191) -/
structure Sswu2 (C : Nat) where
  A : Fp2 C
  B : Fp2 C
  Z : Fp2 C

def sswu2 (K : Rom C) : Sswu2 C := ⟨Fp2.newInts K.P 0 240, Fp2.newInts K.P 1012 1012, Fp2.newInts K.P (-2) (-1)⟩

/-- `gx = x^3 + A * x + B` (hash_to_curve.rs:289-294, 302-307) -/
def gxFp2 (P : Params C) (S : Sswu2 C) (x : Fp2 C) : Fp2 C := Fp2.add P (Fp2.mul P (Fp2.add P (Fp2.sqr P x) S.A) x) S.B

/-- the first abscissa (hash_to_curve.rs:267-290) -/
def x1Fp2 (P : Params C) (S : Sswu2 C) (tmp1 : Fp2 C) : Fp2 C :=
  let tv1 := Fp2.inverse P (Fp2.add P (Fp2.sqr P tmp1) tmp1)
  let x := Fp2.neg P (Fp2.mul P (Fp2.add P tv1 (Fp2.newInts P 1 0)) S.B)
  let ainv := Fp2.inverse P S.A
  let x := Fp2.mul P x ainv
  if Fp2.iszilch P tv1 then Fp2.mul P (Fp2.mul P (Fp2.inverse P S.Z) S.B) ainv else x

/-- end of `simplified_swu_fp2` (hash_to_curve.rs:315-320) -/
def finFp2 (P : Params C) (u x y : Fp2 C) : Fp2 C × Fp2 C := (x, if Fp2.sgn0 P u ≠ Fp2.sgn0 P y then Fp2.neg P y else y)

/-- `simplified_swu_fp2` (hash_to_curve.rs:260-321) -/
def sswuFp2 (P : Params C) (S : Sswu2 C) (u : Fp2 C) : Option (Fp2 C × Fp2 C) :=
  let tmp1 := Fp2.mul P (Fp2.sqr P u) S.Z
  let x := x1Fp2 P S tmp1
  let y := Fp2.sqrt P (gxFp2 P S x)
  if y.2 then some (finFp2 P u x y.1)
  else
    let x := Fp2.mul P x tmp1
    let y := Fp2.sqrt P (gxFp2 P S x)
    if y.2 then some (finFp2 P u x y.1) else none

/-- Horner's rule of iso.rs:279-285 and 314-320, with the coefficients from the lowest to the highest -/
def horner {E : Type} (add mul : E → E → E) (x : E) : List E → Option E
  | [] => none
  | [c] => some c
  | c :: t => (horner add mul x t).map fun a => add (mul a x) c

/-- `iso11_to_ecp` (iso.rs:271-300) -/
def iso11 (K : Rom C) (x y : Fp C) : Option (Pt C) := do
  let ev := fun l : List Nat => horner (Fp.add K.P) (Fp.mul K.P) x (l.map (cst K))
  let xn ← ev iso11Xnum
  let xd ← ev iso11Xden
  let yn ← ev iso11Ynum
  let yd ← ev iso11Yden
  let yn := Fp.mul K.P yn y
  pure ⟨Fp.mul K.P xn yd, Fp.mul K.P yn xd, Fp.mul K.P xd yd⟩

/-- `iso3_to_ecp2` (iso.rs:306-335) -/
def iso3 (K : Rom C) (x y : Fp2 C) : Option (Pt2 C) := do
  let ev := fun l : List (Nat × Nat) => horner (Fp2.add K.P) (Fp2.mul K.P) x (l.map (cst2 K))
  let xn ← ev iso3Xnum
  let xd ← ev iso3Xden
  let yn ← ev iso3Ynum
  let yd ← ev iso3Yden
  let yn := Fp2.mul K.P yn y
  pure ⟨Fp2.mul K.P xn yd, Fp2.mul K.P yn xd, Fp2.mul K.P xd yd⟩

/-- `map_to_curve_g1` (core.rs:808-811) -/
def mapToCurveG1 (K : Rom C) (u : Fp C) : Option (Pt C) := (sswuFp K.P (sswu1 K) u).bind fun q => iso11 K q.1 q.2

/-- `map_to_curve_g2` (core.rs:836-839) -/
def mapToCurveG2 (K : Rom C) (u : Fp2 C) : Option (Pt2 C) := (sswuFp2 K.P (sswu2 K) u).bind fun q => iso3 K q.1 q.2

/-- `H_EFF_G1` (rom_bls381_64.rs:181) -/
def hEffG1 (K : Rom C) : Limbs C := fromBytes K.P.b K.P.n K.modbytes (beBytes 8 0xd201000000010001)

/-- `hash_to_field_fp2` (hash_to_curve.rs:92-112) -/
def hashToFieldFp2 (K : Rom C) (msg : List Byte) (count : Nat) (dst : List Byte) : Option (Except Err (List (Fp2 C))) := do
  let r ← expandMessageXmd .sha256 msg (count * 2 * h2cL) dst
  match r with
  | .error e => pure (.error e)
  | .ok bytes =>
    let elem := fun k : Nat => if bytes.length < h2cL * k + h2cL then none else fieldElem K ((bytes.drop (h2cL * k)).take h2cL)
    let u ← (List.range count).mapM fun i => do
      let a ← elem (0 + i * 2)
      let b ← elem (1 + i * 2)
      pure (⟨a, b⟩ : Fp2 C)
    pure (.ok u)

/-- The common shape of `hash_to_curve_g1` and `hash_to_curve_g2` (core.rs:793-801, 821-830): hash to two field elements (`unwrap`: an error is a panic), map
both to the curve, add, clear the cofactor (`fin`). -/
def hashPair {U Q : Type} (r : Option (Except Err (List U))) (map : U → Option Q) (fin : Q → Q → Option Q) : Option Q := do
  match ← r with
  | .error _ => none
  | .ok u => do
    let u0 ← u[0]?
    let u1 ← u[1]?
    let q0 ← map u0
    let q1 ← map u1
    fin q0 q1

/-- `hash_to_curve_g1` (core.rs:793-801) -/
def hashToCurveG1 (K : Rom C) (msg dst : List Byte) : Option (Pt C) :=
  hashPair (hashToFieldFp K msg 2 dst) (mapToCurveG1 K) fun q0 q1 => Ecp.mul K (Ecp.add K q0 q1) (hEffG1 K)

/-- `hash_to_curve_g2` (core.rs:821-830) -/
def hashToCurveG2 (K : GlsRom C) (msg dst : List Byte) : Option (Pt2 C) :=
  hashPair (hashToFieldFp2 K.pair.rom msg 2 dst) (mapToCurveG2 K.pair.rom) fun q0 q1 => clearCofactor K (Ecp2.add K.pair q0 q1)

end Verif.Bls
