import Verif.Bls.Model
import Verif.Ecp2.Model
/- Model of the G2 encodings of `src/bls381/core.rs`. -/
namespace Verif.Bls
open Verif.Big Verif.Fp Verif.Rom Verif.Ecp2 Verif.Tower Verif.H2c
open Spec (Byte)

variable {C : Nat}

/-- `zcash_cmp_fp2` (core.rs:121-130) -/
def zcashCmpFp2 (P : Params C) (x y : Fp2 C) : Int :=
  let result := Big.comp (Fp2.getb P x) (Fp2.getb P y)
  if result = 0 then Big.comp (Fp2.geta P x) (Fp2.geta P y) else result

/-- `serialize_g2` (core.rs:302-329) -/
def serializeG2 (K : PairRom C) (s : Pt2 C) : List Byte :=
  let P := K.rom.P
  let mb := K.rom.modbytes
  if Ecp2.isInfinity K s then (List.replicate (2 * mb) (0 : Byte)).set 0 0xC0
  else
    let x := Ecp2.getx K s
    let result := toBytes P.b mb (Fp2.getb P x) ++ toBytes P.b mb (Fp2.geta P x)
    let y := Ecp2.gety K s
    let yNeg := Fp2.neg P y
    let result := if zcashCmpFp2 P y yNeg > 0 then addFirst result 0x20 else result
    addFirst result 0x80

/-- `serialize_uncompressed_g2` (core.rs:334-354) -/
def serializeUncompressedG2 (K : PairRom C) (s : Pt2 C) : List Byte :=
  let P := K.rom.P
  let mb := K.rom.modbytes
  if Ecp2.isInfinity K s then (List.replicate (4 * mb) (0 : Byte)).set 0 0x40
  else
    let x := Ecp2.getx K s
    let y := Ecp2.gety K s
    toBytes P.b mb (Fp2.getb P x) ++ toBytes P.b mb (Fp2.geta P x) ++ (toBytes P.b mb (Fp2.getb P y) ++ toBytes P.b mb (Fp2.geta P y))

/-- the handling of the infinity flag common to the two decoders (core.rs:377-391, 432-446) -/
def infinityBytes2 (K : PairRom C) (bs : List Byte) : Except Err (Pt2 C) :=
  if bs.headD 0 &&& 0x3f ≠ 0 then .error .invalidPoint
  else if (bs.drop 1).any (· != 0) then .error .invalidPoint
  else .ok (Ecp2.new K)

/-- `deserialize_compressed_g2` (core.rs:372-424) -/
def deserializeCompressedG2 (K : PairRom C) (bs : List Byte) : Except Err (Pt2 C) :=
  let P := K.rom.P
  let mb := K.rom.modbytes
  if bs.length ≠ 2 * mb then .error .invalidG2Size
  else if bs.headD 0 &&& 0x40 ≠ 0 then infinityBytes2 K bs
  else
    let yFlag : Bool := bs.headD 0 &&& 0x20 > 0
    let bs := bs.set 0 (bs.headD 0 &&& 0x1f)
    let xi := fromBytes P.b P.n mb (bs.take mb)
    let xr := fromBytes P.b P.n mb (bs.drop mb)
    if Big.comp xi P.md ≥ 0 ∨ Big.comp xr P.md ≥ 0 then .error .invalidPoint
    else
      let point := newFp2 K (Fp2.newBigs P xr xi)
      if Ecp2.isInfinity K point then .error .invalidPoint
      else
        let pointNeg := Ecp2.neg K point
        if decide (zcashCmpFp2 P (Ecp2.gety K point) (Ecp2.gety K pointNeg) > 0) ≠ yFlag then .ok pointNeg else .ok point

/-- `deserialize_uncompressed_g2` (core.rs:427-476) -/
def deserializeUncompressedG2 (K : PairRom C) (bs : List Byte) : Except Err (Pt2 C) :=
  let P := K.rom.P
  let mb := K.rom.modbytes
  if bs.length ≠ 4 * mb then .error .invalidG2Size
  else if bs.headD 0 &&& 0x40 ≠ 0 then infinityBytes2 K bs
  else if bs.headD 0 &&& 0x20 > 0 then .error .invalidYFlag
  else
    let bs := bs.set 0 (bs.headD 0 &&& 0x1f)
    let xi := fromBytes P.b P.n mb (bs.take mb)
    let xr := fromBytes P.b P.n mb ((bs.drop mb).take mb)
    let yi := fromBytes P.b P.n mb ((bs.drop (2 * mb)).take mb)
    let yr := fromBytes P.b P.n mb (bs.drop (3 * mb))
    if Big.comp xi P.md ≥ 0 ∨ Big.comp xr P.md ≥ 0 ∨ Big.comp yi P.md ≥ 0 ∨ Big.comp yr P.md ≥ 0 then .error .invalidPoint
    else
      let point := newFp2s K (Fp2.newBigs P xr xi) (Fp2.newBigs P yr yi)
      if Ecp2.isInfinity K point then .error .invalidPoint else .ok point

/-- `deserialize_g2` (core.rs:359-369) -/
def deserializeG2 (K : PairRom C) (bs : List Byte) : Except Err (Pt2 C) :=
  if bs.length = 0 then .error .invalidG2Size
  else if bs.headD 0 &&& 0x80 = 0 then deserializeUncompressedG2 K bs
  else deserializeCompressedG2 K bs

end Verif.Bls
