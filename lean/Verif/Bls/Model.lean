import Verif.Bls.Expand
import Verif.Ecp.Model
/-
Model of the key and G1 parts of `src/bls381/core.rs` and of `hash_to_field_fp` (`src/hash_to_curve.rs`).
`K` is the ROM file (`rom_bls381_64.rs` or `rom_bls381_32.rs`).  The outer `none` is a panic, or a loop that needs
more iterations than the fuel.
-/
namespace Verif.Bls
open Verif.Big Verif.Fp Verif.Rom Verif.Ecp Verif.H2c
open Spec (Byte)

variable {C : Nat}

/-- `KEY_SALT` (core.rs:36): the bytes of `BLS-SIG-KEYGEN-SALT-` -/
def keySalt : List Byte :=
  [0x42, 0x4c, 0x53, 0x2d, 0x53, 0x49, 0x47, 0x2d, 0x4b, 0x45, 0x59, 0x47, 0x45, 0x4e, 0x2d, 0x53, 0x41, 0x4c, 0x54, 0x2d]

/-- `KEY_GENERATION_L` (core.rs:38) -/
def keyL : Byte := 48

/-- `SECRET_KEY_BYTES` (core.rs:42) -/
abbrev skBytes : Nat := 32

/-- `secret_key_to_bytes` (core.rs:97-103): the last 32 of the `MODBYTES` bytes; `MODBYTES - 32` underflows
(panic) when `MODBYTES < 32` -/
def secretKeyToBytes (K : Rom C) (sk : Limbs C) : Option (List Byte) :=
  if K.modbytes < skBytes then none
  else some ((toBytes K.P.b K.modbytes sk).drop (K.modbytes - skBytes))

/-- `secret_key_from_bytes` (core.rs:78-94) -/
def secretKeyFromBytes (K : Rom C) (bs : List Byte) : Option (Except Err (Limbs C)) :=
  if bs.length ≠ skBytes then some (.error .invalidSecretKeySize)
  else if K.modbytes < skBytes then none
  else
    let buf := List.replicate (K.modbytes - skBytes) 0 ++ bs
    let sk := fromBytes K.P.b K.P.n K.modbytes buf
    if Big.comp sk K.order ≥ 0 then some (.error .invalidSecretKeyRange)
    else some (.ok sk)

/-- `key_generate` (core.rs:57-75) -/
def keyGenerate (K : Rom C) (ikm keyInfo : List Byte) : Option (List Byte) := do
  let prk := Sha2.hkdfExtract Sha2.P256 keySalt (ikm ++ [0])
  let okm := Sha2.hkdfExtend Sha2.P256 prk (keyInfo ++ [0, keyL]) keyL
  let sk ← rmod K.P.b (Ecp.fuel K) (fromBytes K.P.b K.P.n K.modbytes okm) K.order
  secretKeyToBytes K sk

/-! ### hash to field -/

/-- `H2C_L` (rom_bls381_64.rs:177, rom_bls381_32.rs:123) -/
abbrev h2cL : Nat := 64

/-- `DBig::frombytes` (dbig.rs:280-296) -/
def dFromBytes (K : Rom C) (bs : List Byte) : Limbs C :=
  (bs.take (2 * K.modbytes)).foldl
    (fun m x => let m := Big.shl K.P.b 8 m; m.set 0 (at' m 0 + (x &&& 0xff#8).setWidth C)) (zero C (2 * K.P.n))

/-- one field element of `hash_to_field_fp` (hash_to_curve.rs:70-86): `DBig::frombytes`, `dmod`, `FP::new_big` -/
def fieldElem (K : Rom C) (bs : List Byte) : Option (Fp C) := do
  let e ← dmod K.P.b (2 * Ecp.fuel K) (dFromBytes K bs) K.P.md
  pure (newBig K.P e)

/-- `hash_to_field_fp` (hash_to_curve.rs:70-86) with the hash algorithm of the ROM file (SHA-256) -/
def hashToFieldFp (K : Rom C) (msg : List Byte) (count : Nat) (dst : List Byte) : Option (Except Err (List (Fp C))) := do
  let r ← expandMessageXmd .sha256 msg (count * 1 * h2cL) dst
  match r with
  | .error e => pure (.error e)
  | .ok bytes =>
    let u ← (List.range count).mapM fun i =>
      let off := h2cL * i * 1
      if bytes.length < off + h2cL then none else fieldElem K ((bytes.drop off).take h2cL)
    pure (.ok u)

/-! ### G1 points -/

/-- `result[0] += v` on a non-empty array of bytes -/
def addFirst (bs : List Byte) (v : Byte) : List Byte := bs.set 0 (bs.headD 0 + v)

/-- `serialize_g1` (core.rs:135-162) -/
def serializeG1 (K : Rom C) (s : Pt C) : List Byte :=
  if isInfinity K s then (List.replicate K.modbytes (0 : Byte)).set 0 0xC0
  else
    let result := toBytes K.P.b K.modbytes (getx K s)
    let tmp := Ecp.affine K s
    let y := gety K tmp
    let tmp := Ecp.neg K tmp
    let yNeg := gety K tmp
    let result := if Big.comp y yNeg > 0 then addFirst result 0x20 else result
    addFirst result 0x80

/-- `serialize_uncompressed_g1` (core.rs:167-180) -/
def serializeUncompressedG1 (K : Rom C) (s : Pt C) : List Byte :=
  if isInfinity K s then (List.replicate (2 * K.modbytes) (0 : Byte)).set 0 0x40
  else toBytes K.P.b K.modbytes (getx K s) ++ toBytes K.P.b K.modbytes (gety K s)

/-- the handling of the infinity flag common to the two decoders (core.rs:208-222, 261-275): all other bits must be zero -/
def infinityBytes (K : Rom C) (bs : List Byte) : Except Err (Pt C) :=
  if bs.headD 0 &&& 0x3f ≠ 0 then .error .invalidPoint
  else if (bs.drop 1).any (· != 0) then .error .invalidPoint
  else .ok (Ecp.new K)

/-- `deserialize_compressed_g1` (core.rs:198-248) -/
def deserializeCompressedG1 (K : Rom C) (bs : List Byte) : Except Err (Pt C) :=
  if bs.length ≠ K.modbytes then .error .invalidG1Size
  else if bs.headD 0 &&& 0x40 ≠ 0 then infinityBytes K bs
  else
    let yFlag : Bool := bs.headD 0 &&& 0x20 > 0
    let bs := bs.set 0 (bs.headD 0 &&& 0x1f)
    let x := fromBytes K.P.b K.P.n K.modbytes bs
    if Big.comp x K.P.md ≥ 0 then .error .invalidPoint
    else
      let point := newBigX K x
      if isInfinity K point then .error .invalidPoint
      else
        let pointNeg := Ecp.neg K point
        if decide (Big.comp (gety K point) (gety K pointNeg) > 0) ≠ yFlag then .ok pointNeg else .ok point

/-- `deserialize_uncompressed_g1` (core.rs:251-297) -/
def deserializeUncompressedG1 (K : Rom C) (bs : List Byte) : Except Err (Pt C) :=
  if bs.length ≠ 2 * K.modbytes then .error .invalidG1Size
  else if bs.headD 0 &&& 0x40 ≠ 0 then infinityBytes K bs
  else if bs.headD 0 &&& 0x20 > 0 then .error .invalidYFlag
  else
    let bs := bs.set 0 (bs.headD 0 &&& 0x1f)
    let x := fromBytes K.P.b K.P.n K.modbytes (bs.take K.modbytes)
    let y := fromBytes K.P.b K.P.n K.modbytes (bs.drop K.modbytes)
    if Big.comp x K.P.md ≥ 0 ∨ Big.comp y K.P.md ≥ 0 then .error .invalidPoint
    else
      let point := newBigs K x y
      if isInfinity K point then .error .invalidPoint else .ok point

/-- `deserialize_g1` (core.rs:185-195) -/
def deserializeG1 (K : Rom C) (bs : List Byte) : Except Err (Pt C) :=
  if bs.length = 0 then .error .invalidG1Size
  else if bs.headD 0 &&& 0x80 = 0 then deserializeUncompressedG1 K bs
  else deserializeCompressedG1 K bs

end Verif.Bls
