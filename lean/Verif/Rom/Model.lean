import Verif.Fp.Model
/-
The constants of a ROM file (`src/roms/rom_*.rs`) that the field and curve arithmetic of fp.rs and ecp.rs
read.  Pairing constants (`FRA`, `FRB`, `CURVE_PXA`, …) are not included.
-/
namespace Verif.Rom
open Verif.Big Verif.Fp

/-- `types::CurveType` (src/types.rs) -/
inductive CurveType | weierstrass | edwards | montgomery
  deriving DecidableEq

/-- constants of a ROM file -/
structure Rom (C : Nat) where
  /-- `MODBYTES` -/
  modbytes : Nat
  /-- `BASEBITS`, number of limbs, `MODBITS`, `SH`, `MOD8`, `MODTYPE`, `MODULUS`, `R2MODP`, `MCONST` -/
  P : Params C
  /-- the modulus as a number (not in the ROM file) -/
  p : Nat
  /-- `CURVETYPE` -/
  ctype : CurveType
  /-- `CURVE_A` -/
  a : Int
  /-- `CURVE_B_I` -/
  bI : Int
  /-- `CURVE_B` -/
  bv : Limbs C
  /-- `CURVE_GX` -/
  gx : Limbs C
  /-- `CURVE_GY` -/
  gy : Limbs C
  /-- `CURVE_ORDER` -/
  order : Limbs C
  /-- `CURVE_COF_I` -/
  cofI : Int
  /-- `CURVE_COF` -/
  cof : Limbs C

end Verif.Rom
