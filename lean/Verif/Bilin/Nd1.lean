import Verif.Bilin.NonDegN
import Verif.Props.DhMont
import Verif.Props.Bilinear
import Verif.Props.MpinRom
import Verif.Props.BlsReal
import Verif.Pair.Rom
/-
The check of Bilin/NonDegN.lean on the numbers of src/roms/rom_bls381_64.rs; each of these modules imports the one before to bound the memory the kernel uses at a time.
-/
namespace Verif.Ate
open Verif.Rom Verif.Pair
theorem nd_bls381 : ndC (ndIn bls381_64g) = true := by decide +kernel
theorem nd_bls381_32 : ndIn bls381_32g = ndIn bls381_64g := by decide +kernel
end Verif.Ate
