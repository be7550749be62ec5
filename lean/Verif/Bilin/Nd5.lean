import Verif.Bilin.Nd4
import Verif.Pair.Rom
/-
The check of Bilin/NonDegN.lean on the numbers of src/roms/rom_bn254cx_64.rs; each of these modules imports the one before to bound the memory the kernel uses at a time.
-/
namespace Verif.Ate
open Verif.Rom Verif.Pair
theorem nd_bn254cx : ndC (ndIn bn254cx_64g) = true := by decide +kernel
theorem nd_bn254cx_32 : ndIn bn254cx_32g = ndIn bn254cx_64g := by decide +kernel
end Verif.Ate
