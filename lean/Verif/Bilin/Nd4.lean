import Verif.Bilin.Nd3
import Verif.Pair.Rom
/-
The check of Bilin/NonDegN.lean on the numbers of src/roms/rom_bn254_64.rs; each of these modules imports the one before to bound the memory the kernel uses at a time.
-/
namespace Verif.Ate
open Verif.Rom Verif.Pair
theorem nd_bn254 : ndC (ndIn bn254_64g) = true := by decide +kernel
theorem nd_bn254_32 : ndIn bn254_32g = ndIn bn254_64g := by decide +kernel
end Verif.Ate
