import Verif.Bilin.Nd5
import Verif.Pair.Rom
/-
The check of Bilin/NonDegN.lean on the numbers of src/roms/rom_fp256bn_64.rs; each of these modules imports the one before to bound the memory the kernel uses at a time.
-/
namespace Verif.Ate
open Verif.Rom Verif.Pair
theorem nd_fp256bn : ndC (ndIn fp256bn_64g) = true := by decide +kernel
theorem nd_fp256bn_32 : ndIn fp256bn_32g = ndIn fp256bn_64g := by decide +kernel
end Verif.Ate
