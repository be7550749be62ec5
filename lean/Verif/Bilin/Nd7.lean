import Verif.Bilin.Nd6
import Verif.Pair.Rom
/-
The check of Bilin/NonDegN.lean on the numbers of src/roms/rom_fp512bn_64.rs; each of these modules imports the one before to bound the memory the kernel uses at a time.
-/
namespace Verif.Ate
open Verif.Rom Verif.Pair
theorem nd_fp512bn : ndC (ndIn fp512bn_64g) = true := by decide +kernel
end Verif.Ate
