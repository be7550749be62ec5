import Verif.Bilin.Nd1
import Verif.Pair.Rom
/-
The check of Bilin/NonDegN.lean on the numbers of src/roms/rom_bls383_64.rs; each of these modules imports the one before to bound the memory the kernel uses at a time.
-/
namespace Verif.Ate
open Verif.Rom Verif.Pair
theorem nd_bls383 : ndC (ndIn bls383_64g) = true := by decide +kernel
theorem nd_bls383_32 : ndIn bls383_32g = ndIn bls383_64g := by decide +kernel
end Verif.Ate
