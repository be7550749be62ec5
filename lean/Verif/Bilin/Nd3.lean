import Verif.Bilin.Nd2
import Verif.Pair.Rom
/-
The check of Bilin/NonDegN.lean on the numbers of src/roms/rom_bls461_64.rs; each of these modules imports the one before to bound the memory the kernel uses at a time.
-/
namespace Verif.Ate
open Verif.Rom Verif.Pair
theorem nd_bls461 : ndC (ndIn bls461_64g) = true := by decide +kernel
theorem nd_bls461_32 : ndIn bls461_32g = ndIn bls461_64g := by decide +kernel
end Verif.Ate
