import Verif.Rom.Check
import Verif.Rom.Data64
import Verif.Rom.Data32
/-
C55: the bundled ROM files are consistent.
-/
namespace Verif.Props
open Verif.Big Verif.Fp Verif.Rom

/-- ordinate of the Curve25519 base point (witness for `generatorOk`) -/
def c25519_y : Int := 14781619447589544791020593568409986887264606134616475288964881837755586237401

/-- C55, 64-bit ROM files. -/
theorem C55_rom64 : ∀ r ∈ all64, r.Consistent := all_consistent (w := c25519_y) (by decide +kernel)

/-- C55, 32-bit ROM files (without `rom_fp512bn_32.rs`). -/
theorem C55_rom32 : ∀ r ∈ all32, r.Consistent := all_consistent (w := c25519_y) (by decide +kernel)

example : all64.length = 26 ∧ all32.length = 25 := by decide

/-- `rom_fp512bn_32.rs` declares `MODBYTES = 32` and `BASEBITS = 28`, which gives 10 limbs of 28 bits for a
modulus of `MODBITS = 512` bits: it cannot be consistent, whatever its arrays contain. -/
theorem C55_fp512bn_32_inconsistent (r : Rom 32) (hm : r.modbytes = 32) (hb : r.P.b = 28) (hmb : r.P.modbits = 512) : ¬ r.Consistent := by
  intro h
  have := h.bytes
  omega

/-- `MOD8` is wrong in six ROM files: ANSSI declares 7 for a modulus congruent to 3 modulo 8, and the two
512-bit NUMS curves declare 3 for one congruent to 7.  It is only ever compared with 5, so nothing depends on it. -/
theorem C55_mod8_wrong :
    (anssi_64.P.mod8 = 7 ∧ anssi_64.p % 8 = 3) ∧ (anssi_32.P.mod8 = 7 ∧ anssi_32.p % 8 = 3) ∧
    (nums512w_64.P.mod8 = 3 ∧ nums512w_64.p % 8 = 7) ∧ (nums512w_32.P.mod8 = 3 ∧ nums512w_32.p % 8 = 7) ∧
    (nums512e_64.P.mod8 = 3 ∧ nums512e_64.p % 8 = 7) ∧ (nums512e_32.P.mod8 = 3 ∧ nums512e_32.p % 8 = 7) := by decide +kernel

end Verif.Props
