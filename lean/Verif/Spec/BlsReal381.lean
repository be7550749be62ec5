import Verif.Spec.BlsReal
import Verif.Spec.Bls2
import Verif.Pair.Model
import Verif.Pair.Group1
/-
The groups of the BLS12-381 signature schemes.
-/
namespace Verif.Bls
open Verif.Rom Verif.Ecdh Verif.Ecp Verif.Ecp2 Verif.Tower Verif.Pair WeierstrassCurve

variable {C : Nat}

/-- the points killed by the order -/
def torsionR (A : Type) [AddCommGroup A] : AddSubgroup A where
  carrier := {a | r381 • a = 0}
  add_mem' := fun {a b} (ha : r381 • a = 0) (hb : r381 • b = 0) => show r381 • (a + b) = 0 by rw [nsmul_add, ha, hb, add_zero]
  zero_mem' := nsmul_zero _
  neg_mem' := fun {a} (ha : r381 • a = 0) => show r381 • (-a) = 0 by rw [neg_nsmul, ha, neg_zero]

section
variable (K : GlsRom C) [hp : Fact K.pair.rom.p.Prime] [h4 : Fact (K.pair.rom.p % 4 = 3)]

/-- the encodings of the points of G1 -/
noncomputable def encG1 : Enc (curve K.pair.rom).Point := ⟨enc1C, enc1U⟩

/-- the encodings of the points of G2 -/
noncomputable def encG2 : Enc (curve2 K.pair).Point := ⟨enc2C, enc2U⟩

/-- infinity, and the points of G2 all four of whose coordinate parts are non-zero -/
def Ordinary : (curve2 K.pair).Point → Prop
  | .zero => True
  | .some x y _ => (x.re ≠ 0 ∧ x.im ≠ 0) ∧ y.re ≠ 0 ∧ y.im ≠ 0

end

end Verif.Bls
