import Verif.Ecp.Formulas
import Verif.Ecp.Weier
import Verif.Prog.Field
/-
What the programs of `Ecp/Formulas.lean` compute in a field, as closed expressions.  The intermediate
`let` chains restate the programs; the kernel checks that running the program gives the chain.
-/
namespace Verif.Ecp
open Verif.Prog Verif.Curve
set_option linter.unusedVariables false
set_option maxRecDepth 2000
variable {F : Type} [Field F]

theorem dblA0_x (bI : Int) (s : Reg → F) (ex) : run (ringOps F ex) (dblA0 bI) s .x = 2 * s .x * s .y * (s .y ^ 2 - 9 * (bI : F) * s .z ^ 2) := by
  change (let x := s .x; let y := s .y; let z := s .z; let t0 := y; let t0 := t0 ^ 2; let t1 := y; let t1 := t1 * z; let t2 := z; let t2 := t2 ^ 2; let z := t0; let z := z + t0; let z := z + z; let z := z + z; let t2 := ((((3 * bI)) : Int) : F) * t2; let x3 := t2; let x3 := x3 * z; let y3 := t0; let y3 := y3 + t2; let z := z * t1; let t1 := t2; let t1 := t1 + t2; let t2 := t2 + t1; let t0 := t0 - t2; let y3 := y3 * t0; let y3 := y3 + x3; let t1 := x; let t1 := t1 * y; let x := t0; let x := x * t1; let x := x + x; let y := y3; x) = _
  push_cast; ring

theorem dblA0_y (bI : Int) (s : Reg → F) (ex) : run (ringOps F ex) (dblA0 bI) s .y = (s .y ^ 2 - 9 * (bI : F) * s .z ^ 2) * (s .y ^ 2 + 3 * (bI : F) * s .z ^ 2) + 24 * (bI : F) * s .y ^ 2 * s .z ^ 2 := by
  change (let x := s .x; let y := s .y; let z := s .z; let t0 := y; let t0 := t0 ^ 2; let t1 := y; let t1 := t1 * z; let t2 := z; let t2 := t2 ^ 2; let z := t0; let z := z + t0; let z := z + z; let z := z + z; let t2 := ((((3 * bI)) : Int) : F) * t2; let x3 := t2; let x3 := x3 * z; let y3 := t0; let y3 := y3 + t2; let z := z * t1; let t1 := t2; let t1 := t1 + t2; let t2 := t2 + t1; let t0 := t0 - t2; let y3 := y3 * t0; let y3 := y3 + x3; let t1 := x; let t1 := t1 * y; let x := t0; let x := x * t1; let x := x + x; let y := y3; y) = _
  push_cast; ring

theorem dblA0_z (bI : Int) (s : Reg → F) (ex) : run (ringOps F ex) (dblA0 bI) s .z = 8 * s .y ^ 3 * s .z := by
  change (let x := s .x; let y := s .y; let z := s .z; let t0 := y; let t0 := t0 ^ 2; let t1 := y; let t1 := t1 * z; let t2 := z; let t2 := t2 ^ 2; let z := t0; let z := z + t0; let z := z + z; let z := z + z; let t2 := ((((3 * bI)) : Int) : F) * t2; let x3 := t2; let x3 := x3 * z; let y3 := t0; let y3 := y3 + t2; let z := z * t1; let t1 := t2; let t1 := t1 + t2; let t2 := t2 + t1; let t0 := t0 - t2; let y3 := y3 * t0; let y3 := y3 + x3; let t1 := x; let t1 := t1 * y; let x := t0; let x := x * t1; let x := x + x; let y := y3; z) = _
  push_cast; ring

theorem dblA3z_x (s : Reg → F) (ex) : run (ringOps F ex) (dblA3 0) s .x = (2 * s .x * s .y) * (s .y ^ 2 - 2 * (-3 : F) * (s .x * s .z) - 3 * (s .b) * s .z ^ 2) - 2 * s .y * s .z * ((-3 : F) * s .x ^ 2 + 6 * (s .b) * (s .x * s .z) - (-3 : F) ^ 2 * s .z ^ 2) := by
  simp only [dblA3, mulB, if_pos]
  change (let x := s .x; let y := s .y; let z := s .z; let b := s .b; let t0 := x; let t1 := y; let t2 := z; let t3 := x; let z3 := z; let t0 := t0 ^ 2; let t1 := t1 ^ 2; let t2 := t2 ^ 2; let t3 := t3 * y; let t3 := t3 + t3; let z3 := z3 * x; let z3 := z3 + z3; let y3 := t2; let y3 := y3 * b; let y3 := y3 - z3; let x3 := y3; let x3 := x3 + y3; let y3 := y3 + x3; let x3 := t1; let x3 := x3 - y3; let y3 := y3 + t1; let y3 := y3 * x3; let x3 := x3 * t3; let t3 := t2; let t3 := t3 + t2; let t2 := t2 + t3; let z3 := z3 * b; let z3 := z3 - t2; let z3 := z3 - t0; let t3 := z3; let t3 := t3 + z3; let z3 := z3 + t3; let t3 := t0; let t3 := t3 + t0; let t0 := t0 + t3; let t0 := t0 - t2; let t0 := t0 * z3; let y3 := y3 + t0; let t0 := y; let t0 := t0 * z; let t0 := t0 + t0; let z3 := z3 * t0; let x3 := x3 - z3; let t0 := t0 + t0; let t1 := t1 + t1; let z3 := t0; let z3 := z3 * t1; let x := x3; let y := y3; let z := z3; x) = _
  ring

theorem dblA3z_y (s : Reg → F) (ex) : run (ringOps F ex) (dblA3 0) s .y = (3 * s .x ^ 2 + (-3 : F) * s .z ^ 2) * ((-3 : F) * s .x ^ 2 + 6 * (s .b) * (s .x * s .z) - (-3 : F) ^ 2 * s .z ^ 2) + (s .y ^ 2 + 2 * (-3 : F) * (s .x * s .z) + 3 * (s .b) * s .z ^ 2) * (s .y ^ 2 - 2 * (-3 : F) * (s .x * s .z) - 3 * (s .b) * s .z ^ 2) := by
  simp only [dblA3, mulB, if_pos]
  change (let x := s .x; let y := s .y; let z := s .z; let b := s .b; let t0 := x; let t1 := y; let t2 := z; let t3 := x; let z3 := z; let t0 := t0 ^ 2; let t1 := t1 ^ 2; let t2 := t2 ^ 2; let t3 := t3 * y; let t3 := t3 + t3; let z3 := z3 * x; let z3 := z3 + z3; let y3 := t2; let y3 := y3 * b; let y3 := y3 - z3; let x3 := y3; let x3 := x3 + y3; let y3 := y3 + x3; let x3 := t1; let x3 := x3 - y3; let y3 := y3 + t1; let y3 := y3 * x3; let x3 := x3 * t3; let t3 := t2; let t3 := t3 + t2; let t2 := t2 + t3; let z3 := z3 * b; let z3 := z3 - t2; let z3 := z3 - t0; let t3 := z3; let t3 := t3 + z3; let z3 := z3 + t3; let t3 := t0; let t3 := t3 + t0; let t0 := t0 + t3; let t0 := t0 - t2; let t0 := t0 * z3; let y3 := y3 + t0; let t0 := y; let t0 := t0 * z; let t0 := t0 + t0; let z3 := z3 * t0; let x3 := x3 - z3; let t0 := t0 + t0; let t1 := t1 + t1; let z3 := t0; let z3 := z3 * t1; let x := x3; let y := y3; let z := z3; y) = _
  ring

theorem dblA3z_z (s : Reg → F) (ex) : run (ringOps F ex) (dblA3 0) s .z = 8 * s .y ^ 3 * s .z := by
  simp only [dblA3, mulB, if_pos]
  change (let x := s .x; let y := s .y; let z := s .z; let b := s .b; let t0 := x; let t1 := y; let t2 := z; let t3 := x; let z3 := z; let t0 := t0 ^ 2; let t1 := t1 ^ 2; let t2 := t2 ^ 2; let t3 := t3 * y; let t3 := t3 + t3; let z3 := z3 * x; let z3 := z3 + z3; let y3 := t2; let y3 := y3 * b; let y3 := y3 - z3; let x3 := y3; let x3 := x3 + y3; let y3 := y3 + x3; let x3 := t1; let x3 := x3 - y3; let y3 := y3 + t1; let y3 := y3 * x3; let x3 := x3 * t3; let t3 := t2; let t3 := t3 + t2; let t2 := t2 + t3; let z3 := z3 * b; let z3 := z3 - t2; let z3 := z3 - t0; let t3 := z3; let t3 := t3 + z3; let z3 := z3 + t3; let t3 := t0; let t3 := t3 + t0; let t0 := t0 + t3; let t0 := t0 - t2; let t0 := t0 * z3; let y3 := y3 + t0; let t0 := y; let t0 := t0 * z; let t0 := t0 + t0; let z3 := z3 * t0; let x3 := x3 - z3; let t0 := t0 + t0; let t1 := t1 + t1; let z3 := t0; let z3 := z3 * t1; let x := x3; let y := y3; let z := z3; z) = _
  ring

theorem dblA3i_x (bI : Int) (h0 : bI ≠ 0) (s : Reg → F) (ex) : run (ringOps F ex) (dblA3 bI) s .x = (2 * s .x * s .y) * (s .y ^ 2 - 2 * (-3 : F) * (s .x * s .z) - 3 * (bI : F) * s .z ^ 2) - 2 * s .y * s .z * ((-3 : F) * s .x ^ 2 + 6 * (bI : F) * (s .x * s .z) - (-3 : F) ^ 2 * s .z ^ 2) := by
  simp only [dblA3, mulB, if_neg h0]
  change (let x := s .x; let y := s .y; let z := s .z; let t0 := x; let t1 := y; let t2 := z; let t3 := x; let z3 := z; let t0 := t0 ^ 2; let t1 := t1 ^ 2; let t2 := t2 ^ 2; let t3 := t3 * y; let t3 := t3 + t3; let z3 := z3 * x; let z3 := z3 + z3; let y3 := t2; let y3 := (((bI) : Int) : F) * y3; let y3 := y3 - z3; let x3 := y3; let x3 := x3 + y3; let y3 := y3 + x3; let x3 := t1; let x3 := x3 - y3; let y3 := y3 + t1; let y3 := y3 * x3; let x3 := x3 * t3; let t3 := t2; let t3 := t3 + t2; let t2 := t2 + t3; let z3 := (((bI) : Int) : F) * z3; let z3 := z3 - t2; let z3 := z3 - t0; let t3 := z3; let t3 := t3 + z3; let z3 := z3 + t3; let t3 := t0; let t3 := t3 + t0; let t0 := t0 + t3; let t0 := t0 - t2; let t0 := t0 * z3; let y3 := y3 + t0; let t0 := y; let t0 := t0 * z; let t0 := t0 + t0; let z3 := z3 * t0; let x3 := x3 - z3; let t0 := t0 + t0; let t1 := t1 + t1; let z3 := t0; let z3 := z3 * t1; let x := x3; let y := y3; let z := z3; x) = _
  ring

theorem dblA3i_y (bI : Int) (h0 : bI ≠ 0) (s : Reg → F) (ex) : run (ringOps F ex) (dblA3 bI) s .y = (3 * s .x ^ 2 + (-3 : F) * s .z ^ 2) * ((-3 : F) * s .x ^ 2 + 6 * (bI : F) * (s .x * s .z) - (-3 : F) ^ 2 * s .z ^ 2) + (s .y ^ 2 + 2 * (-3 : F) * (s .x * s .z) + 3 * (bI : F) * s .z ^ 2) * (s .y ^ 2 - 2 * (-3 : F) * (s .x * s .z) - 3 * (bI : F) * s .z ^ 2) := by
  simp only [dblA3, mulB, if_neg h0]
  change (let x := s .x; let y := s .y; let z := s .z; let t0 := x; let t1 := y; let t2 := z; let t3 := x; let z3 := z; let t0 := t0 ^ 2; let t1 := t1 ^ 2; let t2 := t2 ^ 2; let t3 := t3 * y; let t3 := t3 + t3; let z3 := z3 * x; let z3 := z3 + z3; let y3 := t2; let y3 := (((bI) : Int) : F) * y3; let y3 := y3 - z3; let x3 := y3; let x3 := x3 + y3; let y3 := y3 + x3; let x3 := t1; let x3 := x3 - y3; let y3 := y3 + t1; let y3 := y3 * x3; let x3 := x3 * t3; let t3 := t2; let t3 := t3 + t2; let t2 := t2 + t3; let z3 := (((bI) : Int) : F) * z3; let z3 := z3 - t2; let z3 := z3 - t0; let t3 := z3; let t3 := t3 + z3; let z3 := z3 + t3; let t3 := t0; let t3 := t3 + t0; let t0 := t0 + t3; let t0 := t0 - t2; let t0 := t0 * z3; let y3 := y3 + t0; let t0 := y; let t0 := t0 * z; let t0 := t0 + t0; let z3 := z3 * t0; let x3 := x3 - z3; let t0 := t0 + t0; let t1 := t1 + t1; let z3 := t0; let z3 := z3 * t1; let x := x3; let y := y3; let z := z3; y) = _
  ring

theorem dblA3i_z (bI : Int) (h0 : bI ≠ 0) (s : Reg → F) (ex) : run (ringOps F ex) (dblA3 bI) s .z = 8 * s .y ^ 3 * s .z := by
  simp only [dblA3, mulB, if_neg h0]
  change (let x := s .x; let y := s .y; let z := s .z; let t0 := x; let t1 := y; let t2 := z; let t3 := x; let z3 := z; let t0 := t0 ^ 2; let t1 := t1 ^ 2; let t2 := t2 ^ 2; let t3 := t3 * y; let t3 := t3 + t3; let z3 := z3 * x; let z3 := z3 + z3; let y3 := t2; let y3 := (((bI) : Int) : F) * y3; let y3 := y3 - z3; let x3 := y3; let x3 := x3 + y3; let y3 := y3 + x3; let x3 := t1; let x3 := x3 - y3; let y3 := y3 + t1; let y3 := y3 * x3; let x3 := x3 * t3; let t3 := t2; let t3 := t3 + t2; let t2 := t2 + t3; let z3 := (((bI) : Int) : F) * z3; let z3 := z3 - t2; let z3 := z3 - t0; let t3 := z3; let t3 := t3 + z3; let z3 := z3 + t3; let t3 := t0; let t3 := t3 + t0; let t0 := t0 + t3; let t0 := t0 - t2; let t0 := t0 * z3; let y3 := y3 + t0; let t0 := y; let t0 := t0 * z; let t0 := t0 + t0; let z3 := z3 * t0; let x3 := x3 - z3; let t0 := t0 + t0; let t1 := t1 + t1; let z3 := t0; let z3 := z3 * t1; let x := x3; let y := y3; let z := z3; z) = _
  ring

theorem addA3z_x (s : Reg → F) (ex) : run (ringOps F ex) (addA3 0) s .x = (rcb (-3 : F) (s .b) ⟨s .x, s .y, s .z⟩ ⟨s .qx, s .qy, s .qz⟩).x := by
  simp only [addA3, mulB, if_pos]
  change (let x := s .x; let y := s .y; let z := s .z; let qx := s .qx; let qy := s .qy; let qz := s .qz; let b := s .b; let t0 := x; let t1 := y; let t2 := z; let t3 := x; let t4 := qx; let y3 := qx; let x3 := qy; let t0 := t0 * qx; let t1 := t1 * qy; let t2 := t2 * qz; let t3 := t3 + y; let t4 := t4 + qy; let t3 := t3 * t4; let t4 := t0; let t4 := t4 + t1; let t3 := t3 - t4; let t4 := y; let t4 := t4 + z; let x3 := x3 + qz; let t4 := t4 * x3; let x3 := t1; let x3 := x3 + t2; let t4 := t4 - x3; let x3 := x; let x3 := x3 + z; let y3 := y3 + qz; let x3 := x3 * y3; let y3 := t0; let y3 := y3 + t2; let y3 := x3 - y3; let z3 := t2; let z3 := z3 * b; let x3 := y3; let x3 := x3 - z3; let z3 := x3; let z3 := z3 + x3; let x3 := x3 + z3; let z3 := t1; let z3 := z3 - x3; let x3 := x3 + t1; let y3 := y3 * b; let t1 := t2; let t1 := t1 + t2; let t2 := t2 + t1; let y3 := y3 - t2; let y3 := y3 - t0; let t1 := y3; let t1 := t1 + y3; let y3 := y3 + t1; let t1 := t0; let t1 := t1 + t0; let t0 := t0 + t1; let t0 := t0 - t2; let t1 := t4; let t1 := t1 * y3; let t2 := t0; let t2 := t2 * y3; let y3 := x3; let y3 := y3 * z3; let y3 := y3 + t2; let x3 := x3 * t3; let x3 := x3 - t1; let z3 := z3 * t4; let t1 := t3; let t1 := t1 * t0; let z3 := z3 + t1; let x := x3; let y := y3; let z := z3; x) = _
  simp only [rcb]; ring

theorem addA3z_y (s : Reg → F) (ex) : run (ringOps F ex) (addA3 0) s .y = (rcb (-3 : F) (s .b) ⟨s .x, s .y, s .z⟩ ⟨s .qx, s .qy, s .qz⟩).y := by
  simp only [addA3, mulB, if_pos]
  change (let x := s .x; let y := s .y; let z := s .z; let qx := s .qx; let qy := s .qy; let qz := s .qz; let b := s .b; let t0 := x; let t1 := y; let t2 := z; let t3 := x; let t4 := qx; let y3 := qx; let x3 := qy; let t0 := t0 * qx; let t1 := t1 * qy; let t2 := t2 * qz; let t3 := t3 + y; let t4 := t4 + qy; let t3 := t3 * t4; let t4 := t0; let t4 := t4 + t1; let t3 := t3 - t4; let t4 := y; let t4 := t4 + z; let x3 := x3 + qz; let t4 := t4 * x3; let x3 := t1; let x3 := x3 + t2; let t4 := t4 - x3; let x3 := x; let x3 := x3 + z; let y3 := y3 + qz; let x3 := x3 * y3; let y3 := t0; let y3 := y3 + t2; let y3 := x3 - y3; let z3 := t2; let z3 := z3 * b; let x3 := y3; let x3 := x3 - z3; let z3 := x3; let z3 := z3 + x3; let x3 := x3 + z3; let z3 := t1; let z3 := z3 - x3; let x3 := x3 + t1; let y3 := y3 * b; let t1 := t2; let t1 := t1 + t2; let t2 := t2 + t1; let y3 := y3 - t2; let y3 := y3 - t0; let t1 := y3; let t1 := t1 + y3; let y3 := y3 + t1; let t1 := t0; let t1 := t1 + t0; let t0 := t0 + t1; let t0 := t0 - t2; let t1 := t4; let t1 := t1 * y3; let t2 := t0; let t2 := t2 * y3; let y3 := x3; let y3 := y3 * z3; let y3 := y3 + t2; let x3 := x3 * t3; let x3 := x3 - t1; let z3 := z3 * t4; let t1 := t3; let t1 := t1 * t0; let z3 := z3 + t1; let x := x3; let y := y3; let z := z3; y) = _
  simp only [rcb]; ring

theorem addA3z_z (s : Reg → F) (ex) : run (ringOps F ex) (addA3 0) s .z = (rcb (-3 : F) (s .b) ⟨s .x, s .y, s .z⟩ ⟨s .qx, s .qy, s .qz⟩).z := by
  simp only [addA3, mulB, if_pos]
  change (let x := s .x; let y := s .y; let z := s .z; let qx := s .qx; let qy := s .qy; let qz := s .qz; let b := s .b; let t0 := x; let t1 := y; let t2 := z; let t3 := x; let t4 := qx; let y3 := qx; let x3 := qy; let t0 := t0 * qx; let t1 := t1 * qy; let t2 := t2 * qz; let t3 := t3 + y; let t4 := t4 + qy; let t3 := t3 * t4; let t4 := t0; let t4 := t4 + t1; let t3 := t3 - t4; let t4 := y; let t4 := t4 + z; let x3 := x3 + qz; let t4 := t4 * x3; let x3 := t1; let x3 := x3 + t2; let t4 := t4 - x3; let x3 := x; let x3 := x3 + z; let y3 := y3 + qz; let x3 := x3 * y3; let y3 := t0; let y3 := y3 + t2; let y3 := x3 - y3; let z3 := t2; let z3 := z3 * b; let x3 := y3; let x3 := x3 - z3; let z3 := x3; let z3 := z3 + x3; let x3 := x3 + z3; let z3 := t1; let z3 := z3 - x3; let x3 := x3 + t1; let y3 := y3 * b; let t1 := t2; let t1 := t1 + t2; let t2 := t2 + t1; let y3 := y3 - t2; let y3 := y3 - t0; let t1 := y3; let t1 := t1 + y3; let y3 := y3 + t1; let t1 := t0; let t1 := t1 + t0; let t0 := t0 + t1; let t0 := t0 - t2; let t1 := t4; let t1 := t1 * y3; let t2 := t0; let t2 := t2 * y3; let y3 := x3; let y3 := y3 * z3; let y3 := y3 + t2; let x3 := x3 * t3; let x3 := x3 - t1; let z3 := z3 * t4; let t1 := t3; let t1 := t1 * t0; let z3 := z3 + t1; let x := x3; let y := y3; let z := z3; z) = _
  simp only [rcb]; ring

theorem addA3i_x (bI : Int) (h0 : bI ≠ 0) (s : Reg → F) (ex) : run (ringOps F ex) (addA3 bI) s .x = (rcb (-3 : F) (bI : F) ⟨s .x, s .y, s .z⟩ ⟨s .qx, s .qy, s .qz⟩).x := by
  simp only [addA3, mulB, if_neg h0]
  change (let x := s .x; let y := s .y; let z := s .z; let qx := s .qx; let qy := s .qy; let qz := s .qz; let t0 := x; let t1 := y; let t2 := z; let t3 := x; let t4 := qx; let y3 := qx; let x3 := qy; let t0 := t0 * qx; let t1 := t1 * qy; let t2 := t2 * qz; let t3 := t3 + y; let t4 := t4 + qy; let t3 := t3 * t4; let t4 := t0; let t4 := t4 + t1; let t3 := t3 - t4; let t4 := y; let t4 := t4 + z; let x3 := x3 + qz; let t4 := t4 * x3; let x3 := t1; let x3 := x3 + t2; let t4 := t4 - x3; let x3 := x; let x3 := x3 + z; let y3 := y3 + qz; let x3 := x3 * y3; let y3 := t0; let y3 := y3 + t2; let y3 := x3 - y3; let z3 := t2; let z3 := (((bI) : Int) : F) * z3; let x3 := y3; let x3 := x3 - z3; let z3 := x3; let z3 := z3 + x3; let x3 := x3 + z3; let z3 := t1; let z3 := z3 - x3; let x3 := x3 + t1; let y3 := (((bI) : Int) : F) * y3; let t1 := t2; let t1 := t1 + t2; let t2 := t2 + t1; let y3 := y3 - t2; let y3 := y3 - t0; let t1 := y3; let t1 := t1 + y3; let y3 := y3 + t1; let t1 := t0; let t1 := t1 + t0; let t0 := t0 + t1; let t0 := t0 - t2; let t1 := t4; let t1 := t1 * y3; let t2 := t0; let t2 := t2 * y3; let y3 := x3; let y3 := y3 * z3; let y3 := y3 + t2; let x3 := x3 * t3; let x3 := x3 - t1; let z3 := z3 * t4; let t1 := t3; let t1 := t1 * t0; let z3 := z3 + t1; let x := x3; let y := y3; let z := z3; x) = _
  simp only [rcb]; ring

theorem addA3i_y (bI : Int) (h0 : bI ≠ 0) (s : Reg → F) (ex) : run (ringOps F ex) (addA3 bI) s .y = (rcb (-3 : F) (bI : F) ⟨s .x, s .y, s .z⟩ ⟨s .qx, s .qy, s .qz⟩).y := by
  simp only [addA3, mulB, if_neg h0]
  change (let x := s .x; let y := s .y; let z := s .z; let qx := s .qx; let qy := s .qy; let qz := s .qz; let t0 := x; let t1 := y; let t2 := z; let t3 := x; let t4 := qx; let y3 := qx; let x3 := qy; let t0 := t0 * qx; let t1 := t1 * qy; let t2 := t2 * qz; let t3 := t3 + y; let t4 := t4 + qy; let t3 := t3 * t4; let t4 := t0; let t4 := t4 + t1; let t3 := t3 - t4; let t4 := y; let t4 := t4 + z; let x3 := x3 + qz; let t4 := t4 * x3; let x3 := t1; let x3 := x3 + t2; let t4 := t4 - x3; let x3 := x; let x3 := x3 + z; let y3 := y3 + qz; let x3 := x3 * y3; let y3 := t0; let y3 := y3 + t2; let y3 := x3 - y3; let z3 := t2; let z3 := (((bI) : Int) : F) * z3; let x3 := y3; let x3 := x3 - z3; let z3 := x3; let z3 := z3 + x3; let x3 := x3 + z3; let z3 := t1; let z3 := z3 - x3; let x3 := x3 + t1; let y3 := (((bI) : Int) : F) * y3; let t1 := t2; let t1 := t1 + t2; let t2 := t2 + t1; let y3 := y3 - t2; let y3 := y3 - t0; let t1 := y3; let t1 := t1 + y3; let y3 := y3 + t1; let t1 := t0; let t1 := t1 + t0; let t0 := t0 + t1; let t0 := t0 - t2; let t1 := t4; let t1 := t1 * y3; let t2 := t0; let t2 := t2 * y3; let y3 := x3; let y3 := y3 * z3; let y3 := y3 + t2; let x3 := x3 * t3; let x3 := x3 - t1; let z3 := z3 * t4; let t1 := t3; let t1 := t1 * t0; let z3 := z3 + t1; let x := x3; let y := y3; let z := z3; y) = _
  simp only [rcb]; ring

theorem addA3i_z (bI : Int) (h0 : bI ≠ 0) (s : Reg → F) (ex) : run (ringOps F ex) (addA3 bI) s .z = (rcb (-3 : F) (bI : F) ⟨s .x, s .y, s .z⟩ ⟨s .qx, s .qy, s .qz⟩).z := by
  simp only [addA3, mulB, if_neg h0]
  change (let x := s .x; let y := s .y; let z := s .z; let qx := s .qx; let qy := s .qy; let qz := s .qz; let t0 := x; let t1 := y; let t2 := z; let t3 := x; let t4 := qx; let y3 := qx; let x3 := qy; let t0 := t0 * qx; let t1 := t1 * qy; let t2 := t2 * qz; let t3 := t3 + y; let t4 := t4 + qy; let t3 := t3 * t4; let t4 := t0; let t4 := t4 + t1; let t3 := t3 - t4; let t4 := y; let t4 := t4 + z; let x3 := x3 + qz; let t4 := t4 * x3; let x3 := t1; let x3 := x3 + t2; let t4 := t4 - x3; let x3 := x; let x3 := x3 + z; let y3 := y3 + qz; let x3 := x3 * y3; let y3 := t0; let y3 := y3 + t2; let y3 := x3 - y3; let z3 := t2; let z3 := (((bI) : Int) : F) * z3; let x3 := y3; let x3 := x3 - z3; let z3 := x3; let z3 := z3 + x3; let x3 := x3 + z3; let z3 := t1; let z3 := z3 - x3; let x3 := x3 + t1; let y3 := (((bI) : Int) : F) * y3; let t1 := t2; let t1 := t1 + t2; let t2 := t2 + t1; let y3 := y3 - t2; let y3 := y3 - t0; let t1 := y3; let t1 := t1 + y3; let y3 := y3 + t1; let t1 := t0; let t1 := t1 + t0; let t0 := t0 + t1; let t0 := t0 - t2; let t1 := t4; let t1 := t1 * y3; let t2 := t0; let t2 := t2 * y3; let y3 := x3; let y3 := y3 * z3; let y3 := y3 + t2; let x3 := x3 * t3; let x3 := x3 - t1; let z3 := z3 * t4; let t1 := t3; let t1 := t1 * t0; let z3 := z3 + t1; let x := x3; let y := y3; let z := z3; z) = _
  simp only [rcb]; ring

theorem addA0_x (bI : Int) (s : Reg → F) (ex) : run (ringOps F ex) (addA0 bI) s .x = (rcb 0 (bI : F) ⟨s .x, s .y, s .z⟩ ⟨s .qx, s .qy, s .qz⟩).x := by
  change (let x := s .x; let y := s .y; let z := s .z; let qx := s .qx; let qy := s .qy; let qz := s .qz; let t0 := x; let t0 := t0 * qx; let t1 := y; let t1 := t1 * qy; let t2 := z; let t2 := t2 * qz; let t3 := x; let t3 := t3 + y; let t4 := qx; let t4 := t4 + qy; let t3 := t3 * t4; let t4 := t0; let t4 := t4 + t1; let t3 := t3 - t4; let t4 := y; let t4 := t4 + z; let x3 := qy; let x3 := x3 + qz; let t4 := t4 * x3; let x3 := t1; let x3 := x3 + t2; let t4 := t4 - x3; let x3 := x; let x3 := x3 + z; let y3 := qx; let y3 := y3 + qz; let x3 := x3 * y3; let y3 := t0; let y3 := y3 + t2; let y3 := x3 - y3; let x3 := t0; let x3 := x3 + t0; let t0 := t0 + x3; let t2 := ((((3 * bI)) : Int) : F) * t2; let z3 := t1; let z3 := z3 + t2; let t1 := t1 - t2; let y3 := ((((3 * bI)) : Int) : F) * y3; let x3 := y3; let x3 := x3 * t4; let t2 := t3; let t2 := t2 * t1; let x3 := t2 - x3; let y3 := y3 * t0; let t1 := t1 * z3; let y3 := y3 + t1; let t0 := t0 * t3; let z3 := z3 * t4; let z3 := z3 + t0; let x := x3; let y := y3; let z := z3; x) = _
  simp only [rcb]; push_cast; ring

theorem addA0_y (bI : Int) (s : Reg → F) (ex) : run (ringOps F ex) (addA0 bI) s .y = (rcb 0 (bI : F) ⟨s .x, s .y, s .z⟩ ⟨s .qx, s .qy, s .qz⟩).y := by
  change (let x := s .x; let y := s .y; let z := s .z; let qx := s .qx; let qy := s .qy; let qz := s .qz; let t0 := x; let t0 := t0 * qx; let t1 := y; let t1 := t1 * qy; let t2 := z; let t2 := t2 * qz; let t3 := x; let t3 := t3 + y; let t4 := qx; let t4 := t4 + qy; let t3 := t3 * t4; let t4 := t0; let t4 := t4 + t1; let t3 := t3 - t4; let t4 := y; let t4 := t4 + z; let x3 := qy; let x3 := x3 + qz; let t4 := t4 * x3; let x3 := t1; let x3 := x3 + t2; let t4 := t4 - x3; let x3 := x; let x3 := x3 + z; let y3 := qx; let y3 := y3 + qz; let x3 := x3 * y3; let y3 := t0; let y3 := y3 + t2; let y3 := x3 - y3; let x3 := t0; let x3 := x3 + t0; let t0 := t0 + x3; let t2 := ((((3 * bI)) : Int) : F) * t2; let z3 := t1; let z3 := z3 + t2; let t1 := t1 - t2; let y3 := ((((3 * bI)) : Int) : F) * y3; let x3 := y3; let x3 := x3 * t4; let t2 := t3; let t2 := t2 * t1; let x3 := t2 - x3; let y3 := y3 * t0; let t1 := t1 * z3; let y3 := y3 + t1; let t0 := t0 * t3; let z3 := z3 * t4; let z3 := z3 + t0; let x := x3; let y := y3; let z := z3; y) = _
  simp only [rcb]; push_cast; ring

theorem addA0_z (bI : Int) (s : Reg → F) (ex) : run (ringOps F ex) (addA0 bI) s .z = (rcb 0 (bI : F) ⟨s .x, s .y, s .z⟩ ⟨s .qx, s .qy, s .qz⟩).z := by
  change (let x := s .x; let y := s .y; let z := s .z; let qx := s .qx; let qy := s .qy; let qz := s .qz; let t0 := x; let t0 := t0 * qx; let t1 := y; let t1 := t1 * qy; let t2 := z; let t2 := t2 * qz; let t3 := x; let t3 := t3 + y; let t4 := qx; let t4 := t4 + qy; let t3 := t3 * t4; let t4 := t0; let t4 := t4 + t1; let t3 := t3 - t4; let t4 := y; let t4 := t4 + z; let x3 := qy; let x3 := x3 + qz; let t4 := t4 * x3; let x3 := t1; let x3 := x3 + t2; let t4 := t4 - x3; let x3 := x; let x3 := x3 + z; let y3 := qx; let y3 := y3 + qz; let x3 := x3 * y3; let y3 := t0; let y3 := y3 + t2; let y3 := x3 - y3; let x3 := t0; let x3 := x3 + t0; let t0 := t0 + x3; let t2 := ((((3 * bI)) : Int) : F) * t2; let z3 := t1; let z3 := z3 + t2; let t1 := t1 - t2; let y3 := ((((3 * bI)) : Int) : F) * y3; let x3 := y3; let x3 := x3 * t4; let t2 := t3; let t2 := t2 * t1; let x3 := t2 - x3; let y3 := y3 * t0; let t1 := t1 * z3; let y3 := y3 + t1; let t0 := t0 * t3; let z3 := z3 * t4; let z3 := z3 + t0; let x := x3; let y := y3; let z := z3; z) = _
  simp only [rcb]; push_cast; ring

theorem dblEdN_x (s : Reg → F) (ex) : run (ringOps F ex) (dblEd true) s .x = 2 * s .x * s .y * (((-1 : F) * s .x ^ 2 + s .y ^ 2) - 2 * s .z ^ 2) := by
  change (let x := s .x; let y := s .y; let z := s .z; let c := x; let d := y; let h := z; let x := x * y; let x := x + x; let c := c ^ 2; let d := d ^ 2; let c := -c; let y := c; let y := y + d; let h := h ^ 2; let h := h + h; let z := y; let j := y; let j := j - h; let x := x * j; let c := c - d; let y := y * c; let z := z * j; x) = _
  ring

theorem dblEdN_y (s : Reg → F) (ex) : run (ringOps F ex) (dblEd true) s .y = ((-1 : F) * s .x ^ 2 + s .y ^ 2) * ((-1 : F) * s .x ^ 2 - s .y ^ 2) := by
  change (let x := s .x; let y := s .y; let z := s .z; let c := x; let d := y; let h := z; let x := x * y; let x := x + x; let c := c ^ 2; let d := d ^ 2; let c := -c; let y := c; let y := y + d; let h := h ^ 2; let h := h + h; let z := y; let j := y; let j := j - h; let x := x * j; let c := c - d; let y := y * c; let z := z * j; y) = _
  ring

theorem dblEdN_z (s : Reg → F) (ex) : run (ringOps F ex) (dblEd true) s .z = ((-1 : F) * s .x ^ 2 + s .y ^ 2) * (((-1 : F) * s .x ^ 2 + s .y ^ 2) - 2 * s .z ^ 2) := by
  change (let x := s .x; let y := s .y; let z := s .z; let c := x; let d := y; let h := z; let x := x * y; let x := x + x; let c := c ^ 2; let d := d ^ 2; let c := -c; let y := c; let y := y + d; let h := h ^ 2; let h := h + h; let z := y; let j := y; let j := j - h; let x := x * j; let c := c - d; let y := y * c; let z := z * j; z) = _
  ring

theorem dblEdP_x (s : Reg → F) (ex) : run (ringOps F ex) (dblEd false) s .x = 2 * s .x * s .y * (((1 : F) * s .x ^ 2 + s .y ^ 2) - 2 * s .z ^ 2) := by
  change (let x := s .x; let y := s .y; let z := s .z; let c := x; let d := y; let h := z; let x := x * y; let x := x + x; let c := c ^ 2; let d := d ^ 2; let y := c; let y := y + d; let h := h ^ 2; let h := h + h; let z := y; let j := y; let j := j - h; let x := x * j; let c := c - d; let y := y * c; let z := z * j; x) = _
  ring

theorem dblEdP_y (s : Reg → F) (ex) : run (ringOps F ex) (dblEd false) s .y = ((1 : F) * s .x ^ 2 + s .y ^ 2) * ((1 : F) * s .x ^ 2 - s .y ^ 2) := by
  change (let x := s .x; let y := s .y; let z := s .z; let c := x; let d := y; let h := z; let x := x * y; let x := x + x; let c := c ^ 2; let d := d ^ 2; let y := c; let y := y + d; let h := h ^ 2; let h := h + h; let z := y; let j := y; let j := j - h; let x := x * j; let c := c - d; let y := y * c; let z := z * j; y) = _
  ring

theorem dblEdP_z (s : Reg → F) (ex) : run (ringOps F ex) (dblEd false) s .z = ((1 : F) * s .x ^ 2 + s .y ^ 2) * (((1 : F) * s .x ^ 2 + s .y ^ 2) - 2 * s .z ^ 2) := by
  change (let x := s .x; let y := s .y; let z := s .z; let c := x; let d := y; let h := z; let x := x * y; let x := x + x; let c := c ^ 2; let d := d ^ 2; let y := c; let y := y + d; let h := h ^ 2; let h := h + h; let z := y; let j := y; let j := j - h; let x := x * j; let c := c - d; let y := y * c; let z := z * j; z) = _
  ring

theorem addEdN_x (s : Reg → F) (ex) : run (ringOps F ex) (addEd true) s .x = s .z * s .qz * ((s .z * s .qz) ^ 2 - s .bb * (s .x * s .qx) * (s .y * s .qy)) * (s .x * s .qy + s .qx * s .y) := by
  change (let x := s .x; let y := s .y; let z := s .z; let qx := s .qx; let qy := s .qy; let qz := s .qz; let b := s .b; let bb := s .bb; let a := z; let c := x; let d := y; let a := a * qz; let b := a; let b := b ^ 2; let c := c * qx; let d := d * qy; let e := c; let e := e * d; let e := e * bb; let f := b; let f := f - e; let g := b; let g := g + e; let c := c + d; let b := x; let b := b + y; let d := qx; let d := d + qy; let b := b * d; let b := b - c; let b := b * f; let x := a; let x := x * b; let c := c * g; let y := a; let y := y * c; let z := f; let z := z * g; x) = _
  ring

theorem addEdN_y (s : Reg → F) (ex) : run (ringOps F ex) (addEd true) s .y = s .z * s .qz * ((s .z * s .qz) ^ 2 + s .bb * (s .x * s .qx) * (s .y * s .qy)) * (s .y * s .qy - (-1 : F) * (s .x * s .qx)) := by
  change (let x := s .x; let y := s .y; let z := s .z; let qx := s .qx; let qy := s .qy; let qz := s .qz; let b := s .b; let bb := s .bb; let a := z; let c := x; let d := y; let a := a * qz; let b := a; let b := b ^ 2; let c := c * qx; let d := d * qy; let e := c; let e := e * d; let e := e * bb; let f := b; let f := f - e; let g := b; let g := g + e; let c := c + d; let b := x; let b := b + y; let d := qx; let d := d + qy; let b := b * d; let b := b - c; let b := b * f; let x := a; let x := x * b; let c := c * g; let y := a; let y := y * c; let z := f; let z := z * g; y) = _
  ring

theorem addEdN_z (s : Reg → F) (ex) : run (ringOps F ex) (addEd true) s .z = ((s .z * s .qz) ^ 2 - s .bb * (s .x * s .qx) * (s .y * s .qy)) * ((s .z * s .qz) ^ 2 + s .bb * (s .x * s .qx) * (s .y * s .qy)) := by
  change (let x := s .x; let y := s .y; let z := s .z; let qx := s .qx; let qy := s .qy; let qz := s .qz; let b := s .b; let bb := s .bb; let a := z; let c := x; let d := y; let a := a * qz; let b := a; let b := b ^ 2; let c := c * qx; let d := d * qy; let e := c; let e := e * d; let e := e * bb; let f := b; let f := f - e; let g := b; let g := g + e; let c := c + d; let b := x; let b := b + y; let d := qx; let d := d + qy; let b := b * d; let b := b - c; let b := b * f; let x := a; let x := x * b; let c := c * g; let y := a; let y := y * c; let z := f; let z := z * g; z) = _
  ring

theorem addEdP_x (s : Reg → F) (ex) : run (ringOps F ex) (addEd false) s .x = s .z * s .qz * ((s .z * s .qz) ^ 2 - s .bb * (s .x * s .qx) * (s .y * s .qy)) * (s .x * s .qy + s .qx * s .y) := by
  change (let x := s .x; let y := s .y; let z := s .z; let qx := s .qx; let qy := s .qy; let qz := s .qz; let b := s .b; let bb := s .bb; let a := z; let c := x; let d := y; let a := a * qz; let b := a; let b := b ^ 2; let c := c * qx; let d := d * qy; let e := c; let e := e * d; let e := e * bb; let f := b; let f := f - e; let g := b; let g := g + e; let e := d; let e := e - c; let c := c + d; let b := x; let b := b + y; let d := qx; let d := d + qy; let b := b * d; let b := b - c; let b := b * f; let x := a; let x := x * b; let c := e; let c := c * g; let y := a; let y := y * c; let z := f; let z := z * g; x) = _
  ring

theorem addEdP_y (s : Reg → F) (ex) : run (ringOps F ex) (addEd false) s .y = s .z * s .qz * ((s .z * s .qz) ^ 2 + s .bb * (s .x * s .qx) * (s .y * s .qy)) * (s .y * s .qy - (1 : F) * (s .x * s .qx)) := by
  change (let x := s .x; let y := s .y; let z := s .z; let qx := s .qx; let qy := s .qy; let qz := s .qz; let b := s .b; let bb := s .bb; let a := z; let c := x; let d := y; let a := a * qz; let b := a; let b := b ^ 2; let c := c * qx; let d := d * qy; let e := c; let e := e * d; let e := e * bb; let f := b; let f := f - e; let g := b; let g := g + e; let e := d; let e := e - c; let c := c + d; let b := x; let b := b + y; let d := qx; let d := d + qy; let b := b * d; let b := b - c; let b := b * f; let x := a; let x := x * b; let c := e; let c := c * g; let y := a; let y := y * c; let z := f; let z := z * g; y) = _
  ring

theorem addEdP_z (s : Reg → F) (ex) : run (ringOps F ex) (addEd false) s .z = ((s .z * s .qz) ^ 2 - s .bb * (s .x * s .qx) * (s .y * s .qy)) * ((s .z * s .qz) ^ 2 + s .bb * (s .x * s .qx) * (s .y * s .qy)) := by
  change (let x := s .x; let y := s .y; let z := s .z; let qx := s .qx; let qy := s .qy; let qz := s .qz; let b := s .b; let bb := s .bb; let a := z; let c := x; let d := y; let a := a * qz; let b := a; let b := b ^ 2; let c := c * qx; let d := d * qy; let e := c; let e := e * d; let e := e * bb; let f := b; let f := f - e; let g := b; let g := g + e; let e := d; let e := e - c; let c := c + d; let b := x; let b := b + y; let d := qx; let d := d + qy; let b := b * d; let b := b - c; let b := b * f; let x := a; let x := x * b; let c := e; let c := c * g; let y := a; let y := y * c; let z := f; let z := z * g; z) = _
  ring

theorem dblMo_x (a24 : Int) (s : Reg → F) (ex) : run (ringOps F ex) (dblMo a24) s .x = (s .x ^ 2 - s .z ^ 2) ^ 2 := by
  change (let x := s .x; let z := s .z; let b := s .b; let bb := s .bb; let a := x; let b := x; let a := a + z; let aa := a; let aa := aa ^ 2; let b := b - z; let bb := b; let bb := bb ^ 2; let c := aa; let c := c - bb; let x := aa; let x := x * bb; let a := c; let a := ((((a24)) : Int) : F) * a; let bb := bb + a; let z := bb; let z := z * c; x) = _
  ring

theorem dblMo_z (a24 : Int) (s : Reg → F) (ex) : run (ringOps F ex) (dblMo a24) s .z = 4 * s .x * s .z * ((s .x - s .z) ^ 2 + (a24 : F) * (4 * s .x * s .z)) := by
  change (let x := s .x; let z := s .z; let b := s .b; let bb := s .bb; let a := x; let b := x; let a := a + z; let aa := a; let aa := aa ^ 2; let b := b - z; let bb := b; let bb := bb ^ 2; let c := aa; let c := c - bb; let x := aa; let x := x * bb; let a := c; let a := ((((a24)) : Int) : F) * a; let bb := bb + a; let z := bb; let z := z * c; z) = _
  ring

theorem dadd_x (s : Reg → F) (ex) : run (ringOps F ex) daddProg s .x = 4 * (s .x * s .qx - s .z * s .qz) ^ 2 := by
  change (let x := s .x; let z := s .z; let qx := s .qx; let qz := s .qz; let wx := s .wx; let b := s .b; let a := x; let b := x; let c := qx; let d := qx; let a := a + z; let b := b - z; let c := c + qz; let d := d - qz; let da := d; let da := da * a; let cb := c; let cb := cb * b; let a := da; let a := a + cb; let a := a ^ 2; let b := da; let b := b - cb; let b := b ^ 2; let x := a; let z := wx; let z := z * b; x) = _
  ring

theorem dadd_z (s : Reg → F) (ex) : run (ringOps F ex) daddProg s .z = 4 * s .wx * (s .x * s .qz - s .z * s .qx) ^ 2 := by
  change (let x := s .x; let z := s .z; let qx := s .qx; let qz := s .qz; let wx := s .wx; let b := s .b; let a := x; let b := x; let c := qx; let d := qx; let a := a + z; let b := b - z; let c := c + qz; let d := d - qz; let da := d; let da := da * a; let cb := c; let cb := cb * b; let a := da; let a := a + cb; let a := a ^ 2; let b := da; let b := b - cb; let b := b ^ 2; let x := a; let z := wx; let z := z * b; z) = _
  ring

end Verif.Ecp
