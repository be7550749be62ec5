import Verif.Ecp2.Formulas
import Verif.Ecp.Weier
import Verif.Prog.Field
/-
What the programs of `Ecp2/Formulas.lean` compute in a field, as closed expressions.  The intermediate
`let` chains restate the programs; the kernel checks that running the program gives the chain.
-/
namespace Verif.Ecp2
open Verif.Prog Verif.Curve
set_option linter.unusedVariables false
set_option maxRecDepth 4000
set_option linter.unusedSimpArgs false
set_option linter.unusedTactic false
set_option linter.unreachableTactic false
variable {F : Type} [Field F] {B X : F}

theorem dblM_x (bI : Int) (s : Reg → F) (ex) (bn) (hex : ∀ v, ex 0 v = v * X) (hB : B = bI * X) :
    run (ringOps F ex bn) (dblP true bI) s .x = (2 * s .x * s .y * (s .y ^ 2 - 9 * B * s .z ^ 2)) := by
  change (let x := s .x; let y := s .y; let z := s .z; let iy := y; let t0 := y; let t0 := t0 ^ 2; let t1 := iy; let t1 := t1 * z; let t2 := z; let t2 := t2 ^ 2; let z := t0; let z := z + t0; let z := z + z; let z := z + z; let t2 := ((((3 * bI)) : Int) : F) * t2; let t2 := ex 0 t2; let x3 := t2; let x3 := x3 * z; let y3 := t0; let y3 := y3 + t2; let z := z * t1; let t1 := t2; let t1 := t1 + t2; let t2 := t2 + t1; let t0 := t0 - t2; let y3 := y3 * t0; let y3 := y3 + x3; let t1 := x; let t1 := t1 * iy; let x := t0; let x := x * t1; let x := x + x; let y := y3; x) = _
  simp only [hex, hB, rcb]; push_cast; ring

theorem dblM_y (bI : Int) (s : Reg → F) (ex) (bn) (hex : ∀ v, ex 0 v = v * X) (hB : B = bI * X) :
    run (ringOps F ex bn) (dblP true bI) s .y = ((s .y ^ 2 - 9 * B * s .z ^ 2) * (s .y ^ 2 + 3 * B * s .z ^ 2) + 24 * B * s .y ^ 2 * s .z ^ 2) := by
  change (let x := s .x; let y := s .y; let z := s .z; let iy := y; let t0 := y; let t0 := t0 ^ 2; let t1 := iy; let t1 := t1 * z; let t2 := z; let t2 := t2 ^ 2; let z := t0; let z := z + t0; let z := z + z; let z := z + z; let t2 := ((((3 * bI)) : Int) : F) * t2; let t2 := ex 0 t2; let x3 := t2; let x3 := x3 * z; let y3 := t0; let y3 := y3 + t2; let z := z * t1; let t1 := t2; let t1 := t1 + t2; let t2 := t2 + t1; let t0 := t0 - t2; let y3 := y3 * t0; let y3 := y3 + x3; let t1 := x; let t1 := t1 * iy; let x := t0; let x := x * t1; let x := x + x; let y := y3; y) = _
  simp only [hex, hB, rcb]; push_cast; ring

theorem dblM_z (bI : Int) (s : Reg → F) (ex) (bn) (hex : ∀ v, ex 0 v = v * X) (hB : B = bI * X) :
    run (ringOps F ex bn) (dblP true bI) s .z = (8 * s .y ^ 3 * s .z) := by
  change (let x := s .x; let y := s .y; let z := s .z; let iy := y; let t0 := y; let t0 := t0 ^ 2; let t1 := iy; let t1 := t1 * z; let t2 := z; let t2 := t2 ^ 2; let z := t0; let z := z + t0; let z := z + z; let z := z + z; let t2 := ((((3 * bI)) : Int) : F) * t2; let t2 := ex 0 t2; let x3 := t2; let x3 := x3 * z; let y3 := t0; let y3 := y3 + t2; let z := z * t1; let t1 := t2; let t1 := t1 + t2; let t2 := t2 + t1; let t0 := t0 - t2; let y3 := y3 * t0; let y3 := y3 + x3; let t1 := x; let t1 := t1 * iy; let x := t0; let x := x * t1; let x := x + x; let y := y3; z) = _
  simp only [hex, hB, rcb]; push_cast; ring

theorem addM_x (bI : Int) (s : Reg → F) (ex) (bn) (hex : ∀ v, ex 0 v = v * X) (hB : B = bI * X) :
    run (ringOps F ex bn) (addP true bI) s .x = (rcb 0 B ⟨s .x, s .y, s .z⟩ ⟨s .qx, s .qy, s .qz⟩).x := by
  change (let x := s .x; let y := s .y; let z := s .z; let qx := s .qx; let qy := s .qy; let qz := s .qz; let t0 := x; let t0 := t0 * qx; let t1 := y; let t1 := t1 * qy; let t2 := z; let t2 := t2 * qz; let t3 := x; let t3 := t3 + y; let t4 := qx; let t4 := t4 + qy; let t3 := t3 * t4; let t4 := t0; let t4 := t4 + t1; let t3 := t3 - t4; let t4 := y; let t4 := t4 + z; let x3 := qy; let x3 := x3 + qz; let t4 := t4 * x3; let x3 := t1; let x3 := x3 + t2; let t4 := t4 - x3; let x3 := x; let x3 := x3 + z; let y3 := qx; let y3 := y3 + qz; let x3 := x3 * y3; let y3 := t0; let y3 := y3 + t2; let y3 := x3 - y3; let x3 := t0; let x3 := x3 + t0; let t0 := t0 + x3; let t2 := ((((3 * bI)) : Int) : F) * t2; let t2 := ex 0 t2; let z3 := t1; let z3 := z3 + t2; let t1 := t1 - t2; let y3 := ((((3 * bI)) : Int) : F) * y3; let y3 := ex 0 y3; let x3 := y3; let x3 := x3 * t4; let t2 := t3; let t2 := t2 * t1; let x3 := t2 - x3; let y3 := y3 * t0; let t1 := t1 * z3; let y3 := y3 + t1; let t0 := t0 * t3; let z3 := z3 * t4; let z3 := z3 + t0; let x := x3; let y := y3; let z := z3; x) = _
  simp only [hex, hB, rcb]; push_cast; ring

theorem addM_y (bI : Int) (s : Reg → F) (ex) (bn) (hex : ∀ v, ex 0 v = v * X) (hB : B = bI * X) :
    run (ringOps F ex bn) (addP true bI) s .y = (rcb 0 B ⟨s .x, s .y, s .z⟩ ⟨s .qx, s .qy, s .qz⟩).y := by
  change (let x := s .x; let y := s .y; let z := s .z; let qx := s .qx; let qy := s .qy; let qz := s .qz; let t0 := x; let t0 := t0 * qx; let t1 := y; let t1 := t1 * qy; let t2 := z; let t2 := t2 * qz; let t3 := x; let t3 := t3 + y; let t4 := qx; let t4 := t4 + qy; let t3 := t3 * t4; let t4 := t0; let t4 := t4 + t1; let t3 := t3 - t4; let t4 := y; let t4 := t4 + z; let x3 := qy; let x3 := x3 + qz; let t4 := t4 * x3; let x3 := t1; let x3 := x3 + t2; let t4 := t4 - x3; let x3 := x; let x3 := x3 + z; let y3 := qx; let y3 := y3 + qz; let x3 := x3 * y3; let y3 := t0; let y3 := y3 + t2; let y3 := x3 - y3; let x3 := t0; let x3 := x3 + t0; let t0 := t0 + x3; let t2 := ((((3 * bI)) : Int) : F) * t2; let t2 := ex 0 t2; let z3 := t1; let z3 := z3 + t2; let t1 := t1 - t2; let y3 := ((((3 * bI)) : Int) : F) * y3; let y3 := ex 0 y3; let x3 := y3; let x3 := x3 * t4; let t2 := t3; let t2 := t2 * t1; let x3 := t2 - x3; let y3 := y3 * t0; let t1 := t1 * z3; let y3 := y3 + t1; let t0 := t0 * t3; let z3 := z3 * t4; let z3 := z3 + t0; let x := x3; let y := y3; let z := z3; y) = _
  simp only [hex, hB, rcb]; push_cast; ring

theorem addM_z (bI : Int) (s : Reg → F) (ex) (bn) (hex : ∀ v, ex 0 v = v * X) (hB : B = bI * X) :
    run (ringOps F ex bn) (addP true bI) s .z = (rcb 0 B ⟨s .x, s .y, s .z⟩ ⟨s .qx, s .qy, s .qz⟩).z := by
  change (let x := s .x; let y := s .y; let z := s .z; let qx := s .qx; let qy := s .qy; let qz := s .qz; let t0 := x; let t0 := t0 * qx; let t1 := y; let t1 := t1 * qy; let t2 := z; let t2 := t2 * qz; let t3 := x; let t3 := t3 + y; let t4 := qx; let t4 := t4 + qy; let t3 := t3 * t4; let t4 := t0; let t4 := t4 + t1; let t3 := t3 - t4; let t4 := y; let t4 := t4 + z; let x3 := qy; let x3 := x3 + qz; let t4 := t4 * x3; let x3 := t1; let x3 := x3 + t2; let t4 := t4 - x3; let x3 := x; let x3 := x3 + z; let y3 := qx; let y3 := y3 + qz; let x3 := x3 * y3; let y3 := t0; let y3 := y3 + t2; let y3 := x3 - y3; let x3 := t0; let x3 := x3 + t0; let t0 := t0 + x3; let t2 := ((((3 * bI)) : Int) : F) * t2; let t2 := ex 0 t2; let z3 := t1; let z3 := z3 + t2; let t1 := t1 - t2; let y3 := ((((3 * bI)) : Int) : F) * y3; let y3 := ex 0 y3; let x3 := y3; let x3 := x3 * t4; let t2 := t3; let t2 := t2 * t1; let x3 := t2 - x3; let y3 := y3 * t0; let t1 := t1 * z3; let y3 := y3 + t1; let t0 := t0 * t3; let z3 := z3 * t4; let z3 := z3 + t0; let x := x3; let y := y3; let z := z3; z) = _
  simp only [hex, hB, rcb]; push_cast; ring

theorem dblD_x (bI : Int) (s : Reg → F) (ex) (bn) (hex : ∀ v, ex 0 v = v * X) (hB : (bI : F) = B * X) :
    run (ringOps F ex bn) (dblP false bI) s .x = (2 * s .x * s .y * (s .y ^ 2 - 9 * B * s .z ^ 2)) * X ^ 2 := by
  change (let x := s .x; let y := s .y; let z := s .z; let iy := y; let iy := ex 0 iy; let t0 := y; let t0 := t0 ^ 2; let t0 := ex 0 t0; let t1 := iy; let t1 := t1 * z; let t2 := z; let t2 := t2 ^ 2; let z := t0; let z := z + t0; let z := z + z; let z := z + z; let t2 := ((((3 * bI)) : Int) : F) * t2; let x3 := t2; let x3 := x3 * z; let y3 := t0; let y3 := y3 + t2; let z := z * t1; let t1 := t2; let t1 := t1 + t2; let t2 := t2 + t1; let t0 := t0 - t2; let y3 := y3 * t0; let y3 := y3 + x3; let t1 := x; let t1 := t1 * iy; let x := t0; let x := x * t1; let x := x + x; let y := y3; x) = _
  simp only [hex, rcb]; push_cast; try rw [hB]
  ring

theorem dblD_y (bI : Int) (s : Reg → F) (ex) (bn) (hex : ∀ v, ex 0 v = v * X) (hB : (bI : F) = B * X) :
    run (ringOps F ex bn) (dblP false bI) s .y = ((s .y ^ 2 - 9 * B * s .z ^ 2) * (s .y ^ 2 + 3 * B * s .z ^ 2) + 24 * B * s .y ^ 2 * s .z ^ 2) * X ^ 2 := by
  change (let x := s .x; let y := s .y; let z := s .z; let iy := y; let iy := ex 0 iy; let t0 := y; let t0 := t0 ^ 2; let t0 := ex 0 t0; let t1 := iy; let t1 := t1 * z; let t2 := z; let t2 := t2 ^ 2; let z := t0; let z := z + t0; let z := z + z; let z := z + z; let t2 := ((((3 * bI)) : Int) : F) * t2; let x3 := t2; let x3 := x3 * z; let y3 := t0; let y3 := y3 + t2; let z := z * t1; let t1 := t2; let t1 := t1 + t2; let t2 := t2 + t1; let t0 := t0 - t2; let y3 := y3 * t0; let y3 := y3 + x3; let t1 := x; let t1 := t1 * iy; let x := t0; let x := x * t1; let x := x + x; let y := y3; y) = _
  simp only [hex, rcb]; push_cast; try rw [hB]
  ring

theorem dblD_z (bI : Int) (s : Reg → F) (ex) (bn) (hex : ∀ v, ex 0 v = v * X) (hB : (bI : F) = B * X) :
    run (ringOps F ex bn) (dblP false bI) s .z = (8 * s .y ^ 3 * s .z) * X ^ 2 := by
  change (let x := s .x; let y := s .y; let z := s .z; let iy := y; let iy := ex 0 iy; let t0 := y; let t0 := t0 ^ 2; let t0 := ex 0 t0; let t1 := iy; let t1 := t1 * z; let t2 := z; let t2 := t2 ^ 2; let z := t0; let z := z + t0; let z := z + z; let z := z + z; let t2 := ((((3 * bI)) : Int) : F) * t2; let x3 := t2; let x3 := x3 * z; let y3 := t0; let y3 := y3 + t2; let z := z * t1; let t1 := t2; let t1 := t1 + t2; let t2 := t2 + t1; let t0 := t0 - t2; let y3 := y3 * t0; let y3 := y3 + x3; let t1 := x; let t1 := t1 * iy; let x := t0; let x := x * t1; let x := x + x; let y := y3; z) = _
  simp only [hex, rcb]; push_cast; try rw [hB]
  ring

theorem addD_x (bI : Int) (s : Reg → F) (ex) (bn) (hex : ∀ v, ex 0 v = v * X) (hB : (bI : F) = B * X) :
    run (ringOps F ex bn) (addP false bI) s .x = (rcb 0 B ⟨s .x, s .y, s .z⟩ ⟨s .qx, s .qy, s .qz⟩).x * X ^ 2 := by
  change (let x := s .x; let y := s .y; let z := s .z; let qx := s .qx; let qy := s .qy; let qz := s .qz; let t0 := x; let t0 := t0 * qx; let t1 := y; let t1 := t1 * qy; let t2 := z; let t2 := t2 * qz; let t3 := x; let t3 := t3 + y; let t4 := qx; let t4 := t4 + qy; let t3 := t3 * t4; let t4 := t0; let t4 := t4 + t1; let t3 := t3 - t4; let t3 := ex 0 t3; let t4 := y; let t4 := t4 + z; let x3 := qy; let x3 := x3 + qz; let t4 := t4 * x3; let x3 := t1; let x3 := x3 + t2; let t4 := t4 - x3; let t4 := ex 0 t4; let x3 := x; let x3 := x3 + z; let y3 := qx; let y3 := y3 + qz; let x3 := x3 * y3; let y3 := t0; let y3 := y3 + t2; let y3 := x3 - y3; let t0 := ex 0 t0; let t1 := ex 0 t1; let x3 := t0; let x3 := x3 + t0; let t0 := t0 + x3; let t2 := ((((3 * bI)) : Int) : F) * t2; let z3 := t1; let z3 := z3 + t2; let t1 := t1 - t2; let y3 := ((((3 * bI)) : Int) : F) * y3; let x3 := y3; let x3 := x3 * t4; let t2 := t3; let t2 := t2 * t1; let x3 := t2 - x3; let y3 := y3 * t0; let t1 := t1 * z3; let y3 := y3 + t1; let t0 := t0 * t3; let z3 := z3 * t4; let z3 := z3 + t0; let x := x3; let y := y3; let z := z3; x) = _
  simp only [hex, rcb]; push_cast; try rw [hB]
  ring

theorem addD_y (bI : Int) (s : Reg → F) (ex) (bn) (hex : ∀ v, ex 0 v = v * X) (hB : (bI : F) = B * X) :
    run (ringOps F ex bn) (addP false bI) s .y = (rcb 0 B ⟨s .x, s .y, s .z⟩ ⟨s .qx, s .qy, s .qz⟩).y * X ^ 2 := by
  change (let x := s .x; let y := s .y; let z := s .z; let qx := s .qx; let qy := s .qy; let qz := s .qz; let t0 := x; let t0 := t0 * qx; let t1 := y; let t1 := t1 * qy; let t2 := z; let t2 := t2 * qz; let t3 := x; let t3 := t3 + y; let t4 := qx; let t4 := t4 + qy; let t3 := t3 * t4; let t4 := t0; let t4 := t4 + t1; let t3 := t3 - t4; let t3 := ex 0 t3; let t4 := y; let t4 := t4 + z; let x3 := qy; let x3 := x3 + qz; let t4 := t4 * x3; let x3 := t1; let x3 := x3 + t2; let t4 := t4 - x3; let t4 := ex 0 t4; let x3 := x; let x3 := x3 + z; let y3 := qx; let y3 := y3 + qz; let x3 := x3 * y3; let y3 := t0; let y3 := y3 + t2; let y3 := x3 - y3; let t0 := ex 0 t0; let t1 := ex 0 t1; let x3 := t0; let x3 := x3 + t0; let t0 := t0 + x3; let t2 := ((((3 * bI)) : Int) : F) * t2; let z3 := t1; let z3 := z3 + t2; let t1 := t1 - t2; let y3 := ((((3 * bI)) : Int) : F) * y3; let x3 := y3; let x3 := x3 * t4; let t2 := t3; let t2 := t2 * t1; let x3 := t2 - x3; let y3 := y3 * t0; let t1 := t1 * z3; let y3 := y3 + t1; let t0 := t0 * t3; let z3 := z3 * t4; let z3 := z3 + t0; let x := x3; let y := y3; let z := z3; y) = _
  simp only [hex, rcb]; push_cast; try rw [hB]
  ring

theorem addD_z (bI : Int) (s : Reg → F) (ex) (bn) (hex : ∀ v, ex 0 v = v * X) (hB : (bI : F) = B * X) :
    run (ringOps F ex bn) (addP false bI) s .z = (rcb 0 B ⟨s .x, s .y, s .z⟩ ⟨s .qx, s .qy, s .qz⟩).z * X ^ 2 := by
  change (let x := s .x; let y := s .y; let z := s .z; let qx := s .qx; let qy := s .qy; let qz := s .qz; let t0 := x; let t0 := t0 * qx; let t1 := y; let t1 := t1 * qy; let t2 := z; let t2 := t2 * qz; let t3 := x; let t3 := t3 + y; let t4 := qx; let t4 := t4 + qy; let t3 := t3 * t4; let t4 := t0; let t4 := t4 + t1; let t3 := t3 - t4; let t3 := ex 0 t3; let t4 := y; let t4 := t4 + z; let x3 := qy; let x3 := x3 + qz; let t4 := t4 * x3; let x3 := t1; let x3 := x3 + t2; let t4 := t4 - x3; let t4 := ex 0 t4; let x3 := x; let x3 := x3 + z; let y3 := qx; let y3 := y3 + qz; let x3 := x3 * y3; let y3 := t0; let y3 := y3 + t2; let y3 := x3 - y3; let t0 := ex 0 t0; let t1 := ex 0 t1; let x3 := t0; let x3 := x3 + t0; let t0 := t0 + x3; let t2 := ((((3 * bI)) : Int) : F) * t2; let z3 := t1; let z3 := z3 + t2; let t1 := t1 - t2; let y3 := ((((3 * bI)) : Int) : F) * y3; let x3 := y3; let x3 := x3 * t4; let t2 := t3; let t2 := t2 * t1; let x3 := t2 - x3; let y3 := y3 * t0; let t1 := t1 * z3; let y3 := y3 + t1; let t0 := t0 * t3; let z3 := z3 * t4; let z3 := z3 + t0; let x := x3; let y := y3; let z := z3; z) = _
  simp only [hex, rcb]; push_cast; try rw [hB]
  ring

end Verif.Ecp2
