import Verif.Ecp.Formulas
import Verif.Prog.Field
/- Laziness of the intermediate values of the point formulas: every limb stays within a word. -/
namespace Verif.Ecp
open Verif.Prog

/-- counters at the start: ordinates may be un-normalised negations -/
def absInit : Reg → Nat × Nat
  | .y => (1, 1) | .qy => (1, 1) | _ => (0, 1)

def absOut (t : Option (Reg → Nat × Nat)) : Option ((Nat × Nat) × (Nat × Nat) × (Nat × Nat)) := t.map fun t => (t .x, t .y, t .z)

theorem abs_dblA0 (bI : Int) : absOut (absRun fpAbs (dblA0 bI) absInit) = some ((0, 1), (0, 1), (0, 1)) := by rfl
theorem abs_addA0 (bI : Int) : absOut (absRun fpAbs (addA0 bI) absInit) = some ((0, 1), (0, 1), (0, 1)) := by rfl
theorem abs_dblA3 (bI : Int) : absOut (absRun fpAbs (dblA3 bI) absInit) = some ((0, 1), (0, 1), (0, 1)) := by
  by_cases h : bI = 0
  · subst h; rfl
  · simp only [dblA3, mulB, if_neg h]; rfl
theorem abs_addA3 (bI : Int) : absOut (absRun fpAbs (addA3 bI) absInit) = some ((0, 1), (0, 1), (0, 1)) := by
  by_cases h : bI = 0
  · subst h; rfl
  · simp only [addA3, mulB, if_neg h]; rfl
theorem abs_dblEd (n : Bool) : absOut (absRun fpAbs (dblEd n) absInit) = some ((0, 1), (0, 1), (0, 1)) := by cases n <;> rfl
theorem abs_addEd (n : Bool) : absOut (absRun fpAbs (addEd n) absInit) = some ((0, 1), (0, 1), (0, 1)) := by cases n <;> rfl
theorem abs_dblMo (a : Int) : absOut (absRun fpAbs (dblMo a) absInit) = some ((0, 1), (1, 1), (0, 1)) := by rfl
theorem abs_dadd : absOut (absRun fpAbs daddProg absInit) = some ((0, 1), (1, 1), (0, 1)) := by rfl

end Verif.Ecp
