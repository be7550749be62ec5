import Verif.Spec.Sswu
import Mathlib.Tactic.Ring
import Mathlib.Tactic.LinearCombination
/- Polynomials given by lists of coefficients, over numerals that stand for field elements. -/
namespace Verif.ListPoly
open Spec.Sswu

/-- arithmetic on numerals -/
structure NumOps (E : Type) where
  add : E → E → E
  mul : E → E → E
  zero : E

/-- arithmetic on numerals and what they stand for -/
structure Num (E F : Type) [Field F] extends NumOps E where
  φ : E → F
  hadd : ∀ a b, φ (add a b) = φ a + φ b
  hmul : ∀ a b, φ (mul a b) = φ a * φ b
  hzero : φ zero = 0

section
variable {E : Type} (N : NumOps E)

def addL : List E → List E → List E
  | [], m => m
  | l, [] => l
  | a :: l, b :: m => N.add a b :: addL l m

def mulL : List E → List E → List E
  | [], _ => []
  | a :: l, m => addL N (m.map (N.mul a)) (N.zero :: mulL l m)

/-- equality up to trailing zeros -/
def eqL [DecidableEq E] : List E → List E → Bool
  | [], m => m.all fun b => decide (b = N.zero)
  | a :: l, [] => decide (a = N.zero) && eqL l []
  | a :: l, b :: m => decide (a = b) && eqL l m

/-- certificate that `(xn / xd, y yn / yd)` maps `y^2 = g(x)` to `y^2 = x^3 + b`, with `yd^2 = xd^3` -/
def isoB [DecidableEq E] (g xn xd yn yd b : List E) : Bool :=
  let xd3 := mulL N xd (mulL N xd xd)
  eqL N (mulL N yd yd) xd3 && eqL N (mulL N g (mulL N yn yn)) (addL N (mulL N xn (mulL N xn xn)) (mulL N b xd3))

end

variable {E F : Type} [Field F] (N : Num E F)

def evl (x : F) (l : List E) : F := ev x (l.map N.φ)

theorem evl_add (x : F) (l m : List E) : evl N x (addL N.toNumOps l m) = evl N x l + evl N x m := by
  induction l generalizing m with
  | nil => simp [addL, evl, ev]
  | cons a l ih =>
    cases m with
    | nil => simp [addL, evl, ev]
    | cons b m =>
      have := ih m
      simp only [addL, evl, List.map_cons, ev, N.hadd] at this ⊢
      rw [this]; ring

theorem evl_scale (x : F) (a : E) (m : List E) : evl N x (m.map (N.mul a)) = N.φ a * evl N x m := by
  induction m with
  | nil => simp [evl, ev]
  | cons b m ih =>
    simp only [evl, List.map_cons, ev, N.hmul] at ih ⊢
    rw [ih]; ring

theorem evl_mul (x : F) (l m : List E) : evl N x (mulL N.toNumOps l m) = evl N x l * evl N x m := by
  induction l with
  | nil => simp [mulL, evl, ev]
  | cons a l ih =>
    rw [mulL, evl_add, evl_scale]
    simp only [evl, List.map_cons, ev, N.hzero] at ih ⊢
    rw [ih]; ring

variable [DecidableEq E]

theorem evl_zero (x : F) : ∀ m : List E, (m.all fun b => decide (b = N.zero)) = true → evl N x m = 0
  | [], _ => rfl
  | b :: m, h => by
    simp only [List.all_cons, Bool.and_eq_true, decide_eq_true_eq] at h
    have := evl_zero x m h.2
    simp only [evl, List.map_cons, ev] at this ⊢
    rw [this, h.1, N.hzero]; ring

theorem eqL_sound (x : F) : ∀ l m : List E, eqL N.toNumOps l m = true → evl N x l = evl N x m
  | [], m, h => (evl_zero N x m h).symm
  | a :: l, [], h => by
    simp only [eqL, Bool.and_eq_true, decide_eq_true_eq] at h
    have := eqL_sound x l [] h.2
    simp only [evl, List.map_cons, List.map_nil, ev] at this ⊢
    rw [this, h.1, N.hzero]; ring
  | a :: l, b :: m, h => by
    simp only [eqL, Bool.and_eq_true, decide_eq_true_eq] at h
    have := eqL_sound x l m h.2
    simp only [evl, List.map_cons, ev] at this ⊢
    rw [this, h.1]

theorem isoB_sound {g xn xd yn yd b : List E} (h : isoB N.toNumOps g xn xd yn yd b = true) (x : F) :
    evl N x yd ^ 2 = evl N x xd ^ 3 ∧ evl N x g * evl N x yn ^ 2 = evl N x xn ^ 3 + evl N x b * evl N x xd ^ 3 := by
  unfold isoB at h
  simp only [Bool.and_eq_true] at h
  have h1 := eqL_sound N x _ _ h.1
  have h2 := eqL_sound N x _ _ h.2
  simp only [evl_mul, evl_add] at h1 h2
  exact ⟨by linear_combination h1, by linear_combination h2⟩
end Verif.ListPoly
