import Mathlib.Algebra.QuadraticAlgebra.Basic
import Mathlib.Data.ZMod.Basic
import Mathlib.Algebra.Field.ZMod
import Mathlib.Tactic.Ring
import Verif.Spec.Field
import Verif.Tower.Model12
/-
The rings that `fp2.rs`, `fp4.rs`, `fp12.rs` claim to implement, and which ring element a stored value denotes.
-/
namespace Verif.Tower
open Verif.Fp

/-- `Z/p[i]`, `i² = -1` -/
abbrev F2 (p : Nat) := QuadraticAlgebra (ZMod p) (-1) 0
/-- `1 + i` -/
abbrev xi (p : Nat) : F2 p := ⟨1, 1⟩
/-- `F2[w]`, `w² = 1 + i` -/
abbrev F4 (p : Nat) := QuadraticAlgebra (F2 p) (xi p) 0
/-- `w` -/
abbrev om (p : Nat) : F4 p := ⟨0, 1⟩

/-- `R[v]`, `v³ = β`: elements `a + b v + c v²` -/
@[ext] structure CubicAlgebra (R : Type) (β : R) where
  a : R
  b : R
  c : R

namespace CubicAlgebra
variable {R : Type} [CommRing R] {β : R}
instance : Zero (CubicAlgebra R β) := ⟨⟨0, 0, 0⟩⟩
instance : One (CubicAlgebra R β) := ⟨⟨1, 0, 0⟩⟩
instance : Add (CubicAlgebra R β) := ⟨fun x y => ⟨x.a + y.a, x.b + y.b, x.c + y.c⟩⟩
instance : Neg (CubicAlgebra R β) := ⟨fun x => ⟨-x.a, -x.b, -x.c⟩⟩
instance : Sub (CubicAlgebra R β) := ⟨fun x y => ⟨x.a - y.a, x.b - y.b, x.c - y.c⟩⟩
/-- `(a + b v + c v²)(a' + b' v + c' v²)` with `v³ = β` -/
instance : Mul (CubicAlgebra R β) := ⟨fun x y =>
  ⟨x.a * y.a + β * (x.b * y.c + x.c * y.b), x.a * y.b + x.b * y.a + β * (x.c * y.c), x.a * y.c + x.b * y.b + x.c * y.a⟩⟩
@[simp] theorem zero_a : (0 : CubicAlgebra R β).a = 0 := rfl
@[simp] theorem zero_b : (0 : CubicAlgebra R β).b = 0 := rfl
@[simp] theorem zero_c : (0 : CubicAlgebra R β).c = 0 := rfl
@[simp] theorem one_a : (1 : CubicAlgebra R β).a = 1 := rfl
@[simp] theorem one_b : (1 : CubicAlgebra R β).b = 0 := rfl
@[simp] theorem one_c : (1 : CubicAlgebra R β).c = 0 := rfl
@[simp] theorem add_a (x y : CubicAlgebra R β) : (x + y).a = x.a + y.a := rfl
@[simp] theorem add_b (x y : CubicAlgebra R β) : (x + y).b = x.b + y.b := rfl
@[simp] theorem add_c (x y : CubicAlgebra R β) : (x + y).c = x.c + y.c := rfl
@[simp] theorem neg_a (x : CubicAlgebra R β) : (-x).a = -x.a := rfl
@[simp] theorem neg_b (x : CubicAlgebra R β) : (-x).b = -x.b := rfl
@[simp] theorem neg_c (x : CubicAlgebra R β) : (-x).c = -x.c := rfl
@[simp] theorem sub_a (x y : CubicAlgebra R β) : (x - y).a = x.a - y.a := rfl
@[simp] theorem sub_b (x y : CubicAlgebra R β) : (x - y).b = x.b - y.b := rfl
@[simp] theorem sub_c (x y : CubicAlgebra R β) : (x - y).c = x.c - y.c := rfl
@[simp] theorem mul_a (x y : CubicAlgebra R β) : (x * y).a = x.a * y.a + β * (x.b * y.c + x.c * y.b) := rfl
@[simp] theorem mul_b (x y : CubicAlgebra R β) : (x * y).b = x.a * y.b + x.b * y.a + β * (x.c * y.c) := rfl
@[simp] theorem mul_c (x y : CubicAlgebra R β) : (x * y).c = x.a * y.c + x.b * y.b + x.c * y.a := rfl
instance : CommRing (CubicAlgebra R β) where
  add_assoc x y z := by ext <;> simp [add_assoc]
  zero_add x := by ext <;> simp
  add_zero x := by ext <;> simp
  add_comm x y := by ext <;> simp [add_comm]
  neg_add_cancel x := by ext <;> simp
  sub_eq_add_neg x y := by ext <;> simp [sub_eq_add_neg]
  mul_assoc x y z := by ext <;> simp <;> ring
  one_mul x := by ext <;> simp
  mul_one x := by ext <;> simp
  zero_mul x := by ext <;> simp
  mul_zero x := by ext <;> simp
  left_distrib x y z := by ext <;> simp <;> ring
  right_distrib x y z := by ext <;> simp <;> ring
  mul_comm x y := by ext <;> simp <;> ring
  nsmul := nsmulRec
  zsmul := zsmulRec
/-- the generator `v` satisfies its equation: this ring is `R[v]/(v³ - β)` -/
theorem v_cubed : (⟨0, 1, 0⟩ : CubicAlgebra R β) ^ 3 = ⟨β, 0, 0⟩ := by
  rw [pow_succ, pow_succ, pow_one]; ext <;> simp
end CubicAlgebra

/-- `F4[v]`, `v³ = w` -/
abbrev F12 (p : Nat) := CubicAlgebra (F4 p) (om p)

variable {C : Nat}
/-- `a` is a normalised legal representative of `v`, with excess counter at most `K` -/
def Std (P : Params C) (p K : Nat) (a : Fp C) (v : ZMod p) : Prop := Elem P p 0 1 a v ∧ a.xes ≤ K
/-- the same for the two components of an `FP2` -/
def Std2 (P : Params C) (p K : Nat) (x : Fp2 C) (v : F2 p) : Prop := Std P p K x.a v.re ∧ Std P p K x.b v.im
/-- the same for the four components of an `FP4` -/
def Std4 (P : Params C) (p K : Nat) (x : Fp4 C) (v : F4 p) : Prop := Std2 P p K x.a v.re ∧ Std2 P p K x.b v.im
/-- the same for the twelve components of an `FP12` -/
def Std12 (P : Params C) (p K : Nat) (x : Fp12 C) (v : F12 p) : Prop := Std4 P p K x.a v.a ∧ Std4 P p K x.b v.b ∧ Std4 P p K x.c v.c

/-- What a sparsity tag promises: 0 the element 0, 1 the element 1, 2 ("sparser") and 3 ("sparse") that the components the
line functions of the twist leave out are zero, 4 nothing.  `mt`: the twist is M-type. -/
def Tagged {p : Nat} (mt : Bool) (t : Nat) (v : F12 p) : Prop :=
  t = 0 ∧ v = 0 ∨ t = 1 ∧ v = 1 ∨ (t = 2 ∧ if mt then v.b = 0 ∧ v.c.re = 0 else v.b.im = 0 ∧ v.c = 0) ∨
    (t = 3 ∧ if mt then v.b.re = 0 else v.c.im = 0) ∨ t = 4

/-- the element a stored `FP2` denotes -/
def val2 (P : Params C) (p : Nat) (x : Fp2 C) : F2 p := ⟨residue P p x.a, residue P p x.b⟩
/-- the element a stored `FP4` denotes -/
def val4 (P : Params C) (p : Nat) (x : Fp4 C) : F4 p := ⟨val2 P p x.a, val2 P p x.b⟩
/-- the element a stored `FP12` denotes -/
def val12 (P : Params C) (p : Nat) (x : Fp12 C) : F12 p := ⟨val4 P p x.a, val4 P p x.b, val4 P p x.c⟩
end Verif.Tower
