import Verif.Ate.Opt
import Verif.Pair.Cert2
/-
Arithmetic of the extension of degree 12 on tuples of residues, fast enough for the kernel.
-/
namespace Verif.Ate
open Verif.Big Verif.Fp Verif.Rom Verif.Curve Verif.Tower Verif.Ecp Verif.Ecp2 Verif.Pair Verif.Gt Spec WeierstrassCurve

abbrev N2 := Nat × Nat
abbrev N4 := N2 × N2
abbrev N12 := N4 × N4 × N4

/-- evaluate all components -/
def force12 {α : Type} (x : N12) (k : N12 → α) : α :=
  match x with
  | (((a, b), (c, d)), ((e, f), (g, h)), ((i, j), (l, m))) =>
    force a fun a => force b fun b => force c fun c => force d fun d => force e fun e => force f fun f => force g fun g => force h fun h =>
    force i fun i => force j fun j => force l fun l => force m fun m => k (((a, b), (c, d)), ((e, f), (g, h)), ((i, j), (l, m)))

theorem force12_eq {α : Type} (x : N12) (k : N12 → α) : force12 x k = k x := by
  obtain ⟨⟨⟨a, b⟩, c, d⟩, ⟨⟨e, f⟩, g, h⟩, ⟨i, j⟩, l, m⟩ := x
  simp only [force12, force_eq]

/-- times `1 + i` -/
def xiP (p : Nat) (x : N2) : N2 := force2 x fun x => ((x.1 + (p - x.2 % p)) % p, (x.1 + x.2) % p)
def mul4 (p : Nat) (x y : N4) : N4 := (addP p (mulN2 p x.1 y.1) (xiP p (mulN2 p x.2 y.2)), addP p (mulN2 p x.1 y.2) (mulN2 p x.2 y.1))
def add4 (p : Nat) (x y : N4) : N4 := (addP p x.1 y.1, addP p x.2 y.2)
def om4 (p : Nat) (x : N4) : N4 := (xiP p x.2, x.1)

def mul12 (p : Nat) (x y : N12) : N12 :=
  force12 x fun x => force12 y fun y =>
    (add4 p (mul4 p x.1 y.1) (om4 p (add4 p (mul4 p x.2.1 y.2.2) (mul4 p x.2.2 y.2.1))),
     add4 p (add4 p (mul4 p x.1 y.2.1) (mul4 p x.2.1 y.1)) (om4 p (mul4 p x.2.2 y.2.2)),
     add4 p (add4 p (mul4 p x.1 y.2.2) (mul4 p x.2.1 y.2.1)) (mul4 p x.2.2 y.1))

def one12 : N12 := (((1, 0), (0, 0)), ((0, 0), (0, 0)), ((0, 0), (0, 0)))

/-- square and multiply, `k` bounds the number of bits of `e` -/
def pow12 (p : Nat) (x : N12) : Nat → Nat → N12
  | 0, _ => one12
  | k + 1, e => if e = 0 then one12 else
      let h := pow12 p x k (e / 2)
      let d := mul12 p h h
      if e % 2 = 1 then mul12 p d x else d

def cast4 (p : Nat) (x : N4) : F4 p := ⟨castN2 p x.1, castN2 p x.2⟩
def cast12 (p : Nat) (x : N12) : F12 p := ⟨cast4 p x.1, cast4 p x.2.1, cast4 p x.2.2⟩

section
variable {p : Nat} [hp : Fact p.Prime] [h4 : Fact (p % 4 = 3)]

theorem cast_xi (x : N2) : castN2 p (xiP p x) = xi p * castN2 p x := by
  have : NeZero p := ⟨hp.1.ne_zero⟩
  unfold xiP
  rw [force2_eq]
  unfold castN2 xi
  ext
  · simp only [ZMod.natCast_mod, Nat.cast_add, cast_psub, QuadraticAlgebra.re_mul]; ring
  · simp only [ZMod.natCast_mod, Nat.cast_add, QuadraticAlgebra.im_mul]; ring

theorem cast4_mul (x y : N4) : cast4 p (mul4 p x y) = cast4 p x * cast4 p y := by
  unfold cast4 mul4
  ext1
  · simp only [QuadraticAlgebra.re_mul, castN2_add, castN2_mul, cast_xi]; ring
  · simp only [QuadraticAlgebra.im_mul, castN2_add, castN2_mul]; ring

theorem cast4_add (x y : N4) : cast4 p (add4 p x y) = cast4 p x + cast4 p y := by
  unfold cast4 add4
  ext1
  · simp only [QuadraticAlgebra.re_add, castN2_add]
  · simp only [QuadraticAlgebra.im_add, castN2_add]

theorem cast4_om (x : N4) : cast4 p (om4 p x) = om p * cast4 p x := by
  unfold cast4 om4 om
  ext1
  · simp only [QuadraticAlgebra.re_mul, cast_xi]; ring
  · simp only [QuadraticAlgebra.im_mul]; ring

theorem cast12_mul (x y : N12) : cast12 p (mul12 p x y) = cast12 p x * cast12 p y := by
  unfold mul12
  rw [force12_eq, force12_eq]
  unfold cast12
  ext1
  · simp only [cast4_add, cast4_mul, cast4_om]; rfl
  · simp only [cast4_add, cast4_mul, cast4_om]; rfl
  · simp only [cast4_add, cast4_mul, cast4_om]; rfl

theorem cast12_one : cast12 p one12 = 1 := by
  unfold cast12 one12 cast4
  simp only [castN2_00, castN2_10]
  rfl

theorem cast12_pow (x : N12) (k : Nat) : ∀ e, e < 2 ^ k → cast12 p (pow12 p x k e) = cast12 p x ^ e := by
  induction k with
  | zero => intro e he
            have : e = 0 := by simpa using he
            subst this
            rw [pow_zero]; exact cast12_one
  | succ k ih =>
    intro e he
    have h := ih (e / 2) (by rw [pow_succ] at he; omega)
    simp only [pow12]
    split_ifs with g0 g1
    · rw [g0, pow_zero]; exact cast12_one
    · rw [cast12_mul, cast12_mul, h, ← pow_add, ← pow_succ]
      congr 1; omega
    · rw [cast12_mul, h, ← pow_add]
      congr 1; omega
end
end Verif.Ate
