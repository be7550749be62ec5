import Verif.Spec.BlsScheme
import Mathlib.Algebra.Group.Subgroup.Basic
/-
What the signature schemes need of the real point code, which does not satisfy `SideOk` in full: compressed encodings of some points of G2 are refused, lose
their sign, or are not printed canonically.  `N` is the set of the elements without such trouble.
-/
namespace Verif.Bls
open Verif.Big Verif.Rom Verif.Ecdh Verif.H2c
open Spec (Byte)

variable {C : Nat} {A B T V S X : Type}

/-- The operations on one curve: `den x a` says that the stored point `x` is the element `a`; `Sg` is the prime-order subgroup. -/
structure SideReal [AddCommGroup A] (K : Rom C) (sd : Side C X) (den : X → A → Prop) (Sg : AddSubgroup A) (N : Set A) (g : A) (E : Enc A) : Prop where
  gen : den sd.gen g
  gmem : g ∈ Sg
  gne : g ≠ 0
  neg : den (sd.neg sd.gen) (-g)
  add : ∀ {x y a b}, den x a → den y b → den (sd.add x y) (a + b)
  mul : ∀ {x a k} {n : Nat}, den x a → a ∈ Sg → Rep K.P.b K.P.n k (n : Int) → n < ordN K → ∃ y, sd.mul x k = some y ∧ (n • a ∈ N → sd.ser y = E.c (n • a))
  ser : ∀ {x a}, den x a → a ∈ Sg → a ∈ N → sd.ser x = E.c a
  decode : ∀ {a}, a ∈ N → ∃ x, sd.deser (E.c a) = .ok x ∧ den x a
  accept : ∀ {bs x}, sd.deser bs = .ok x → ∃ a, den x a ∧ (E.is a bs ∨ E.is (-a) bs)
  sub : ∀ {x a}, den x a → ∃ v, sd.sub x = some v ∧ (v = true ↔ a ∈ Sg)

/-- the string encodes an element of the subgroup -/
def Valid [AddCommGroup A] (Sg : AddSubgroup A) (E : Enc A) (bs : List Byte) : Prop := ∃ a ∈ Sg, E.is a bs

/-- What is assumed of the pairing check (`miller`, `fexp`, `isunity`): the product over a list of pairs of subgroup points is one exactly when the sum of `e`
is zero, for a bilinear `e`.  Pairs of two points at infinity are excluded: `lineadd` (pair.rs:86-132) returns zero on them. -/
structure PairOk [AddCommGroup A] [AddCommGroup B] [AddCommGroup T] (SA : AddSubgroup A) (SB : AddSubgroup B) (dv : V → A → Prop) (ds : S → B → Prop) (e : A → B → T)
    (check : List (V × S) → Option Bool) : Prop where
  addL : ∀ {a a' b}, a ∈ SA → a' ∈ SA → b ∈ SB → e (a + a') b = e a b + e a' b
  addR : ∀ {a b b'}, a ∈ SA → b ∈ SB → b' ∈ SB → e a (b + b') = e a b + e a b'
  check : ∀ {l : List (V × S)} {l' : List (A × B)}, List.Forall₂ (fun x a => ((dv x.1 a.1 ∧ a.1 ∈ SA) ∧ ds x.2 a.2 ∧ a.2 ∈ SB) ∧ (a.1 ≠ 0 ∨ a.2 ≠ 0)) l l' →
    ∃ v, check l = some v ∧ (v = true ↔ (l'.map fun a => e a.1 a.2).sum = 0)

end Verif.Bls
