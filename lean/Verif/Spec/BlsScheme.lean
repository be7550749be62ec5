import Verif.Spec.Bls
import Verif.Bls.Scheme
import Mathlib.Algebra.Group.Subgroup.Defs
import Mathlib.Algebra.BigOperators.Group.List.Basic
/-
What the signature schemes are specified over: two abelian groups with subgroups, a bilinear map on the subgroups that does not
kill anything against the generator, and a hash into the second subgroup.  And what "the point code implements this" means.
-/
namespace Verif.Bls
open Verif.Big Verif.Rom Verif.Ecdh Verif.H2c
open Spec (Byte)

/-- Keys live in `A`, signatures and hashed messages in `B`. -/
structure Setting (A B T : Type) where
  SA : Set A
  SB : Set B
  g : A
  e : A → B → T
  /-- message and domain separation tag to point -/
  H : List Byte → List Byte → B

/-- `SA`, `SB` are subgroups, `e` is bilinear on them, and only zero pairs to zero with the generator. -/
structure Setting.Ok {A B T : Type} [AddCommGroup A] [AddCommGroup B] [AddCommGroup T] (P : Setting A B T) : Prop where
  zeroA : 0 ∈ P.SA
  addA : ∀ {a a'}, a ∈ P.SA → a' ∈ P.SA → a + a' ∈ P.SA
  negA : ∀ {a}, a ∈ P.SA → -a ∈ P.SA
  zeroB : 0 ∈ P.SB
  addB : ∀ {b b'}, b ∈ P.SB → b' ∈ P.SB → b + b' ∈ P.SB
  negB : ∀ {b}, b ∈ P.SB → -b ∈ P.SB
  g_mem : P.g ∈ P.SA
  H_mem : ∀ m d, P.H m d ∈ P.SB
  e_addL : ∀ {a a' b}, a ∈ P.SA → a' ∈ P.SA → b ∈ P.SB → P.e (a + a') b = P.e a b + P.e a' b
  e_addR : ∀ {a b b'}, a ∈ P.SA → b ∈ P.SB → b' ∈ P.SB → P.e a (b + b') = P.e a b + P.e a b'
  nondeg : ∀ {b}, b ∈ P.SB → P.e P.g b = 0 → b = 0

variable {C : Nat} {A B T V S X : Type}

/-- The compressed and the uncompressed encoding of the elements of a group. -/
structure Enc (A : Type) where
  c : A → List Byte
  u : A → List Byte

/-- `bs` is one of the two encodings of `a` -/
def Enc.is (E : Enc A) (a : A) (bs : List Byte) : Prop := bs = E.c a ∨ bs = E.u a

/-- The operations on one curve implement the group `A`: `den x a` says that the stored point `x` is the element `a`. -/
structure SideOk [AddCommGroup A] (K : Rom C) (sd : Side C X) (den : X → A → Prop) (S : Set A) (g : A) (E : Enc A) : Prop where
  inj : ∀ {x a a'}, den x a → den x a' → a = a'
  gen : den sd.gen g
  neg : ∀ {x a}, den x a → den (sd.neg x) (-a)
  add : ∀ {x y a b}, den x a → den y b → den (sd.add x y) (a + b)
  mul : ∀ {x a k} {n : Nat}, den x a → a ∈ S → Rep K.P.b K.P.n k (n : Int) → n < ordN K → ∃ y, sd.mul x k = some y ∧ den y (n • a)
  ser : ∀ {x a}, den x a → a ∈ S → sd.ser x = E.c a
  decode : ∀ {a bs}, E.is a bs → ∃ x, sd.deser bs = .ok x ∧ den x a
  accept : ∀ {bs x}, sd.deser bs = .ok x → ∃ a, den x a ∧ E.is a bs
  sub : ∀ {x a}, den x a → ∃ v, sd.sub x = some v ∧ (v = true ↔ a ∈ S)

/-- The backend implements the setting `P`. -/
structure BackendOk [AddCommGroup A] [AddCommGroup B] [AddCommGroup T] (K : Rom C) (Bk : Backend C V S) (P : Setting A B T)
    (dv : V → A → Prop) (ds : S → B → Prop) (EA : Enc A) (EB : Enc B) : Prop where
  ok : P.Ok
  pk : SideOk K Bk.pk dv P.SA P.g EA
  sg : ∃ g, SideOk K Bk.sg ds P.SB g EB
  hash : ∀ m d, ∃ x, Bk.hash m d = some x ∧ ds x (P.H m d)
  check : ∀ {l : List (V × S)} {l' : List (A × B)}, List.Forall₂ (fun x a => (dv x.1 a.1 ∧ a.1 ∈ P.SA) ∧ ds x.2 a.2 ∧ a.2 ∈ P.SB) l l' →
    ∃ v, Bk.check l = some v ∧ (v = true ↔ (l'.map fun a => P.e a.1 a.2).sum = 0)

/-- number of a secret key string -/
def skNum (bs : List Byte) : Nat := Spec.beNat bs

/-- the strings `secret_key_from_bytes` accepts: 32 bytes, number below the group order -/
def SkOk (K : Rom C) (bs : List Byte) : Prop := bs.length = 32 ∧ skNum bs < ordN K

end Verif.Bls
