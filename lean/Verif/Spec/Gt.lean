import Verif.Spec.Tower
import Verif.Common.Bytes
/- Vocabulary of C76-C82: fully reduced elements of the extension of degree 12, and their encoding. -/
namespace Verif.Tower
open Verif.Big Verif.Fp Spec
variable {C : Nat}

/-- the integer held is the least one of its residue class -/
def Least (P : Params C) (p : Nat) (a : Fp C) : Prop := 0 ≤ limbsVal P.b a.x ∧ limbsVal P.b a.x < p
def Least2 (P : Params C) (p : Nat) (x : Fp2 C) : Prop := Least P p x.a ∧ Least P p x.b
def Least4 (P : Params C) (p : Nat) (x : Fp4 C) : Prop := Least2 P p x.a ∧ Least2 P p x.b

/-- `x` holds `v`, fully reduced -/
def Canon12 (P : Params C) (p : Nat) (x : Fp12 C) (v : F12 p) : Prop := Std12 P p 1 x v ∧ Least4 P p x.a ∧ Least4 P p x.b ∧ Least4 P p x.c

/-- the coefficients of an element of the extension of degree 12 over the prime field, in the order they are printed -/
def coeffs {p : Nat} (v : F12 p) : List Nat :=
  [v.a.re.re.val, v.a.re.im.val, v.a.im.re.val, v.a.im.im.val, v.b.re.re.val, v.b.re.im.val, v.b.im.re.val, v.b.im.im.val,
   v.c.re.re.val, v.c.re.im.val, v.c.im.re.val, v.c.im.im.val]

/-- its encoding: every coefficient as `mb` bytes, most significant first -/
def enc12 {p : Nat} (mb : Nat) (v : F12 p) : List (BitVec 8) := (coeffs v).flatMap (beBytes mb)

end Verif.Tower
