import Mathlib.Data.ZMod.Basic
import Mathlib.Algebra.BigOperators.Intervals
/-
Independent specification for New Hope: the ring ℤ[x]/(x^1024+1), the noise distribution and the residues modulo 12289.
-/
namespace Spec.Nhs

/-- the modulus of the scheme -/
def q : Nat := 12289

/-- product in `R[x]/(x^1024 + 1)`, coefficient `k` -/
def negMul {R : Type} [CommRing R] (a b : Nat → R) (k : Nat) : R :=
  ∑ i ∈ Finset.range 1024, if i ≤ k then a i * b (k - i) else -(a i * b (1024 + k - i))

/-- number of bits set in a byte -/
def ones (b : BitVec 8) : Nat := (List.range 8).countP b.getLsbD

/-- coefficient `p` of the noise polynomial read from a byte string: bits set in two bytes minus bits set in the next two -/
def noise (bytes : List (BitVec 8)) (p : Nat) : Int :=
  (ones (bytes.getD (4 * p) 0) + ones (bytes.getD (4 * p + 1) 0) : Nat) -
  (ones (bytes.getD (4 * p + 2) 0) + ones (bytes.getD (4 * p + 3) 0) : Nat)

end Spec.Nhs
