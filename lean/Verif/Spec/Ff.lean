import Verif.Spec.Limbs

/-
Independent specification of the multi-precision layer `ff.rs`: which integer a list of digits
denotes, when it is in normal form, and which parameter sets are covered.
-/
namespace Verif.Ff
open Spec Verif.Big

variable {C : Nat}

/-- the integer denoted by digits `d₀, d₁, …` (each a limb array) in radix `2^R` -/
def fval (b R : Nat) : List (List (BitVec C)) → Int
  | [] => 0
  | d :: ds => limbsVal b d + 2 ^ R * fval b R ds

/-- a reduced digit: `n` normalised limbs denoting a number in `[0, 2^R)` -/
structure CanonD (b n R : Nat) (d : List (BitVec C)) : Prop where
  len : d.length = n
  low : Normal b d
  nonneg : 0 ≤ limbsVal b d
  lt : limbsVal b d < 2 ^ R

/-- all digits are reduced -/
def Canon (b n R : Nat) (xs : List (List (BitVec C))) : Prop := ∀ d ∈ xs, CanonD b n R d

/-- normal form: all digits except the top one are reduced; the top one (sign and excess included) is
a normalised limb array -/
def FNorm (b n R : Nat) : List (List (BitVec C)) → Prop
  | [] => True
  | [d] => d.length = n ∧ Normal b d
  | d :: e :: r => CanonD b n R d ∧ FNorm b n R (e :: r)

/-- `xs` has `m` digits, is in normal form and denotes `V` -/
structure FRep (b n R m : Nat) (xs : List (List (BitVec C))) (V : Int) : Prop where
  len : xs.length = m
  low : FNorm b n R xs
  val : fval b R xs = V

/-- The parameter sets covered: word size `C`, limbs of `b` bits, `n` limbs per digit, digits of `R` bits.
The top limb of a digit holds at least 5 bits of it and leaves at least 8 spare bits. -/
structure FOk (C b n R : Nat) : Prop where
  ok : Ok C b
  hn : 2 ≤ n
  hR : R / b = n - 1
  hT : 5 ≤ R % b
  hf : R + 8 ≤ b * n
  fits : Fits C b n

/-- Room for constant-time exponentiation modulo `P` with `2^k` digits.  `modmul` reduces only one of its factors, so
along a run of zero exponent bits the other one may gain the modulus in each step.  This is harmless for one digit,
if the excess limit `P_FEXCESS = 2^(b*n-R-1)` exceeds the number of steps (with a factor 16), or if the modulus is not
within a fraction `1/P_FEXCESS` of the top of its range. -/
def Room (b n R k : Nat) (P : Int) : Prop :=
  k = 0 ∨ 16 * (R * 2 ^ k + 1 : Int) ≤ 2 ^ (b * n - R - 1) ∨
    P * (2 ^ (b * n - R - 1) - 1) ≤ (2 ^ (b * n - R - 1) - 2) * 2 ^ (R * 2 ^ k)

instance (C b : Nat) : Decidable (Ok C b) :=
  decidable_of_iff (9 ≤ b ∧ b + 3 ≤ C ∧ C ≤ 2 * b) ⟨fun h => ⟨h.1, h.2.1, h.2.2⟩, fun h => ⟨h.hb, h.hC, h.h2⟩⟩

instance (C b n R : Nat) : Decidable (FOk C b n R) :=
  decidable_of_iff (Ok C b ∧ 2 ≤ n ∧ R / b = n - 1 ∧ 5 ≤ R % b ∧ R + 8 ≤ b * n ∧ Fits C b n)
    ⟨fun h => ⟨h.1, h.2.1, h.2.2.1, h.2.2.2.1, h.2.2.2.2.1, h.2.2.2.2.2⟩,
     fun h => ⟨h.ok, h.hn, h.hR, h.hT, h.hf, h.fits⟩⟩

end Verif.Ff
