/-
Independent specification of multi-limb integers: which integer a limb array denotes, and when it is
in normal form.
-/
namespace Spec

variable {C : Nat}

/-- The integer denoted by limbs `w₀, w₁, …` (signed machine words) in radix `2^b`:
`w₀ + 2^b·w₁ + 2^(2b)·w₂ + …`. -/
def limbsVal (b : Nat) : List (BitVec C) → Int
  | [] => 0
  | x :: xs => x.toInt + 2 ^ b * limbsVal b xs

/-- Normal form: every limb except the top one is a base-`2^b` digit (the top limb holds the rest,
sign included). -/
def Normal (b : Nat) : List (BitVec C) → Prop
  | [] => True
  | [_] => True
  | x :: y :: r => (0 ≤ x.toInt ∧ x.toInt < 2 ^ b) ∧ Normal b (y :: r)

instance decNormal (b : Nat) : (w : List (BitVec C)) → Decidable (Normal b w)
  | [] => inferInstanceAs (Decidable True)
  | [_] => inferInstanceAs (Decidable True)
  | x :: y :: r =>
    have := decNormal b (y :: r)
    inferInstanceAs (Decidable ((0 ≤ x.toInt ∧ x.toInt < 2 ^ b) ∧ Normal b (y :: r)))

/-- every limb has absolute value at most `T` -/
def LimbsWithin (T : Int) (w : List (BitVec C)) : Prop := ∀ x ∈ w, -T ≤ x.toInt ∧ x.toInt ≤ T

instance (T : Int) (w : List (BitVec C)) : Decidable (LimbsWithin T w) :=
  inferInstanceAs (Decidable (∀ x ∈ w, -T ≤ x.toInt ∧ x.toInt ≤ T))

end Spec

/-! Vocabulary of the statements about `big.rs`: which parameter sets, which limb arrays. -/
namespace Verif.Big
open Spec

variable {C : Nat}

/-- word-size assumptions: at least 3 spare bits above `BASEBITS`, and `BASEBITS` at least half a
word, as in every ROM file
(64/56, 64/58, 64/60, 32/28, 32/29) -/
structure Ok (C b : Nat) : Prop where
  hb : 9 ≤ b
  hC : b + 3 ≤ C
  h2 : C ≤ 2 * b

/-- `ws` has `n` limbs, is normalised and denotes `V` -/
structure Rep (b n : Nat) (ws : List (BitVec C)) (V : Int) : Prop where
  len : ws.length = n
  low : Normal b ws
  val : limbsVal b ws = V

/-- all limbs are digits -/
def Digits (b : Nat) (w : List (BitVec C)) : Prop := ∀ x ∈ w, 0 ≤ x.toInt ∧ x.toInt < 2 ^ b

/-- values below this bound leave at least two spare bits in the top limb -/
def cap (C b n : Nat) : Int := 2 ^ (C - 3) * 2 ^ (b * (n - 1))

/-- the double-width accumulators can hold `n` products of digits -/
abbrev Fits (C b n : Nat) : Prop := (n : Int) * (2 ^ b * 2 ^ b) ≤ 2 ^ (2 * C - 1)

end Verif.Big
