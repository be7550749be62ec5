import Verif.Fp.Model
import Mathlib.Data.Nat.Size
import Mathlib.Tactic.IntervalCases
/- `FP::logb2` is the bit length. -/
namespace Verif.Fp

/-- after smearing by `n`, bit `i` says whether one of the bits `i .. i+n-1` was set -/
def Smeared (w v : BitVec 32) (n : Nat) : Prop := ∀ i, v.getLsbD i = true ↔ ∃ j, j < n ∧ w.getLsbD (i + j) = true

theorem Smeared.step {w v : BitVec 32} {n : Nat} (h : Smeared w v n) : Smeared w (v ||| v >>> n) (n + n) := by
  intro i
  rw [BitVec.getLsbD_or, BitVec.getLsbD_ushiftRight, Bool.or_eq_true, h i, h (n + i)]
  constructor
  · rintro (⟨j, h1, h2⟩ | ⟨j, h1, h2⟩)
    · exact ⟨j, by omega, h2⟩
    · exact ⟨n + j, by omega, by rw [← h2]; congr 1; omega⟩
  · rintro ⟨j, h1, h2⟩
    by_cases hj : j < n
    · exact Or.inl ⟨j, hj, h2⟩
    · exact Or.inr ⟨j - n, by omega, by rw [← h2]; congr 1; omega⟩

theorem smear_eq {w v : BitVec 32} (h : Smeared w v 32) : v = BitVec.ofNat 32 (2 ^ w.toNat.size - 1) := by
  apply BitVec.eq_of_getLsbD_eq
  intro i hi
  rw [Bool.eq_iff_iff, h i, BitVec.getLsbD_ofNat, Nat.testBit_two_pow_sub_one]
  simp only [hi, decide_true, Bool.true_and, decide_eq_true_eq, Nat.lt_size]
  constructor
  · rintro ⟨j, _, h2⟩
    have := Nat.ge_two_pow_of_testBit h2
    exact le_trans (Nat.pow_le_pow_right (by norm_num) (by omega)) this
  · intro h2
    obtain ⟨k, h3, h4⟩ := Nat.exists_ge_and_testBit_of_ge_two_pow h2
    have hk : k < 32 := by
      by_contra hc
      have := Nat.ge_two_pow_of_testBit h4
      have h5 := w.isLt
      have : 2 ^ 32 ≤ 2 ^ k := Nat.pow_le_pow_right (by norm_num) (by omega)
      omega
    exact ⟨k - i, by omega, by rw [show i + (k - i) = k by omega]; exact h4⟩

theorem logb2_eq (w : BitVec 32) : logb2 w = w.toNat.size := by
  have h0 : Smeared w w 1 := by
    intro i
    constructor
    · intro h; exact ⟨0, by omega, by simpa using h⟩
    · rintro ⟨j, h1, h2⟩; rw [show j = 0 by omega] at h2; simpa using h2
  have h5 := smear_eq h0.step.step.step.step.step
  have hk : w.toNat.size ≤ 32 := Nat.size_le.2 w.isLt
  simp only [logb2]
  simp only [Nat.reduceAdd] at h5
  rw [h5]
  generalize w.toNat.size = k at hk
  interval_cases k <;> rfl

/-- `sb = logb2(xes - 1)` is the least exponent with `xes ≤ 2^sb` -/
theorem logXes_spec {x : Nat} (h1 : 1 ≤ x) (h2 : x ≤ 2 ^ 32) : x ≤ 2 ^ logXes x ∧ ∀ k, x ≤ 2 ^ k → logXes x ≤ k := by
  have e : (BitVec.ofInt 32 ((x : Int) - 1)).toNat = x - 1 := by
    rw [show ((x : Int) - 1) = ((x - 1 : Nat) : Int) by omega, BitVec.ofInt_natCast, BitVec.toNat_ofNat]
    exact Nat.mod_eq_of_lt (by omega)
  unfold logXes
  rw [logb2_eq, e]
  constructor
  · have := Nat.lt_size_self (x - 1); omega
  · intro k hk; exact Nat.size_le.2 (by omega)

end Verif.Fp
