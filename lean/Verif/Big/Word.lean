import Verif.Big.Model
import Mathlib.Tactic.Ring
import Mathlib.Tactic.Linarith
import Mathlib.Tactic.Positivity
/- Helper lemmas: signed value of fixed-width word operations. -/
namespace Verif.Big

variable {C : Nat}

theorem two_pow_pos' (n : Nat) : (0 : Int) < 2 ^ n := by positivity

/-- exact value if it fits -/
theorem bmod_two_pow {n : Nat} {x : Int} (hn : 0 < n) (h1 : -2 ^ (n - 1) ≤ x) (h2 : x < 2 ^ (n - 1)) :
    x.bmod (2 ^ n) = x := by
  have e : (2 : Nat) ^ n = 2 * 2 ^ (n - 1) := by
    conv => lhs; rw [show n = (n - 1) + 1 by omega, Nat.pow_succ]
    ring
  have e' : ((2 ^ (n - 1) : Nat) : Int) = 2 ^ (n - 1) := by push_cast; rfl
  apply Int.bmod_eq_of_le
  · rw [e]; push_cast; omega
  · rw [e]; push_cast; omega

theorem toInt_ofInt_of {x : Int} (hC : 0 < C) (h1 : -2 ^ (C - 1) ≤ x) (h2 : x < 2 ^ (C - 1)) :
    (BitVec.ofInt C x).toInt = x := by
  rw [BitVec.toInt_ofInt]; exact bmod_two_pow hC h1 h2

theorem toInt_bounds (x : BitVec C) : -2 ^ (C - 1) ≤ x.toInt ∧ x.toInt < 2 ^ (C - 1) := by
  have h1 := BitVec.le_toInt x
  have h2 := BitVec.toInt_lt (x := x)
  exact ⟨h1, h2⟩

theorem toInt_add_of (x y : BitVec C) (hC : 0 < C) (h1 : -2 ^ (C - 1) ≤ x.toInt + y.toInt)
    (h2 : x.toInt + y.toInt < 2 ^ (C - 1)) : (x + y).toInt = x.toInt + y.toInt := by
  rw [BitVec.toInt_add]; exact bmod_two_pow hC h1 h2

theorem toInt_sub_of (x y : BitVec C) (hC : 0 < C) (h1 : -2 ^ (C - 1) ≤ x.toInt - y.toInt)
    (h2 : x.toInt - y.toInt < 2 ^ (C - 1)) : (x - y).toInt = x.toInt - y.toInt := by
  rw [BitVec.toInt_sub]; exact bmod_two_pow hC h1 h2

theorem toInt_mul_of (x y : BitVec C) (hC : 0 < C) (h1 : -2 ^ (C - 1) ≤ x.toInt * y.toInt)
    (h2 : x.toInt * y.toInt < 2 ^ (C - 1)) : (x * y).toInt = x.toInt * y.toInt := by
  rw [BitVec.toInt_mul]; exact bmod_two_pow hC h1 h2

theorem toInt_sshr (x : BitVec C) (k : Nat) : (x.sshiftRight k).toInt = x.toInt / 2 ^ k := by
  rw [BitVec.toInt_sshiftRight, Int.shiftRight_eq_div_pow]; push_cast; rfl

theorem toNat_bmask (b : Nat) (hb : b < C) : (bmask C b).toNat = 2 ^ b - 1 := by
  unfold bmask
  have h1 : (2 : Nat) ^ b < 2 ^ C := Nat.pow_lt_pow_right (by omega) hb
  have h0 : 0 < (2 : Nat) ^ b := Nat.two_pow_pos b
  have hC : (1 : Nat) < 2 ^ C := by
    calc 1 ≤ 2 ^ b := h0
      _ < 2 ^ C := h1
  rw [BitVec.toNat_sub_of_le]
  · rw [BitVec.toNat_shiftLeft, BitVec.toNat_ofNat, Nat.mod_eq_of_lt hC, Nat.one_shiftLeft,
      Nat.mod_eq_of_lt h1]
  · rw [BitVec.le_def, BitVec.toNat_shiftLeft, BitVec.toNat_ofNat, Nat.mod_eq_of_lt hC, Nat.one_shiftLeft,
      Nat.mod_eq_of_lt h1]; exact h0

/-- a word is congruent to its signed value -/
theorem toInt_emod (x : BitVec C) (b : Nat) (hb : b ≤ C) : x.toInt % 2 ^ b = ((x.toNat % 2 ^ b : Nat) : Int) := by
  rw [BitVec.toInt_eq_toNat_bmod]
  have hd : ((2 : Int) ^ b) ∣ (2 ^ C : Nat) := by push_cast; exact pow_dvd_pow 2 hb
  have : ((x.toNat : Int).bmod (2 ^ C)) % 2 ^ b = (x.toNat : Int) % 2 ^ b := by
    have h := Int.bmod_emod (x := (x.toNat : Int)) (m := 2 ^ C)
    have h2 := congrArg (· % (2 : Int) ^ b) h
    simp only [Int.emod_emod_of_dvd _ hd] at h2
    exact h2
  rw [this]; push_cast; rfl

theorem toInt_of_toNat_lt (x : BitVec C) (h : x.toNat < 2 ^ (C - 1)) : x.toInt = x.toNat := by
  apply BitVec.toInt_eq_toNat_of_lt
  rcases Nat.eq_zero_or_pos C with rfl | hC
  · simp at *; omega
  · have : 2 ^ C = 2 * 2 ^ (C - 1) := by
      conv => lhs; rw [show C = (C - 1) + 1 by omega, Nat.pow_succ]
      ring
    omega

theorem toNat_of_toInt_nonneg (x : BitVec C) (h : 0 ≤ x.toInt) : (x.toNat : Int) = x.toInt := by
  rw [BitVec.toInt_eq_toNat_cond] at h ⊢
  split
  · rfl
  · rename_i hn
    rw [if_neg hn] at h
    have := x.isLt
    omega

theorem toInt_and_mask (x : BitVec C) (b : Nat) (hb : b < C) :
    (x &&& bmask C b).toInt = x.toInt % 2 ^ b := by
  have hn : (x &&& bmask C b).toNat = x.toNat % 2 ^ b := by
    rw [BitVec.toNat_and, toNat_bmask b hb, Nat.and_two_pow_sub_one_eq_mod]
  rw [toInt_emod x b (by omega), ← hn]
  apply toInt_of_toNat_lt
  rw [hn]
  calc x.toNat % 2 ^ b < 2 ^ b := Nat.mod_lt _ (Nat.two_pow_pos b)
    _ ≤ 2 ^ (C - 1) := Nat.pow_le_pow_right (by omega) (by omega)

/-- `or` of a value below `2^j` with a multiple of `2^j` is their sum -/
theorem nat_or_add (u v j : Nat) (hv : v < 2 ^ j) (hu : 2 ^ j ∣ u) : u ||| v = u + v := by
  obtain ⟨q, rfl⟩ := hu
  rw [Nat.mul_comm, ← Nat.shiftLeft_eq, ← Nat.shiftLeft_add_eq_or_of_lt hv]

theorem toInt_or (u v : BitVec C) (j : Nat) (hu : 0 ≤ u.toInt) (hd : (2 : Int) ^ j ∣ u.toInt)
    (hv0 : 0 ≤ v.toInt) (hv : v.toInt < 2 ^ j) (hs : u.toInt + v.toInt < 2 ^ (C - 1)) :
    (u ||| v).toInt = u.toInt + v.toInt := by
  have e1 := toNat_of_toInt_nonneg u hu
  have e2 := toNat_of_toInt_nonneg v hv0
  have hd' : 2 ^ j ∣ u.toNat := by
    rw [← e1] at hd; exact_mod_cast hd
  have hv' : v.toNat < 2 ^ j := by rw [← e2] at hv; exact_mod_cast hv
  have hn : (u ||| v).toNat = u.toNat + v.toNat := by
    rw [BitVec.toNat_or, nat_or_add _ _ j hv' hd']
  rw [toInt_of_toNat_lt, hn]
  · push_cast; rw [e1, e2]
  · rw [hn]
    have : ((u.toNat + v.toNat : Nat) : Int) < ((2 ^ (C - 1) : Nat) : Int) := by
      push_cast; rw [e1, e2]; exact hs
    exact_mod_cast this

theorem toInt_shl_mask (x : BitVec C) (n b : Nat) (hb : b < C) :
    ((x <<< n) &&& bmask C b).toInt = (x.toInt * 2 ^ n) % 2 ^ b := by
  rw [toInt_and_mask _ b hb, toInt_emod _ b (by omega), BitVec.toNat_shiftLeft,
    Nat.mod_mod_of_dvd _ (pow_dvd_pow 2 (by omega : b ≤ C)), Nat.shiftLeft_eq]
  rw [Int.mul_emod, toInt_emod x b (by omega)]
  push_cast
  rw [← Int.mul_emod]

theorem toInt_shl_of (x : BitVec C) (n : Nat) (hC : 0 < C) (h1 : -2 ^ (C - 1) ≤ x.toInt * 2 ^ n)
    (h2 : x.toInt * 2 ^ n < 2 ^ (C - 1)) : (x <<< n).toInt = x.toInt * 2 ^ n := by
  have h : (x <<< n) = BitVec.ofInt C (x.toInt * 2 ^ n) := by
    apply BitVec.eq_of_toInt_eq
    rw [BitVec.toInt_ofInt, BitVec.toInt_shiftLeft]
    rw [Nat.shiftLeft_eq]
    rw [BitVec.toInt_eq_toNat_bmod, Int.bmod_mul_bmod]
    push_cast; rfl
  rw [h, toInt_ofInt_of hC h1 h2]

end Verif.Big
