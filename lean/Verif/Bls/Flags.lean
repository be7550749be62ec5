import Verif.Spec.Bls
import Verif.Bls.Model
import Verif.Common.Bytes
import Mathlib.Tactic.Ring
/- Flag bits in the first byte of an encoding. -/
namespace Verif.Bls
open Spec

theorem b80 (b : Byte) : b &&& 0x80 = 0 ↔ b.toNat < 128 := by revert b; decide +kernel
theorem b40 (b : Byte) : b &&& 0x40 ≠ 0 ↔ b.toNat / 64 % 2 = 1 := by revert b; decide +kernel
theorem b20 (b : Byte) : b &&& 0x20 > 0 ↔ b.toNat / 32 % 2 = 1 := by revert b; decide +kernel
theorem b3f (b : Byte) : b &&& 0x3f ≠ 0 ↔ b.toNat % 64 ≠ 0 := by revert b; decide +kernel
theorem b1f (b : Byte) : (b &&& 0x1f).toNat = b.toNat % 32 := by revert b; decide +kernel
theorem bit7 (b : Byte) : b.getLsbD 7 = true ↔ 128 ≤ b.toNat := by revert b; decide +kernel
theorem bit6 (b : Byte) : b.getLsbD 6 = true ↔ b.toNat / 64 % 2 = 1 := by revert b; decide +kernel
theorem bit5 (b : Byte) : b.getLsbD 5 = true ↔ b.toNat / 32 % 2 = 1 := by revert b; decide +kernel

theorem pow_flag (m k : Nat) (hk : k ≤ 8) : 2 ^ (8 * (m + 1) - k) = 2 ^ (8 - k) * 256 ^ m := by
  rw [show (256 : Nat) = 2 ^ 8 by norm_num, ← pow_mul, ← pow_add]
  congr 1; omega

/-- a string is the big-endian form of a number exactly when it has that value -/
theorem eq_beBytes {n v : Nat} {bs : List Byte} (hl : bs.length = n) (hv : v < 256 ^ n) : bs = beBytes n v ↔ beNat bs = v := by
  constructor
  · rintro rfl; rw [beNat_beBytes, Nat.mod_eq_of_lt hv]
  · rintro rfl; rw [← hl, beBytes_beNat]

theorem split_eq {N a c x y : Nat} (hc : c < N) (hy : y < N) : a * N + c = x * N + y ↔ a = x ∧ c = y := by
  constructor
  · intro h
    have h1 : (a * N + c) / N = a := by rw [Nat.mul_comm, Nat.mul_add_div (by omega), Nat.div_eq_of_lt hc]; rfl
    have h2 : (x * N + y) / N = x := by rw [Nat.mul_comm, Nat.mul_add_div (by omega), Nat.div_eq_of_lt hy]; rfl
    have : a = x := by rw [← h1, h, h2]
    subst this
    exact ⟨rfl, by omega⟩
  · rintro ⟨rfl, rfl⟩; rfl

/-- flags `f` and a value with its top three bits clear -/
theorem flag_iff {m f v : Nat} (hf : f = 32 * (f / 32)) (hf8 : f < 256) (hv : v < 32 * 256 ^ m) (b : Byte) (t : List Byte) (ht : t.length = m) :
    b :: t = beBytes (m + 1) (f * 256 ^ m + v) ↔ b.toNat / 32 = f / 32 ∧ b.toNat % 32 * 256 ^ m + beNat t = v := by
  have hN : 0 < 256 ^ m := by positivity
  have hlt : f * 256 ^ m + v < 256 ^ (m + 1) := by
    have : (f + 32) * 256 ^ m ≤ 256 * 256 ^ m := Nat.mul_le_mul_right _ (by omega)
    rw [pow_succ, Nat.mul_comm (256 ^ m)]
    have e : (f + 32) * 256 ^ m = f * 256 ^ m + 32 * 256 ^ m := by ring
    omega
  rw [eq_beBytes (by simp [ht]) hlt, beNat_cons, ht]
  have htl := beNat_lt t
  rw [ht] at htl
  have hx : v = v / 256 ^ m * 256 ^ m + v % 256 ^ m := by rw [Nat.mul_comm]; exact (Nat.div_add_mod _ _).symm
  have hxm := Nat.mod_lt v hN
  have hxd : v / 256 ^ m < 32 := by rw [Nat.div_lt_iff_lt_mul hN]; exact hv
  generalize v / 256 ^ m = vh at *
  generalize v % 256 ^ m = vl at *
  subst hx
  rw [show f * 256 ^ m + (vh * 256 ^ m + vl) = (f + vh) * 256 ^ m + vl by ring, split_eq htl hxm, split_eq htl hxm]
  constructor
  · rintro ⟨h1, h2⟩; exact ⟨by omega, by omega, h2⟩
  · rintro ⟨h1, h2, h3⟩; exact ⟨by omega, h3⟩

/-- writing flags into the first byte of a value with its top three bits clear -/
theorem addFirst_eq {m f v : Nat} (hf : f = 32 * (f / 32)) (hf8 : f < 256) (hv : v < 32 * 256 ^ m) :
    addFirst (beBytes (m + 1) v) (BitVec.ofNat 8 f) = beBytes (m + 1) (f * 256 ^ m + v) := by
  have hl := beBytes_length (m + 1) v
  have h0 := (flag_iff (m := m) (f := 0) (v := v) rfl (by omega) hv)
  cases hbt : beBytes (m + 1) v with
  | nil => rw [hbt] at hl; simp at hl
  | cons b t =>
    rw [hbt] at hl
    have ht : t.length = m := by simpa using hl
    have h1 := (h0 b t ht).mp (by rw [← hbt]; simp)
    show (b + BitVec.ofNat 8 f) :: t = _
    rw [flag_iff hf hf8 hv _ t ht, BitVec.toNat_add, BitVec.toNat_ofNat]
    have hb : b.toNat < 32 := by omega
    refine ⟨?_, ?_⟩
    · rw [Nat.mod_eq_of_lt hf8, Nat.mod_eq_of_lt (by omega)]; omega
    · rw [Nat.mod_eq_of_lt hf8, show (b.toNat + f) % 2 ^ 8 % 32 = b.toNat % 32 by omega]
      exact h1.2

theorem any_zero (t : List Byte) : t.any (· != 0) = false ↔ beNat t = 0 := by
  induction t with
  | nil => simp
  | cons b t ih =>
    rw [List.any_cons, Bool.or_eq_false_iff, ih, beNat_cons]
    have hN : 0 < 256 ^ t.length := by positivity
    have hb : (b != 0) = false ↔ b.toNat = 0 := by
      rw [bne_eq_false_iff_eq]
      constructor
      · rintro rfl; rfl
      · intro e; exact BitVec.eq_of_toNat_eq (by simpa using e)
    rw [hb]
    constructor
    · rintro ⟨h1, h2⟩; rw [h1, h2]; simp
    · intro h
      have h1 : b.toNat * 256 ^ t.length = 0 := by omega
      rcases Nat.mul_eq_zero.mp h1 with h | h
      · exact ⟨h, by omega⟩
      · omega

end Verif.Bls
