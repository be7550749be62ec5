import Verif.Nhs.Model
import Verif.Spec.Nhs
import Verif.Big.Word
import Mathlib.Tactic.NormNum
import Mathlib.Tactic.Ring
/- Helper lemmas: word arithmetic of `nhs.rs`. -/
namespace Verif.Nhs
open Spec.Nhs (q)

/-- value of a word known to be non-negative -/
structure Is (x : I32) (v : Nat) : Prop where
  lt : v < 2 ^ 31
  nat : x.toNat = v

theorem Is.int {x : I32} {v : Nat} (h : Is x v) : x.toInt = v := by
  have := h.lt; have := h.nat
  rw [BitVec.toInt_eq_toNat_cond]; split <;> omega

theorem is_of_int {x : I32} {v : Nat} (h : x.toInt = v) : Is x v := by
  rw [BitVec.toInt_eq_toNat_cond] at h
  have := x.isLt
  split at h
  · exact ⟨by omega, by omega⟩
  · omega

theorem is_ofNat {v : Nat} (h : v < 2 ^ 31) : Is (BitVec.ofNat 32 v) v :=
  ⟨h, by rw [BitVec.toNat_ofNat]; omega⟩

theorem is_prime : Is PRIME q := ⟨by decide, by decide⟩

theorem Is.se {x : I32} {v : Nat} (h : Is x v) : (x.signExtend 64).toNat = v := by
  have h1 := h.lt; have h2 := h.nat
  rw [BitVec.toNat_signExtend, BitVec.toNat_setWidth]
  have : x.msb = false := by rw [BitVec.msb_eq_decide]; simp; omega
  rw [this]; simp only [Bool.false_eq_true, if_false]
  omega

theorem Is.add {x y : I32} {u v : Nat} (hx : Is x u) (hy : Is y v) (h : u + v < 2 ^ 31) : Is (x + y) (u + v) :=
  ⟨h, by have := hx.nat; have := hy.nat; rw [BitVec.toNat_add]; omega⟩

theorem Is.sub {x y : I32} {u v : Nat} (hx : Is x u) (hy : Is y v) (h : v ≤ u) : Is (x - y) (u - v) :=
  ⟨by have := hx.lt; omega, by have := hx.nat; have := hy.nat; have := hx.lt; rw [BitVec.toNat_sub]; omega⟩

/-- Montgomery reduction: `2^32 · r = t + m·q` -/
theorem redc_is (t : BitVec 64) (ht : t.toNat < 2 ^ 62) :
    ∃ r m : Nat, Is (redc t) r ∧ m < 2 ^ 32 ∧ r * 2 ^ 32 = t.toNat + m * q := by
  set m := (t.setWidth 32 * ND).toNat with hm
  have hm2 : m < 2 ^ 32 := (t.setWidth 32 * ND).isLt
  have hmv : m = (t.toNat % 2 ^ 32 * 0xF7002FFF) % 2 ^ 32 := by
    rw [hm, BitVec.toNat_mul, BitVec.toNat_setWidth]; rfl
  have hdvd : (t.toNat + m * q) % 2 ^ 32 = 0 := by
    rw [hmv]; unfold q
    generalize t.toNat = n
    omega
  have hq : q = 12289 := rfl
  refine ⟨(t.toNat + m * q) / 2 ^ 32, m, ⟨?_, ?_⟩, hm2, by omega⟩
  all_goals rw [hq]
  all_goals clear_value m
  all_goals clear hmv
  · omega
  · unfold redc
    simp only
    rw [BitVec.toNat_setWidth, BitVec.toNat_ushiftRight, BitVec.toNat_add, BitVec.toNat_mul, BitVec.toNat_setWidth, ← hm,
      show (PRIME.signExtend 64).toNat = 12289 by decide, Nat.shiftRight_eq_div_pow]
    omega

theorem mulBits {x : I32} {v : Nat} (h : Is x v) (y : BitVec 64) {w : Nat} (hy : y.toNat = w) (hvw : v * w < 2 ^ 62) :
    (x.signExtend 64 * y).toNat = v * w := by
  rw [BitVec.toNat_mul, h.se, hy, Nat.mod_eq_of_lt (by omega)]

theorem modmul_is {a b : I32} {u v : Nat} (ha : Is a u) (hb : Is b v) :
    ∃ r m : Nat, Is (modmul a b) r ∧ m < 2 ^ 32 ∧ r * 2 ^ 32 = u * v + m * q := by
  have h : u * v < 2 ^ 62 := by
    calc u * v < 2 ^ 31 * 2 ^ 31 := Nat.mul_lt_mul'' ha.lt hb.lt
      _ = 2 ^ 62 := by norm_num
  have e := mulBits ha _ hb.se h
  obtain ⟨r, m, h1, h2, h3⟩ := redc_is _ (by rw [e]; exact h)
  exact ⟨r, m, h1, h2, by rw [h3, e]⟩

theorem nres_is {a : I32} {u : Nat} (ha : Is a u) :
    ∃ r m : Nat, Is (nres a) r ∧ m < 2 ^ 32 ∧ r * 2 ^ 32 = u * 0x1620 + m * q := by
  have h : u * 0x1620 < 2 ^ 62 := by have := ha.lt; omega
  have e := mulBits ha R2MODP (w := 0x1620) (by decide) h
  obtain ⟨r, m, h1, h2, h3⟩ := redc_is _ (by rw [e]; exact h)
  exact ⟨r, m, h1, h2, by rw [h3, e]⟩

theorem redcSe_is {a : I32} {u : Nat} (ha : Is a u) :
    ∃ r m : Nat, Is (redc (a.signExtend 64)) r ∧ m < 2 ^ 32 ∧ r * 2 ^ 32 = u + m * q := by
  obtain ⟨r, m, h1, h2, h3⟩ := redc_is (a.signExtend 64) (by rw [ha.se]; have := ha.lt; omega)
  exact ⟨r, m, h1, h2, by rw [h3, ha.se]⟩

theorem condAdd (y : I32) (v : Int) (hv : y.toInt = v) (h1 : -(q : Int) ≤ v) (h2 : v < 2 ^ 30) :
    Is (y + (y.sshiftRight 31 &&& PRIME)) (if v < 0 then v + q else v).toNat := by
  have hq : q = 12289 := rfl
  rw [hq] at h1 ⊢
  by_cases c : v < 0
  · have hs : y.sshiftRight 31 = BitVec.allOnes 32 := by
      apply BitVec.eq_of_toInt_eq
      rw [BitVec.toInt_sshiftRight, hv, Int.shiftRight_eq_div_pow, show (BitVec.allOnes 32).toInt = -1 by decide]
      omega
    rw [hs, BitVec.allOnes_and, if_pos c]
    apply is_of_int
    rw [Big.toInt_add_of _ _ (by omega) (by rw [hv, is_prime.int, hq]; norm_num; omega) (by rw [hv, is_prime.int, hq]; norm_num; omega),
      hv, is_prime.int, hq]
    omega
  · have hs : y.sshiftRight 31 = 0 := by
      apply BitVec.eq_of_toInt_eq
      rw [BitVec.toInt_sshiftRight, hv, Int.shiftRight_eq_div_pow, show (0 : I32).toInt = 0 by decide]
      omega
    rw [hs, show (0 : I32) = 0#32 from rfl, BitVec.zero_and, BitVec.add_zero, if_neg c]
    apply is_of_int
    omega

theorem softReduce_is {x : I32} {v : Nat} (hx : Is x v) (hv : v < 2 * q) : Is (softReduce x) (v % q) := by
  have hq : q = 12289 := rfl
  have e : (x - PRIME).toInt = (v : Int) - q := by
    rw [Big.toInt_sub_of _ _ (by omega) (by rw [hx.int, is_prime.int, hq]; norm_num; omega) (by rw [hx.int, is_prime.int, hq]; norm_num; omega),
      hx.int, is_prime.int]
  have h := condAdd (x - PRIME) _ e (by omega) (by omega)
  have e2 : (if (v : Int) - q < 0 then (v : Int) - q + q else (v : Int) - q).toNat = v % q := by
    rw [hq] at hv ⊢
    split <;> omega
  rw [e2] at h
  exact h

theorem mod_of_eq {r v w m : Nat} (h : r * 2 ^ 32 = v * w + m * q) (hw : 2 ^ 32 % q = w % q) : r % q = v % q := by
  have h2 : Nat.ModEq q (r * 2 ^ 32) (v * 2 ^ 32) := by
    rw [h]
    calc v * w + m * q ≡ v * w + 0 [MOD q] := Nat.ModEq.add_left _ ((Nat.modEq_zero_iff_dvd).2 (Dvd.intro_left m rfl))
      _ = v * w := Nat.add_zero _
      _ ≡ v * 2 ^ 32 [MOD q] := Nat.ModEq.mul_left _ hw.symm
  exact Nat.ModEq.cancel_right_of_coprime (by decide) h2

theorem hardReduce_is {x : I32} {v : Nat} (hx : Is x v) : Is (hardReduce x) (v % q) := by
  obtain ⟨r, m, h1, h2, h3⟩ := modmul_is hx (show Is ONE 10952 from ⟨by decide, by decide⟩)
  have hr : r < 2 * q := by
    have hv : v * 10952 < 2 ^ 31 * 10952 := Nat.mul_lt_mul_of_pos_right hx.lt (by decide)
    have hq : q = 12289 := rfl
    obtain ⟨z, hz, h4⟩ : ∃ z, z < 2 ^ 31 * 10952 ∧ r * 2 ^ 32 = z + m * q := ⟨_, hv, h3⟩
    clear h3 hv
    rw [hq] at h4 ⊢
    omega
  have h := softReduce_is h1 hr
  rw [mod_of_eq h3 (by decide)] at h
  exact h

theorem fromMont_is {x : I32} {v : Nat} (hx : Is x v) : ∃ r, Is (fromMont x) r ∧ r < q ∧ (r * 2 ^ 32) % q = v % q := by
  obtain ⟨r, m, h1, h2, h3⟩ := redcSe_is hx
  have hr : r < 2 * q := by have := hx.lt; rw [show q = 12289 from rfl] at h3 ⊢; omega
  have h := softReduce_is h1 hr
  refine ⟨r % q, h, Nat.mod_lt _ (by decide), ?_⟩
  rw [Nat.mul_mod, Nat.mod_mod, ← Nat.mul_mod, h3, Nat.add_mul_mod_self_right]

end Verif.Nhs
