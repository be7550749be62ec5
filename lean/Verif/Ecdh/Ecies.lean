import Verif.Ecdh.Cbc
import Verif.Ecdh.Pbkdf
/- Helper lemmas: ECIES. -/
namespace Verif.Ecdh
open Spec (Byte ShaLen beBytes)

theorem or0 (a b : Byte) : a ||| b = 0 ↔ a = 0 ∧ b = 0 := BitVec.or_eq_zero_iff
theorem xor0 (a b : Byte) : a ^^^ b = 0 ↔ a = b := BitVec.xor_eq_zero_iff

theorem or_fold (g : Nat → Byte) (n : Nat) (z : Byte) : (List.range n).foldl (fun acc i => acc ||| g i) z = 0 ↔ z = 0 ∧ ∀ i < n, g i = 0 := by
  induction n with
  | zero => simp
  | succ n ih =>
    rw [List.range_succ, List.foldl_append, List.foldl_cons, List.foldl_nil, or0, ih]
    constructor
    · rintro ⟨⟨h0, h⟩, hn⟩
      refine ⟨h0, fun i hi => ?_⟩
      rcases Nat.lt_succ_iff_lt_or_eq.mp hi with h' | rfl
      · exact h i h'
      · exact hn
    · rintro ⟨h0, h⟩
      exact ⟨⟨h0, fun i hi => h i (by omega)⟩, h n (by omega)⟩

theorem ncomp_eq (t1 t2 : List Byte) (n : Nat) (h1 : n ≤ t1.length) (h2 : n ≤ t2.length) :
    ncomp t1 t2 n = some (decide (t1.take n = t2.take n)) := by
  unfold ncomp
  rw [if_pos ⟨h1, h2⟩]
  congr 1
  rw [Bool.eq_iff_iff, beq_iff_eq, or_fold (fun i => t1.getD i 0 ^^^ t2.getD i 0), decide_eq_true_iff]
  constructor
  · rintro ⟨_, h⟩
    apply List.ext_getElem
    · simp; omega
    · intro i hi1 hi2
      have hi : i < n := by simp at hi1; omega
      have := h i hi
      rw [xor0, gd _ _ (by omega), gd _ _ (by omega)] at this
      simpa using this
  · intro h
    refine ⟨rfl, fun i hi => ?_⟩
    rw [xor0, gd _ _ (by omega), gd _ _ (by omega)]
    have e : (t1.take n)[i]'(by simp; omega) = (t2.take n)[i]'(by simp; omega) := by simp only [h]
    simpa using e

theorem macInput_eq (c p2 : List Byte) : macInput c p2 = c ++ p2 ++ beBytes 8 p2.length := by
  rw [macInput, ← beBytes_zero 8, inttobytes_eq 8 0 _ (by omega)]

theorem kdf2_length {n : Nat} (hn : ShaLen n) (z p : List Byte) (olen : Nat) : (Spec.kdf2 n z p olen).length = olen := by
  unfold Spec.kdf2
  have h0 : 0 < n := by have := sha_ge hn; omega
  have := ceil_mul h0 olen
  rw [List.length_take, List.length_flatMap]
  simp [sha_length hn]
  exact this

theorem eciesKeys_eq {n : Nat} (hn : ShaLen n) (efs aeskey : Nat) (p1 v z : List Byte) (hv : 2 * efs + 1 ≤ v.length) :
    eciesKeys efs aeskey n p1 v z = some ((Spec.kdf2 n (v.take (2 * efs + 1) ++ z) p1 (2 * aeskey)).take aeskey,
      (Spec.kdf2 n (v.take (2 * efs + 1) ++ z) p1 (2 * aeskey)).drop aeskey) := by
  unfold eciesKeys
  rw [if_neg (by omega), kdf2_eq hn _ _ _ _ (by simp)]
  simp

end Verif.Ecdh
