import Verif.Gcm.Model
import Verif.Common.Bytes
import Mathlib.Tactic.Ring
import Mathlib.Data.List.GetD
/- Helper lemmas: GF(2^128). -/
namespace Verif.Gcm
open Verif.Aes (AES wd bt Byte)
open Spec (beNat beBytes)
open Spec.Gcm (toBV ofBV mulX)

/-- four words as one element -/
def W (r : List (BitVec 32)) : BitVec 128 := wd r 0 ++ wd r 1 ++ wd r 2 ++ wd r 3

theorem W_bit (r : List (BitVec 32)) (i : Nat) (hi : i < 128) : (W r).getLsbD i = (wd r (3 - i / 32)).getLsbD (i % 32) := by
  unfold W
  rw [BitVec.getLsbD_append, BitVec.getLsbD_append, BitVec.getLsbD_append]
  by_cases h0 : i < 32
  · simp only [decide_true, h0]
    rw [show i / 32 = 0 by omega, show i % 32 = i by omega]; simp
  by_cases h1 : i < 64
  · rw [show i / 32 = 1 by omega, show i % 32 = i - 32 by omega]
    simp [h0, show i - 32 < 32 by omega]
  by_cases h2 : i < 96
  · rw [show i / 32 = 2 by omega, show i % 32 = i - 32 - 32 by omega]
    simp [h0, show ¬ (i - 32 < 32) by omega, show i - 32 - 32 < 32 by omega]
  · rw [show i / 32 = 3 by omega, show i % 32 = i - 32 - 32 - 32 by omega]
    simp [h0, show ¬ (i - 32 < 32) by omega, show ¬ (i - 32 - 32 < 32) by omega]

theorem nextRow_eq (r : List (BitVec 32)) : nextRow r =
    if wd r 3 <<< 31 ≠ 0 then [((0 : BitVec 32) ||| (wd r 0 >>> 1)) ^^^ 0xE1000000, (wd r 0 <<< 31) ||| (wd r 1 >>> 1), (wd r 1 <<< 31) ||| (wd r 2 >>> 1), (wd r 2 <<< 31) ||| (wd r 3 >>> 1)]
    else [(0 : BitVec 32) ||| (wd r 0 >>> 1), (wd r 0 <<< 31) ||| (wd r 1 >>> 1), (wd r 1 <<< 31) ||| (wd r 2 >>> 1), (wd r 2 <<< 31) ||| (wd r 3 >>> 1)] := by
  have hf : (List.range NB).foldl (fun (rc : List (BitVec 32) × BitVec 32) j => (rc.1 ++ [rc.2 ||| (wd r j >>> 1)], wd r j <<< 31)) ([], 0)
      = ([(0 : BitVec 32) ||| (wd r 0 >>> 1), (wd r 0 <<< 31) ||| (wd r 1 >>> 1), (wd r 1 <<< 31) ||| (wd r 2 >>> 1), (wd r 2 <<< 31) ||| (wd r 3 >>> 1)],
        wd r 3 <<< 31) := by
    simp only [NB, List.range_succ, List.range_zero, List.nil_append, List.foldl_cons, List.foldl_nil, List.cons_append]
  unfold nextRow
  rw [hf]
  generalize wd r 3 <<< 31 = c
  generalize (0 : BitVec 32) ||| (wd r 0 >>> 1) = x
  generalize (0xE1000000 : BitVec 32) = e
  rfl

theorem carry_ne (x : BitVec 32) : (x <<< 31 ≠ 0) ↔ x.getLsbD 0 = true := by
  constructor
  · intro h
    by_contra hx
    apply h
    apply BitVec.eq_of_getLsbD_eq
    intro i hi
    simp only [BitVec.getLsbD_shiftLeft, BitVec.getLsbD_zero]
    by_cases hi31 : i < 31
    · simp [hi31]
    · have : i = 31 := by omega
      subst this
      simpa using hx
  · intro h e
    have := congrArg (fun y => y.getLsbD 31) e
    simp at this
    simp [this] at h

theorem R_bit (i : Nat) (hi : i < 128) : Spec.Gcm.R.getLsbD i = (W [0xE1000000, 0, 0, 0]).getLsbD i := by
  congr 1

theorem W_shift (r : List (BitVec 32)) :
    W [(0 : BitVec 32) ||| (wd r 0 >>> 1), (wd r 0 <<< 31) ||| (wd r 1 >>> 1), (wd r 1 <<< 31) ||| (wd r 2 >>> 1), (wd r 2 <<< 31) ||| (wd r 3 >>> 1)] = W r >>> 1 := by
  apply BitVec.eq_of_getLsbD_eq
  intro i hi
  rw [W_bit _ i hi, BitVec.getLsbD_ushiftRight]
  by_cases hl : 1 + i < 128
  · rw [W_bit _ _ hl]
    have hq : i / 32 = 0 ∨ i / 32 = 1 ∨ i / 32 = 2 ∨ i / 32 = 3 := by omega
    by_cases hr : i % 32 = 31
    · have e1 : (1 + i) % 32 = 0 := by omega
      have e2 : (1 + i) / 32 = i / 32 + 1 := by omega
      rw [e1, e2, hr]
      rcases hq with h | h | h | h
      · rw [h]; simp [wd]
      · rw [h]; simp [wd]
      · rw [h]; simp [wd]
      · omega
    · have e1 : (1 + i) % 32 = 1 + i % 32 := by omega
      have e2 : (1 + i) / 32 = i / 32 := by omega
      rw [e1, e2]
      have : i % 32 < 31 := by omega
      rcases hq with h | h | h | h <;> rw [h] <;> simp [wd, this]
  · have : i = 127 := by omega
    subst this
    simp [wd]

theorem W_xor (a b : List (BitVec 32)) (c : List (BitVec 32)) (h : ∀ k < 4, wd c k = wd a k ^^^ wd b k) : W c = W a ^^^ W b := by
  apply BitVec.eq_of_getLsbD_eq
  intro i hi
  rw [BitVec.getLsbD_xor, W_bit _ i hi, W_bit _ i hi, W_bit _ i hi, h _ (by omega), BitVec.getLsbD_xor]

theorem W_zero : W [0, 0, 0, 0] = 0 := by decide

theorem nextRow_W (r : List (BitVec 32)) : W (nextRow r) = mulX (W r) := by
  rw [nextRow_eq, mulX]
  have hb : (W r).getLsbD 0 = (wd r 3).getLsbD 0 := W_bit r 0 (by omega)
  by_cases h : (wd r 3).getLsbD 0 = true
  · simp only [if_pos ((carry_ne _).2 h), hb, h]
    rw [if_pos trivial, ← W_shift, show Spec.Gcm.R = W [0xE1000000, 0, 0, 0] from rfl]
    apply W_xor
    intro k hk
    have : k = 0 ∨ k = 1 ∨ k = 2 ∨ k = 3 := by omega
    rcases this with rfl | rfl | rfl | rfl <;> simp [wd]
  · simp only [if_neg (fun e => h ((carry_ne _).1 e)), hb]
    rw [if_neg h, ← W_shift]

/-! table -/

def powX (H : BitVec 128) : Nat → BitVec 128
  | 0 => H
  | k + 1 => mulX (powX H k)

theorem rows_length (r0 : List (BitVec 32)) (k : Nat) : (rows r0 k).length = k + 1 := by
  induction k with
  | zero => rfl
  | succ k ih => simp [rows, ih]

theorem rows_get (r0 : List (BitVec 32)) (k i : Nat) (hi : i ≤ k) : W ((rows r0 k).getD i []) = powX (W r0) i := by
  induction k generalizing i with
  | zero => have : i = 0 := by omega
            subst this; rfl
  | succ k ih =>
    rw [rows]
    by_cases h : i ≤ k
    · rw [List.getD_append _ _ _ _ (by rw [rows_length]; omega)]
      exact ih i h
    · have : i = k + 1 := by omega
      subst this
      rw [List.getD_append_right _ _ _ _ (by rw [rows_length])]
      simp only [rows_length, Nat.sub_self, List.getD_cons_zero]
      rw [nextRow_W, ih k le_rfl]
      rfl

/-! bytes -/

theorem beNat_testBit (b : List Byte) (j : Nat) :
    (beNat b).testBit j = (bt b.reverse (j / 8)).getLsbD (j % 8) := by
  induction b generalizing j with
  | nil => simp [bt, beNat]
  | cons x xs ih =>
    rw [Spec.beNat_cons]
    have hlt := Spec.beNat_lt xs
    rw [show (256 : Nat) = 2 ^ 8 by norm_num, ← pow_mul] at *
    rw [Nat.mul_comm x.toNat, Nat.testBit_two_pow_mul_add _ hlt]
    simp only [List.reverse_cons]
    split
    · rw [ih]
      unfold bt
      rw [List.getD_append _ _ _ _ (by simp; omega)]
    · next h =>
      unfold bt
      rw [List.getD_append_right _ _ _ _ (by simp; omega)]
      simp only [List.length_reverse]
      by_cases h2 : j / 8 = xs.length
      · rw [h2, Nat.sub_self, show j - 8 * xs.length = j % 8 by omega]
        rfl
      · rw [List.getD_eq_default _ _ (by simp; omega)]
        rw [Nat.testBit_lt_two_pow]
        · simp
        · exact lt_of_lt_of_le x.isLt (Nat.pow_le_pow_right (by norm_num) (by omega))

theorem bt_reverse (b : List Byte) (i : Nat) (h : i < b.length) : bt b.reverse i = bt b (b.length - 1 - i) := by
  unfold bt
  rw [List.getD_eq_getElem?_getD, List.getElem?_reverse h, ← List.getD_eq_getElem?_getD]

theorem toBV_bit (b : List Byte) (hb : b.length = 16) (i : Nat) (hi : i < 128) : (toBV b).getLsbD i = (bt b (15 - i / 8)).getLsbD (i % 8) := by
  rw [toBV, BitVec.getLsbD_ofNat, beNat_testBit, bt_reverse b _ (by omega)]
  simp [hi, hb]

theorem ofBV_length (x : BitVec 128) : (ofBV x).length = 16 := Spec.beBytes_length _ _

theorem toBV_ofBV (x : BitVec 128) : toBV (ofBV x) = x := by
  apply BitVec.eq_of_toNat_eq
  rw [toBV, ofBV, BitVec.toNat_ofNat, Spec.beNat_beBytes]
  have := x.isLt
  rw [show (256 : Nat) ^ 16 = 2 ^ 128 by norm_num]
  omega

theorem ofBV_toBV (b : List Byte) (hb : b.length = 16) : ofBV (toBV b) = b := by
  have h := Spec.beNat_lt b
  rw [hb] at h
  rw [toBV, ofBV, BitVec.toNat_ofNat, Nat.mod_eq_of_lt (by simpa using h)]
  have := Spec.beBytes_beNat b
  rwa [hb] at this

theorem bt_zip (a b : List Byte) (h : a.length = b.length) (i : Nat) : bt (List.zipWith (· ^^^ ·) a b) i = bt a i ^^^ bt b i := by
  unfold bt
  by_cases hi : i < a.length
  · have hi' : i < b.length := by omega
    simp [List.getD_eq_getElem?_getD, hi, hi']
  · rw [List.getD_eq_default _ _ (by simp; omega), List.getD_eq_default _ _ (by omega), List.getD_eq_default _ _ (by omega)]
    simp

theorem toBV_xor (a b : List Byte) (ha : a.length = 16) (hb : b.length = 16) : toBV (List.zipWith (· ^^^ ·) a b) = toBV a ^^^ toBV b := by
  apply BitVec.eq_of_getLsbD_eq
  intro i hi
  rw [BitVec.getLsbD_xor, toBV_bit _ (by simp [ha, hb]) i hi, toBV_bit _ ha i hi, toBV_bit _ hb i hi, bt_zip _ _ (by omega), BitVec.getLsbD_xor]

/-- four packed words are the block -/
theorem pack_bit (b : List Byte) (j : Nat) (hj : j < 32) : (pack b).getLsbD j = (bt b (3 - j / 8)).getLsbD (j % 8) := by
  unfold pack
  have e : ∀ x : Byte, x &&& 0xff = x := fun x => by
    apply BitVec.eq_of_toNat_eq
    rw [BitVec.toNat_and, show (0xff : Byte).toNat = 2 ^ 8 - 1 from rfl, Nat.and_two_pow_sub_one_eq_mod]
    exact Nat.mod_eq_of_lt x.isLt
  simp only [e, BitVec.getLsbD_or, BitVec.getLsbD_shiftLeft, BitVec.getLsbD_setWidth, hj, decide_true, Bool.true_and]
  have hq : j / 8 = 0 ∨ j / 8 = 1 ∨ j / 8 = 2 ∨ j / 8 = 3 := by omega
  have z : ∀ (x : Byte) k, 8 ≤ k → x.getLsbD k = false := fun x k h => BitVec.getLsbD_of_ge x k h
  rcases hq with h | h | h | h
  · rw [h, show j % 8 = j by omega]
    simp [show j < 24 by omega, show j < 16 by omega, show j < 8 by omega]
  · rw [h, show j % 8 = j - 8 by omega]
    simp [show j < 24 by omega, show j < 16 by omega, show ¬ (j < 8) by omega, z _ j (by omega), show j - 8 < 32 by omega]
  · rw [h, show j % 8 = j - 16 by omega]
    simp [show j < 24 by omega, show ¬ (j < 16) by omega, show ¬ (j < 8) by omega, z _ j (by omega), show j - 16 < 32 by omega, z _ (j - 8) (by omega)]
  · rw [h, show j % 8 = j - 24 by omega]
    simp [show ¬ (j < 24) by omega, show ¬ (j < 16) by omega, show ¬ (j < 8) by omega, z _ j (by omega), show j - 24 < 32 by omega, z _ (j - 8) (by omega),
      z _ (j - 16) (by omega)]

theorem unpack_pack (a b c d : Byte) : unpack (pack [a, b, c, d]) = [a, b, c, d] := by
  have z : ∀ (w : BitVec 32) s, s ≤ 24 → ∀ y : Byte, (∀ i < 8, w.getLsbD (s + i) = y.getLsbD i) → ((w >>> s) &&& 0xff).setWidth 8 = y := by
    intro w s hs y hy
    apply BitVec.eq_of_getLsbD_eq
    intro i hi
    rw [BitVec.getLsbD_setWidth, BitVec.getLsbD_and, BitVec.getLsbD_ushiftRight, hy i hi]
    have : (0xff : BitVec 32).getLsbD i = true := by
      have : i = 0 ∨ i = 1 ∨ i = 2 ∨ i = 3 ∨ i = 4 ∨ i = 5 ∨ i = 6 ∨ i = 7 := by omega
      rcases this with rfl | rfl | rfl | rfl | rfl | rfl | rfl | rfl <;> decide
    rw [this]; simp [hi]
  unfold unpack
  rw [z _ 24 (by omega) a, z _ 16 (by omega) b, z _ 8 (by omega) c]
  · have := z (pack [a, b, c, d]) 0 (by omega) d
    rw [show pack [a, b, c, d] >>> 0 = pack [a, b, c, d] from BitVec.ushiftRight_zero _] at this
    rw [this]
    intro i hi
    rw [pack_bit _ _ (by omega), show 3 - (0 + i) / 8 = 3 by omega, show (0 + i) % 8 = i by omega]; rfl
  · intro i hi
    rw [pack_bit _ _ (by omega), show 3 - (8 + i) / 8 = 2 by omega, show (8 + i) % 8 = i by omega]; rfl
  · intro i hi
    rw [pack_bit _ _ (by omega), show 3 - (16 + i) / 8 = 1 by omega, show (16 + i) % 8 = i by omega]; rfl
  · intro i hi
    rw [pack_bit _ _ (by omega), show 3 - (24 + i) / 8 = 0 by omega, show (24 + i) % 8 = i by omega]; rfl

theorem pack_unpack (w : BitVec 32) : pack (unpack w) = w := by
  apply BitVec.eq_of_getLsbD_eq
  intro i hi
  rw [pack_bit _ _ hi]
  have ff : ∀ j < 8, (0xff : BitVec 32).getLsbD j = true := by decide
  have g : ∀ k, (((w >>> k) &&& 0xff).setWidth 8 : Byte).getLsbD (i % 8) = w.getLsbD (k + i % 8) := by
    intro k
    rw [BitVec.getLsbD_setWidth, BitVec.getLsbD_and, BitVec.getLsbD_ushiftRight, ff _ (by omega)]
    simp [show i % 8 < 8 by omega]
  have g0 : ((w &&& 0xff).setWidth 8 : Byte).getLsbD (i % 8) = w.getLsbD (i % 8) := by
    have := g 0
    rwa [Nat.zero_add, BitVec.ushiftRight_zero] at this
  have hq : i / 8 = 0 ∨ i / 8 = 1 ∨ i / 8 = 2 ∨ i / 8 = 3 := by omega
  unfold unpack bt
  rcases hq with h | h | h | h <;> rw [h]
  · exact g0.trans (by congr 1; omega)
  · exact (g 8).trans (by congr 1; omega)
  · exact (g 16).trans (by congr 1; omega)
  · exact (g 24).trans (by congr 1; omega)

theorem words_W (h : List Byte) (hh : h.length = 16) :
    W ((List.range NB).map fun i => pack [bt h (4 * i), bt h (4 * i + 1), bt h (4 * i + 2), bt h (4 * i + 3)]) = toBV h := by
  apply BitVec.eq_of_getLsbD_eq
  intro i hi
  rw [W_bit _ i hi, toBV_bit _ hh i hi]
  have hw : ∀ q < 4, wd ((List.range NB).map fun i => pack [bt h (4 * i), bt h (4 * i + 1), bt h (4 * i + 2), bt h (4 * i + 3)]) q
      = pack [bt h (4 * q), bt h (4 * q + 1), bt h (4 * q + 2), bt h (4 * q + 3)] := by
    intro q hq
    simp [wd, NB, hq]
  rw [hw _ (by omega), pack_bit _ _ (by omega), show i % 32 % 8 = i % 8 by omega]
  congr 1
  have hq : i % 32 / 8 = 0 ∨ i % 32 / 8 = 1 ∨ i % 32 / 8 = 2 ∨ i % 32 / 8 = 3 := by omega
  rcases hq with h | h | h | h <;> rw [h] <;> simp only [bt, List.getD_cons_succ, List.getD_cons_zero, Nat.sub_zero, Nat.reduceSub] <;> congr 1 <;> omega

theorem unpack_length (w : BitVec 32) : (unpack w).length = 4 := rfl

theorem W_bytes (a b c d : BitVec 32) : [a, b, c, d].flatMap unpack = ofBV (W [a, b, c, d]) := by
  have hl : ([a, b, c, d].flatMap unpack).length = 16 := by simp [unpack_length]
  rw [← ofBV_toBV _ hl, ← words_W _ hl]
  have e : ((List.range NB).map fun i => pack [bt ([a, b, c, d].flatMap unpack) (4 * i), bt ([a, b, c, d].flatMap unpack) (4 * i + 1),
      bt ([a, b, c, d].flatMap unpack) (4 * i + 2), bt ([a, b, c, d].flatMap unpack) (4 * i + 3)])
      = [pack (unpack a), pack (unpack b), pack (unpack c), pack (unpack d)] := by
    simp only [NB, List.range_succ, List.range_zero, List.map_append, List.map_cons, List.map_nil, List.nil_append, List.flatMap_cons, List.flatMap_nil,
      List.append_nil, unpack, List.cons_append, bt, List.getD_cons_succ, List.getD_cons_zero, Nat.mul_zero, Nat.mul_one, Nat.zero_add, Nat.reduceMul, Nat.reduceAdd]
  rw [e, pack_unpack, pack_unpack, pack_unpack, pack_unpack]

end Verif.Gcm
