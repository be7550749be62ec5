import Verif.Aes.Model
import Verif.Spec.Aes
import Mathlib.Tactic.IntervalCases
/- Helper lemmas: packing, rotations, tables. -/
namespace Verif.Aes

theorem pack_eq (a b c d : Byte) : pack [a, b, c, d] = (d ++ c ++ b ++ a : BitVec (8 + 8 + 8 + 8)) := by
  apply BitVec.eq_of_getLsbD_eq
  intro i hi
  simp only [pack, bt, List.getD_cons_zero, List.getD_cons_succ, BitVec.getLsbD_append, BitVec.getLsbD_or, BitVec.getLsbD_shiftLeft,
    BitVec.getLsbD_setWidth]
  interval_cases i <;> simp

theorem pack_bits (a b c d : Byte) (i : Nat) : (pack [a, b, c, d]).getLsbD i =
    if i < 8 then a.getLsbD i else if i < 16 then b.getLsbD (i - 8) else if i < 24 then c.getLsbD (i - 16) else d.getLsbD (i - 24) := by
  rw [pack_eq]
  simp only [BitVec.getLsbD_append]
  by_cases h1 : i < 8
  · simp [h1]
  · by_cases h2 : i < 16
    · simp [h1, h2, show i - 8 < 8 by omega]
    · by_cases h3 : i < 24
      · simp [h1, h2, h3, show ¬ i - 8 < 8 by omega, show i - 8 - 8 = i - 16 by omega, show i - 16 < 8 by omega]
      · simp [h1, h2, h3, show ¬ i - 8 < 8 by omega, show ¬ i - 8 - 8 < 8 by omega, show i - 8 - 8 - 8 = i - 24 by omega]

theorem rotl8_pack (a b c d : Byte) : rotl8 (pack [a, b, c, d]) = pack [d, a, b, c] := by
  apply BitVec.eq_of_getLsbD_eq
  intro i hi
  simp only [rotl8, BitVec.getLsbD_or, BitVec.getLsbD_shiftLeft, BitVec.getLsbD_ushiftRight, pack_bits]
  interval_cases i <;> simp

theorem rotl16_pack (a b c d : Byte) : rotl16 (pack [a, b, c, d]) = pack [c, d, a, b] := by
  apply BitVec.eq_of_getLsbD_eq
  intro i hi
  simp only [rotl16, BitVec.getLsbD_or, BitVec.getLsbD_shiftLeft, BitVec.getLsbD_ushiftRight, pack_bits]
  interval_cases i <;> simp

theorem rotl24_pack (a b c d : Byte) : rotl24 (pack [a, b, c, d]) = pack [b, c, d, a] := by
  apply BitVec.eq_of_getLsbD_eq
  intro i hi
  simp only [rotl24, BitVec.getLsbD_or, BitVec.getLsbD_shiftLeft, BitVec.getLsbD_ushiftRight, pack_bits]
  interval_cases i <;> simp

theorem pack_xor (a b c d a' b' c' d' : Byte) :
    pack [a, b, c, d] ^^^ pack [a', b', c', d'] = pack [a ^^^ a', b ^^^ b', c ^^^ c', d ^^^ d'] := by
  apply BitVec.eq_of_getLsbD_eq
  intro i hi
  simp only [BitVec.getLsbD_xor, pack_bits]
  split
  · rfl
  · split
    · rfl
    · split <;> rfl

theorem byte0 (a b c d : Byte) : pack [a, b, c, d] &&& 0xff = a.setWidth 32 := by
  apply BitVec.eq_of_getLsbD_eq
  intro i hi
  simp only [BitVec.getLsbD_and, BitVec.getLsbD_setWidth, pack_bits]
  interval_cases i <;> simp

theorem byte1 (a b c d : Byte) : (pack [a, b, c, d] >>> 8) &&& 0xff = b.setWidth 32 := by
  apply BitVec.eq_of_getLsbD_eq
  intro i hi
  simp only [BitVec.getLsbD_and, BitVec.getLsbD_setWidth, BitVec.getLsbD_ushiftRight, pack_bits]
  interval_cases i <;> simp

theorem byte2 (a b c d : Byte) : (pack [a, b, c, d] >>> 16) &&& 0xff = c.setWidth 32 := by
  apply BitVec.eq_of_getLsbD_eq
  intro i hi
  simp only [BitVec.getLsbD_and, BitVec.getLsbD_setWidth, BitVec.getLsbD_ushiftRight, pack_bits]
  interval_cases i <;> simp

theorem byte3 (a b c d : Byte) : (pack [a, b, c, d] >>> 24) &&& 0xff = d.setWidth 32 := by
  apply BitVec.eq_of_getLsbD_eq
  intro i hi
  simp only [BitVec.getLsbD_and, BitVec.getLsbD_setWidth, BitVec.getLsbD_ushiftRight, pack_bits]
  interval_cases i <;> simp

theorem unpack_pack (a b c d : Byte) : unpack (pack [a, b, c, d]) = [a, b, c, d] := by
  unfold unpack
  rw [byte0, byte1, byte2, byte3]
  simp

theorem setWidth_pack (a : Byte) : (a.setWidth 32 : BitVec 32) = pack [a, 0, 0, 0] := by
  apply BitVec.eq_of_getLsbD_eq
  intro i hi
  simp only [BitVec.getLsbD_setWidth, pack_bits]
  interval_cases i <;> simp

theorem pack_unpack (w : BitVec 32) : pack (unpack w) = w := by
  apply BitVec.eq_of_getLsbD_eq
  intro i hi
  simp only [unpack, pack_bits, BitVec.getLsbD_setWidth, BitVec.getLsbD_and, BitVec.getLsbD_ushiftRight]
  interval_cases i <;> simp

end Verif.Aes
