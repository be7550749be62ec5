import Verif.Aes.TableFacts
/- Helper lemmas: one round of the code is one round of FIPS-197. -/
namespace Verif.Aes
open Spec.Aes (sbox invSbox gmul subBytes shiftRows mixColumns addRoundKey invSubBytes invShiftRows invMixColumns mixWith)

/-- a 16-byte block as four words -/
def packs (s : List Byte) : List (BitVec 32) :=
  [pack [bt s 0, bt s 1, bt s 2, bt s 3], pack [bt s 4, bt s 5, bt s 6, bt s 7],
   pack [bt s 8, bt s 9, bt s 10, bt s 11], pack [bt s 12, bt s 13, bt s 14, bt s 15]]

theorem len16 (l : List Byte) (h : l.length = 16) : l = (List.range 16).map (bt l) := by
  apply List.ext_getElem
  · simp [h]
  · intro i h1 h2
    simp [bt, h1]

theorem range16 : List.range 16 = [0,1,2,3,4,5,6,7,8,9,10,11,12,13,14,15] := by decide

theorem unpack_packs (s : List Byte) (h : s.length = 16) : (packs s).flatMap unpack = s := by
  conv_rhs => rw [len16 s h, range16]
  simp [packs, unpack_pack]

/-- words `k … k+3` of an expanded key are the round key `rk` -/
def KeyAt (key : List (BitVec 32)) (k : Nat) (rk : List Byte) : Prop :=
  wd key k = pack [bt rk 0, bt rk 1, bt rk 2, bt rk 3] ∧ wd key (k + 1) = pack [bt rk 4, bt rk 5, bt rk 6, bt rk 7] ∧
  wd key (k + 2) = pack [bt rk 8, bt rk 9, bt rk 10, bt rk 11] ∧ wd key (k + 3) = pack [bt rk 12, bt rk 13, bt rk 14, bt rk 15]

theorem bt_zipWith (s k : List Byte) (i : Nat) (hs : i < s.length) (hk : i < k.length) :
    bt (List.zipWith (· ^^^ ·) s k) i = bt s i ^^^ bt k i := by
  simp [bt, List.getD_eq_getElem?_getD, hs, hk]

theorem bt_map (s : List Byte) (f : Byte → Byte) (i : Nat) (hs : i < s.length) : bt (s.map f) i = f (bt s i) := by
  simp [bt, List.getD_eq_getElem?_getD, hs]

theorem bt_range (f : Nat → Byte) (i : Nat) (hi : i < 16) : bt ((List.range 16).map f) i = f i := by
  simp [bt, List.getD_eq_getElem?_getD, hi]

theorem add_length (s k : List Byte) (hs : s.length = 16) (hk : k.length = 16) : (addRoundKey s k).length = 16 := by
  simp [addRoundKey, hs, hk]
theorem sub_length (s : List Byte) : (subBytes s).length = s.length := by simp [subBytes]
theorem isub_length (s : List Byte) : (invSubBytes s).length = s.length := by simp [invSubBytes]
theorem shift_length (s : List Byte) : (shiftRows s).length = 16 := by simp [shiftRows]
theorem ishift_length (s : List Byte) : (invShiftRows s).length = 16 := by simp [invShiftRows]
theorem mixw_length (a b c d : Byte) (s : List Byte) : (mixWith a b c d s).length = 16 := by simp [mixWith]
theorem mix_length (s : List Byte) : (mixColumns s).length = 16 := mixw_length ..
theorem imix_length (s : List Byte) : (invMixColumns s).length = 16 := mixw_length ..

theorem bt_add (s k : List Byte) (hs : s.length = 16) (hk : k.length = 16) (i : Nat) (hi : i < 16) :
    bt (addRoundKey s k) i = bt s i ^^^ bt k i := bt_zipWith s k i (by omega) (by omega)

theorem bt_sub (s : List Byte) (hs : s.length = 16) (i : Nat) (hi : i < 16) : bt (subBytes s) i = sbox (bt s i) :=
  bt_map s sbox i (by omega)
theorem bt_isub (s : List Byte) (hs : s.length = 16) (i : Nat) (hi : i < 16) : bt (invSubBytes s) i = invSbox (bt s i) :=
  bt_map s invSbox i (by omega)
theorem bt_shift (s : List Byte) (i : Nat) (hi : i < 16) : bt (shiftRows s) i = bt s ((i + 4 * (i % 4)) % 16) :=
  bt_range _ i hi
theorem bt_ishift (s : List Byte) (i : Nat) (hi : i < 16) : bt (invShiftRows s) i = bt s ((i + 12 * (i % 4)) % 16) :=
  bt_range _ i hi
theorem bt_mixw (k0 k1 k2 k3 : Byte) (s : List Byte) (i : Nat) (hi : i < 16) : bt (mixWith k0 k1 k2 k3 s) i =
    gmul k0 (bt s (4 * (i / 4) + i % 4)) ^^^ gmul k1 (bt s (4 * (i / 4) + (i % 4 + 1) % 4)) ^^^ gmul k2 (bt s (4 * (i / 4) + (i % 4 + 2) % 4))
      ^^^ gmul k3 (bt s (4 * (i / 4) + (i % 4 + 3) % 4)) := bt_range _ i hi

theorem pack_congr {a b c d a' b' c' d' : Byte} (ha : a = a') (hb : b = b') (hc : c = c') (hd : d = d') :
    pack [a, b, c, d] = pack [a', b', c', d'] := by rw [ha, hb, hc, hd]

theorem load_packs {key : List (BitVec 32)} {rk s : List Byte} (hk : KeyAt key 0 rk) (hs : s.length = 16) (hrk : rk.length = 16) :
    load key s = packs (addRoundKey s rk) := by
  obtain ⟨k0, k1, k2, k3⟩ := hk
  simp only [Nat.zero_add] at k1 k2 k3
  simp only [load, show List.range 4 = [0, 1, 2, 3] by decide, List.map_cons, List.map_nil, k0, k1, k2, k3, pack_xor, packs,
    bt_add s rk hs hrk _ (show 0 < 16 by omega), bt_add s rk hs hrk _ (show 1 < 16 by omega), bt_add s rk hs hrk _ (show 2 < 16 by omega),
    bt_add s rk hs hrk _ (show 3 < 16 by omega), bt_add s rk hs hrk _ (show 4 < 16 by omega), bt_add s rk hs hrk _ (show 5 < 16 by omega),
    bt_add s rk hs hrk _ (show 6 < 16 by omega), bt_add s rk hs hrk _ (show 7 < 16 by omega), bt_add s rk hs hrk _ (show 8 < 16 by omega),
    bt_add s rk hs hrk _ (show 9 < 16 by omega), bt_add s rk hs hrk _ (show 10 < 16 by omega), bt_add s rk hs hrk _ (show 11 < 16 by omega),
    bt_add s rk hs hrk _ (show 12 < 16 by omega), bt_add s rk hs hrk _ (show 13 < 16 by omega), bt_add s rk hs hrk _ (show 14 < 16 by omega),
    bt_add s rk hs hrk _ (show 15 < 16 by omega)]

theorem wd_packs (s : List Byte) : wd (packs s) 0 = pack [bt s 0, bt s 1, bt s 2, bt s 3] ∧
    wd (packs s) 1 = pack [bt s 4, bt s 5, bt s 6, bt s 7] ∧ wd (packs s) 2 = pack [bt s 8, bt s 9, bt s 10, bt s 11] ∧
    wd (packs s) 3 = pack [bt s 12, bt s 13, bt s 14, bt s 15] := ⟨rfl, rfl, rfl, rfl⟩

/-- the four words of a round, once their bytes are known -/
theorem packs_eq {a b c d : BitVec 32} {t : List Byte} (h0 : a = pack [bt t 0, bt t 1, bt t 2, bt t 3])
    (h1 : b = pack [bt t 4, bt t 5, bt t 6, bt t 7]) (h2 : c = pack [bt t 8, bt t 9, bt t 10, bt t 11])
    (h3 : d = pack [bt t 12, bt t 13, bt t 14, bt t 15]) : [a, b, c, d] = packs t := by rw [h0, h1, h2, h3]; rfl

theorem encRound_packs {key : List (BitVec 32)} {k : Nat} {rk s : List Byte} (hk : KeyAt key k rk) (hs : s.length = 16) (hrk : rk.length = 16) :
    encRound key k (packs s) = packs (addRoundKey (mixColumns (shiftRows (subBytes s))) rk) := by
  obtain ⟨k0, k1, k2, k3⟩ := hk
  obtain ⟨w0, w1, w2, w3⟩ := wd_packs s
  have key' : ∀ i, i < 16 → bt (addRoundKey (mixColumns (shiftRows (subBytes s))) rk) i =
      gmul 2 (bt (shiftRows (subBytes s)) (4 * (i / 4) + i % 4)) ^^^ gmul 3 (bt (shiftRows (subBytes s)) (4 * (i / 4) + (i % 4 + 1) % 4))
      ^^^ bt (shiftRows (subBytes s)) (4 * (i / 4) + (i % 4 + 2) % 4) ^^^ bt (shiftRows (subBytes s)) (4 * (i / 4) + (i % 4 + 3) % 4)
      ^^^ bt rk i := by
    intro i hi
    rw [bt_add _ _ (mix_length _) hrk i hi, mixColumns, bt_mixw _ _ _ _ _ i hi, gmul_one, gmul_one]
  have sh : ∀ i, i < 16 → bt (shiftRows (subBytes s)) i = sbox (bt s ((i + 4 * (i % 4)) % 16)) := by
    intro i hi
    rw [bt_shift _ i hi, bt_sub s hs _ (Nat.mod_lt _ (by omega))]
  unfold encRound
  rw [w0, w1, w2, w3, k0, k1, k2, k3]
  simp only [byte0, byte1, byte2, byte3, ft_get, rotl8_pack, rotl16_pack, rotl24_pack, pack_xor]
  apply packs_eq <;> apply pack_congr <;> rw [key' _ (by omega)] <;>
    rw [sh _ (by omega), sh _ (by omega), sh _ (by omega), sh _ (by omega)] <;> simp <;> ac_rfl

theorem encLast_packs {key : List (BitVec 32)} {k : Nat} {rk s : List Byte} (hk : KeyAt key k rk) (hs : s.length = 16) (hrk : rk.length = 16) :
    encLast key k (packs s) = packs (addRoundKey (shiftRows (subBytes s)) rk) := by
  obtain ⟨k0, k1, k2, k3⟩ := hk
  obtain ⟨w0, w1, w2, w3⟩ := wd_packs s
  have sh : ∀ i, i < 16 → bt (addRoundKey (shiftRows (subBytes s)) rk) i = sbox (bt s ((i + 4 * (i % 4)) % 16)) ^^^ bt rk i := by
    intro i hi
    rw [bt_add _ _ (shift_length _) hrk i hi, bt_shift _ i hi, bt_sub s hs _ (Nat.mod_lt _ (by omega))]
  unfold encLast
  rw [w0, w1, w2, w3, k0, k1, k2, k3]
  simp only [byte0, byte1, byte2, byte3, fb_get, rotl8_pack, rotl16_pack, rotl24_pack, pack_xor]
  apply packs_eq <;> apply pack_congr <;> rw [sh _ (by omega)] <;> simp <;> ac_rfl

/-- the decryption round works with the transformed round key -/
theorem decRound_packs {key : List (BitVec 32)} {k : Nat} {rk s : List Byte} (hk : KeyAt key k (invMixColumns rk)) (hs : s.length = 16)
    (hrk : rk.length = 16) :
    decRound key k (packs s) = packs (invMixColumns (addRoundKey (invSubBytes (invShiftRows s)) rk)) := by
  obtain ⟨k0, k1, k2, k3⟩ := hk
  obtain ⟨w0, w1, w2, w3⟩ := wd_packs s
  have sh : ∀ i, i < 16 → bt (addRoundKey (invSubBytes (invShiftRows s)) rk) i = invSbox (bt s ((i + 12 * (i % 4)) % 16)) ^^^ bt rk i := by
    intro i hi
    rw [bt_add _ _ (by rw [isub_length, ishift_length]) hrk i hi, bt_isub _ (ishift_length _) i hi, bt_ishift _ i hi]
  unfold decRound
  rw [w0, w1, w2, w3, k0, k1, k2, k3]
  simp only [byte0, byte1, byte2, byte3, rt_get, rotl8_pack, rotl16_pack, rotl24_pack, pack_xor]
  apply packs_eq <;> apply pack_congr <;> rw [invMixColumns, bt_mixw _ _ _ _ _ _ (by omega), invMixColumns, bt_mixw _ _ _ _ _ _ (by omega)] <;>
    rw [sh _ (by omega), sh _ (by omega), sh _ (by omega), sh _ (by omega)] <;> simp only [gmul_xor] <;> simp <;> ac_rfl

theorem decLast_packs {key : List (BitVec 32)} {k : Nat} {rk s : List Byte} (hk : KeyAt key k rk) (hs : s.length = 16) (hrk : rk.length = 16) :
    decLast key k (packs s) = packs (addRoundKey (invSubBytes (invShiftRows s)) rk) := by
  obtain ⟨k0, k1, k2, k3⟩ := hk
  obtain ⟨w0, w1, w2, w3⟩ := wd_packs s
  have sh : ∀ i, i < 16 → bt (addRoundKey (invSubBytes (invShiftRows s)) rk) i = invSbox (bt s ((i + 12 * (i % 4)) % 16)) ^^^ bt rk i := by
    intro i hi
    rw [bt_add _ _ (by rw [isub_length, ishift_length]) hrk i hi, bt_isub _ (ishift_length _) i hi, bt_ishift _ i hi]
  unfold decLast
  rw [w0, w1, w2, w3, k0, k1, k2, k3]
  simp only [byte0, byte1, byte2, byte3, rb_get, rotl8_pack, rotl16_pack, rotl24_pack, pack_xor]
  apply packs_eq <;> apply pack_congr <;> rw [sh _ (by omega)] <;> simp <;> ac_rfl

end Verif.Aes
