import Verif.Aes.Modes
import Verif.Spec.AesModes
/- Helper lemmas: the modes agree with SP 800-38A. -/
namespace Verif.Aes
open Spec.Aes (cipher invCipher)
open Spec.Modes (leNat leBytes)

theorem leNat_lt (l : List Byte) : leNat l < 256 ^ l.length := by
  induction l with
  | nil => simp [leNat]
  | cons x xs ih =>
    have := x.isLt
    simp only [leNat, List.length_cons, pow_succ]
    omega

theorem leBytes_leNat (l : List Byte) : leBytes l.length (leNat l) = l := by
  induction l with
  | nil => rfl
  | cons x xs ih =>
    have := x.isLt
    simp only [leNat, List.length_cons, leBytes]
    rw [show (x.toNat + 256 * leNat xs) / 256 = leNat xs by omega, ih]
    congr 1
    apply BitVec.eq_of_toNat_eq
    simp
    omega

theorem leNat_increment (l : List Byte) : leNat (increment l) = (leNat l + 1) % 256 ^ l.length := by
  induction l with
  | nil => simp [increment, leNat, Nat.mod_one]
  | cons x xs ih =>
    have hx := x.isLt
    have hl := leNat_lt xs
    have ex : (x + 1).toNat = (x.toNat + 1) % 256 := by simp [BitVec.toNat_add]
    rw [increment]
    split
    · next h =>
      have h0 : (x.toNat + 1) % 256 ≠ 0 := by
        intro e
        apply h
        apply BitVec.eq_of_toNat_eq
        rw [ex, e]; rfl
      simp only [leNat, List.length_cons, ex, pow_succ]
      rw [Nat.mod_eq_of_lt (by omega : x.toNat + 1 < 256), Nat.mod_eq_of_lt (by omega)]
      omega
    · next h =>
      have h0 : (x.toNat + 1) % 256 = 0 := by
        have : x + 1 = 0 := by simpa using h
        rw [← ex, this]; rfl
      simp only [leNat, List.length_cons, ex, pow_succ, ih, h0]
      have : x.toNat + 256 * leNat xs + 1 = 256 * (leNat xs + 1) := by omega
      rw [this, Nat.mul_comm (256 ^ xs.length), Nat.mul_mod_mul_left]
      omega

section
variable {a : AES} {nk : Nat} {key : List Byte}

theorem ecb_all (h : Keyed a nk key) (hm : a.mode = ECB) (ms : List (List Byte)) (hms : ∀ x ∈ ms, x.length = 16) :
    (encryptAll a ms).1 = Spec.Modes.ecb (cipher nk key) ms := by
  induction ms with
  | nil => rfl
  | cons x xs ih =>
    simp only [encryptAll, encrypt, if_pos hm, ih (fun y hy => hms y (by simp [hy])), ecbEncrypt_eq h x (hms x (by simp))]
    rfl

theorem cbc_all (h : Keyed a nk key) (hm : a.mode = CBC) (hf : a.f.length = 16) (ms : List (List Byte)) (hms : ∀ x ∈ ms, x.length = 16) :
    (encryptAll a ms).1 = Spec.Modes.cbc (cipher nk key) a.f ms := by
  induction ms generalizing a with
  | nil => rfl
  | cons x xs ih =>
    have hz : (List.zipWith (· ^^^ ·) x a.f).length = 16 := by simp [hms x (by simp), hf]
    have ee : encrypt a x = ({ a with f := ecbEncrypt a (List.zipWith (· ^^^ ·) x a.f) }, ecbEncrypt a (List.zipWith (· ^^^ ·) x a.f), 0) := by
      rw [encrypt, if_neg (by rw [hm]; decide), if_pos hm]
    simp only [encryptAll, ee, Spec.Modes.cbc]
    rw [ih (h.setF (ecbEncrypt a (List.zipWith (· ^^^ ·) x a.f))) hm (by simp only [ecbEncrypt_eq h _ hz]; exact cipher_length h.hnk h.hl _) (fun y hy => hms y (by simp [hy]))]
    simp only [ecbEncrypt_eq h _ hz]
    rfl

theorem cfb_all (h : Keyed a nk key) (hm : a.mode = CFB1 ∨ a.mode = CFB2 ∨ a.mode = CFB4) (hf : a.f.length = 16)
    (ms : List (List Byte)) (hms : ∀ x ∈ ms, x.length = 16) :
    (encryptAll a ms).1 = Spec.Modes.cfb (cipher nk key) (a.mode - CFB1 + 1) a.f ms := by
  induction ms generalizing a with
  | nil => rfl
  | cons x xs ih =>
    have hx := hms x (by simp)
    have ee : encrypt a x = ({ a with f := a.f.drop (a.mode - CFB1 + 1) ++ (xorFirst (a.mode - CFB1 + 1) x (ecbEncrypt a a.f)).take (a.mode - CFB1 + 1) },
        xorFirst (a.mode - CFB1 + 1) x (ecbEncrypt a a.f), fellOff (a.mode - CFB1 + 1) a.f) := by
      rw [encrypt, if_neg (by rcases hm with e | e | e <;> rw [e] <;> decide), if_neg (by rcases hm with e | e | e <;> rw [e] <;> decide), if_pos hm]
    have eal : (ecbEncrypt a a.f).length = 16 := by rw [ecbEncrypt_eq h _ hf]; exact cipher_length h.hnk h.hl _
    have hle : a.mode - CFB1 + 1 ≤ 16 := by
      rcases hm with hc | hc | hc <;> rw [hc] <;> decide
    simp only [encryptAll, ee, Spec.Modes.cfb]
    rw [xorFirst_take _ _ _ hx eal]
    rw [ih (h.setF (a.f.drop (a.mode - CFB1 + 1) ++ List.zipWith (· ^^^ ·) (x.take (a.mode - CFB1 + 1)) ((ecbEncrypt a a.f).take (a.mode - CFB1 + 1)))) hm
      (by simp [hx, eal, hf]; omega) (fun y hy => hms y (by simp [hy]))]
    simp only [ecbEncrypt_eq h _ hf]
    rfl

theorem ofb_all (h : Keyed a nk key) (hm : a.mode = OFB1 ∨ a.mode = OFB2 ∨ a.mode = OFB4 ∨ a.mode = OFB8 ∨ a.mode = OFB16) (hf : a.f.length = 16)
    (ms : List (List Byte)) (hms : ∀ x ∈ ms, x.length = 16) :
    (encryptAll a ms).1 = Spec.Modes.ofb (cipher nk key) (a.mode - OFB1 + 1) a.f ms := by
  induction ms generalizing a with
  | nil => rfl
  | cons x xs ih =>
    have ee : encrypt a x = ({ a with f := ecbEncrypt a a.f }, xorFirst (a.mode - OFB1 + 1) x (ecbEncrypt a a.f), 0) := by
      rw [encrypt, if_neg (by rcases hm with e | e | e | e | e <;> rw [e] <;> decide), if_neg (by rcases hm with e | e | e | e | e <;> rw [e] <;> decide),
        if_neg (by rcases hm with e | e | e | e | e <;> rw [e] <;> decide), if_pos hm]
    have eal : (ecbEncrypt a a.f).length = 16 := by rw [ecbEncrypt_eq h _ hf]; exact cipher_length h.hnk h.hl _
    simp only [encryptAll, ee, Spec.Modes.ofb]
    rw [ih (h.setF (ecbEncrypt a a.f)) hm eal (fun y hy => hms y (by simp [hy]))]
    simp only [ecbEncrypt_eq h _ hf]
    rfl

theorem ctr_all (h : Keyed a nk key) (hm : a.mode = CTR1 ∨ a.mode = CTR2 ∨ a.mode = CTR4 ∨ a.mode = CTR8 ∨ a.mode = CTR16) (hf : a.f.length = 16)
    (ms : List (List Byte)) (hms : ∀ x ∈ ms, x.length = 16) :
    (encryptAll a ms).1 = Spec.Modes.ctr (cipher nk key) (a.mode - CTR1 + 1) a.f ms := by
  induction ms generalizing a with
  | nil => rfl
  | cons x xs ih =>
    have ee : encrypt a x = ({ a with f := increment a.f }, xorFirst (a.mode - CTR1 + 1) x (ecbEncrypt a a.f), 0) := by
      rw [encrypt, if_neg (by rcases hm with e | e | e | e | e <;> rw [e] <;> decide), if_neg (by rcases hm with e | e | e | e | e <;> rw [e] <;> decide),
        if_neg (by rcases hm with e | e | e | e | e <;> rw [e] <;> decide), if_neg (by rcases hm with e | e | e | e | e <;> rw [e] <;> decide), if_pos hm]
    simp only [encryptAll, ee]
    rw [ih (h.setF (increment a.f)) hm (by simp only [increment_length, hf]) (fun y hy => hms y (by simp [hy]))]
    simp only [ecbEncrypt_eq h _ hf, Spec.Modes.ctr, List.length_cons, List.range_succ_eq_map, List.map_cons, List.map_map]
    have e0 : leBytes 16 ((leNat a.f + 0) % 2 ^ 128) = a.f := by
      have h1 := leNat_lt a.f
      rw [hf] at h1
      rw [Nat.mod_eq_of_lt (by simpa using h1), Nat.add_zero]
      have := leBytes_leNat a.f
      rwa [hf] at this
    rw [e0]
    congr 1
    apply List.map_congr_left
    intro j _
    simp only [Function.comp, List.getD_cons_succ, leNat_increment, hf]
    have : ((leNat a.f + 1) % 256 ^ 16 + j) % 2 ^ 128 = (leNat a.f + (j + 1)) % 2 ^ 128 := by
      rw [show (256 : Nat) ^ 16 = 2 ^ 128 by norm_num]
      omega
    rw [this]

end
end Verif.Aes
