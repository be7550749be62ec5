import Verif.Aes.Block
/- Helper lemmas: modes of operation. -/
namespace Verif.Aes
open Spec.Aes (cipher invCipher)

/-- encrypting / decrypting block after block with one object, collecting buffers and returned words -/
def encryptAll (a : AES) : List (List Byte) → List (List Byte) × List (BitVec 32)
  | [] => ([], [])
  | b :: bs =>
    let r := encrypt a b
    let rest := encryptAll r.1 bs
    (r.2.1 :: rest.1, r.2.2 :: rest.2)
def decryptAll (a : AES) : List (List Byte) → List (List Byte) × List (BitVec 32)
  | [] => ([], [])
  | b :: bs =>
    let r := decrypt a b
    let rest := decryptAll r.1 bs
    (r.2.1 :: rest.1, r.2.2 :: rest.2)

theorem Keyed.setF {a : AES} {nk : Nat} {key : List Byte} (h : Keyed a nk key) (f : List Byte) (m : Nat := a.mode) : Keyed { a with f := f, mode := m } nk key :=
  ⟨h.hnk, h.hl, h.nr, h.fk, h.rk⟩

/-- two objects in step -/
structure InStep (a b : AES) (nk : Nat) (key : List Byte) : Prop where
  ka : Keyed a nk key
  kb : Keyed b nk key
  mode : a.mode = b.mode
  f : a.f = b.f
  len : a.f.length = 16

theorem zip_xor_length (s t : List Byte) : (List.zipWith (· ^^^ ·) s t).length = min s.length t.length := by simp

theorem zip_xor_xor (s t : List Byte) (h : s.length ≤ t.length) : List.zipWith (· ^^^ ·) (List.zipWith (· ^^^ ·) s t) t = s := by
  induction s generalizing t with
  | nil => simp
  | cons x xs ih =>
    cases t with
    | nil => simp at h
    | cons y ys => simp [ih ys (by simpa using h), BitVec.xor_assoc]

theorem xorFirst_length (n : Nat) (b st : List Byte) (hb : b.length = 16) (hs : st.length = 16) : (xorFirst n b st).length = 16 := by
  simp [xorFirst, hb, hs]; omega

theorem xorFirst_take (n : Nat) (b st : List Byte) (hb : b.length = 16) (hs : st.length = 16) :
    (xorFirst n b st).take n = List.zipWith (· ^^^ ·) (b.take n) (st.take n) := by
  rw [xorFirst]
  by_cases h : n ≤ 16
  · rw [List.take_append_of_le_length (by simp [hb, hs, h]), List.take_of_length_le (by simp [hb, hs])]
  · rw [List.drop_of_length_le (by omega), List.append_nil, List.take_of_length_le (by simp [hb, hs])]

theorem xorFirst_drop (n : Nat) (b st : List Byte) (hb : b.length = 16) (hs : st.length = 16) :
    (xorFirst n b st).drop n = b.drop n := by
  rw [xorFirst]
  by_cases h : n ≤ 16
  · rw [List.drop_append, List.drop_of_length_le (by simp [hb, hs])]
    simp [hb, hs, h]
  · rw [List.drop_of_length_le (l := b) (by omega), List.append_nil, List.drop_of_length_le (by simp [hb, hs])]

theorem xorFirst_xorFirst (n : Nat) (b st : List Byte) (hb : b.length = 16) (hs : st.length = 16) : xorFirst n (xorFirst n b st) st = b := by
  rw [xorFirst, xorFirst_take n b st hb hs, xorFirst_drop n b st hb hs, zip_xor_xor _ _ (by simp [hb, hs]), List.take_append_drop]

theorem increment_length (l : List Byte) : (increment l).length = l.length := by
  induction l with
  | nil => rfl
  | cons x xs ih => rw [increment]; split <;> simp [ih]

theorem step_roundtrip {a b : AES} {nk : Nat} {key : List Byte} (h : InStep a b nk key) (x : List Byte) (hx : x.length = 16) :
    (decrypt b (encrypt a x).2.1).2.1 = x ∧ (decrypt b (encrypt a x).2.1).2.2 = (encrypt a x).2.2 ∧ (encrypt a x).2.1.length = 16 ∧
    InStep (encrypt a x).1 (decrypt b (encrypt a x).2.1).1 nk key := by
  obtain ⟨ka, kb, hm, hf, hl⟩ := h
  have hlb : b.f.length = 16 := hf ▸ hl
  have cl := fun s => cipher_length (nk := nk) (key := key) ka.hnk ka.hl s
  have ebf : ecbEncrypt b b.f = ecbEncrypt a a.f := by rw [ecbEncrypt_eq kb _ hlb, ecbEncrypt_eq ka _ hl, hf]
  have eal : (ecbEncrypt a a.f).length = 16 := by rw [ecbEncrypt_eq ka _ hl]; exact cl _
  by_cases h1 : a.mode = ECB
  · have h1' : b.mode = ECB := hm ▸ h1
    have ee : ∀ y, encrypt a y = (a, ecbEncrypt a y, 0) := fun y => by rw [encrypt, if_pos h1]
    have ed : ∀ y, decrypt b y = (b, ecbDecrypt b y, 0) := fun y => by rw [decrypt, if_pos h1']
    simp only [ee, ed]
    refine ⟨?_, trivial, ?_, ⟨ka, kb, hm, hf, hl⟩⟩
    · rw [ecbEncrypt_eq ka _ hx, ecbDecrypt_eq kb _ (cl _), invCipher_cipher ka.hnk ka.hl _ hx]
    · rw [ecbEncrypt_eq ka _ hx]; exact cl _
  by_cases h2 : a.mode = CBC
  · have h1' : ¬ b.mode = ECB := hm ▸ h1
    have h2' : b.mode = CBC := hm ▸ h2
    have hz : (List.zipWith (· ^^^ ·) x a.f).length = 16 := by simp [hx, hl]
    have e := ecbEncrypt_eq ka _ hz
    have l16 : (ecbEncrypt a (List.zipWith (· ^^^ ·) x a.f)).length = 16 := by rw [e]; exact cl _
    have ee : ∀ y, encrypt a y = ({ a with f := ecbEncrypt a (List.zipWith (· ^^^ ·) y a.f) }, ecbEncrypt a (List.zipWith (· ^^^ ·) y a.f), 0) :=
      fun y => by rw [encrypt, if_neg h1, if_pos h2]
    have ed : ∀ y, decrypt b y = ({ b with f := y }, List.zipWith (· ^^^ ·) (ecbDecrypt b y) b.f, 0) :=
      fun y => by rw [decrypt, if_neg h1', if_pos h2']
    simp only [ee, ed]
    refine ⟨?_, trivial, l16, ka.setF _, kb.setF _, hm, rfl, l16⟩
    rw [ecbDecrypt_eq kb _ l16, e, invCipher_cipher ka.hnk ka.hl _ hz, ← hf, zip_xor_xor _ _ (by omega)]
  have ebf2 : ecbEncrypt b a.f = ecbEncrypt a a.f := by rw [← ebf, hf]
  by_cases h3 : a.mode = CFB1 ∨ a.mode = CFB2 ∨ a.mode = CFB4
  · have h1' : ¬ b.mode = ECB := hm ▸ h1
    have h2' : ¬ b.mode = CBC := hm ▸ h2
    have h3' : b.mode = CFB1 ∨ b.mode = CFB2 ∨ b.mode = CFB4 := by rw [← hm]; exact h3
    have ee : ∀ y, encrypt a y = ({ a with f := a.f.drop (a.mode - CFB1 + 1) ++ (xorFirst (a.mode - CFB1 + 1) y (ecbEncrypt a a.f)).take (a.mode - CFB1 + 1) },
        xorFirst (a.mode - CFB1 + 1) y (ecbEncrypt a a.f), fellOff (a.mode - CFB1 + 1) a.f) := fun y => by
      rw [encrypt, if_neg h1, if_neg h2, if_pos h3]
    have ed : ∀ y, decrypt b y = ({ b with f := b.f.drop (b.mode - CFB1 + 1) ++ y.take (b.mode - CFB1 + 1) },
        xorFirst (b.mode - CFB1 + 1) y (ecbEncrypt b b.f), fellOff (b.mode - CFB1 + 1) b.f) := fun y => by
      rw [decrypt, if_neg h1', if_neg h2', if_pos h3']
    have xl := xorFirst_length (a.mode - CFB1 + 1) x _ hx eal
    have hle : a.mode - CFB1 + 1 ≤ 16 := by
      rcases h3 with hc | hc | hc <;> rw [hc] <;> decide
    simp only [ee, ed, ebf2, ← hm, ← hf]
    refine ⟨xorFirst_xorFirst _ _ _ hx eal, trivial, xl, ka.setF _, kb.setF _ _, rfl, rfl, ?_⟩
    simp only [List.length_append, List.length_drop, List.length_take, xl, hl]
    omega
  by_cases h4 : a.mode = OFB1 ∨ a.mode = OFB2 ∨ a.mode = OFB4 ∨ a.mode = OFB8 ∨ a.mode = OFB16
  · have h1' : ¬ b.mode = ECB := hm ▸ h1
    have h2' : ¬ b.mode = CBC := hm ▸ h2
    have h3' : ¬ (b.mode = CFB1 ∨ b.mode = CFB2 ∨ b.mode = CFB4) := by rw [← hm]; exact h3
    have h4' : b.mode = OFB1 ∨ b.mode = OFB2 ∨ b.mode = OFB4 ∨ b.mode = OFB8 ∨ b.mode = OFB16 := by rw [← hm]; exact h4
    have ee : ∀ y, encrypt a y = ({ a with f := ecbEncrypt a a.f }, xorFirst (a.mode - OFB1 + 1) y (ecbEncrypt a a.f), 0) := fun y => by
      rw [encrypt, if_neg h1, if_neg h2, if_neg h3, if_pos h4]
    have ed : ∀ y, decrypt b y = ({ b with f := ecbEncrypt b b.f }, xorFirst (b.mode - OFB1 + 1) y (ecbEncrypt b b.f), 0) := fun y => by
      rw [decrypt, if_neg h1', if_neg h2', if_neg h3', if_pos h4']
    have xl := xorFirst_length (a.mode - OFB1 + 1) x _ hx eal
    simp only [ee, ed, ebf, ← hm]
    exact ⟨xorFirst_xorFirst _ _ _ hx eal, trivial, xl, ka.setF _, kb.setF _ _, rfl, rfl, eal⟩
  by_cases h5 : a.mode = CTR1 ∨ a.mode = CTR2 ∨ a.mode = CTR4 ∨ a.mode = CTR8 ∨ a.mode = CTR16
  · have h1' : ¬ b.mode = ECB := hm ▸ h1
    have h2' : ¬ b.mode = CBC := hm ▸ h2
    have h3' : ¬ (b.mode = CFB1 ∨ b.mode = CFB2 ∨ b.mode = CFB4) := by rw [← hm]; exact h3
    have h4' : ¬ (b.mode = OFB1 ∨ b.mode = OFB2 ∨ b.mode = OFB4 ∨ b.mode = OFB8 ∨ b.mode = OFB16) := by rw [← hm]; exact h4
    have h5' : b.mode = CTR1 ∨ b.mode = CTR2 ∨ b.mode = CTR4 ∨ b.mode = CTR8 ∨ b.mode = CTR16 := by rw [← hm]; exact h5
    have ee : ∀ y, encrypt a y = ({ a with f := increment a.f }, xorFirst (a.mode - CTR1 + 1) y (ecbEncrypt a a.f), 0) := fun y => by
      rw [encrypt, if_neg h1, if_neg h2, if_neg h3, if_neg h4, if_pos h5]
    have ed : ∀ y, decrypt b y = ({ b with f := increment b.f }, xorFirst (b.mode - CTR1 + 1) y (ecbEncrypt b b.f), 0) := fun y => by
      rw [decrypt, if_neg h1', if_neg h2', if_neg h3', if_neg h4', if_pos h5']
    have xl := xorFirst_length (a.mode - CTR1 + 1) x _ hx eal
    simp only [ee, ed, ebf2, ← hm, ← hf]
    exact ⟨xorFirst_xorFirst _ _ _ hx eal, trivial, xl, ka.setF _, kb.setF _ _, rfl, rfl, by simp only [increment_length, hl]⟩
  · have h1' : ¬ b.mode = ECB := hm ▸ h1
    have h2' : ¬ b.mode = CBC := hm ▸ h2
    have h3' : ¬ (b.mode = CFB1 ∨ b.mode = CFB2 ∨ b.mode = CFB4) := by rw [← hm]; exact h3
    have h4' : ¬ (b.mode = OFB1 ∨ b.mode = OFB2 ∨ b.mode = OFB4 ∨ b.mode = OFB8 ∨ b.mode = OFB16) := by rw [← hm]; exact h4
    have h5' : ¬ (b.mode = CTR1 ∨ b.mode = CTR2 ∨ b.mode = CTR4 ∨ b.mode = CTR8 ∨ b.mode = CTR16) := by rw [← hm]; exact h5
    have ee : ∀ y, encrypt a y = (a, y, 0) := fun y => by rw [encrypt, if_neg h1, if_neg h2, if_neg h3, if_neg h4, if_neg h5]
    have ed : ∀ y, decrypt b y = (b, y, 0) := fun y => by rw [decrypt, if_neg h1', if_neg h2', if_neg h3', if_neg h4', if_neg h5']
    simp only [ee, ed]
    exact ⟨trivial, trivial, hx, ka, kb, hm, hf, hl⟩

theorem all_roundtrip {nk : Nat} {key : List Byte} (ms : List (List Byte)) (hms : ∀ x ∈ ms, x.length = 16) {a b : AES} (h : InStep a b nk key) :
    decryptAll b (encryptAll a ms).1 = (ms, (encryptAll a ms).2) := by
  induction ms generalizing a b with
  | nil => rfl
  | cons x xs ih =>
    obtain ⟨h1, h2, _, h4⟩ := step_roundtrip h x (hms x (by simp))
    have := ih (fun y hy => hms y (by simp [hy])) h4
    simp only [encryptAll, decryptAll, this, h1, h2]

theorem init_inStep (a b : AES) (ha : a.fkey.length = 60) (hb : b.fkey.length = 60) (m nkey : Nat) (key : List Byte) (iv : Option (List Byte))
    (hnk : nkey / 4 = 4 ∨ nkey / 4 = 6 ∨ nkey / 4 = 8) (hl : 4 * (nkey / 4) ≤ key.length) (hiv : ∀ v ∈ iv, v.length = 16) :
    InStep (init a m nkey key iv).2 (init b m nkey key iv).2 (nkey / 4) key := by
  refine ⟨init_keyed a ha m nkey key iv hnk hl, init_keyed b hb m nkey key iv hnk hl, ?_, ?_, ?_⟩
  · unfold init; rw [if_neg (by omega), if_neg (by omega)]; rfl
  · unfold init; rw [if_neg (by omega), if_neg (by omega)]; rfl
  · unfold init
    rw [if_neg (by omega)]
    simp only [reset]
    split
    · cases iv with
      | none => rfl
      | some v => exact hiv v rfl
    · rfl

/-! CBC as a recursion on the block list -/

end Verif.Aes
