import Verif.Ecdh.Lemmas
/- Helper lemmas: `cbc_iv0_encrypt` / `cbc_iv0_decrypt`. -/
namespace Verif.Ecdh
open Spec (Byte)
open Verif.Aes (AES Keyed CBC ECB)
open Spec.Aes (cipher invCipher)

/-- a CBC object with chaining block `f` -/
structure Chain (a : AES) (nk : Nat) (key f : List Byte) : Prop where
  k : Keyed a nk key
  mode : a.mode = CBC
  hf : a.f = f
  len : f.length = 16

section
variable {a : AES} {nk : Nat} {key f : List Byte}

theorem Chain.enc (h : Chain a nk key f) (x : List Byte) (hx : x.length = 16) :
    (Aes.encrypt a x).2.1 = cipher nk key (List.zipWith (· ^^^ ·) x f) ∧
    Chain (Aes.encrypt a x).1 nk key (cipher nk key (List.zipWith (· ^^^ ·) x f)) := by
  have hz : (List.zipWith (· ^^^ ·) x a.f).length = 16 := by simp [hx, h.hf, h.len]
  have ee : Aes.encrypt a x = ({ a with f := Aes.ecbEncrypt a (List.zipWith (· ^^^ ·) x a.f) }, Aes.ecbEncrypt a (List.zipWith (· ^^^ ·) x a.f), 0) := by
    rw [Aes.encrypt, if_neg (by rw [h.mode]; decide), if_pos h.mode]
  rw [ee, ← h.hf]
  simp only [Aes.ecbEncrypt_eq h.k _ hz]
  exact ⟨trivial, h.k.setF _, h.mode, rfl, Aes.cipher_length h.k.hnk h.k.hl _⟩

theorem Chain.dec (h : Chain a nk key f) (x : List Byte) (hx : x.length = 16) :
    (Aes.decrypt a x).2.1 = List.zipWith (· ^^^ ·) (invCipher nk key x) f ∧ Chain (Aes.decrypt a x).1 nk key x := by
  have ed : Aes.decrypt a x = ({ a with f := x }, List.zipWith (· ^^^ ·) (Aes.ecbDecrypt a x) a.f, 0) := by
    rw [Aes.decrypt, if_neg (by rw [h.mode]; decide), if_pos h.mode]
  rw [ed]
  simp only [Aes.ecbDecrypt_eq h.k _ hx, h.hf]
  exact ⟨trivial, h.k.setF _, h.mode, rfl, hx⟩

end

theorem chain_new (k : List Byte) (hk : k.length = 16 ∨ k.length = 24 ∨ k.length = 32) :
    Chain (Aes.init Aes.new CBC k.length k none).2 (k.length / 4) k (List.replicate 16 0) := by
  have h4 : k.length / 4 = 4 ∨ k.length / 4 = 6 ∨ k.length / 4 = 8 := by omega
  have hl : 4 * (k.length / 4) ≤ k.length := by omega
  refine ⟨Aes.init_keyed Aes.new (by rfl) CBC _ k none h4 hl, ?_, ?_, by simp⟩
  · unfold Aes.init; rw [if_neg (by omega)]; rfl
  · unfold Aes.init; rw [if_neg (by omega)]; rfl

theorem gd (l : List Byte) (i : Nat) (h : i < l.length) : l.getD i 0 = l[i] := by
  rw [List.getD_eq_getElem?_getD, List.getElem?_eq_getElem h]; rfl

/-- the recursion of the decryption loop as a relation: `decLoop` returns exactly the message whose
encryption the ciphertext is -/
theorem unpad_some (i : Nat) (buff m r : List Byte) (hb : buff.length = 16) :
    unpad i buff m = some r ↔ i = 15 ∧ ∃ t : List Byte, t.length < 16 ∧
      buff = t ++ List.replicate (16 - t.length) (BitVec.ofNat 8 (16 - t.length)) ∧ r = m ++ t := by
  unfold unpad
  dsimp only
  constructor
  · intro h
    split at h
    · cases h
    · next hb' =>
      have hb' := Bool.eq_false_iff.mpr hb'
      simp only [Bool.or_eq_false_iff, bne_eq_false_iff_eq, decide_eq_false_iff_not, Bool.and_eq_false_iff] at hb'
      obtain ⟨⟨⟨h15, h1⟩, h2⟩, h3⟩ := hb'
      generalize hp : (buff.getD 15 0).toNat = p at *
      refine ⟨h15, buff.take (16 - p), ?_, ?_, (Option.some.inj h).symm⟩
      · simp [hb]; omega
      · have hl : (buff.take (16 - p)).length = 16 - p := by simp [hb]
        rw [hl, show 16 - (16 - p) = p by omega]
        conv_lhs => rw [← List.take_append_drop (16 - p) buff]
        congr 1
        apply List.ext_getElem
        · simp [hb]; omega
        · intro j hj1 hj2
          simp only [List.getElem_drop, List.getElem_replicate]
          have hj : j < p := by simpa using hj2
          rcases h3 with (h3 | h3) | h3
          · -- p = 1
            have hp1 : p = 1 := by omega
            have hj0 : j = 0 := by omega
            subst hj0
            subst hp1
            have : (buff.getD 15 0) = BitVec.ofNat 8 1 := by
              apply BitVec.eq_of_toNat_eq; rw [hp]; rfl
            rw [gd _ _ (by omega)] at this
            exact this
          · omega
          · have := List.any_eq_false.mp h3 (16 - p + j) (by rw [List.mem_range']; exact ⟨j, hj, by omega⟩)
            simp only [bne_iff_ne, ne_eq, Decidable.not_not] at this
            rw [gd _ _ (by omega)] at this
            exact this
  · rintro ⟨rfl, t, ht, rfl, rfl⟩
    have hg : ∀ j, 16 - (16 - t.length) ≤ j → j < 16 → (t ++ List.replicate (16 - t.length) (BitVec.ofNat 8 (16 - t.length))).getD j 0
        = BitVec.ofNat 8 (16 - t.length) := by
      intro j h1 h2
      rw [List.getD_eq_getElem?_getD, List.getElem?_append_right (by omega), List.getElem?_replicate, if_pos (by omega)]
      rfl
    have hp : ((t ++ List.replicate (16 - t.length) (BitVec.ofNat 8 (16 - t.length))).getD 15 0).toNat = 16 - t.length := by
      rw [hg 15 (by omega) (by omega), BitVec.toNat_ofNat, Nat.mod_eq_of_lt (by omega)]
    rw [hp, if_neg]
    · congr 2
      rw [show 16 - (16 - t.length) = t.length by omega, List.take_append_of_le_length le_rfl, List.take_of_length_le le_rfl]
    · rw [Bool.not_eq_true]
      simp only [Bool.or_eq_false_iff, bne_eq_false_iff_eq, decide_eq_false_iff_not, Bool.and_eq_false_iff]
      refine ⟨⟨⟨trivial, by omega⟩, by omega⟩, Or.inr ?_⟩
      rw [List.any_eq_false]
      intro j hj
      rw [List.mem_range'] at hj
      obtain ⟨i, hi, rfl⟩ := hj
      rw [hg _ (by omega) (by omega)]
      simp

theorem zipxor_length (x f : List Byte) (hx : x.length = 16) (hf : f.length = 16) : (List.zipWith (· ^^^ ·) x f).length = 16 := by simp [hx, hf]

theorem cbc_iff (nk : Nat) (key : List Byte) : ∀ (len : Nat) (c : List Byte), c.length = len → c ≠ [] → ∀ (a a' : AES) (f buff acc m : List Byte),
    Chain a nk key f → Chain a' nk key f → buff.length = 16 →
    (decLoop a buff acc c = some m ↔ ∃ t, m = acc ++ t ∧ encLoop a' t = c) := by
  intro len
  induction len using Nat.strongRecOn with
  | _ len ih =>
    intro c hc hne a a' f buff acc m ha ha' hbuf
    have hnk := ha.k.hnk
    have hkl := ha.k.hl
    have hci := fun s hs => Aes.cipher_invCipher hnk hkl s hs
    have hic := fun s hs => Aes.invCipher_cipher hnk hkl s hs
    have il := fun s => Aes.invCipher_length hnk hkl s
    have cl := fun s => Aes.cipher_length hnk hkl s
    have encl : ∀ t a', (∃ f', Chain a' nk key f') → (encLoop a' t).length = 16 * (t.length / 16 + 1) := by
      intro t
      induction hl : t.length using Nat.strongRecOn generalizing t with
      | _ l ih2 =>
        rintro a' ⟨f', ha'⟩
        rw [encLoop]
        by_cases h : 16 ≤ t.length
        · have h1 := ha'.enc (t.take 16) (by simp; omega)
          rw [if_pos h]
          dsimp only
          rw [List.length_append, h1.1, cl, ih2 (t.length - 16) (by omega) (t.drop 16) (by simp) _ ⟨_, h1.2⟩]
          omega
        · rw [if_neg h]
          dsimp only
          rw [(ha'.enc (t ++ List.replicate (16 - t.length) (BitVec.ofNat 8 (16 - t.length))) (by simp; omega)).1, cl]
          omega
    rw [decLoop]
    by_cases h16 : 16 < c.length
    · rw [if_pos h16]
      have hct : (c.take 16).length = 16 := by simp; omega
      have hd := ha.dec (c.take 16) hct
      dsimp only
      -- the first plaintext block
      set x := List.zipWith (· ^^^ ·) (invCipher nk key (c.take 16)) f with hx
      have hxl : x.length = 16 := zipxor_length _ _ (il _) ha.len
      have hxx : List.zipWith (· ^^^ ·) x f = invCipher nk key (c.take 16) := Aes.zip_xor_xor _ _ (by rw [il, ha.len])
      have he := ha'.enc x hxl
      rw [hxx, hci _ hct] at he
      rw [hd.1]
      rw [ih (c.drop 16).length (by simp; omega) (c.drop 16) rfl (by intro h; have := congrArg List.length h; simp at this; omega)
        _ (Aes.encrypt a' x).1 (c.take 16) x (acc ++ x) m hd.2 he.2 hxl]
      constructor
      · rintro ⟨t, rfl, ht⟩
        refine ⟨x ++ t, by simp, ?_⟩
        rw [encLoop, if_pos (by simp [hxl])]
        dsimp only
        rw [List.take_append_of_le_length (by omega), List.take_of_length_le (by omega), List.drop_append_of_le_length (by omega), List.drop_of_length_le (by omega),
          List.nil_append, ht, he.1, List.take_append_drop]
      · rintro ⟨t, rfl, ht⟩
        have hlen := encl t a' ⟨f, ha'⟩
        rw [ht] at hlen
        have h16t : 16 ≤ t.length := by omega
        rw [encLoop, if_pos h16t] at ht
        dsimp only at ht
        have he' := ha'.enc (t.take 16) (by simp; omega)
        have hc1 : cipher nk key (List.zipWith (· ^^^ ·) (t.take 16) f) = c.take 16 := by
          rw [← ht, List.take_append_of_le_length (by rw [he'.1, cl]), he'.1, List.take_of_length_le (l := cipher nk key _) (by rw [cl])]
        have hxt : x = t.take 16 := by
          rw [hx, ← hc1, hic _ (by simp [ha.len]; omega), Aes.zip_xor_xor _ _ (by simp [ha.len])]
        refine ⟨t.drop 16, ?_, ?_⟩
        · rw [hxt, List.append_assoc, List.take_append_drop]
        · rw [hxt]
          conv_rhs => rw [← ht]
          rw [List.drop_append_of_le_length (by rw [he'.1, cl]), List.drop_of_length_le (l := (Aes.encrypt a' (t.take 16)).2.1) (by rw [he'.1, cl]), List.nil_append]
    · rw [if_neg h16]
      have hpos : 0 < c.length := List.length_pos_iff.mpr hne
      have hbl : (c ++ buff.drop c.length).length = 16 := by simp [hbuf]; omega
      have hd := ha.dec _ hbl
      dsimp only
      rw [hd.1]
      rw [unpad_some _ _ _ _ (zipxor_length _ _ (il _) ha.len)]
      constructor
      · rintro ⟨h15, t, ht, e, rfl⟩
        refine ⟨t, rfl, ?_⟩
        have h16' : c.length = 16 := by omega
        rw [encLoop, if_neg (by omega)]
        dsimp only
        rw [← e, List.drop_of_length_le (by omega), List.append_nil]
        rw [(ha'.enc _ (zipxor_length _ _ (il _) ha.len)).1, Aes.zip_xor_xor _ _ (by rw [il, ha.len]), hci _ h16']
      · rintro ⟨t, rfl, ht⟩
        have hlen := encl t a' ⟨f, ha'⟩
        rw [ht] at hlen
        have h16' : c.length = 16 := by omega
        have htl : t.length < 16 := by omega
        rw [encLoop, if_neg (by omega)] at ht
        dsimp only at ht
        have hpl : (t ++ List.replicate (16 - t.length) (BitVec.ofNat 8 (16 - t.length))).length = 16 := by simp; omega
        rw [(ha'.enc _ hpl).1] at ht
        refine ⟨by omega, t, htl, ?_, rfl⟩
        rw [List.drop_of_length_le (by omega), List.append_nil, ← ht, hic _ (zipxor_length _ _ hpl ha.len), Aes.zip_xor_xor _ _ (by rw [hpl, ha.len])]

theorem encLoop_length {nk : Nat} {key : List Byte} (t : List Byte) : ∀ a f, Chain a nk key f → (encLoop a t).length = 16 * (t.length / 16 + 1) := by
  induction hl : t.length using Nat.strongRecOn generalizing t with
  | _ l ih2 =>
    intro a f ha
    rw [encLoop]
    by_cases h : 16 ≤ t.length
    · have h1 := ha.enc (t.take 16) (by simp; omega)
      rw [if_pos h]
      dsimp only
      rw [List.length_append, h1.1, Aes.cipher_length ha.k.hnk ha.k.hl, ih2 (t.length - 16) (by omega) (t.drop 16) (by simp) _ _ h1.2]
      omega
    · rw [if_neg h]
      dsimp only
      rw [(ha.enc (t ++ List.replicate (16 - t.length) (BitVec.ofNat 8 (16 - t.length))) (by simp; omega)).1, Aes.cipher_length ha.k.hnk ha.k.hl]
      omega

/-- the ciphertext is the CBC encryption of the padded message -/
theorem encLoop_cbc {nk : Nat} {key : List Byte} (t : List Byte) : ∀ a f, Chain a nk key f →
    encLoop a t = (Spec.Modes.cbc (cipher nk key) f (Spec.pieces 16 (t.length / 16 + 1) (Spec.pkcs7 t))).flatten := by
  induction hl : t.length using Nat.strongRecOn generalizing t with
  | _ l ih2 =>
    intro a f ha
    subst hl
    rw [encLoop]
    by_cases h : 16 ≤ t.length
    · have h1 := ha.enc (t.take 16) (by simp; omega)
      rw [if_pos h]
      dsimp only
      have hmod : (t.drop 16).length % 16 = t.length % 16 := by simp; omega
      have hp : Spec.pkcs7 t = t.take 16 ++ Spec.pkcs7 (t.drop 16) := by
        rw [Spec.pkcs7, Spec.pkcs7, hmod, ← List.append_assoc, List.take_append_drop]
      have hn : t.length / 16 + 1 = ((t.drop 16).length / 16 + 1) + 1 := by simp; omega
      rw [hn, Spec.pieces, hp, List.take_append_of_le_length (by simp; omega), List.take_of_length_le (l := t.take 16) (by simp),
        List.drop_append_of_le_length (by simp; omega), List.drop_of_length_le (l := t.take 16) (by simp), List.nil_append, Spec.Modes.cbc, List.flatten_cons]
      rw [ih2 (t.drop 16).length (by simp; omega) (t.drop 16) rfl _ _ h1.2, h1.1]
      rfl
    · rw [if_neg h]
      dsimp only
      have hpl : (t ++ List.replicate (16 - t.length) (BitVec.ofNat 8 (16 - t.length))).length = 16 := by simp; omega
      rw [(ha.enc _ hpl).1, show t.length / 16 + 1 = 1 by omega, Spec.pkcs7, Nat.mod_eq_of_lt (by omega : t.length < 16)]
      simp only [Spec.pieces, Spec.Modes.cbc, List.flatten_cons, List.flatten_nil, List.append_nil]
      rw [List.take_of_length_le (by omega)]
      rfl

end Verif.Ecdh
