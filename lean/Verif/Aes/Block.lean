import Verif.Aes.Schedule
import Mathlib.Data.Fintype.EquivFin
import Mathlib.Data.Fintype.Vector
/- Helper lemmas: block encryption and decryption. -/
namespace Verif.Aes
open Spec.Aes (sbox invSbox gmul subBytes shiftRows mixColumns addRoundKey invSubBytes invShiftRows invMixColumns mixWith
  keyExpansion roundKey cipher invCipher)

/-- an object whose keys belong to `key` -/
structure Keyed (a : AES) (nk : Nat) (key : List Byte) : Prop where
  hnk : nk = 4 ∨ nk = 6 ∨ nk = 8
  hl : 4 * nk ≤ key.length
  nr : a.nr = nk + 6
  fk : Sched nk key (4 * (nk + 7)) a.fkey
  rk : ∃ rk, a.rkey = invKey (4 * (nk + 7)) a.fkey rk

theorem init_keyed (a : AES) (h60 : a.fkey.length = 60) (m nkey : Nat) (key : List Byte) (iv : Option (List Byte))
    (hnk : nkey / 4 = 4 ∨ nkey / 4 = 6 ∨ nkey / 4 = 8) (hl : 4 * (nkey / 4) ≤ key.length) :
    Keyed (init a m nkey key iv).2 (nkey / 4) key := by
  obtain ⟨_, h2, h3, h4, _⟩ := init_fkey a h60 m nkey key iv hnk hl
  exact ⟨hnk, hl, h2, h3, _, h4⟩

section
variable {nk : Nat} {key : List Byte}

theorem roundKey_eq (hnk : nk = 4 ∨ nk = 6 ∨ nk = 8) (r : Nat) (hr : r ≤ nk + 6) :
    roundKey (keyExpansion nk key) r = kw nk key (4 * r) ++ (kw nk key (4 * r + 1) ++ (kw nk key (4 * r + 2) ++ kw nk key (4 * r + 3))) := by
  have hlen := keyExpansion_length nk key (by omega)
  have hd : ((keyExpansion nk key).drop (4 * r)).take 4 = [kw nk key (4 * r), kw nk key (4 * r + 1), kw nk key (4 * r + 2), kw nk key (4 * r + 3)] := by
    apply List.ext_getElem
    · simp [hlen]; omega
    · intro t h1 h2
      simp at h2
      have hk : ∀ j, (hj : j < (keyExpansion nk key).length) → (keyExpansion nk key)[j] = kw nk key j := by
        intro j hj; simp [kw, hj]
      have : t = 0 ∨ t = 1 ∨ t = 2 ∨ t = 3 := by omega
      rcases this with rfl | rfl | rfl | rfl <;> simp [hk]
  rw [roundKey, hd]
  simp

theorem kw4 (hnk : nk = 4 ∨ nk = 6 ∨ nk = 8) (hl : 4 * nk ≤ key.length) (i : Nat) (hi : i < 4 * (nk + 7)) :
    ∃ a b c d, kw nk key i = [a, b, c, d] := len4 _ (kw_length nk key (by omega) hl i hi)

theorem roundKey_length (hnk : nk = 4 ∨ nk = 6 ∨ nk = 8) (hl : 4 * nk ≤ key.length) (r : Nat) (hr : r ≤ nk + 6) :
    (roundKey (keyExpansion nk key) r).length = 16 := by
  rw [roundKey_eq hnk r hr]
  have hL : ∀ i, i < 4 * (nk + 7) → (kw nk key i).length = 4 := fun i hi => kw_length nk key (by omega) hl i hi
  simp [hL (4 * r) (by omega), hL (4 * r + 1) (by omega), hL (4 * r + 2) (by omega), hL (4 * r + 3) (by omega)]

theorem keyAt_words (hnk : nk = 4 ∨ nk = 6 ∨ nk = 8) (hl : 4 * nk ≤ key.length) (r : Nat) (hr : r ≤ nk + 6) {w : List (BitVec 32)} {k : Nat}
    (h0 : wd w k = pack (kw nk key (4 * r))) (h1 : wd w (k + 1) = pack (kw nk key (4 * r + 1)))
    (h2 : wd w (k + 2) = pack (kw nk key (4 * r + 2))) (h3 : wd w (k + 3) = pack (kw nk key (4 * r + 3))) :
    KeyAt w k (roundKey (keyExpansion nk key) r) := by
  rw [roundKey_eq hnk r hr]
  obtain ⟨a0, b0, c0, d0, e0⟩ := kw4 hnk hl (4 * r) (by omega)
  obtain ⟨a1, b1, c1, d1, e1⟩ := kw4 hnk hl (4 * r + 1) (by omega)
  obtain ⟨a2, b2, c2, d2, e2⟩ := kw4 hnk hl (4 * r + 2) (by omega)
  obtain ⟨a3, b3, c3, d3, e3⟩ := kw4 hnk hl (4 * r + 3) (by omega)
  rw [e0] at h0; rw [e1] at h1; rw [e2] at h2; rw [e3] at h3
  rw [e0, e1, e2, e3]
  exact ⟨h0, h1, h2, h3⟩

theorem Keyed.enc {a : AES} (h : Keyed a nk key) (r : Nat) (hr : r ≤ nk + 6) :
    KeyAt a.fkey (4 * r) (roundKey (keyExpansion nk key) r) :=
  keyAt_words h.hnk h.hl r hr (h.fk.2 _ (by omega) (by omega)) (h.fk.2 _ (by omega) (by omega)) (h.fk.2 _ (by omega) (by omega))
    (h.fk.2 _ (by omega) (by omega))

theorem invKey_get (n : Nat) (fk rk : List (BitVec 32)) (x : Nat) (hx : x < n) (hn : n ≤ 60) : wd (invKey n fk rk) x =
    if x < 4 ∨ n - 4 ≤ x then wd fk (n - 4 - 4 * (x / 4) + x % 4) else invmixcol (wd fk (n - 4 - 4 * (x / 4) + x % 4)) := by
  unfold wd
  rw [invKey, List.getD_eq_getElem?_getD, List.getElem?_map, List.getElem?_range (by omega)]
  simp only [Option.map_some, Option.getD_some, if_pos hx]
  rfl

theorem Keyed.dec_ends {a : AES} (h : Keyed a nk key) : KeyAt a.rkey 0 (roundKey (keyExpansion nk key) (nk + 6)) ∧
    KeyAt a.rkey (4 * (nk + 6)) (roundKey (keyExpansion nk key) 0) := by
  obtain ⟨rk, hrk⟩ := h.rk
  have hn := h.hnk
  have g : ∀ x, x < 4 * (nk + 7) → (x < 4 ∨ 4 * (nk + 6) ≤ x) → wd a.rkey x = pack (kw nk key (4 * (nk + 6) - 4 * (x / 4) + x % 4)) := by
    intro x hx hc
    rw [hrk, invKey_get _ _ _ x hx (by omega), if_pos (by omega), h.fk.2 _ (by omega) (by omega)]
    congr 2
  have q : ∀ x y, x < 4 * (nk + 7) → (x < 4 ∨ 4 * (nk + 6) ≤ x) → 4 * (nk + 6) - 4 * (x / 4) + x % 4 = y → wd a.rkey x = pack (kw nk key y) := by
    intro x y h1 h2 h3
    rw [g x h1 h2, h3]
  constructor
  · exact keyAt_words h.hnk h.hl _ (by omega) (q _ _ (by omega) (by omega) (by omega)) (q _ _ (by omega) (by omega) (by omega))
      (q _ _ (by omega) (by omega) (by omega)) (q _ _ (by omega) (by omega) (by omega))
  · exact keyAt_words h.hnk h.hl _ (by omega) (q _ _ (by omega) (by omega) (by omega)) (q _ _ (by omega) (by omega) (by omega))
      (q _ _ (by omega) (by omega) (by omega)) (q _ _ (by omega) (by omega) (by omega))

theorem Keyed.dec_mid {a : AES} (h : Keyed a nk key) (r : Nat) (h1 : 1 ≤ r) (hr : r < nk + 6) :
    KeyAt a.rkey (4 * r) (invMixColumns (roundKey (keyExpansion nk key) (nk + 6 - r))) := by
  obtain ⟨rk, hrk⟩ := h.rk
  have hn := h.hnk
  have q : ∀ x y, 4 ≤ x → x < 4 * (nk + 6) → 4 * (nk + 6) - 4 * (x / 4) + x % 4 = y → wd a.rkey x = invmixcol (pack (kw nk key y)) := by
    intro x y h1 h2 h3
    rw [hrk, invKey_get _ _ _ x (by omega) (by omega), if_neg (by omega), h.fk.2 _ (by omega) (by omega)]
    congr 3
  have q0 := q (4 * r) (4 * (nk + 6 - r)) (by omega) (by omega) (by omega)
  have q1 := q (4 * r + 1) (4 * (nk + 6 - r) + 1) (by omega) (by omega) (by omega)
  have q2 := q (4 * r + 2) (4 * (nk + 6 - r) + 2) (by omega) (by omega) (by omega)
  have q3 := q (4 * r + 3) (4 * (nk + 6 - r) + 3) (by omega) (by omega) (by omega)
  rw [roundKey_eq h.hnk _ (by omega)]
  obtain ⟨a0, b0, c0, d0, e0⟩ := kw4 h.hnk h.hl (4 * (nk + 6 - r)) (by omega)
  obtain ⟨a1, b1, c1, d1, e1⟩ := kw4 h.hnk h.hl (4 * (nk + 6 - r) + 1) (by omega)
  obtain ⟨a2, b2, c2, d2, e2⟩ := kw4 h.hnk h.hl (4 * (nk + 6 - r) + 2) (by omega)
  obtain ⟨a3, b3, c3, d3, e3⟩ := kw4 h.hnk h.hl (4 * (nk + 6 - r) + 3) (by omega)
  rw [e0, invmixcol_pack] at q0; rw [e1, invmixcol_pack] at q1; rw [e2, invmixcol_pack] at q2; rw [e3, invmixcol_pack] at q3
  rw [e0, e1, e2, e3]
  refine ⟨q0.trans ?_, q1.trans ?_, q2.trans ?_, q3.trans ?_⟩ <;> apply pack_congr <;>
    rw [invMixColumns, bt_mixw _ _ _ _ _ _ (by omega)] <;> simp [bt] <;> ac_rfl

end

/-! spec level: lengths and inverses -/

theorem ext16 {s t : List Byte} (hs : s.length = 16) (ht : t.length = 16) (h : ∀ i < 16, bt s i = bt t i) : s = t := by
  rw [len16 s hs, len16 t ht]
  apply List.map_congr_left
  intro i hi
  exact h i (by simpa using hi)

theorem add_add (s k : List Byte) (hs : s.length = 16) (hk : k.length = 16) : addRoundKey (addRoundKey s k) k = s := by
  refine ext16 (add_length _ _ (add_length _ _ hs hk) hk) hs (fun i hi => ?_)
  rw [bt_add _ _ (add_length _ _ hs hk) hk i hi, bt_add _ _ hs hk i hi, BitVec.xor_assoc]
  simp

theorem isub_sub (s : List Byte) : invSubBytes (subBytes s) = s := by
  simp only [invSubBytes, subBytes, List.map_map]
  rw [show invSbox ∘ sbox = id from funext invSbox_sbox, List.map_id]
theorem sub_isub (s : List Byte) : subBytes (invSubBytes s) = s := by
  simp only [invSubBytes, subBytes, List.map_map]
  rw [show sbox ∘ invSbox = id from funext sbox_invSbox, List.map_id]

theorem ishift_shift (s : List Byte) (hs : s.length = 16) : invShiftRows (shiftRows s) = s := by
  refine ext16 (ishift_length _) hs (fun i hi => ?_)
  rw [bt_ishift _ i hi, bt_shift _ _ (by omega)]
  congr 1; omega
theorem shift_ishift (s : List Byte) (hs : s.length = 16) : shiftRows (invShiftRows s) = s := by
  refine ext16 (shift_length _) hs (fun i hi => ?_)
  rw [bt_shift _ i hi, bt_ishift _ _ (by omega)]
  congr 1; omega

/-- the sixteen coefficient products of `InvMixColumns · MixColumns` -/
theorem mix_coeffs (x : Byte) :
    (gmul 0xE (gmul 2 x) ^^^ gmul 0xB x ^^^ gmul 0xD x ^^^ gmul 9 (gmul 3 x) = x) ∧
    (gmul 0xE (gmul 3 x) ^^^ gmul 0xB (gmul 2 x) ^^^ gmul 0xD x ^^^ gmul 9 x = 0) ∧
    (gmul 0xE x ^^^ gmul 0xB (gmul 3 x) ^^^ gmul 0xD (gmul 2 x) ^^^ gmul 9 x = 0) ∧
    (gmul 0xE x ^^^ gmul 0xB x ^^^ gmul 0xD (gmul 3 x) ^^^ gmul 9 (gmul 2 x) = 0) :=
  all_bytes (P := fun x => (gmul 0xE (gmul 2 x) ^^^ gmul 0xB x ^^^ gmul 0xD x ^^^ gmul 9 (gmul 3 x) = x) ∧
    (gmul 0xE (gmul 3 x) ^^^ gmul 0xB (gmul 2 x) ^^^ gmul 0xD x ^^^ gmul 9 x = 0) ∧
    (gmul 0xE x ^^^ gmul 0xB (gmul 3 x) ^^^ gmul 0xD (gmul 2 x) ^^^ gmul 9 x = 0) ∧
    (gmul 0xE x ^^^ gmul 0xB x ^^^ gmul 0xD (gmul 3 x) ^^^ gmul 9 (gmul 2 x) = 0)) (by decide +kernel) x

theorem mix_coeffs' (x : Byte) :
    (gmul 2 (gmul 0xE x) ^^^ gmul 3 (gmul 9 x) ^^^ gmul 0xD x ^^^ gmul 0xB x = x) ∧
    (gmul 2 (gmul 0xB x) ^^^ gmul 3 (gmul 0xE x) ^^^ gmul 9 x ^^^ gmul 0xD x = 0) ∧
    (gmul 2 (gmul 0xD x) ^^^ gmul 3 (gmul 0xB x) ^^^ gmul 0xE x ^^^ gmul 9 x = 0) ∧
    (gmul 2 (gmul 9 x) ^^^ gmul 3 (gmul 0xD x) ^^^ gmul 0xB x ^^^ gmul 0xE x = 0) :=
  all_bytes (P := fun x => (gmul 2 (gmul 0xE x) ^^^ gmul 3 (gmul 9 x) ^^^ gmul 0xD x ^^^ gmul 0xB x = x) ∧
    (gmul 2 (gmul 0xB x) ^^^ gmul 3 (gmul 0xE x) ^^^ gmul 9 x ^^^ gmul 0xD x = 0) ∧
    (gmul 2 (gmul 0xD x) ^^^ gmul 3 (gmul 0xB x) ^^^ gmul 0xE x ^^^ gmul 9 x = 0) ∧
    (gmul 2 (gmul 9 x) ^^^ gmul 3 (gmul 0xD x) ^^^ gmul 0xB x ^^^ gmul 0xE x = 0)) (by decide +kernel) x

theorem imix_row (x y z w : Byte) :
    gmul 14 (gmul 2 x) ^^^ gmul 14 (gmul 3 y) ^^^ gmul 14 z ^^^ gmul 14 w ^^^
          (gmul 11 (gmul 2 y) ^^^ gmul 11 (gmul 3 z) ^^^ gmul 11 w ^^^ gmul 11 x) ^^^
        (gmul 13 (gmul 2 z) ^^^ gmul 13 (gmul 3 w) ^^^ gmul 13 x ^^^ gmul 13 y) ^^^
      (gmul 9 (gmul 2 w) ^^^ gmul 9 (gmul 3 x) ^^^ gmul 9 y ^^^ gmul 9 z) = x := by
  have e : gmul 14 (gmul 2 x) ^^^ gmul 14 (gmul 3 y) ^^^ gmul 14 z ^^^ gmul 14 w ^^^
          (gmul 11 (gmul 2 y) ^^^ gmul 11 (gmul 3 z) ^^^ gmul 11 w ^^^ gmul 11 x) ^^^
        (gmul 13 (gmul 2 z) ^^^ gmul 13 (gmul 3 w) ^^^ gmul 13 x ^^^ gmul 13 y) ^^^
      (gmul 9 (gmul 2 w) ^^^ gmul 9 (gmul 3 x) ^^^ gmul 9 y ^^^ gmul 9 z)
    = (gmul 0xE (gmul 2 x) ^^^ gmul 0xB x ^^^ gmul 0xD x ^^^ gmul 9 (gmul 3 x)) ^^^
      (gmul 0xE (gmul 3 y) ^^^ gmul 0xB (gmul 2 y) ^^^ gmul 0xD y ^^^ gmul 9 y) ^^^
      (gmul 0xE z ^^^ gmul 0xB (gmul 3 z) ^^^ gmul 0xD (gmul 2 z) ^^^ gmul 9 z) ^^^
      (gmul 0xE w ^^^ gmul 0xB w ^^^ gmul 0xD (gmul 3 w) ^^^ gmul 9 (gmul 2 w)) := by ac_rfl
  rw [e, (mix_coeffs x).1, (mix_coeffs y).2.1, (mix_coeffs z).2.2.1, (mix_coeffs w).2.2.2]
  simp

theorem mix_row (x y z w : Byte) :
    gmul 2 (gmul 14 x) ^^^ gmul 2 (gmul 11 y) ^^^ gmul 2 (gmul 13 z) ^^^ gmul 2 (gmul 9 w) ^^^
          (gmul 3 (gmul 14 y) ^^^ gmul 3 (gmul 11 z) ^^^ gmul 3 (gmul 13 w) ^^^ gmul 3 (gmul 9 x)) ^^^
        (gmul 14 z ^^^ gmul 11 w ^^^ gmul 13 x ^^^ gmul 9 y) ^^^
      (gmul 14 w ^^^ gmul 11 x ^^^ gmul 13 y ^^^ gmul 9 z) = x := by
  have e : gmul 2 (gmul 14 x) ^^^ gmul 2 (gmul 11 y) ^^^ gmul 2 (gmul 13 z) ^^^ gmul 2 (gmul 9 w) ^^^
          (gmul 3 (gmul 14 y) ^^^ gmul 3 (gmul 11 z) ^^^ gmul 3 (gmul 13 w) ^^^ gmul 3 (gmul 9 x)) ^^^
        (gmul 14 z ^^^ gmul 11 w ^^^ gmul 13 x ^^^ gmul 9 y) ^^^
      (gmul 14 w ^^^ gmul 11 x ^^^ gmul 13 y ^^^ gmul 9 z)
    = (gmul 2 (gmul 0xE x) ^^^ gmul 3 (gmul 9 x) ^^^ gmul 0xD x ^^^ gmul 0xB x) ^^^
      (gmul 2 (gmul 0xB y) ^^^ gmul 3 (gmul 0xE y) ^^^ gmul 9 y ^^^ gmul 0xD y) ^^^
      (gmul 2 (gmul 0xD z) ^^^ gmul 3 (gmul 0xB z) ^^^ gmul 0xE z ^^^ gmul 9 z) ^^^
      (gmul 2 (gmul 9 w) ^^^ gmul 3 (gmul 0xD w) ^^^ gmul 0xB w ^^^ gmul 0xE w) := by ac_rfl
  rw [e, (mix_coeffs' x).1, (mix_coeffs' y).2.1, (mix_coeffs' z).2.2.1, (mix_coeffs' w).2.2.2]
  simp

theorem imix_mix (s : List Byte) (hs : s.length = 16) : invMixColumns (mixColumns s) = s := by
  refine ext16 (imix_length _) hs (fun i hi => ?_)
  rw [invMixColumns, bt_mixw _ _ _ _ _ i hi, mixColumns, bt_mixw _ _ _ _ _ _ (by omega), bt_mixw _ _ _ _ _ _ (by omega),
    bt_mixw _ _ _ _ _ _ (by omega), bt_mixw _ _ _ _ _ _ (by omega)]
  simp only [gmul_xor, gmul_one]
  have e : i = 4 * (i / 4) + i % 4 := by omega
  generalize i / 4 = q at *
  have hr : i % 4 = 0 ∨ i % 4 = 1 ∨ i % 4 = 2 ∨ i % 4 = 3 := by omega
  generalize i % 4 = r at *
  subst e
  rcases hr with rfl | rfl | rfl | rfl
  all_goals
    simp only [Nat.reduceAdd, Nat.reduceMod, Nat.add_zero, show (4 * q + 1) / 4 = q by omega,
      show (4 * q) / 4 = q by omega, show (4 * q) % 4 = 0 by omega,
      show (4 * q + 2) / 4 = q by omega, show (4 * q + 3) / 4 = q by omega, show (4 * q + 1) % 4 = 1 by omega,
      show (4 * q + 2) % 4 = 2 by omega, show (4 * q + 3) % 4 = 3 by omega]
    exact imix_row _ _ _ _

theorem mix_imix (s : List Byte) (hs : s.length = 16) : mixColumns (invMixColumns s) = s := by
  refine ext16 (mix_length _) hs (fun i hi => ?_)
  rw [mixColumns, bt_mixw _ _ _ _ _ i hi, invMixColumns, bt_mixw _ _ _ _ _ _ (by omega), bt_mixw _ _ _ _ _ _ (by omega),
    bt_mixw _ _ _ _ _ _ (by omega), bt_mixw _ _ _ _ _ _ (by omega)]
  simp only [gmul_xor, gmul_one]
  have e : i = 4 * (i / 4) + i % 4 := by omega
  generalize i / 4 = q at *
  have hr : i % 4 = 0 ∨ i % 4 = 1 ∨ i % 4 = 2 ∨ i % 4 = 3 := by omega
  generalize i % 4 = r at *
  subst e
  rcases hr with rfl | rfl | rfl | rfl
  all_goals
    simp only [Nat.reduceAdd, Nat.reduceMod, Nat.add_zero, show (4 * q + 1) / 4 = q by omega,
      show (4 * q) / 4 = q by omega, show (4 * q) % 4 = 0 by omega,
      show (4 * q + 2) / 4 = q by omega, show (4 * q + 3) / 4 = q by omega, show (4 * q + 1) % 4 = 1 by omega,
      show (4 * q + 2) % 4 = 2 by omega, show (4 * q + 3) % 4 = 3 by omega]
    exact mix_row _ _ _ _

/-! the whole cipher -/

theorem foldl_congr_mem {α β : Type} {l : List β} {f g : α → β → α} {s : α} (h : ∀ s, ∀ r ∈ l, f s r = g s r) : l.foldl f s = l.foldl g s := by
  induction l generalizing s with
  | nil => rfl
  | cons x xs ih =>
    rw [List.foldl_cons, List.foldl_cons, h s x (by simp)]
    exact ih (fun s r hr => h s r (by simp [hr]))


section
variable {nk : Nat} {key : List Byte}

theorem encLoop {a : AES} (h : Keyed a nk key) (m : Nat) (hm : m ≤ nk + 5) (s : List Byte) (hs : s.length = 16) :
    (List.range m).foldl (fun (pk : List (BitVec 32) × Nat) _ => (encRound a.fkey pk.2 pk.1, pk.2 + 4)) (packs s, 4)
      = (packs ((List.range m).foldl (fun s r => addRoundKey (mixColumns (shiftRows (subBytes s))) (roundKey (keyExpansion nk key) (r + 1))) s),
         4 * (m + 1))
    ∧ ((List.range m).foldl (fun s r => addRoundKey (mixColumns (shiftRows (subBytes s))) (roundKey (keyExpansion nk key) (r + 1))) s).length = 16 := by
  induction m with
  | zero => exact ⟨rfl, hs⟩
  | succ m ih =>
    obtain ⟨h1, h2⟩ := ih (by omega)
    rw [List.range_succ, List.foldl_append, List.foldl_append, h1]
    simp only [List.foldl_cons, List.foldl_nil]
    have hk := roundKey_length h.hnk h.hl (m + 1) (by omega)
    refine ⟨?_, add_length _ _ (mix_length _) hk⟩
    rw [encRound_packs (h.enc (m + 1) (by omega)) h2 hk]
    rfl

theorem ecbEncrypt_eq {a : AES} (h : Keyed a nk key) (s : List Byte) (hs : s.length = 16) : ecbEncrypt a s = cipher nk key s := by
  have k0 := roundKey_length h.hnk h.hl 0 (by omega)
  obtain ⟨h1, h2⟩ := encLoop h (nk + 5) le_rfl _ (add_length s _ hs k0)
  have hk := roundKey_length h.hnk h.hl (nk + 6) le_rfl
  simp only [ecbEncrypt, load_packs (h.enc 0 (by omega)) hs k0, h.nr, show nk + 6 - 1 = nk + 5 by omega, h1]
  rw [show 4 * (nk + 5 + 1) = 4 * (nk + 6) by ring, encLast_packs (h.enc (nk + 6) le_rfl) h2 hk, unpack_packs _ (add_length _ _ (shift_length _) hk)]
  rfl

theorem decLoop {a : AES} (h : Keyed a nk key) (m : Nat) (hm : m ≤ nk + 5) (s : List Byte) (hs : s.length = 16) :
    (List.range m).foldl (fun (pk : List (BitVec 32) × Nat) _ => (decRound a.rkey pk.2 pk.1, pk.2 + 4)) (packs s, 4)
      = (packs ((List.range m).foldl (fun s r => invMixColumns (addRoundKey (invSubBytes (invShiftRows s)) (roundKey (keyExpansion nk key) (nk + 6 - 1 - r)))) s),
         4 * (m + 1))
    ∧ ((List.range m).foldl (fun s r => invMixColumns (addRoundKey (invSubBytes (invShiftRows s)) (roundKey (keyExpansion nk key) (nk + 6 - 1 - r)))) s).length = 16 := by
  induction m with
  | zero => exact ⟨rfl, hs⟩
  | succ m ih =>
    obtain ⟨h1, h2⟩ := ih (by omega)
    rw [List.range_succ, List.foldl_append, List.foldl_append, h1]
    simp only [List.foldl_cons, List.foldl_nil]
    have hk := roundKey_length h.hnk h.hl (nk + 6 - 1 - m) (by omega)
    refine ⟨?_, imix_length _⟩
    have hd := h.dec_mid (m + 1) (by omega) (by omega)
    rw [show nk + 6 - (m + 1) = nk + 6 - 1 - m by omega] at hd
    rw [decRound_packs hd h2 hk]
    rfl

theorem ecbDecrypt_eq {a : AES} (h : Keyed a nk key) (s : List Byte) (hs : s.length = 16) : ecbDecrypt a s = invCipher nk key s := by
  have k0 := roundKey_length h.hnk h.hl 0 (by omega)
  have hk := roundKey_length h.hnk h.hl (nk + 6) le_rfl
  obtain ⟨h1, h2⟩ := decLoop h (nk + 5) le_rfl _ (add_length s _ hs hk)
  simp only [ecbDecrypt, load_packs h.dec_ends.1 hs hk, h.nr]
  rw [show nk + 6 - 1 = nk + 5 by omega]
  simp only [h1]
  rw [show 4 * (nk + 5 + 1) = 4 * (nk + 6) by ring, decLast_packs h.dec_ends.2 h2 k0,
    unpack_packs _ (add_length _ _ (by rw [isub_length, ishift_length]) k0)]
  rfl

/-- undoing the rounds one by one: after `m` inverse rounds the state is that of round `N - m` -/
theorem rounds_inverse (K : Nat → List Byte) (hK : ∀ r, (K r).length = 16) (N : Nat) (s : List Byte) (hs : s.length = 16) :
    ((List.range N).foldl (fun s r => addRoundKey (mixColumns (shiftRows (subBytes s))) (K (r + 1))) s).length = 16 ∧
    ∀ m ≤ N,
      invSubBytes (invShiftRows ((List.range m).foldl (fun s r => invMixColumns (addRoundKey (invSubBytes (invShiftRows s)) (K (N - r))))
        (shiftRows (subBytes ((List.range N).foldl (fun s r => addRoundKey (mixColumns (shiftRows (subBytes s))) (K (r + 1))) s)))))
      = (List.range (N - m)).foldl (fun s r => addRoundKey (mixColumns (shiftRows (subBytes s))) (K (r + 1))) s := by
  have hlen : ∀ M, ((List.range M).foldl (fun s r => addRoundKey (mixColumns (shiftRows (subBytes s))) (K (r + 1))) s).length = 16 := by
    intro M
    induction M with
    | zero => exact hs
    | succ M ih => rw [List.range_succ, List.foldl_append]; exact add_length _ _ (mix_length _) (hK _)
  refine ⟨hlen N, ?_⟩
  intro m
  induction m with
  | zero =>
    intro _
    simp only [List.range_zero, List.foldl_nil, Nat.sub_zero]
    rw [ishift_shift _ (by rw [sub_length, hlen]), isub_sub]
  | succ m ih =>
    intro hm
    have h := ih (by omega)
    rw [List.range_succ, List.foldl_append]
    simp only [List.foldl_cons, List.foldl_nil]
    rw [h]
    obtain ⟨M, hM⟩ : ∃ M, N - m = M + 1 := ⟨N - m - 1, by omega⟩
    have hM2 : N - (m + 1) = M := by omega
    rw [hM, hM2, List.range_succ, List.foldl_append]
    simp only [List.foldl_cons, List.foldl_nil]
    rw [add_add _ _ (mix_length _) (hK _), imix_mix _ (shift_length _), ishift_shift _ (by rw [sub_length, hlen]), isub_sub]

theorem invCipher_cipher (hnk : nk = 4 ∨ nk = 6 ∨ nk = 8) (hl : 4 * nk ≤ key.length) (s : List Byte) (hs : s.length = 16) :
    invCipher nk key (cipher nk key s) = s := by
  let K : Nat → List Byte := fun r => if r ≤ nk + 6 then roundKey (keyExpansion nk key) r else List.replicate 16 0
  have hK : ∀ r, (K r).length = 16 := by
    intro r
    simp only [K]
    split
    · next h => exact roundKey_length hnk hl r h
    · rfl
  have hKr : ∀ r, r ≤ nk + 6 → roundKey (keyExpansion nk key) r = K r := fun r h => by simp only [K, if_pos h]
  have e1 : cipher nk key s = addRoundKey (shiftRows (subBytes ((List.range (nk + 5)).foldl
      (fun s r => addRoundKey (mixColumns (shiftRows (subBytes s))) (K (r + 1))) (addRoundKey s (K 0))))) (K (nk + 6)) := by
    unfold cipher
    simp only [show nk + 6 - 1 = nk + 5 by omega, hKr 0 (by omega), hKr (nk + 6) le_rfl]
    congr 3
    apply foldl_congr_mem
    intro s r hr
    rw [hKr (r + 1) (by have := List.mem_range.1 hr; omega)]
  obtain ⟨hL, hR⟩ := rounds_inverse K hK (nk + 5) (addRoundKey s (K 0)) (add_length _ _ hs (hK 0))
  have h := hR (nk + 5) le_rfl
  unfold invCipher
  simp only [show nk + 6 - 1 = nk + 5 by omega, hKr 0 (by omega), hKr (nk + 6) le_rfl]
  rw [e1, add_add _ _ (shift_length _) (hK _)]
  have e2 : ∀ t, (List.range (nk + 5)).foldl (fun s r => invMixColumns (addRoundKey (invSubBytes (invShiftRows s))
      (roundKey (keyExpansion nk key) (nk + 5 - r)))) t
      = (List.range (nk + 5)).foldl (fun s r => invMixColumns (addRoundKey (invSubBytes (invShiftRows s)) (K (nk + 5 - r)))) t := by
    intro t
    apply foldl_congr_mem
    intro s r hr
    rw [hKr (nk + 5 - r) (by omega)]
  rw [e2, h, Nat.sub_self]
  simp only [List.range_zero, List.foldl_nil]
  exact add_add _ _ hs (hK 0)

theorem cipher_length (hnk : nk = 4 ∨ nk = 6 ∨ nk = 8) (hl : 4 * nk ≤ key.length) (s : List Byte) : (cipher nk key s).length = 16 :=
  add_length _ _ (shift_length _) (roundKey_length hnk hl _ le_rfl)

theorem invCipher_length (hnk : nk = 4 ∨ nk = 6 ∨ nk = 8) (hl : 4 * nk ≤ key.length) (s : List Byte) : (invCipher nk key s).length = 16 :=
  add_length _ _ (by rw [isub_length, ishift_length]) (roundKey_length hnk hl _ (by omega))

/-- the block cipher permutes the blocks, so undoing it works on either side -/
theorem cipher_invCipher (hnk : nk = 4 ∨ nk = 6 ∨ nk = 8) (hl : 4 * nk ≤ key.length) (s : List Byte) (hs : s.length = 16) :
    cipher nk key (invCipher nk key s) = s := by
  let V := List.Vector Byte 16
  have : Finite Byte := Finite.of_injective (fun x : Byte => x.toFin) (fun x y h => BitVec.eq_of_toFin_eq h)
  have := Fintype.ofFinite Byte
  let f : V → V := fun v => ⟨cipher nk key v.1, cipher_length hnk hl v.1⟩
  have hf : Function.Injective f := by
    intro u v h
    have := congrArg (fun w : V => invCipher nk key w.1) h
    simp only [f] at this
    rw [invCipher_cipher hnk hl _ u.2, invCipher_cipher hnk hl _ v.2] at this
    exact Subtype.ext this
  obtain ⟨t, ht⟩ := (Finite.injective_iff_surjective.1 hf) ⟨s, hs⟩
  have e : cipher nk key t.1 = s := congrArg Subtype.val ht
  rw [← e, invCipher_cipher hnk hl _ t.2]

end

end Verif.Aes
