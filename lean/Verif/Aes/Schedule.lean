import Verif.Aes.Cipher
import Mathlib.Tactic.Ring
/- Helper lemmas: the key schedule. -/
namespace Verif.Aes
open Spec.Aes (sbox rcon subWord rotWord xorWord nextWord keyWords expandBy keyExpansion roundKey)

theorem expandBy_length (nk k : Nat) (ws : List (List Byte)) : (expandBy nk k ws).length = ws.length + k := by
  induction k generalizing ws with
  | zero => rfl
  | succ k ih => rw [expandBy, ih]; simp; omega

theorem expandBy_take (nk k : Nat) (ws : List (List Byte)) : (expandBy nk k ws).take ws.length = ws := by
  induction k generalizing ws with
  | zero => simp [expandBy]
  | succ k ih =>
    rw [expandBy]
    have h := ih (ws ++ [nextWord nk ws])
    have h2 := congrArg (List.take ws.length) h
    rw [List.take_take] at h2
    simpa using h2

theorem expandBy_get (nk k : Nat) (ws : List (List Byte)) (i : Nat) (h1 : ws.length ≤ i) (h2 : i < ws.length + k) :
    (expandBy nk k ws).getD i [] = nextWord nk ((expandBy nk k ws).take i) := by
  induction k generalizing ws with
  | zero => omega
  | succ k ih =>
    rw [expandBy]
    by_cases h : i = ws.length
    · subst h
      have hp := expandBy_take nk k (ws ++ [nextWord nk ws])
      have e1 : (expandBy nk k (ws ++ [nextWord nk ws])).take ws.length = ws := by
        have h2 := congrArg (List.take ws.length) hp
        rw [List.take_take] at h2
        simpa using h2
      rw [e1]
      have h3 := congrArg (fun l => l.getD ws.length []) hp
      simpa [List.getD_eq_getElem?_getD, List.getElem?_take] using h3
    · exact ih _ (by simp; omega) (by simp; omega)

theorem getD_take {α : Type} (l : List α) (k i : Nat) (d : α) (h : i < k) : (l.take k).getD i d = l.getD i d := by
  simp [List.getD_eq_getElem?_getD, List.getElem?_take, h]

section
variable (nk : Nat) (key : List Byte)

/-- word `i` of the expanded key -/
def kw (i : Nat) : List Byte := (keyExpansion nk key).getD i []

theorem keyExpansion_length (h : nk ≤ 8) : (keyExpansion nk key).length = 4 * (nk + 7) := by
  rw [keyExpansion, expandBy_length]; simp [keyWords]; omega

theorem kw_key (hl : 4 * nk ≤ key.length) (i : Nat) (hi : i < nk) :
    kw nk key i = [bt key (4 * i), bt key (4 * i + 1), bt key (4 * i + 2), bt key (4 * i + 3)] := by
  have h := expandBy_take nk (4 * (nk + 7) - nk) (keyWords nk key)
  have h3 := congrArg (fun l => l.getD i []) h
  have hlen : (keyWords nk key).length = nk := by simp [keyWords]
  rw [hlen] at h3
  simp only [getD_take _ _ _ _ hi] at h3
  rw [kw, keyExpansion, h3]
  simp only [keyWords, List.getD_eq_getElem?_getD, List.getElem?_map, List.getElem?_range hi, Option.map_some, Option.getD_some]
  apply List.ext_getElem
  · simp; omega
  · intro t h1 h2
    simp at h2
    simp only [List.getElem_take, List.getElem_drop]
    have : t = 0 ∨ t = 1 ∨ t = 2 ∨ t = 3 := by omega
    have hk : ∀ j, (hj : j < key.length) → key[j] = bt key j := by
      intro j hj; simp [bt, hj]
    rcases this with rfl | rfl | rfl | rfl <;> simp [hk]

theorem kw_rec (hnk : 0 < nk) (i : Nat) (h1 : nk ≤ i) (h2 : i < 4 * (nk + 7)) :
    kw nk key i = xorWord (kw nk key (i - nk))
      (if i % nk = 0 then xorWord (subWord (rotWord (kw nk key (i - 1)))) [rcon (i / nk), 0, 0, 0]
       else if nk > 6 ∧ i % nk = 4 then subWord (kw nk key (i - 1)) else kw nk key (i - 1)) := by
  have hlen : (keyWords nk key).length = nk := by simp [keyWords]
  have h := expandBy_get nk (4 * (nk + 7) - nk) (keyWords nk key) i (by omega) (by omega)
  have hL := expandBy_length nk (4 * (nk + 7) - nk) (keyWords nk key)
  rw [kw, keyExpansion, h, nextWord]
  have hl : ((expandBy nk (4 * (nk + 7) - nk) (keyWords nk key)).take i).length = i := by
    rw [List.length_take, hL]; omega
  simp only [hl, getD_take _ _ _ _ (show i - 1 < i by omega), getD_take _ _ _ _ (show i - nk < i by omega)]
  rfl

theorem kw_length (hnk : 0 < nk) (hl : 4 * nk ≤ key.length) (i : Nat) (hi : i < 4 * (nk + 7)) : (kw nk key i).length = 4 := by
  induction i using Nat.strong_induction_on with
  | _ i ih =>
    by_cases h : i < nk
    · rw [kw_key nk key hl i h]; rfl
    · rw [kw_rec nk key hnk i (by omega) hi]
      have h1 := ih (i - nk) (by omega) (by omega)
      have h2 := ih (i - 1) (by omega) (by omega)
      have hr : (rotWord (kw nk key (i - 1))).length = 4 := by simp [rotWord, h2]
      split
      · simp [xorWord, subWord, h1, hr]
      · split
        · simp [xorWord, subWord, h1, h2]
        · simp [xorWord, h1, h2]

end

/-! words as machine words -/

theorem len4 (l : List Byte) (h : l.length = 4) : ∃ a b c d, l = [a, b, c, d] := by
  match l, h with
  | [a, b, c, d], _ => exact ⟨a, b, c, d, rfl⟩

theorem pack_xorWord (u v : List Byte) (hu : u.length = 4) (hv : v.length = 4) : pack (xorWord u v) = pack u ^^^ pack v := by
  obtain ⟨a, b, c, d, rfl⟩ := len4 u hu
  obtain ⟨a', b', c', d', rfl⟩ := len4 v hv
  rw [pack_xor]; rfl

theorem pack_subWord (u : List Byte) (hu : u.length = 4) : pack (subWord u) = subbyte (pack u) := by
  obtain ⟨a, b, c, d, rfl⟩ := len4 u hu
  simp only [subbyte, unpack_pack]
  rw [show ∀ x y z w : Byte, bt [x, y, z, w] 0 = x from fun _ _ _ _ => rfl, show ∀ x y z w : Byte, bt [x, y, z, w] 1 = y from fun _ _ _ _ => rfl,
    show ∀ x y z w : Byte, bt [x, y, z, w] 2 = z from fun _ _ _ _ => rfl, show ∀ x y z w : Byte, bt [x, y, z, w] 3 = w from fun _ _ _ _ => rfl,
    fbsub_get, fbsub_get, fbsub_get, fbsub_get]
  rfl

theorem pack_rotWord (u : List Byte) (hu : u.length = 4) : pack (rotWord u) = rotl24 (pack u) := by
  obtain ⟨a, b, c, d, rfl⟩ := len4 u hu
  rw [rotl24_pack]; rfl

/-- the first `m` words (below `n`) are right -/
def Sched (nk : Nat) (key : List Byte) (m : Nat) (fk : List (BitVec 32)) : Prop :=
  fk.length = 60 ∧ ∀ i < m, i < 4 * (nk + 7) → wd fk i = pack (kw nk key i)

theorem wd_set (fk : List (BitVec 32)) (m i : Nat) (v : BitVec 32) (hm : m < fk.length) : wd (fk.set m v) i = if i = m then v else wd fk i := by
  unfold wd
  rw [List.getD_eq_getElem?_getD, List.getElem?_set]
  split
  · next h => subst h; simp [hm]
  · next h => rw [if_neg (by omega)]; rfl

theorem Sched.set {nk : Nat} {key : List Byte} {m : Nat} {fk : List (BitVec 32)} (h : Sched nk key m fk) (hm : m < 60) (v : BitVec 32)
    (hv : m < 4 * (nk + 7) → v = pack (kw nk key m)) : Sched nk key (m + 1) (fk.set m v) := by
  refine ⟨by simp [h.1], ?_⟩
  intro i hi hi2
  rw [wd_set _ _ _ _ (by rw [h.1]; exact hm)]
  split
  · next e => subst e; exact hv hi2
  · next e => exact h.2 i (by omega) hi2

section
variable {nk : Nat} {key : List Byte}

theorem schedStep_ok (h4 : 4 ≤ nk) (h8 : nk ≤ 8) (hl : 4 * nk ≤ key.length) {j i : Nat} (hj : nk ∣ j) (hj0 : nk ≤ j) (hi1 : 1 ≤ i) (hi2 : i < nk)
    (hi4 : ¬ (nk > 6 ∧ i = 4)) {fk : List (BitVec 32)} (h : Sched nk key (i + j) fk) :
    Sched nk key (i + j + 1) (schedStep nk (4 * (nk + 7)) j fk i) := by
  unfold schedStep
  split
  · next hge => exact ⟨h.1, fun t ht ht2 => h.2 t (by omega) ht2⟩
  · next hlt =>
    refine h.set (by omega) _ (fun _ => ?_)
    rw [h.2 (i + j - nk) (by omega) (by omega), h.2 (i + j - 1) (by omega) (by omega),
      ← pack_xorWord _ _ (kw_length nk key (by omega) hl _ (by omega)) (kw_length nk key (by omega) hl _ (by omega)),
      kw_rec nk key (by omega) (i + j) (by omega) (by omega)]
    have hm : (i + j) % nk = i := by
      obtain ⟨c, rfl⟩ := hj
      rw [Nat.add_mul_mod_self_left, Nat.mod_eq_of_lt hi2]
    rw [hm, if_neg (by omega), if_neg hi4]

theorem schedFold_ok (h4 : 4 ≤ nk) (h8 : nk ≤ 8) (hl : 4 * nk ≤ key.length) {j : Nat} (hj : nk ∣ j) (hj0 : nk ≤ j) (cnt s : Nat) (hs : 1 ≤ s)
    (hsc : s + cnt ≤ nk) (hi4 : nk ≤ 6 ∨ 4 < s ∨ s + cnt ≤ 4) {fk : List (BitVec 32)} (h : Sched nk key (s + j) fk) :
    Sched nk key (s + cnt + j) ((List.range' s cnt).foldl (schedStep nk (4 * (nk + 7)) j) fk) := by
  induction cnt generalizing s fk with
  | zero => simpa using h
  | succ c ih =>
    rw [List.range'_succ, List.foldl_cons]
    have h1 := schedStep_ok h4 h8 hl hj hj0 (i := s) hs (by omega) (by omega) h
    have h2 := ih (s + 1) (by omega) (by omega) (by omega) (by rw [show s + 1 + j = s + j + 1 by omega]; exact h1)
    rw [show s + (c + 1) + j = s + 1 + c + j by omega]
    exact h2

theorem schedBlock_ok (hnk : nk = 4 ∨ nk = 6 ∨ nk = 8) (hl : 4 * nk ≤ key.length) {k : Nat} {fk : List (BitVec 32)}
    (h : Sched nk key (nk * (k + 1)) fk) (hlt : nk * (k + 1) < 4 * (nk + 7)) :
    Sched nk key (nk * (k + 2)) (schedBlock nk (4 * (nk + 7)) (nk * (k + 1)) k fk) := by
  have h4 : 4 ≤ nk := by omega
  have h8 : nk ≤ 8 := by omega
  set j := nk * (k + 1) with hj
  have hjd : nk ∣ j := ⟨k + 1, rfl⟩
  have hj0 : nk ≤ j := Nat.le_mul_of_pos_right _ (by omega)
  have hk14 : k < 14 := by
    rcases hnk with rfl | rfl | rfl <;> omega
  have e2 : nk * (k + 2) = j + nk := by rw [hj]; ring
  have hL : ∀ i, i < 4 * (nk + 7) → (kw nk key i).length = 4 := fun i hi => kw_length nk key (by omega) hl i hi
  -- first word of the block
  have h1 : Sched nk key (j + 1) (fk.set j (wd fk (j - nk) ^^^ subbyte (rotl24 (wd fk (j - 1))) ^^^ (bt RCO k).setWidth 32)) := by
    refine h.set (by omega) _ (fun _ => ?_)
    rw [h.2 (j - nk) (by omega) (by omega), h.2 (j - 1) (by omega) (by omega), kw_rec nk key (by omega) j hj0 hlt,
      if_pos (Nat.mod_eq_zero_of_dvd hjd)]
    have hr : (rotWord (kw nk key (j - 1))).length = 4 := by simp [rotWord, hL (j - 1) (by omega)]
    have hs : (subWord (rotWord (kw nk key (j - 1)))).length = 4 := by simp [subWord, hr]
    rw [pack_xorWord _ _ (hL _ (by omega)) (by simp [xorWord, hs]), pack_xorWord _ _ hs rfl, pack_subWord _ hr, pack_rotWord _ (hL _ (by omega)),
      setWidth_pack, rco_table k hk14, hj, Nat.mul_div_cancel_left _ (by omega), BitVec.xor_assoc]
  unfold schedBlock
  simp only
  rw [e2]
  by_cases h6 : nk ≤ 6
  · rw [if_pos h6]
    have := schedFold_ok h4 h8 hl hjd hj0 (nk - 1) 1 (by omega) (by omega) (by omega) (by rw [show 1 + j = j + 1 by omega]; exact h1)
    rwa [show 1 + (nk - 1) + j = j + nk by omega] at this
  · rw [if_neg h6]
    have a1 := schedFold_ok h4 h8 hl hjd hj0 3 1 (by omega) (by omega) (by omega) (by rw [show 1 + j = j + 1 by omega]; exact h1)
    rw [show 1 + 3 + j = j + 4 by omega] at a1
    generalize (List.range' 1 3).foldl (schedStep nk (4 * (nk + 7)) j) _ = fk1 at a1 ⊢
    have a2 : Sched nk key (5 + j) (if j + 4 < 4 * (nk + 7) then fk1.set (j + 4) (wd fk1 (j + 4 - nk) ^^^ subbyte (wd fk1 (j + 3))) else fk1) := by
      split
      · next hlt4 =>
        rw [show 5 + j = j + 4 + 1 by omega]
        refine a1.set (by omega) _ (fun _ => ?_)
        rw [a1.2 (j + 4 - nk) (by omega) (by omega), a1.2 (j + 3) (by omega) (by omega), ← pack_subWord _ (hL _ (by omega)),
          ← pack_xorWord _ _ (hL _ (by omega)) (by simp [subWord, hL (j + 3) (by omega)]), kw_rec nk key (by omega) (j + 4) (by omega) hlt4]
        have hm : (j + 4) % nk = 4 := by
          rw [Nat.add_mod, Nat.mod_eq_zero_of_dvd hjd, zero_add, Nat.mod_mod, Nat.mod_eq_of_lt (by omega)]
        rw [hm, if_neg (by omega), if_pos ⟨by omega, rfl⟩]
        rfl
      · next hge => exact ⟨a1.1, fun t ht ht2 => a1.2 t (by omega) ht2⟩
    have := schedFold_ok h4 h8 hl hjd hj0 (nk - 5) 5 (by omega) (by omega) (by omega) a2
    rwa [show 5 + (nk - 5) + j = j + nk by omega] at this

theorem schedLoop_ok (hnk : nk = 4 ∨ nk = 6 ∨ nk = 8) (hl : 4 * nk ≤ key.length) (fuel k : Nat) {fk : List (BitVec 32)}
    (h : Sched nk key (nk * (k + 1)) fk) (hf : 4 * (nk + 7) ≤ nk * (k + 1) + fuel) :
    Sched nk key (4 * (nk + 7)) (schedLoop nk (4 * (nk + 7)) fuel (nk * (k + 1)) k fk) := by
  induction fuel generalizing k fk with
  | zero => exact ⟨h.1, fun t ht ht2 => h.2 t (by omega) ht2⟩
  | succ f ih =>
    rw [schedLoop]
    split
    · next hlt =>
      have := ih (k + 1) (schedBlock_ok hnk hl h hlt) (by rw [show nk * (k + 1 + 1) = nk * (k + 1) + nk by ring]; omega)
      rwa [show nk * (k + 1 + 1) = nk * (k + 1) + nk by ring] at this
    · next hge => exact ⟨h.1, fun t ht ht2 => h.2 t (by omega) ht2⟩

/-- the initial words (aes.rs:314-323) -/
theorem keyLoad_ok (h8 : nk ≤ 8) (hl : 4 * nk ≤ key.length) (m : Nat) (hm : m ≤ nk) (fk : List (BitVec 32)) (h60 : fk.length = 60) :
    Sched nk key m ((List.range m).foldl (fun fk i =>
      fk.set i (pack [bt key (4 * i), bt key (4 * i + 1), bt key (4 * i + 2), bt key (4 * i + 3)])) fk) := by
  induction m with
  | zero => exact ⟨h60, fun i hi => by omega⟩
  | succ m ih =>
    rw [List.range_succ, List.foldl_append, List.foldl_cons, List.foldl_nil]
    refine (ih (by omega)).set (by omega) _ (fun _ => ?_)
    rw [kw_key nk key hl m (by omega)]

end

/-- the encryption key after `init` -/
theorem init_fkey (a : AES) (h60 : a.fkey.length = 60) (m nkey : Nat) (key : List Byte) (iv : Option (List Byte))
    (hnk : nkey / 4 = 4 ∨ nkey / 4 = 6 ∨ nkey / 4 = 8) (hl : 4 * (nkey / 4) ≤ key.length) :
    (init a m nkey key iv).1 = true ∧ (init a m nkey key iv).2.nr = nkey / 4 + 6 ∧
    Sched (nkey / 4) key (4 * (nkey / 4 + 7)) (init a m nkey key iv).2.fkey ∧
    (init a m nkey key iv).2.rkey = invKey (4 * (nkey / 4 + 7)) (init a m nkey key iv).2.fkey a.rkey ∧
    (init a m nkey key iv).2.mode = m ∧
    (init a m nkey key iv).2.f = if m ≠ ECB then iv.getD (List.replicate 16 0) else List.replicate 16 0 := by
  have e : 4 * (6 + nkey / 4 + 1) = 4 * (nkey / 4 + 7) := by omega
  have hs := schedLoop_ok (key := key) (nk := nkey / 4) hnk hl (4 * (nkey / 4 + 7)) 0
    (by rw [show nkey / 4 * (0 + 1) = nkey / 4 by omega]; exact keyLoad_ok (by omega) hl (nkey / 4) le_rfl a.fkey h60) (by omega)
  rw [show nkey / 4 * (0 + 1) = nkey / 4 by omega] at hs
  unfold init
  rw [if_neg (by omega)]
  simp only [e, reset]
  refine ⟨by trivial, by omega, hs, by trivial, by trivial, by trivial⟩

end Verif.Aes
