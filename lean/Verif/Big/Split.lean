import Verif.Big.Arith
import Verif.Big.Mul
import Verif.Big.Monty
import Verif.Big.Div
/- `DBig::split`. -/
namespace Verif.Big
open Spec

variable {C : Nat}

theorem fshr_at {b k : Nat} (ws : Limbs C) (i : Nat) (hi : i + 1 < ws.length) :
    at' (fshr b k ws) i = (at' ws i).sshiftRight k ||| ((at' ws (i + 1) <<< (b - k)) &&& bmask C b) := by
  induction ws generalizing i with
  | nil => simp at hi
  | cons x xs ih =>
    cases xs with
    | nil => simp at hi
    | cons y r =>
      cases i with
      | zero => simp [fshr, at']
      | succ i =>
        have := ih i (by simpa using hi)
        simpa [fshr, at'] using this

theorem fshr_at_last {b k : Nat} (ws : Limbs C) (hne : ws ≠ []) :
    at' (fshr b k ws) (ws.length - 1) = (at' ws (ws.length - 1)).sshiftRight k := by
  induction ws with
  | nil => exact absurd rfl hne
  | cons x xs ih =>
    cases xs with
    | nil => simp [fshr, at']
    | cons y r =>
      have := ih (by simp)
      simpa [fshr, at'] using this

theorem at'_drop (w : Limbs C) (k i : Nat) : at' (w.drop k) i = at' w (k + i) := by
  simp [at', List.getD_eq_getElem?_getD]

theorem set_last_split' (w : Limbs C) (n : Nat) (hn : 0 < n) (hl : w.length = n) (v : BitVec C) :
    w.set (n - 1) v = w.take (n - 1) ++ [v] := by
  apply List.ext_getElem
  · simp [hl]; omega
  · intro i h1 h2
    have hi : i < n := by simpa [hl] using h1
    rw [List.getElem_set]
    split_ifs with e
    · subst e
      rw [List.getElem_append_right (by simp)]; simp
    · rw [List.getElem_append_left (by simp [hl]; omega)]; simp

/-- `split` at a position inside limb `nlen - 1` is division with remainder by the power of two,
provided the quotient fits. -/
theorem split_spec {b n k : Nat} (ok : Ok C b) (hn : 2 ≤ n) (hk : k / b = n - 1) (hk0 : 0 < k % b) {w : Limbs C} (hl : w.length = 2 * n)
    (hd : Digits b w) (hv : limbsVal b w < 2 ^ k * 2 ^ (b * n)) :
    (split b n k w).1.length = n ∧ Digits b (split b n k w).1 ∧ limbsVal b (split b n k w).1 = limbsVal b w / 2 ^ k ∧
    ((split b n k w).2.take n).length = n ∧ Digits b ((split b n k w).2.take n) ∧ limbsVal b ((split b n k w).2.take n) = limbsVal b w % 2 ^ k := by
  have hbC := ok.hC
  have hb := ok.hb
  have hB := two_pow_pos' b
  set m := k % b with hm
  have hmb : m < b := Nat.mod_lt _ (by omega)
  have hke : k = b * (n - 1) + m := by rw [← hk, hm]; exact (Nat.div_add_mod k b).symm
  set top := w.drop (n - 1) with htop
  have htl : top.length = n + 1 := by simp [htop, hl]; omega
  have hdt : Digits b top := fun z hz => hd z (List.mem_of_mem_drop hz)
  -- value of the two parts
  have hsplit : limbsVal b w = limbsVal b (w.take (n - 1)) + 2 ^ (b * (n - 1)) * limbsVal b top := by
    conv => lhs; rw [← List.take_append_drop (n - 1) w]
    rw [val_append, List.length_take, hl, Nat.min_eq_left (by omega)]
  have hlow := (Digits.take hd (n - 1)).bounds
  rw [List.length_take, hl, Nat.min_eq_left (by omega)] at hlow
  have hPn := two_pow_pos' (b * (n - 1))
  have hPm := two_pow_pos' m
  have htopv : limbsVal b top = limbsVal b w / 2 ^ (b * (n - 1)) := by
    rw [hsplit, Int.add_mul_ediv_left _ _ hPn.ne', Int.ediv_eq_zero_of_lt hlow.1 hlow.2, zero_add]
  have htop0 := hdt.bounds.1
  -- the top limb is below 2^m
  have hlast : (at' top n).toInt < 2 ^ m := by
    have hval : limbsVal b top < 2 ^ m * 2 ^ (b * n) := by
      rw [htopv]
      apply Int.ediv_lt_of_lt_mul hPn
      calc limbsVal b w < 2 ^ k * 2 ^ (b * n) := hv
        _ = 2 ^ m * 2 ^ (b * n) * 2 ^ (b * (n - 1)) := by rw [hke, pow_add]; ring
    have hs : limbsVal b top = limbsVal b (top.take n) + 2 ^ (b * n) * (at' top n).toInt := by
      have e : top = top.take n ++ [at' top n] := by
        have hlt : n < top.length := by omega
        conv => lhs; rw [← List.take_append_drop n top]
        congr 1
        rw [List.drop_eq_getElem_cons hlt, List.drop_of_length_le (by omega), at', List.getD_eq_getElem?_getD, List.getElem?_eq_getElem hlt]
        rfl
      conv => lhs; rw [e]
      rw [val_append, List.length_take, htl, Nat.min_eq_left (by omega)]
      simp [limbsVal]
    have h1 := (Digits.take hdt n).bounds.1
    have h2 : 2 ^ (b * n) * (at' top n).toInt < 2 ^ (b * n) * 2 ^ m := by linarith
    exact lt_of_mul_lt_mul_left h2 (two_pow_pos' _).le
  have hlast0 := (at'_digits hdt n).1
  -- the unmasked carry
  have hcarry : at' top n <<< (b - m) = (at' top n <<< (b - m)) &&& bmask C b := by
    apply BitVec.eq_of_toInt_eq
    have hBm : (2 : Int) ^ b = 2 ^ m * 2 ^ (b - m) := by rw [← pow_add]; congr 1; omega
    have hJ := two_pow_pos' (b - m)
    have h1 : (at' top n).toInt * 2 ^ (b - m) < 2 ^ b := by rw [hBm]; exact mul_lt_mul_of_pos_right hlast hJ
    have h2 : (2 : Int) ^ b < 2 ^ (C - 1) := pow_lt_pow_right₀ (by norm_num) (by omega)
    have h3 : 0 ≤ (at' top n).toInt * 2 ^ (b - m) := by positivity
    rw [toInt_shl_mask _ _ _ (by omega), toInt_shl_of _ _ (by omega) (by omega) (by omega), Int.emod_eq_of_lt h3 h1]
  have hhi : (split b n k w).1 = (fshr b m top).take n := by
    apply List.ext_getElem
    · simp [split, fshr_length, htl]
    · intro i h1 h2
      have hi : i < n := by simpa [split] using h1
      have e1 : ((fshr b m top).take n)[i] = at' (fshr b m top) i := by
        rw [List.getElem_take, at', List.getD_eq_getElem?_getD, List.getElem?_eq_getElem (by rw [fshr_length]; omega)]; rfl
      rw [e1, fshr_at _ _ (by omega)]
      simp only [split, List.getElem_map, List.getElem_range]
      congr 1
      split_ifs with hin
      · rw [hin]; exact hcarry
      · rfl
  obtain ⟨f1, f2⟩ := fshr_spec ok hmb.le top hdt.normal
  have hne : top ≠ [] := by intro e; rw [e] at htl; simp at htl
  have hz : at' (fshr b m top) n = 0#C := by
    have := fshr_at_last (b := b) (k := m) top hne
    rw [htl] at this
    simp only [Nat.add_sub_cancel] at this
    rw [this]
    apply BitVec.eq_of_toInt_eq
    rw [toInt_sshr, Int.ediv_eq_zero_of_lt hlast0 hlast]; simp
  have hfs : fshr b m top = (fshr b m top).take n ++ [0#C] := by
    have hlt : n < (fshr b m top).length := by rw [fshr_length]; omega
    conv => lhs; rw [← List.take_append_drop n (fshr b m top)]
    congr 1
    rw [List.drop_eq_getElem_cons hlt, List.drop_of_length_le (by rw [fshr_length]; omega)]
    rw [at', List.getD_eq_getElem?_getD, List.getElem?_eq_getElem hlt] at hz
    simpa using hz
  have hhv : limbsVal b ((fshr b m top).take n) = limbsVal b top / 2 ^ m := by
    rw [← f2]
    conv => rhs; rw [hfs]
    rw [val_append]; simp [limbsVal]
  have hq : limbsVal b top / 2 ^ m = limbsVal b w / 2 ^ k := by
    rw [htopv, hke, pow_add, ← Int.ediv_ediv_of_nonneg hPn.le]
  have hlen1 : (split b n k w).1.length = n := by simp [split]
  have hdhi : Digits b (split b n k w).1 := by
    rw [hhi]
    have hnorm : Normal b ((fshr b m top).take n ++ [0#C]) := hfs ▸ f1
    have hrep : Rep b (n + 1) (fshr b m top) (limbsVal b top / 2 ^ m) := ⟨by rw [fshr_length, htl], f1, f2⟩
    have hdd := hrep.digits (Int.ediv_nonneg htop0 hPm.le) (by
      have := hdt.bounds.2
      rw [htl] at this
      exact lt_of_le_of_lt (Int.ediv_le_self _ htop0) this)
    exact fun z hz => hdd z (List.mem_of_mem_take hz)
  -- low part
  have hlowl : (split b n k w).2.take n = w.take (n - 1) ++ [at' w (n - 1) &&& bmask C m] := by
    simp only [split]
    rw [List.take_set]
    have := set_last_split' (w.take n) n (by omega) (by simp [hl]; omega) (at' w (n - 1) &&& bmask C m)
    rw [this, List.take_take, Nat.min_eq_left (by omega)]
  have hat : (at' w (n - 1) &&& bmask C m).toInt = (at' w (n - 1)).toInt % 2 ^ m := toInt_and_mask _ _ (by omega)
  have hat0 := Int.emod_nonneg (at' w (n - 1)).toInt hPm.ne'
  have hat1 := Int.emod_lt_of_pos (at' w (n - 1)).toInt hPm
  have hmb' : (2 : Int) ^ m ≤ 2 ^ b := pow_le_pow_right₀ (by norm_num) hmb.le
  refine ⟨hlen1, hdhi, by rw [hhi, hhv, hq], ?_, ?_, ?_⟩
  · simp [split, hl]; omega
  · rw [hlowl]
    intro z hz
    rcases List.mem_append.1 hz with hz | hz
    · exact hd z (List.mem_of_mem_take hz)
    · have : z = at' w (n - 1) &&& bmask C m := by simpa using hz
      rw [this, hat]; omega
  · rw [hlowl, val_append, List.length_take, hl, Nat.min_eq_left (by omega)]
    simp only [limbsVal, mul_zero, add_zero, hat]
    have hwm : (at' w (n - 1)).toInt % 2 ^ m = limbsVal b top % 2 ^ m := by
      have e : top = at' w (n - 1) :: w.drop n := by
        rw [htop, List.drop_eq_getElem_cons (by omega), at', List.getD_eq_getElem?_getD, List.getElem?_eq_getElem (by omega)]
        simp only [Option.getD_some]
        congr 2; omega
      rw [e]
      exact (val_emod _ _ hmb.le).symm
    rw [hwm, hsplit, hke, pow_add]
    have hr0 := Int.emod_nonneg (limbsVal b top) hPm.ne'
    have hr1 := Int.emod_lt_of_pos (limbsVal b top) hPm
    have e := Int.emod_add_mul_ediv (limbsVal b top) (2 ^ m)
    symm
    conv => lhs; rw [← e]
    rw [show limbsVal b (w.take (n - 1)) + 2 ^ (b * (n - 1)) * (limbsVal b top % 2 ^ m + 2 ^ m * (limbsVal b top / 2 ^ m))
        = (limbsVal b (w.take (n - 1)) + 2 ^ (b * (n - 1)) * (limbsVal b top % 2 ^ m)) + 2 ^ (b * (n - 1)) * 2 ^ m * (limbsVal b top / 2 ^ m) by ring,
      Int.add_mul_emod_self_left, Int.emod_eq_of_lt (add_nonneg hlow.1 (mul_nonneg hPn.le hr0))]
    nlinarith [hlow.1, hlow.2]

end Verif.Big
