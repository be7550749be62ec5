import Verif.Big.Val
/- Helper lemmas: shifts, selection, sign test. -/
namespace Verif.Big
open Spec (limbsVal Normal LimbsWithin)

variable {C : Nat}

theorem toInt_shl_or (x v : BitVec C) (n : Nat) (hC : 0 < C)
    (hv0 : 0 ≤ v.toInt) (hv : v.toInt < 2 ^ n)
    (h1 : -2 ^ (C - 1) ≤ x.toInt * 2 ^ n) (h2 : x.toInt * 2 ^ n + v.toInt < 2 ^ (C - 1)) :
    ((x <<< n) ||| v).toInt = x.toInt * 2 ^ n + v.toInt := by
  have hvn : v.toNat < 2 ^ n := by
    have := toNat_of_toInt_nonneg v hv0
    have h3 : (v.toNat : Int) < ((2 ^ n : Nat) : Int) := by push_cast; omega
    exact_mod_cast h3
  have hand : (x <<< n) &&& v = 0#C := by
    apply BitVec.eq_of_getLsbD_eq
    intro i hi
    simp only [BitVec.getLsbD_and, BitVec.getLsbD_shiftLeft, BitVec.getLsbD_zero]
    by_cases hin : i < n
    · simp [hin]
    · have : v.getLsbD i = false := by
        unfold BitVec.getLsbD
        exact Nat.testBit_lt_two_pow (lt_of_lt_of_le hvn (Nat.pow_le_pow_right (by omega) (by omega)))
      simp [this]
  rw [← BitVec.add_eq_or_of_and_eq_zero _ _ hand]
  have e := toInt_shl_of x n hC h1 (by omega)
  rw [toInt_add_of _ _ hC (by rw [e]; omega) (by rw [e]; omega), e]

theorem fshr_length (b k : Nat) (ws : Limbs C) : (fshr b k ws).length = ws.length := by
  induction ws with
  | nil => rfl
  | cons x xs ih =>
    cases xs with
    | nil => rfl
    | cons y r => simp only [fshr, List.length_cons] at ih ⊢; rw [ih]

theorem val_emod {b k : Nat} (x : BitVec C) (xs : Limbs C) (hk : k ≤ b) :
    limbsVal b (x :: xs) % 2 ^ k = x.toInt % 2 ^ k := by
  have : (2 : Int) ^ b = 2 ^ k * 2 ^ (b - k) := by rw [← pow_add]; congr 1; omega
  simp only [limbsVal]
  rw [this, mul_assoc, Int.add_mul_emod_self_left]

theorem fshr_spec {b k : Nat} (ok : Ok C b) (hk : k ≤ b) (ws : Limbs C) (hn : Normal b ws) :
    Normal b (fshr b k ws) ∧ limbsVal b (fshr b k ws) = limbsVal b ws / 2 ^ k := by
  have hbC := ok.hC
  have hKpos := two_pow_pos' k
  have hBpos := two_pow_pos' b
  induction ws with
  | nil => simp [fshr, limbsVal, Spec.Normal]
  | cons x xs ih =>
    cases xs with
    | nil => exact ⟨trivial, by simp only [fshr, limbsVal, toInt_sshr, mul_zero, add_zero]⟩
    | cons y r =>
      obtain ⟨i1, i2⟩ := ih hn.tail
      have hx := hn.head (by simp)
      have hB : (2 : Int) ^ b = 2 ^ (b - k) * 2 ^ k := by rw [← pow_add]; congr 1; omega
      have hJpos := two_pow_pos' (b - k)
      have hs1 : (x.sshiftRight k).toInt = x.toInt / 2 ^ k := toInt_sshr x k
      have hs2 : ((y <<< (b - k)) &&& bmask C b).toInt = (y.toInt % 2 ^ k) * 2 ^ (b - k) := by
        rw [toInt_shl_mask _ _ _ (by omega)]
        rw [hB, mul_comm y.toInt, Int.mul_emod_mul_of_pos _ _ hJpos]; ring
      have hm0 := Int.emod_nonneg y.toInt hKpos.ne'
      have hm1 := Int.emod_lt_of_pos y.toInt hKpos
      have hd0 : 0 ≤ x.toInt / 2 ^ k := Int.ediv_nonneg hx.1 hKpos.le
      have hd1 : x.toInt / 2 ^ k < 2 ^ (b - k) := by
        apply Int.ediv_lt_of_lt_mul hKpos; rw [← hB]; exact hx.2
      have hsum : (y.toInt % 2 ^ k) * 2 ^ (b - k) + x.toInt / 2 ^ k < 2 ^ b := by
        have : (y.toInt % 2 ^ k + 1) * 2 ^ (b - k) ≤ 2 ^ k * 2 ^ (b - k) :=
          mul_le_mul_of_nonneg_right (by omega) hJpos.le
        rw [hB]; nlinarith
      have hCb : (2 : Int) ^ b ≤ 2 ^ (C - 1) := pow_le_pow_right₀ (by norm_num) (by omega)
      have hor : (x.sshiftRight k ||| ((y <<< (b - k)) &&& bmask C b)).toInt
          = (y.toInt % 2 ^ k) * 2 ^ (b - k) + x.toInt / 2 ^ k := by
        rw [BitVec.or_comm, toInt_or _ _ (b - k)]
        · rw [hs1, hs2]
        · rw [hs2]; positivity
        · rw [hs2]; exact Dvd.intro_left _ rfl
        · rw [hs1]; exact hd0
        · rw [hs1]; exact hd1
        · rw [hs1, hs2]; omega
      refine ⟨Spec.Normal.cons (by rw [hor]; positivity) (by rw [hor]; exact hsum) i1, ?_⟩
      show limbsVal b (_ :: fshr b k (y :: r)) = _
      rw [limbsVal, hor, i2]
      have hV := val_emod (b := b) (k := k) y r hk
      rw [← hV]
      conv => rhs; rw [limbsVal]
      generalize limbsVal b (y :: r) = V
      have e := Int.emod_add_mul_ediv V (2 ^ k)
      have : x.toInt + 2 ^ b * V = x.toInt + (V % 2 ^ k * 2 ^ (b - k) + 2 ^ b * (V / 2 ^ k)) * 2 ^ k := by
        conv => lhs; rw [← e]
        rw [hB]; ring
      rw [this, Int.add_mul_ediv_right _ _ hKpos.ne']; ring

theorem fshrOut_spec {b k : Nat} (ok : Ok C b) (hk : k ≤ b) (ws : Limbs C) (hne : ws ≠ []) :
    (fshrOut k ws).toInt = limbsVal b ws % 2 ^ k := by
  cases ws with
  | nil => exact absurd rfl hne
  | cons x xs =>
    rw [val_emod x xs hk]
    simp only [fshrOut, at', List.getD_cons_zero]
    rw [toInt_and_mask _ _ (by have := ok.hC; omega)]

theorem fshlGo_spec {b n : Nat} (ok : Ok C b) (hn : n ≤ b) (ws : Limbs C) (hne : ws ≠ []) (hN : Normal b ws)
    (hT0 : -2 ^ (C - 1) ≤ (ws.getLastD 0).toInt * 2 ^ n)
    (hT1 : ((ws.getLastD 0).toInt + 1) * 2 ^ n ≤ 2 ^ (C - 1)) (prev : BitVec C)
    (hp0 : 0 ≤ prev.toInt) (hp : prev.toInt < 2 ^ b) :
    (fshlGo b n prev ws).length = ws.length ∧ Normal b (fshlGo b n prev ws) ∧
      limbsVal b (fshlGo b n prev ws) = 2 ^ n * limbsVal b ws + prev.toInt / 2 ^ (b - n) := by
  have hbC := ok.hC
  have hbb := ok.hb
  have hnpos := two_pow_pos' n
  have hJpos := two_pow_pos' (b - n)
  have hBpos := two_pow_pos' b
  have hB : (2 : Int) ^ b = 2 ^ n * 2 ^ (b - n) := by rw [← pow_add]; congr 1; omega
  induction ws generalizing prev with
  | nil => exact absurd rfl hne
  | cons x xs ih =>
    have hs : (prev.sshiftRight (b - n)).toInt = prev.toInt / 2 ^ (b - n) := toInt_sshr _ _
    have hd0 : 0 ≤ prev.toInt / 2 ^ (b - n) := Int.ediv_nonneg hp0 hJpos.le
    have hd1 : prev.toInt / 2 ^ (b - n) < 2 ^ n := by
      apply Int.ediv_lt_of_lt_mul hJpos; rw [← hB]; exact hp
    cases xs with
    | nil =>
      refine ⟨rfl, trivial, ?_⟩
      simp only [List.getLastD_cons, List.getLastD_nil] at hT0 hT1
      simp only [fshlGo, limbsVal, mul_zero, add_zero]
      rw [toInt_shl_or _ _ _ (by omega) (by rw [hs]; exact hd0) (by rw [hs]; exact hd1)]
      · rw [hs]; ring
      · exact hT0
      · rw [hs]; nlinarith
    | cons y r =>
      have hx := hN.head (by simp)
      obtain ⟨i1, i2, i3⟩ := ih (by simp) hN.tail (by simpa [List.getLastD] using hT0)
        (by simpa [List.getLastD] using hT1) x hx.1 hx.2
      have e1 : ((x <<< n) &&& bmask C b).toInt = (x.toInt % 2 ^ (b - n)) * 2 ^ n := by
        rw [toInt_shl_mask _ _ _ (by omega)]
        rw [hB, mul_comm x.toInt, Int.mul_emod_mul_of_pos _ _ hnpos]; ring
      have hm0 := Int.emod_nonneg x.toInt hJpos.ne'
      have hm1 := Int.emod_lt_of_pos x.toInt hJpos
      have hsum : (x.toInt % 2 ^ (b - n)) * 2 ^ n + prev.toInt / 2 ^ (b - n) < 2 ^ b := by
        have : (x.toInt % 2 ^ (b - n) + 1) * 2 ^ n ≤ 2 ^ (b - n) * 2 ^ n :=
          mul_le_mul_of_nonneg_right (by omega) hnpos.le
        rw [hB]; nlinarith
      have hCb : (2 : Int) ^ b ≤ 2 ^ (C - 1) := pow_le_pow_right₀ (by norm_num) (by omega)
      have hor : (((x <<< n) &&& bmask C b) ||| prev.sshiftRight (b - n)).toInt
          = (x.toInt % 2 ^ (b - n)) * 2 ^ n + prev.toInt / 2 ^ (b - n) := by
        rw [toInt_or _ _ n]
        · rw [hs, e1]
        · rw [e1]; positivity
        · rw [e1]; exact Dvd.intro_left _ rfl
        · rw [hs]; exact hd0
        · rw [hs]; exact hd1
        · rw [hs, e1]; omega
      show ((((x <<< n) &&& bmask C b) ||| prev.sshiftRight (b - n)) :: fshlGo b n x (y :: r)).length = _ ∧
        Normal b ((((x <<< n) &&& bmask C b) ||| prev.sshiftRight (b - n)) :: fshlGo b n x (y :: r)) ∧
        limbsVal b ((((x <<< n) &&& bmask C b) ||| prev.sshiftRight (b - n)) :: fshlGo b n x (y :: r)) = _
      refine ⟨by simp only [List.length_cons] at i1 ⊢; rw [i1],
        Spec.Normal.cons (by rw [hor]; positivity) (by rw [hor]; exact hsum) i2, ?_⟩
      rw [limbsVal, hor, i3]
      conv => rhs; rw [limbsVal]
      generalize limbsVal b (y :: r) = V
      have e := Int.emod_add_mul_ediv x.toInt (2 ^ (b - n))
      have : x.toInt * 2 ^ n = (x.toInt % 2 ^ (b - n)) * 2 ^ n + 2 ^ b * (x.toInt / 2 ^ (b - n)) := by
        conv => lhs; rw [← e]
        rw [hB]; ring
      linarith

theorem fshl_spec' {b n : Nat} (ok : Ok C b) (hn : n ≤ b) (ws : Limbs C) (hl : 2 ≤ ws.length) (hN : Normal b ws)
    (hT0 : -2 ^ (C - 1) ≤ (ws.getLastD 0).toInt * 2 ^ n)
    (hT1 : ((ws.getLastD 0).toInt + 1) * 2 ^ n ≤ 2 ^ (C - 1)) :
    (fshl b n ws).length = ws.length ∧ Normal b (fshl b n ws) ∧
      limbsVal b (fshl b n ws) = 2 ^ n * limbsVal b ws := by
  have hbC := ok.hC
  cases ws with
  | nil => simp at hl
  | cons x xs =>
    have hne : xs ≠ [] := by rintro rfl; simp at hl
    have hx := hN.head hne
    have el : (x :: xs).getLastD 0 = xs.getLastD 0 := by
      cases xs with
      | nil => exact absurd rfl hne
      | cons y r => simp [List.getLastD]
    rw [el] at hT0 hT1
    obtain ⟨i1, i2, i3⟩ := fshlGo_spec ok hn xs hne hN.tail hT0 hT1 x hx.1 hx.2
    have hnpos := two_pow_pos' n
    have hJpos := two_pow_pos' (b - n)
    have hBpos := two_pow_pos' b
    have hB : (2 : Int) ^ b = 2 ^ n * 2 ^ (b - n) := by rw [← pow_add]; congr 1; omega
    have e1 : ((x <<< n) &&& bmask C b).toInt = (x.toInt % 2 ^ (b - n)) * 2 ^ n := by
      rw [toInt_shl_mask _ _ _ (by omega)]
      rw [hB, mul_comm x.toInt, Int.mul_emod_mul_of_pos _ _ hnpos]; ring
    have hm0 := Int.emod_nonneg x.toInt hJpos.ne'
    have hm1 := Int.emod_lt_of_pos x.toInt hJpos
    refine ⟨by simp [fshl, i1], Spec.Normal.cons (by rw [e1]; positivity) ?_ i2, ?_⟩
    · rw [e1, hB, mul_comm]; exact mul_lt_mul_of_pos_left hm1 hnpos
    · show limbsVal b (((x <<< n) &&& bmask C b) :: fshlGo b n x xs) = _
      simp only [limbsVal, i3, e1]
      have e := Int.emod_add_mul_ediv x.toInt (2 ^ (b - n))
      have : x.toInt * 2 ^ n = (x.toInt % 2 ^ (b - n)) * 2 ^ n + 2 ^ b * (x.toInt / 2 ^ (b - n)) := by
        conv => lhs; rw [← e]
        rw [hB]; ring
      linarith

theorem getLastD_mem (w : Limbs C) (hne : w ≠ []) : w.getLastD 0 ∈ w := by
  rw [List.getLastD_eq_getLast?, List.getLast?_eq_some_getLast hne]
  exact List.getLast_mem hne

theorem fshl_spec {b n : Nat} (ok : Ok C b) (hn : n ≤ b) (ws : Limbs C) (hl : 2 ≤ ws.length) (hN : Normal b ws)
    (T : Int) (hT : LimbsWithin T ws) (hTn : (T + 1) * 2 ^ n ≤ 2 ^ (C - 1)) :
    (fshl b n ws).length = ws.length ∧ Normal b (fshl b n ws) ∧
      limbsVal b (fshl b n ws) = 2 ^ n * limbsVal b ws := by
  have hne : ws ≠ [] := by rintro rfl; simp at hl
  have h := hT _ (getLastD_mem ws hne)
  have hp := two_pow_pos' n
  exact fshl_spec' ok hn ws hl hN (by nlinarith) (by nlinarith)

/-! ### selection -/

theorem ofInt_zero' : BitVec.ofInt C 0 = 0#C := by
  apply BitVec.eq_of_toInt_eq; simp
theorem ofInt_one' : BitVec.ofInt C 1 = 1#C := by
  simp
theorem ofInt_neg_one' : BitVec.ofInt C (-1) = BitVec.allOnes C := by
  rw [BitVec.ofInt_neg, ofInt_one', BitVec.neg_one_eq_allOnes]

theorem cmove_zero (x g : Limbs C) (hl : x.length = g.length) : cmove x g 0 = x := by
  unfold cmove
  simp only [neg_zero, ofInt_zero', BitVec.and_zero, BitVec.xor_zero]
  induction x generalizing g with
  | nil => simp
  | cons u xs ih =>
    cases g with
    | nil => simp at hl
    | cons v g => simp only [List.zipWith_cons_cons]; rw [ih g (by simpa using hl)]

theorem cmove_one (x g : Limbs C) (hl : x.length = g.length) : cmove x g 1 = g := by
  unfold cmove
  have hm : BitVec.ofInt C (-1) = BitVec.allOnes C := ofInt_neg_one'
  simp only [hm, BitVec.and_allOnes]
  induction x generalizing g with
  | nil => cases g with
    | nil => rfl
    | cons => simp at hl
  | cons u xs ih =>
    cases g with
    | nil => simp at hl
    | cons v g =>
      simp only [List.zipWith_cons_cons]
      rw [ih g (by simpa using hl), ← BitVec.xor_assoc, BitVec.xor_self, BitVec.zero_xor]

theorem cswap_zero (x y : Limbs C) (hl : x.length = y.length) : cswap x y 0 = (x, y) := by
  unfold cswap
  have hm : ~~~(BitVec.ofInt C 0 - 1) = 0#C := by
    rw [ofInt_zero', BitVec.zero_sub, show (1 : BitVec C) = 1#C from rfl, BitVec.neg_one_eq_allOnes]; simp
  simp only [hm, BitVec.zero_and, BitVec.xor_zero]
  induction x generalizing y with
  | nil => cases y with
    | nil => rfl
    | cons => simp at hl
  | cons u xs ih =>
    cases y with
    | nil => simp at hl
    | cons v g =>
      have := ih g (by simpa using hl)
      simp only [Prod.mk.injEq] at this
      simp [List.zipWith_cons_cons, this.1, this.2]

theorem cswap_one (x y : Limbs C) (hl : x.length = y.length) : cswap x y 1 = (y, x) := by
  unfold cswap
  have hm : ~~~(BitVec.ofInt C 1 - 1) = BitVec.allOnes C := by
    have : (BitVec.ofInt C 1 - 1) = 0#C := by
      rw [ofInt_one']; exact BitVec.sub_self _
    rw [this, BitVec.not_zero]
  simp only [hm, BitVec.allOnes_and]
  induction x generalizing y with
  | nil => cases y with
    | nil => rfl
    | cons => simp at hl
  | cons u xs ih =>
    cases y with
    | nil => simp at hl
    | cons v g =>
      have := ih g (by simpa using hl)
      simp only [Prod.mk.injEq] at this
      simp only [List.zipWith_cons_cons, this.1, this.2, Prod.mk.injEq, List.cons.injEq, and_true]
      constructor
      · rw [← BitVec.xor_assoc, BitVec.xor_self, BitVec.zero_xor]
      · rw [BitVec.xor_comm u v, ← BitVec.xor_assoc, BitVec.xor_self, BitVec.zero_xor]

/-! ### sign -/

theorem topSign_eq (hC : 1 < C) (w : Limbs C) : topSign w = if (w.getLastD 0).toInt < 0 then 1 else 0 := by
  unfold topSign
  generalize w.getLastD 0 = x
  have hb := toInt_bounds x
  · have h : ((x.sshiftRight (C - 1)) &&& bmask C 1).toInt = (x.toInt / 2 ^ (C - 1)) % 2 ^ 1 := by
      rw [toInt_and_mask _ _ (by omega), toInt_sshr]
    have hm : bmask C 1 = 1#C := by
      unfold bmask
      apply BitVec.eq_of_toNat_eq
      have : (2 : Nat) ^ 2 ≤ 2 ^ C := Nat.pow_le_pow_right (by omega) (by omega)
      simp only [BitVec.toNat_sub, BitVec.toNat_shiftLeft, BitVec.toNat_ofNat, Nat.shiftLeft_eq]
      rw [Nat.mod_eq_of_lt (by omega : 1 < 2 ^ C)]
      rw [Nat.mod_eq_of_lt (by omega : 1 * 2 ^ 1 < 2 ^ C)]
      rw [show 2 ^ C - 1 + 1 * 2 ^ 1 = 1 + 2 ^ C by omega, Nat.add_mod_right, Nat.mod_eq_of_lt (by omega)]
    rw [hm] at h
    show ((x.sshiftRight (C - 1)) &&& 1#C).toInt = _
    rw [h]
    have hp := two_pow_pos' (C - 1)
    split
    · have : x.toInt / 2 ^ (C - 1) = -1 := by
        rw [Int.ediv_eq_iff_of_pos hp]; constructor <;> linarith
      rw [this]; rfl
    · have : x.toInt / 2 ^ (C - 1) = 0 := by
        rw [Int.ediv_eq_iff_of_pos hp]; constructor <;> linarith
      rw [this]; rfl

/-- the sign of a normalised number is the sign of its top limb -/
theorem topLimb_neg_iff {b : Nat} (w : Limbs C) (hne : w ≠ []) (hN : Normal b w) :
    (w.getLastD 0).toInt < 0 ↔ limbsVal b w < 0 := by
  have hB := two_pow_pos' b
  induction w with
  | nil => exact absurd rfl hne
  | cons x xs ih =>
    by_cases hn : xs = []
    · subst hn; simp [limbsVal]
    · have hx := hN.head hn
      have IH := ih hn hN.tail
      have e : (x :: xs).getLastD 0 = xs.getLastD 0 := by
        cases xs with
        | nil => exact absurd rfl hn
        | cons y r => simp [List.getLastD]
      rw [e]; refine IH.trans ?_; rw [limbsVal]
      constructor
      · intro h
        have : 2 ^ b * (limbsVal b xs + 1) ≤ 2 ^ b * 0 := mul_le_mul_of_nonneg_left (by omega) hB.le
        linarith
      · intro h
        by_contra hc
        have : 0 ≤ 2 ^ b * limbsVal b xs := mul_nonneg hB.le (by omega)
        linarith

theorem topSign_spec {b : Nat} (hC : 1 < C) (w : Limbs C) (hne : w ≠ []) (hN : Normal b w) :
    topSign w = if limbsVal b w < 0 then 1 else 0 := by
  rw [topSign_eq hC]
  simp only [topLimb_neg_iff w hne hN]

end Verif.Big
