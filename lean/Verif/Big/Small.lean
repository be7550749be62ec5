import Verif.Big.Mul
/- Helper lemmas: bits, truncation, zero test, small multiples. -/
namespace Verif.Big
open Spec (limbsVal Normal LimbsWithin)

variable {C : Nat}

/-! ### zero and one tests -/

theorem all_zero_iff {b : Nat} (w : Limbs C) (hN : Normal b w) :
    w.all (· == 0) = true ↔ limbsVal b w = 0 := by
  have hB := two_pow_pos' b
  induction w with
  | nil => simp [limbsVal]
  | cons x xs ih =>
    have IH := ih hN.tail
    simp only [List.all_cons, Bool.and_eq_true, beq_iff_eq, limbsVal, IH]
    constructor
    · rintro ⟨rfl, h⟩; simp [h]
    · intro h
      by_cases hne : xs = []
      · subst hne
        simp only [limbsVal, mul_zero, add_zero] at h ⊢
        exact ⟨BitVec.eq_of_toInt_eq (by simpa using h), trivial⟩
      · have hx := hN.head hne
        have hz : limbsVal b xs = 0 := by
          rcases lt_trichotomy (limbsVal b xs) 0 with h' | h' | h'
          · nlinarith
          · exact h'
          · nlinarith
        rw [hz] at h
        exact ⟨BitVec.eq_of_toInt_eq (by simpa using h), hz⟩

theorem Rep.iszilch {b n : Nat} {w : Limbs C} {V : Int} (h : Rep b n w V) : iszilch w = true ↔ V = 0 := by
  rw [← h.val]; exact all_zero_iff w h.low

theorem Rep.isunity {b n : Nat} (ok : Ok C b) {w : Limbs C} {V : Int} (hn : 0 < n) (h : Rep b n w V) :
    isunity w = true ↔ V = 1 := by
  have hne := h.ne_nil hn
  obtain ⟨x, xs, rfl⟩ := List.exists_cons_of_ne_nil hne
  have hC := ok.hC
  have hb := ok.hb
  have one : (1 : BitVec C).toInt = 1 := by
    have := toInt_ofInt_of (C := C) (x := 1) (by omega) (by have := two_pow_pos' (C - 1); omega)
      (by
        have : (2 : Int) ^ 1 ≤ 2 ^ (C - 1) := pow_le_pow_right₀ (by norm_num) (by omega)
        omega)
    rw [ofInt_one'] at this; exact this
  have hB : (2 : Int) ≤ 2 ^ b := by
    calc (2 : Int) = 2 ^ 1 := by norm_num
      _ ≤ 2 ^ b := pow_le_pow_right₀ (by norm_num) (by omega)
  rw [← h.val]
  unfold Verif.Big.isunity
  simp only [List.tail_cons, Bool.and_eq_true, at', List.getD_cons_zero, beq_iff_eq, all_zero_iff xs h.low.tail, limbsVal]
  constructor
  · rintro ⟨h1, h2⟩; rw [h1, h2, one]; ring
  · intro h1
    by_cases hx : xs = []
    · subst hx; simp only [limbsVal, mul_zero, add_zero] at h1 ⊢
      exact ⟨trivial, BitVec.eq_of_toInt_eq (by rw [one]; exact h1)⟩
    · have hd := h.low.head hx
      have hz : limbsVal b xs = 0 := by
        rcases lt_trichotomy (limbsVal b xs) 0 with h' | h' | h'
        · nlinarith
        · exact h'
        · nlinarith
      rw [hz] at h1
      exact ⟨hz, BitVec.eq_of_toInt_eq (by rw [one]; linarith)⟩

/-! ### low bits -/

theorem low_emod {b k : Nat} (w : Limbs C) (hk : k ≤ b) : (at' w 0).toInt % 2 ^ k = limbsVal b w % 2 ^ k := by
  cases w with
  | nil => simp [at', limbsVal]
  | cons x xs => rw [val_emod x xs hk]; simp [at']

theorem lastbits_spec {b n k : Nat} (ok : Ok C b) (hk : k ≤ b) {w : Limbs C} {V : Int} (h : Rep b n (norm b w) V) :
    (lastbits b w k).toInt = V % 2 ^ k := by
  have hC := ok.hC
  unfold lastbits
  rw [toInt_and_mask _ _ (by omega), low_emod _ hk, h.val]

theorem parity_val {b : Nat} (ok : Ok C b) (w : Limbs C) (h0 : 0 ≤ (at' w 0).toInt) : parity w = limbsVal b w % 2 := by
  have hC := ok.hC
  have hb := ok.hb
  have two : (2 : BitVec C).toInt = 2 := by
    have h8 : (2 : Int) ^ 2 ≤ 2 ^ (C - 1) := pow_le_pow_right₀ (by norm_num) (by omega)
    have := toInt_ofInt_of (C := C) (x := 2) (by omega) (by omega) (by omega)
    rw [← this]; congr 1
  unfold parity
  rw [BitVec.toInt_srem, two, Int.tmod_eq_emod_of_nonneg h0]
  simpa using low_emod (b := b) (k := 1) w (by omega)

theorem Rep.low_nonneg {b n : Nat} {w : Limbs C} {V : Int} (h : Rep b n w V) (hn : 2 ≤ n) : 0 ≤ (at' w 0).toInt := by
  obtain ⟨x, y, r, rfl⟩ : ∃ x y r, w = x :: y :: r := by
    have := h.len
    match w, this with
    | x :: y :: r, _ => exact ⟨x, y, r, rfl⟩
    | [x], h' => simp at h'; omega
    | [], h' => simp at h'; omega
  exact h.low.1.1

theorem Rep.parity {b n : Nat} (ok : Ok C b) (hn : 2 ≤ n) {w : Limbs C} {V : Int} (h : Rep b n w V) :
    parity w = V % 2 := by rw [parity_val ok w (h.low_nonneg hn), h.val]

theorem Rep.length_pos {b n : Nat} {w : Limbs C} {V : Int} (h : Rep b n w V) (hn : 0 < n) : 0 < w.length := by
  rw [h.len]; exact hn

/-- limb `k` of a digit string -/
theorem digit_at {b : Nat} {w : Limbs C} (h : Digits b w) (k : Nat) (hk : k < w.length) :
    (at' w k).toInt = limbsVal b w / 2 ^ (b * k) % 2 ^ b := by
  have h1 := (take_drop_val h k hk.le).2
  have hd := h.drop k
  rw [← h1]
  have e : w.drop k = w[k] :: w.drop (k + 1) := List.drop_eq_getElem_cons hk
  have ea : at' w k = w[k] := by simp [at', hk]
  rw [e, limbsVal, Int.add_mul_emod_self_left, ea]
  have := h w[k] (List.getElem_mem hk)
  rw [Int.emod_eq_of_lt this.1 this.2]

theorem toInt_one_shl {k : Nat} (hk : k + 1 < C) : (1#C <<< k).toInt = 2 ^ k := by
  have h1 : (1#C).toInt = 1 := by
    have h8 : (2 : Int) ^ 1 ≤ 2 ^ (C - 1) := pow_le_pow_right₀ (by norm_num) (by omega)
    have := toInt_ofInt_of (C := C) (x := 1) (by omega) (by omega) (by omega)
    rw [ofInt_one'] at this; exact this
  have hlt : (2 : Int) ^ k < 2 ^ (C - 1) := pow_lt_pow_right₀ (by norm_num) (by omega)
  have := two_pow_pos' k
  rw [toInt_shl_of _ _ (by omega) (by rw [h1]; omega) (by rw [h1]; omega), h1, one_mul]

theorem and_one_shl_toNat (x : BitVec C) (k : Nat) (hk : k < C) :
    (x &&& (1#C <<< k)).toNat = if x.getLsbD k then 2 ^ k else 0 := by
  have : (x &&& (1#C <<< k)) = if x.getLsbD k then 1#C <<< k else 0#C := by
    ext i hi
    by_cases h : i = k
    · subst h; by_cases hx : x.getLsbD i <;> simp [hx, ← BitVec.getLsbD_eq_getElem]
    · by_cases hx : x.getLsbD k
      · simp [hx, ← BitVec.getLsbD_eq_getElem]; omega
      · simp [hx, ← BitVec.getLsbD_eq_getElem]; omega
  rw [this]
  split
  · rw [BitVec.toNat_shiftLeft, BitVec.toNat_ofNat, Nat.shiftLeft_eq]
    have h1 : (1 : Nat) < 2 ^ C := Nat.one_lt_two_pow (by omega)
    rw [Nat.mod_eq_of_lt h1, one_mul]
    exact Nat.mod_eq_of_lt (Nat.pow_lt_pow_right (by norm_num) hk)
  · simp

theorem bit_spec {b : Nat} (ok : Ok C b) {w : Limbs C} (h : Digits b w) (k : Nat) (hk : k / b < w.length) :
    bit b w k = limbsVal b w / 2 ^ k % 2 := by
  have hC := ok.hC
  have hb := ok.hb
  have hbp : 0 < b := by omega
  have hm := Nat.mod_lt k hbp
  have hd := digit_at h (k / b) hk
  have hdig : 0 ≤ (at' w (k / b)).toInt ∧ (at' w (k / b)).toInt < 2 ^ b := by
    rw [hd]; exact ⟨Int.emod_nonneg _ (two_pow_pos' b).ne', Int.emod_lt_of_pos _ (two_pow_pos' b)⟩
  generalize hx : at' w (k / b) = x at *
  -- numeric side
  have e : limbsVal b w / 2 ^ k % 2 = x.toInt / 2 ^ (k % b) % 2 := by
    rw [hd]
    have hk' : k = b * (k / b) + k % b := (Nat.div_add_mod k b).symm
    conv => lhs; rw [hk', pow_add, ← Int.ediv_ediv_of_nonneg (two_pow_pos' _).le]
    generalize limbsVal b w / 2 ^ (b * (k / b)) = Y
    generalize k % b = r at *
    have hB : (2 : Int) ^ b = 2 ^ r * (2 * 2 ^ (b - r - 1)) := by
      rw [← pow_succ', ← pow_add]; congr 1; omega
    have hr := two_pow_pos' r
    have hq := two_pow_pos' (b - r - 1)
    have h1 := Int.emod_add_mul_ediv Y (2 ^ b)
    conv => lhs; rw [← h1, hB, mul_assoc, Int.add_mul_ediv_left _ _ hr.ne', mul_assoc, Int.add_mul_emod_self_left, ← hB]
  rw [e]
  unfold bit
  have hxn := toNat_of_toInt_nonneg x hdig.1
  have hs : (x &&& (1#C <<< (k % b))).toInt = if x.getLsbD (k % b) then 2 ^ (k % b) else 0 := by
    have hn := and_one_shl_toNat x (k % b) (by omega)
    rw [toInt_of_toNat_lt]
    · rw [hn]; split <;> simp
    · rw [hn]; split
      · exact Nat.pow_lt_pow_right (by norm_num) (by omega)
      · exact Nat.pow_pos (by norm_num)
  rw [hx, BitVec.slt_eq_decide, hs]
  have hbit : x.getLsbD (k % b) = decide (x.toNat / 2 ^ (k % b) % 2 = 1) := by
    rw [BitVec.getLsbD, Nat.testBit_eq_decide_div_mod_eq]
  have hcast : x.toInt / 2 ^ (k % b) % 2 = ((x.toNat / 2 ^ (k % b) % 2 : Nat) : Int) := by
    rw [← hxn]; push_cast; rfl
  rw [hcast, hbit]
  have hp := two_pow_pos' (k % b)
  have := Nat.mod_two_eq_zero_or_one (x.toNat / 2 ^ (k % b))
  rcases this with h | h <;> rw [h] <;> simp

theorem emod_mul_pos {a b c : Int} (hb : 0 < b) (hc : 0 < c) : a % (b * c) = a % b + b * (a / b % c) := by
  have e1 := Int.emod_add_mul_ediv a b
  have e2 := Int.emod_add_mul_ediv (a / b) c
  have h1 := Int.emod_lt_of_pos a hb
  have h0 := Int.emod_nonneg a hb.ne'
  have h3 := Int.emod_lt_of_pos (a / b) hc
  have h2 := Int.emod_nonneg (a / b) hc.ne'
  have e : a = (a % b + b * (a / b % c)) + b * c * (a / b / c) := by
    conv => lhs; rw [← e1, ← e2]
    ring
  have hlt : a % b + b * (a / b % c) < b * c := by nlinarith
  have hge : 0 ≤ a % b + b * (a / b % c) := by positivity
  conv => lhs; rw [e, Int.add_mul_emod_self_left]
  exact Int.emod_eq_of_lt hge hlt

theorem mod2m_spec {b m : Nat} (ok : Ok C b) {w : Limbs C} (h : Digits b w) (hm : m / b < w.length) :
    (mod2m b m w).length = w.length ∧ Digits b (mod2m b m w) ∧ limbsVal b (mod2m b m w) = limbsVal b w % 2 ^ m := by
  have hC := ok.hC
  have hb := ok.hb
  have hbp : 0 < b := by omega
  have hr := Nat.mod_lt m hbp
  have hd := digit_at h (m / b) hm
  have ht := (take_drop_val h (m / b) hm.le).1
  have hk' : m = b * (m / b) + m % b := (Nat.div_add_mod m b).symm
  unfold mod2m
  have hx : (at' w (m / b) &&& bmask C (m % b)).toInt = limbsVal b w / 2 ^ (b * (m / b)) % 2 ^ (m % b) := by
    rw [toInt_and_mask _ _ (by omega), hd]
    exact Int.emod_emod_of_dvd _ (pow_dvd_pow 2 hr.le)
  have hxb : 0 ≤ (at' w (m / b) &&& bmask C (m % b)).toInt ∧ (at' w (m / b) &&& bmask C (m % b)).toInt < 2 ^ b := by
    rw [hx]
    refine ⟨Int.emod_nonneg _ (two_pow_pos' _).ne', lt_of_lt_of_le (Int.emod_lt_of_pos _ (two_pow_pos' _)) ?_⟩
    exact pow_le_pow_right₀ (by norm_num) hr.le
  refine ⟨by simp; omega, ?_, ?_⟩
  · apply (h.take _).append
    intro z hz
    simp only [List.mem_cons] at hz
    rcases hz with rfl | hz
    · exact hxb
    · exact digits_zero b _ z hz
  · rw [val_append, limbsVal, val_replicate_zero, hx, ht, List.length_take, Nat.min_eq_left hm.le]
    generalize limbsVal b w = V
    conv => rhs; rw [hk', pow_add]
    rw [mul_zero, add_zero, emod_mul_pos (two_pow_pos' _) (two_pow_pos' _)]

/-! ### bit length -/

theorem bitCount_spec (hC : 2 < C) (f : Nat) (c : BitVec C) (h0 : 0 ≤ c.toInt) (hf : c.toInt < 2 ^ f) :
    c.toInt < 2 ^ bitCount f c ∧ (c.toInt ≠ 0 → 0 < bitCount f c ∧ 2 ^ (bitCount f c - 1) ≤ c.toInt) ∧
      (c.toInt = 0 → bitCount f c = 0) := by
  have two : (2 : BitVec C).toInt = 2 := by
    have h8 : (2 : Int) ^ 2 ≤ 2 ^ (C - 1) := pow_le_pow_right₀ (by norm_num) (by omega)
    have := toInt_ofInt_of (C := C) (x := 2) (by omega) (by omega) (by omega)
    rw [← this]; congr 1
  induction f generalizing c with
  | zero =>
    have : c.toInt = 0 := by simp at hf; omega
    simp [bitCount, this]
  | succ f ih =>
    unfold bitCount
    by_cases hc : c = 0
    · subst hc; simp
    · have hne : c.toInt ≠ 0 := fun h => hc (BitVec.eq_of_toInt_eq (by simpa using h))
      have hdiv : (c.sdiv 2).toInt = c.toInt / 2 := by
        rw [BitVec.toInt_sdiv_of_ne_or_ne _ _ (Or.inr (by
          intro h
          have := congrArg BitVec.toInt h
          rw [two, BitVec.toInt_neg] at this
          have h1 : (1#C).toInt = 1 := by simpa using toInt_one_shl (C := C) (k := 0) (by omega)
          have h8 : (2 : Int) ^ 2 ≤ 2 ^ (C - 1) := pow_le_pow_right₀ (by norm_num) (by omega)
          rw [h1, bmod_two_pow (by omega) (by omega) (by omega)] at this
          omega)), two, Int.tdiv_eq_ediv_of_nonneg h0]
      rw [if_neg hc]
      obtain ⟨i1, i2, i3⟩ := ih (c.sdiv 2) (by rw [hdiv]; omega) (by rw [hdiv]; rw [pow_succ] at hf; omega)
      rw [hdiv] at i1 i2 i3
      refine ⟨by rw [pow_succ]; omega, fun _ => ⟨by omega, ?_⟩, fun h => absurd h hne⟩
      rw [Nat.add_sub_cancel]
      by_cases hz : c.toInt / 2 = 0
      · rw [i3 hz]; simp; omega
      · obtain ⟨j1, j2⟩ := i2 hz
        have : (2 : Int) ^ bitCount f (c.sdiv 2) = 2 * 2 ^ (bitCount f (c.sdiv 2) - 1) := by
          rw [← pow_succ']; congr 1; omega
        rw [this]; omega

theorem nbits_find (b : Nat) (s : Limbs C) (hN : Normal b s) (h0 : 0 ≤ limbsVal b s) :
    match (List.range s.length).reverse.find? (fun k => at' s k ≠ 0) with
    | none => limbsVal b s = 0
    | some k => k < s.length ∧ at' s k ≠ 0 ∧ (at' s k).toInt = limbsVal b s / 2 ^ (b * k) := by
  split
  · rename_i h
    rw [List.find?_eq_none] at h
    rw [← all_zero_iff s hN, List.all_eq_true]
    intro x hx
    obtain ⟨i, hi, rfl⟩ := List.getElem_of_mem hx
    have := h i (by simp [hi])
    simpa [at', hi] using this
  · rename_i k h
    rw [List.find?_eq_some_iff_append] at h
    obtain ⟨hk, pre, post, hsp, hpre⟩ := h
    have hmem : k ∈ (List.range s.length).reverse := by rw [hsp]; simp
    have hkl : k < s.length := by simpa using hmem
    refine ⟨hkl, by simpa using hk, ?_⟩
    have hz : ∀ i, k < i → at' s i = 0 := by
      intro i hi
      by_cases hil : i < s.length
      · have hi' : i ∈ pre := by
          have hm : i ∈ (List.range s.length).reverse := by simpa using hil
          rw [hsp] at hm
          rcases List.mem_append.1 hm with h | h
          · exact h
          · exfalso
            have hpw : ((List.range s.length).reverse).Pairwise (· > ·) := by
              rw [List.pairwise_reverse]; exact List.pairwise_lt_range
            rw [hsp, List.pairwise_append] at hpw
            have h2 := hpw.2.1
            rw [List.pairwise_cons] at h2
            simp only [List.mem_cons] at h
            rcases h with h | h
            · omega
            · have := h2.1 i h; omega
        have := hpre i hi'
        simpa using this
      · simp [at', List.getD_eq_getElem?_getD, List.getElem?_eq_none (Nat.le_of_not_lt hil)]
    have hdv := drop_val hN k hkl
    rw [← hdv, List.drop_eq_getElem_cons hkl, limbsVal]
    have hrest : limbsVal b (s.drop (k + 1)) = 0 := by
      rw [← all_zero_iff _ (normal_drop hN _), List.all_eq_true]
      intro x hx
      obtain ⟨i, hi, rfl⟩ := List.getElem_of_mem hx
      have hi2 : k + 1 + i < s.length := by rw [List.length_drop] at hi; omega
      have := hz (k + 1 + i) (by omega)
      simpa [at', hi2] using this
    rw [hrest]
    simp [at', hkl]

theorem nbits_spec {b n : Nat} (ok : Ok C b) (w : Limbs C) {V : Int} (h : Rep b n (norm b w) V) (h0 : 0 ≤ V) :
    V < 2 ^ nbits b w ∧ (V ≠ 0 → 0 < nbits b w ∧ 2 ^ (nbits b w - 1) ≤ V) ∧ (V = 0 → nbits b w = 0) := by
  have hf := nbits_find b (norm b w) h.low (by rw [h.val]; exact h0)
  unfold nbits
  have hC := ok.hC
  have hb := ok.hb
  simp only
  split at hf
  · rename_i hn
    simp only [hn]
    rw [h.val] at hf
    subst hf; simp
  · rename_i k hk
    simp only [hk]
    rw [h.val] at hf
    obtain ⟨f1, f2, f3⟩ := hf
    have hp := two_pow_pos' (b * k)
    have hx0 : 0 ≤ (at' (norm b w) k).toInt := by rw [f3]; exact Int.ediv_nonneg h0 hp.le
    have hne : (at' (norm b w) k).toInt ≠ 0 := fun hh => f2 (BitVec.eq_of_toInt_eq (by simpa using hh))
    have hxlt : (at' (norm b w) k).toInt < 2 ^ (C + 1) := by
      have := (toInt_bounds (at' (norm b w) k)).2
      have h2 : (2 : Int) ^ (C - 1) ≤ 2 ^ (C + 1) := pow_le_pow_right₀ (by norm_num) (by omega)
      omega
    obtain ⟨b1, b2, b3⟩ := bitCount_spec (by omega) (C + 1) _ hx0 hxlt
    obtain ⟨b4, b5⟩ := b2 hne
    generalize bitCount (C + 1) (at' (norm b w) k) = t at *
    rw [f3] at b1 b5 hne
    have hV : 2 ^ (b * k + (t - 1)) ≤ V := by
      rw [pow_add, mul_comm]
      exact (Int.le_ediv_iff_mul_le hp).1 b5
    refine ⟨?_, fun _ => ⟨by omega, ?_⟩, ?_⟩
    · rw [pow_add, mul_comm]
      exact Int.lt_mul_of_ediv_lt hp b1
    · rw [Nat.add_sub_assoc (by omega)]; exact hV
    · intro hz; have := two_pow_pos' (b * k + (t - 1)); omega

end Verif.Big
