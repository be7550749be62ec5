import Verif.Big.Sqr
/- Helper lemmas: `Big::monty`. -/
namespace Verif.Big
open Spec (limbsVal Normal LimbsWithin)
open Finset

variable {C : Nat}

theorem toInt_mul_emod (x y : BitVec C) (b : Nat) (hb : b ≤ C) :
    (x * y).toInt % 2 ^ b = (x.toInt * y.toInt) % 2 ^ b := by
  rw [toInt_emod _ b hb, BitVec.toNat_mul, Nat.mod_mod_of_dvd _ (pow_dvd_pow 2 hb), Int.mul_emod x.toInt,
    toInt_emod x b hb, toInt_emod y b hb]
  push_cast
  rw [← Int.mul_emod]

theorem montyV_toInt {b : Nat} (ok : Ok C b) (mc : BitVec C) (t : BitVec (2 * C)) :
    (montyV b mc t).toInt = (t.toInt * mc.toInt) % 2 ^ b := by
  have hC := ok.hC
  unfold montyV
  rw [toInt_and_mask _ _ (by omega), toInt_mul_emod _ _ _ (by omega), digit_toInt ok, Int.mul_emod, Int.emod_emod, ← Int.mul_emod]

/-- the quotient digit clears the low digit -/
theorem montyV_clears {b : Nat} (ok : Ok C b) (mc m0 : BitVec C) (t : BitVec (2 * C))
    (hmc : (m0.toInt * mc.toInt + 1) % 2 ^ b = 0) :
    (t.toInt + (montyV b mc t).toInt * m0.toInt) % 2 ^ b = 0 := by
  rw [montyV_toInt ok]
  obtain ⟨q, hq⟩ := Int.dvd_of_emod_eq_zero hmc
  have e := Int.emod_add_mul_ediv (t.toInt * mc.toInt) (2 ^ b)
  apply Int.emod_eq_zero_of_dvd
  refine ⟨t.toInt * q - (t.toInt * mc.toInt / 2 ^ b) * m0.toInt, ?_⟩
  have : t.toInt * mc.toInt % 2 ^ b = t.toInt * mc.toInt - 2 ^ b * (t.toInt * mc.toInt / 2 ^ b) := by linarith
  rw [this]
  have h2 : m0.toInt * mc.toInt = 2 ^ b * q - 1 := by linarith
  calc t.toInt + (t.toInt * mc.toInt - 2 ^ b * (t.toInt * mc.toInt / 2 ^ b)) * m0.toInt
      = t.toInt + t.toInt * (m0.toInt * mc.toInt) - 2 ^ b * (t.toInt * mc.toInt / 2 ^ b) * m0.toInt := by ring
    _ = _ := by rw [h2]; ring

theorem montyV_digit {b : Nat} (ok : Ok C b) (mc : BitVec C) (t : BitVec (2 * C)) :
    0 ≤ (montyV b mc t).toInt ∧ (montyV b mc t).toInt < 2 ^ b := by
  rw [montyV_toInt ok]
  have hp := two_pow_pos' b
  exact ⟨Int.emod_nonneg _ hp.ne', Int.emod_lt_of_pos _ hp⟩

theorem montyCross_eq {b : Nat} (ok : Ok C b) {v md : Limbs C} (hv : Digits b v) (hm : Digits b md) (k i : Nat) :
    montyCross v md k i = BitVec.ofInt (2 * C)
      (((at' v i).toInt - (at' v (k - i)).toInt) * ((at' md (k - i)).toInt - (at' md i).toInt)) := by
  have hC := ok.hC
  have hle : (2 : Int) ^ b ≤ 2 ^ (C - 1) := pow_le_pow_right₀ (by norm_num) (by omega)
  have h1 := at'_digits hv i
  have h2 := at'_digits hv (k - i)
  have h3 := at'_digits hm i
  have h4 := at'_digits hm (k - i)
  unfold montyCross
  rw [wide_mul, toInt_sub_of _ _ (by omega) (by omega) (by omega), toInt_sub_of _ _ (by omega) (by omega) (by omega)]
  congr 1; ring

theorem at'_append_left (v : Limbs C) (a : BitVec C) (i : Nat) (h : i < v.length) : at' (v ++ [a]) i = at' v i := by
  unfold at'
  rw [List.getD_eq_getElem?_getD, List.getD_eq_getElem?_getD, List.getElem?_append_left h]

theorem at'_append_right (v : Limbs C) (a : BitVec C) : at' (v ++ [a]) v.length = a := by
  simp [at']

/-- digit sequence of a limb array -/
def seq (w : Limbs C) (i : Nat) : Int := (at' w i).toInt

theorem col_congr (X X' Y : Nat → Int) (k : Nat) (h : ∀ i ≤ k, X i = X' i) : col X Y k = col X' Y k :=
  sum_congr rfl (fun i hi => by rw [h i (by simp at hi; omega)])

/-- column `k` of `v * md` when `v` gets its last digit `vk` -/
theorem col_low_monty (X X' Y : Nat → Int) (k : Nat) (hk : 1 ≤ k) (h : ∀ i < k, X' i = X i) :
    col X' Y k = ∑ j ∈ Ico 1 k, X j * Y j + X 0 * Y k
      + ∑ j ∈ Ico (1 + k / 2) k, (X j - X (k - j)) * (Y (k - j) - Y j) + X' k * Y 0 := by
  unfold col
  rw [sum_range_succ, range_eq_Ico, sum_eq_sum_Ico_succ_bot (by omega : 0 < k), Nat.sub_self, Nat.sub_zero, h 0 (by omega)]
  have : ∑ j ∈ Ico (0 + 1) k, X' j * Y (k - j) = ∑ j ∈ Ico 1 k, X j * Y (k - j) :=
    sum_congr rfl (fun i hi => by simp at hi; rw [h i (by omega)])
  rw [this]
  rcases Nat.lt_or_ge k 2 with h2 | h2
  · have : k = 1 := by omega
    subst this; simp
  · have := cross_sum X Y (k - 2) 1 k (by omega)
    rw [show 1 + (k - 2) + 1 = k by omega] at this
    rw [this]; ring

structure MInv (b n q k : Nat) (md d : Limbs C) (st : MontySt C) (carry : Int) : Prop where
  len : st.v.length = k
  dig : Digits b st.v
  c : st.c = BitVec.ofInt (2 * C) (seq d k + carry)
  s : st.s = BitVec.ofInt (2 * C) (∑ j ∈ Ico 1 k, seq st.v j * seq md j)
  c0 : -(q : Int) ≤ carry
  c1 : carry ≤ n * 2 ^ b
  eq : ∑ j ∈ range k, (seq d j + col (seq st.v) (seq md) j) * (2 ^ b) ^ j = (2 ^ b) ^ k * carry

theorem fit_step {b n q : Nat} (hn : q < n) (hn2 : 2 ≤ n) {carry dk T : Int} (c0 : -(q : Int) ≤ carry) (c1 : carry ≤ n * 2 ^ b)
    (d0 : -(q * (2 ^ b - 1)) ≤ dk) (d1 : dk ≤ q * (2 ^ b - 1)) (t0 : 0 ≤ T) (t1 : T ≤ n * ((2 ^ b - 1) * (2 ^ b - 1)))
    (hb : 9 ≤ b) :
    dk + carry + T < n * (2 ^ b * 2 ^ b) ∧ (dk + carry + T) / 2 ^ b ≤ n * 2 ^ b ∧ -(n * (2 ^ b * 2 ^ b)) ≤ dk + carry + T ∧
      -(q : Int) ≤ (dk + carry + T) / 2 ^ b := by
  have hB : (512 : Int) ≤ 2 ^ b := by
    calc (512 : Int) = 2 ^ 9 := by norm_num
      _ ≤ 2 ^ b := pow_le_pow_right₀ (by norm_num) hb
  generalize (2 : Int) ^ b = B at *
  have hn' : (2 : Int) ≤ n := by exact_mod_cast hn2
  have hq : (q : Int) + 1 ≤ n := by exact_mod_cast hn
  have hq0 : (0 : Int) ≤ q := by positivity
  have h5 : (q : Int) * (B - 1) ≤ (n - 1) * (B - 1) := mul_le_mul_of_nonneg_right (by omega) (by omega)
  have h : dk + carry + T < n * (B * B) := by nlinarith
  have h3 : -(q * B) ≤ dk + carry + T := by linarith
  have h4 : (q : Int) * B ≤ n * (B * B) := by
    have : (q : Int) * B ≤ n * B := mul_le_mul_of_nonneg_right (by omega) (by omega)
    have : (n : Int) * B ≤ n * (B * B) := mul_le_mul_of_nonneg_left (by nlinarith) (by omega)
    omega
  refine ⟨h, ?_, by omega, ?_⟩
  · apply Int.ediv_le_of_le_mul (by omega)
    nlinarith
  · rw [Int.le_ediv_iff_mul_le (by omega)]; linarith

theorem low_step {b n q : Nat} (hq : q < n) : (q : Int) + q * (2 ^ b - 1) ≤ n * (2 ^ b * 2 ^ b) := by
  have h1 := two_pow_pos' b
  have h2 : (q : Int) * 2 ^ b ≤ n * 2 ^ b := mul_le_mul_of_nonneg_right (by omega) (by omega)
  have h3 : (n : Int) * 2 ^ b ≤ n * (2 ^ b * 2 ^ b) := mul_le_mul_of_nonneg_left (by nlinarith) (by omega)
  linarith

theorem at'_lim {M : Int} (hM : 0 ≤ M) {w : Limbs C} (h : LimbsWithin M w) (i : Nat) : -M ≤ (at' w i).toInt ∧ (at' w i).toInt ≤ M := by
  by_cases hi : i < w.length
  · exact h _ (at'_mem w i hi)
  · rw [at'_out w i (not_lt.1 hi)]
    have : (0 : BitVec C).toInt = 0 := by simp
    omega

theorem montyLow_step {b n q k : Nat} (ok : Ok C b) (hn : 2 ≤ n) (hq : q < n) {md d : Limbs C} (hm : Digits b md) (hd : LimbsWithin (q * (2 ^ b - 1)) d)
    (mc : BitVec C) (hmc : ((at' md 0).toInt * mc.toInt + 1) % 2 ^ b = 0)
    (hml : md.length = n) (hfit : (n : Int) * (2 ^ b * 2 ^ b) ≤ 2 ^ (2 * C - 1)) {st : MontySt C} {carry : Int}
    (hk : 1 ≤ k) (inv : MInv b n q k md d st carry) :
    ∃ carry', MInv b n q (k + 1) md d (montyLow b md mc d st k) carry' := by
  have hC := ok.hC
  have hp := two_pow_pos' b
  have hd' := at'_lim (mul_nonneg (by positivity) (by omega)) hd k
  set T : Int := ∑ j ∈ Ico 1 k, seq st.v j * seq md j + seq st.v 0 * seq md k
      + ∑ j ∈ Ico (1 + k / 2) k, (seq st.v j - seq st.v (k - j)) * (seq md (k - j) - seq md j) with hT
  set t : BitVec (2 * C) := (List.range' (1 + k / 2) (k - (1 + k / 2))).foldl (fun t i => t + montyCross st.v md k i)
    (st.c + st.s + wide (at' st.v 0) * wide (at' md k)) with ht
  have hte : t = BitVec.ofInt (2 * C) (seq d k + carry + T) := by
    rw [ht, inv.c, inv.s, wide_mul, ← BitVec.ofInt_add, ← BitVec.ofInt_add,
      foldl_ofInt _ _ _ (fun i _ => montyCross_eq ok inv.dig hm k i), sum_range']
    congr 1
    rcases Nat.lt_or_ge k (1 + k / 2) with h | h
    · have : k = 1 := by omega
      subst this
      simp only [hT, seq]
      simp
    · rw [show 1 + k / 2 + (k - (1 + k / 2)) = k by omega, hT]
      simp only [seq]; ring
  have hvd := montyV_digit ok mc t
  set vk := montyV b mc t with hvk
  have hcolk : col (seq (st.v ++ [vk])) (seq md) k = T + vk.toInt * seq md 0 := by
    rw [col_low_monty (seq st.v) (seq (st.v ++ [vk])) (seq md) k hk (fun i hi => by
      unfold seq; rw [at'_append_left _ _ _ (by rw [inv.len]; exact hi)])]
    have : seq (st.v ++ [vk]) k = vk.toInt := by
      unfold seq; rw [← inv.len, at'_append_right]
    rw [this]
  have hvdig : Digits b (st.v ++ [vk]) := by
    apply inv.dig.append
    intro z hz; simp only [List.mem_singleton] at hz; subst hz; exact hvd
  have cb := col_bounds n (seq md) (seq (st.v ++ [vk])) (2 ^ b - 1) (by omega) (at'_digits hm) (at'_digits hvdig)
    (fun i hi => at'_out md i (by omega)) k
  have hcomm : col (seq md) (seq (st.v ++ [vk])) k = col (seq (st.v ++ [vk])) (seq md) k := by
    unfold col
    rw [← sum_range_reflect]
    apply sum_congr rfl
    intro i hi; simp only [mem_range] at hi
    rw [show k + 1 - 1 - i = k - i by omega, show k - (k - i) = i by omega]; ring
  rw [hcomm] at cb
  obtain ⟨f1, f2, f3, f4⟩ := fit_step hq hn inv.c0 inv.c1 (by exact hd'.1) (by exact hd'.2) cb.1 cb.2 ok.hb
  -- T itself in range
  have hT0 : 0 ≤ T := by
    have h2 : col (seq st.v) (seq md) k = T + seq st.v k * seq md 0 := by
      rw [col_low_monty (seq st.v) (seq st.v) (seq md) k hk (fun i hi => rfl)]
    have h3 : seq st.v k = 0 := at'_out st.v k (by rw [inv.len])
    rw [h3, zero_mul, add_zero] at h2
    rw [← h2]
    exact sum_nonneg (fun i _ => mul_nonneg (at'_digits inv.dig i).1 (at'_digits hm _).1)
  have hv0 : 0 ≤ vk.toInt * seq md 0 := mul_nonneg hvd.1 (at'_digits hm 0).1
  have htI : t.toInt = seq d k + carry + T := by
    rw [hte]
    apply toInt_ofInt_of (by omega)
    · have := two_pow_pos' (2 * C - 1); have : (2 : Int) ^ b ≤ 2 ^ (2 * C - 1) := pow_le_pow_right₀ (by norm_num) (by omega); have := inv.c0; have := low_step (b := b) hq; have := hd'.1; unfold seq; omega
    · rw [hcolk] at f1; unfold seq at *; omega
  have ht2 : t + wide vk * wide (at' md 0) = BitVec.ofInt (2 * C) (seq d k + carry + col (seq (st.v ++ [vk])) (seq md) k) := by
    rw [hcolk, wide_mul, hte, ← BitVec.ofInt_add]; congr 1; unfold seq; ring
  have ht2I : (t + wide vk * wide (at' md 0)).toInt = seq d k + carry + col (seq (st.v ++ [vk])) (seq md) k := by
    rw [ht2]
    apply toInt_ofInt_of (by omega)
    · have := two_pow_pos' (2 * C - 1); have : (2 : Int) ^ b ≤ 2 ^ (2 * C - 1) := pow_le_pow_right₀ (by norm_num) (by omega); unfold seq at *; omega
    · unfold seq at *; omega
  have hclear : (seq d k + carry + col (seq (st.v ++ [vk])) (seq md) k) % 2 ^ b = 0 := by
    have := montyV_clears ok mc (at' md 0) t hmc
    rw [← hvk, htI] at this
    rw [hcolk, ← add_assoc]; exact this
  refine ⟨(seq d k + carry + col (seq (st.v ++ [vk])) (seq md) k) / 2 ^ b, ?_⟩
  show MInv b n q (k + 1) md d (MontySt.mk (st.v ++ [vk]) (wide (at' d (k + 1)) + (t + wide vk * wide (at' md 0)).sshiftRight b)
    (st.s + wide vk * wide (at' md k)) []) _
  refine ⟨by simp [inv.len], hvdig, ?_, ?_, f4, f2, ?_⟩
  · show wide (at' d (k + 1)) + (t + wide vk * wide (at' md 0)).sshiftRight b = _
    rw [BitVec.ofInt_add, wide_eq]
    congr 1
    rw [← ht2I, ← toInt_sshr, ofInt_toInt']
  · show st.s + wide vk * wide (at' md k) = _
    rw [sum_Ico_succ_top hk, inv.s, wide_mul, BitVec.ofInt_add]
    have e2 : seq (st.v ++ [vk]) k = vk.toInt := by
      unfold seq; rw [← inv.len, at'_append_right]
    have e1 : ∑ j ∈ Ico 1 k, seq (st.v ++ [vk]) j * seq md j = ∑ j ∈ Ico 1 k, seq st.v j * seq md j :=
      sum_congr rfl (fun i hi => by
        simp at hi; unfold seq; rw [at'_append_left _ _ _ (by rw [inv.len]; omega)])
    show _ = BitVec.ofInt (2 * C) (∑ j ∈ Ico 1 k, seq (st.v ++ [vk]) j * seq md j) + BitVec.ofInt (2 * C) (seq (st.v ++ [vk]) k * seq md k)
    rw [e1, e2]; rfl
  · show ∑ j ∈ range (k + 1), (seq d j + col (seq (st.v ++ [vk])) (seq md) j) * (2 ^ b) ^ j = _
    rw [sum_range_succ]
    have e1 : ∑ j ∈ range k, (seq d j + col (seq (st.v ++ [vk])) (seq md) j) * (2 ^ b) ^ j
        = ∑ j ∈ range k, (seq d j + col (seq st.v) (seq md) j) * (2 ^ b) ^ j :=
      sum_congr rfl (fun j hj => by
        simp at hj
        rw [col_congr (seq (st.v ++ [vk])) (seq st.v) (seq md) j (fun i hi => by
          unfold seq; rw [at'_append_left _ _ _ (by rw [inv.len]; omega)])])
    rw [e1, inv.eq, pow_succ, mul_assoc, mul_comm ((2 : Int) ^ b) (_ / 2 ^ b), Int.ediv_mul_cancel (Int.dvd_of_emod_eq_zero hclear)]
    ring

structure HInv (b n q l : Nat) (md d v : Limbs C) (st : MontySt C) (carry : Int) : Prop where
  vv : st.v = v
  len : st.out.length = l
  dig : Digits b st.out
  c : st.c = BitVec.ofInt (2 * C) (seq d (n + l) + carry)
  s : st.s = BitVec.ofInt (2 * C) (∑ j ∈ Ico (l + 1) n, seq v j * seq md j)
  c0 : -(q : Int) ≤ carry
  c1 : carry ≤ n * 2 ^ b
  eq : ∑ j ∈ range (n + l), (seq d j + col (seq v) (seq md) j) * (2 ^ b) ^ j
    = (2 ^ b) ^ n * (limbsVal b st.out + (2 ^ b) ^ l * carry)

theorem montyHigh_step {b n q l : Nat} (ok : Ok C b) (hn : 2 ≤ n) (hq : q < n) {md d v : Limbs C} (hm : Digits b md) (hd : LimbsWithin (q * (2 ^ b - 1)) d)
    (hv : Digits b v) (hml : md.length = n) (hvl : v.length = n)
    (hfit : (n : Int) * (2 ^ b * 2 ^ b) ≤ 2 ^ (2 * C - 1)) {st : MontySt C} {carry : Int}
    (hl : l + 2 ≤ n) (inv : HInv b n q l md d v st carry) :
    ∃ carry', HInv b n q (l + 1) md d v (montyHigh b md d st (n + l)) carry' := by
  have hC := ok.hC
  have hp := two_pow_pos' b
  have hd' := at'_lim (mul_nonneg (by positivity) (by omega)) hd (n + l)
  have ch := col_high n (seq v) (seq md) (fun i hi => at'_out v i (by omega)) (fun i hi => at'_out md i (by omega)) (n + l)
    (by omega) (by omega)
  rw [show n + l + 1 - n = l + 1 by omega] at ch
  set t : BitVec (2 * C) := (List.range' (1 + (n + l) / 2) (n - (1 + (n + l) / 2))).foldl
    (fun t i => t + montyCross st.v md (n + l) i) (st.c + st.s) with ht
  have hte : t = BitVec.ofInt (2 * C) (seq d (n + l) + carry + col (seq v) (seq md) (n + l)) := by
    rw [ht, inv.c, inv.s, inv.vv, ← BitVec.ofInt_add,
      foldl_ofInt _ _ _ (fun i _ => montyCross_eq ok hv hm (n + l) i), sum_range',
      show 1 + (n + l) / 2 + (n - (1 + (n + l) / 2)) = n by omega, ch]
    congr 1
    simp only [seq]; ring
  have cb := col_bounds n (seq v) (seq md) (2 ^ b - 1) (by omega) (at'_digits hv) (at'_digits hm)
    (fun i hi => at'_out v i (by omega)) (n + l)
  obtain ⟨f1, f2, f3, f4⟩ := fit_step hq hn inv.c0 inv.c1 (by exact hd'.1) (by exact hd'.2) cb.1 cb.2 ok.hb
  have htI : t.toInt = seq d (n + l) + carry + col (seq v) (seq md) (n + l) := by
    rw [hte]
    apply toInt_ofInt_of (by omega)
    · have := two_pow_pos' (2 * C - 1); have : (2 : Int) ^ b ≤ 2 ^ (2 * C - 1) := pow_le_pow_right₀ (by norm_num) (by omega); unfold seq at *; omega
    · unfold seq at *; omega
  refine ⟨(seq d (n + l) + carry + col (seq v) (seq md) (n + l)) / 2 ^ b, ?_⟩
  have hmH : montyHigh b md d st (n + l) = { st with
    out := st.out ++ [(t &&& wide (bmask C b)).setWidth C]
    c := wide (at' d (n + l + 1)) + t.sshiftRight b
    s := st.s - wide (at' st.v (n + l + 1 - n)) * wide (at' md (n + l + 1 - n)) } := by
    rw [ht, ← hml]; rfl
  rw [hmH]
  have hdig := digit_toInt ok t
  rw [htI] at hdig
  refine ⟨inv.vv, by simp [inv.len], ?_, ?_, ?_, f4, f2, ?_⟩
  · apply inv.dig.append
    intro z hz; simp only [List.mem_singleton] at hz; subst hz
    rw [hdig]
    exact ⟨Int.emod_nonneg _ hp.ne', Int.emod_lt_of_pos _ hp⟩
  · show wide (at' d (n + l + 1)) + t.sshiftRight b = _
    rw [BitVec.ofInt_add, wide_eq]
    congr 1
    rw [← htI, ← toInt_sshr, ofInt_toInt']
  · show st.s - wide (at' st.v (n + l + 1 - n)) * wide (at' md (n + l + 1 - n)) = _
    rw [show n + l + 1 - n = l + 1 by omega, inv.s, inv.vv, wide_mul, sum_eq_sum_Ico_succ_bot (by omega : l + 1 < n),
      BitVec.ofInt_add, BitVec.add_comm]
    exact BitVec.add_sub_cancel _ _
  · show _ = (2 ^ b) ^ n * (limbsVal b (st.out ++ [(t &&& wide (bmask C b)).setWidth C]) + _)
    rw [show n + (l + 1) = (n + l) + 1 by omega, sum_range_succ, inv.eq, val_append, inv.len]
    simp only [limbsVal, hdig, mul_zero, add_zero]
    have e := Int.emod_add_mul_ediv (seq d (n + l) + carry + col (seq v) (seq md) (n + l)) (2 ^ b)
    generalize (seq d (n + l) + carry + col (seq v) (seq md) (n + l)) % 2 ^ b = u at *
    generalize (seq d (n + l) + carry + col (seq v) (seq md) (n + l)) / 2 ^ b = w at *
    have e2 : seq d (n + l) + col (seq v) (seq md) (n + l) = u + 2 ^ b * w - carry := by linarith
    rw [e2, pow_mul, pow_add, pow_succ]; ring

/-- exact description of Montgomery reduction, for a number whose limbs are bounded by `q (2^b - 1)` in absolute value -/
theorem monty_gen {b n q : Nat} (ok : Ok C b) (hn : 2 ≤ n) (hq : q < n) {md d : Limbs C} (hm : Digits b md) (hd : LimbsWithin (q * (2 ^ b - 1)) d)
    (mc : BitVec C) (hmc : ((at' md 0).toInt * mc.toInt + 1) % 2 ^ b = 0)
    (hml : md.length = n) (hdl : d.length = 2 * n) (hfit : (n : Int) * (2 ^ b * 2 ^ b) ≤ 2 ^ (2 * C - 1)) :
    (monty b md mc d).length = n ∧ Digits b (monty b md mc d) ∧
    ∃ v t : Int, 0 ≤ v ∧ v < 2 ^ (b * n) ∧ 2 ^ (b * n) * t = limbsVal b d + v * limbsVal b md ∧
      limbsVal b (monty b md mc d) = t % 2 ^ (b * n) := by
  have hC := ok.hC
  have hp := two_pow_pos' b
  -- column 0
  have hd0 := at'_lim (mul_nonneg (by positivity) (by omega)) hd 0
  have hle : (2 : Int) ^ b ≤ 2 ^ (2 * C - 1) := pow_le_pow_right₀ (by norm_num) (by omega)
  set t0 : BitVec (2 * C) := wide (at' d 0) with ht0
  have ht0I : t0.toInt = seq d 0 := toInt_wide _
  have hvd := montyV_digit ok mc t0
  set v0 := montyV b mc t0 with hv0
  have hvdig : Digits b [v0] := by
    intro z hz; simp only [List.mem_singleton] at hz; subst hz; exact hvd
  have hcol0 : col (seq [v0]) (seq md) 0 = v0.toInt * seq md 0 := by simp [col, seq, at']
  have cb := col_bounds n (seq md) (seq [v0]) (2 ^ b - 1) (by omega) (at'_digits hm) (at'_digits hvdig)
    (fun i hi => at'_out md i (by omega)) 0
  have hcomm : col (seq md) (seq [v0]) 0 = col (seq [v0]) (seq md) 0 := by simp [col, mul_comm]
  rw [hcomm] at cb
  obtain ⟨f1, f2, f3, f4⟩ := fit_step (q := q) (carry := 0) hq hn (by omega) (by positivity) (by exact hd0.1) (by exact hd0.2) cb.1 cb.2 ok.hb
  have ht1I : (t0 + wide v0 * wide (at' md 0)).toInt = seq d 0 + 0 + col (seq [v0]) (seq md) 0 := by
    rw [hcol0, ← ofInt_toInt' t0, ht0I, wide_mul, ← BitVec.ofInt_add, add_zero]
    rw [hcol0] at f1 f3
    apply toInt_ofInt_of (by omega)
    · have := two_pow_pos' (2 * C - 1); have : (2 : Int) ^ b ≤ 2 ^ (2 * C - 1) := pow_le_pow_right₀ (by norm_num) (by omega); unfold seq at *; omega
    · unfold seq at *; omega
  have hclear : (seq d 0 + 0 + col (seq [v0]) (seq md) 0) % 2 ^ b = 0 := by
    have := montyV_clears ok mc (at' md 0) t0 hmc
    rw [← hv0, ht0I] at this
    rw [hcol0, add_zero]; exact this
  set st0 : MontySt C := { v := [v0], c := wide (at' d 1) + (t0 + wide v0 * wide (at' md 0)).sshiftRight b, s := 0, out := [] } with hst0
  have inv0 : MInv b n q 1 md d st0 ((seq d 0 + 0 + col (seq [v0]) (seq md) 0) / 2 ^ b) := by
    refine ⟨rfl, hvdig, ?_, ?_, f4, f2, ?_⟩
    · show wide (at' d 1) + (t0 + wide v0 * wide (at' md 0)).sshiftRight b = _
      rw [BitVec.ofInt_add, wide_eq]
      congr 1
      rw [← ht1I, ← toInt_sshr, ofInt_toInt']
    · simp [hst0]
    · rw [sum_range_one, pow_zero, mul_one, pow_one, mul_comm ((2 : Int) ^ b), Int.ediv_mul_cancel (Int.dvd_of_emod_eq_zero hclear),
        add_zero]
  have loop1 : ∀ l, l + 1 ≤ n → ∃ carry, MInv b n q (l + 1) md d ((List.range' 1 l).foldl (montyLow b md mc d) st0) carry := by
    intro l
    induction l with
    | zero => intro _; exact ⟨_, inv0⟩
    | succ l ih =>
      intro hl
      obtain ⟨cr, h⟩ := ih (by omega)
      rw [List.range'_1_concat, List.foldl_append, List.foldl_cons, List.foldl_nil, show 1 + l = l + 1 by omega]
      exact montyLow_step ok hn hq hm hd mc hmc hml hfit (by omega) h
  have hout : ∀ l, ((List.range' 1 l).foldl (montyLow b md mc d) st0).out = [] := by
    intro l
    cases l with
    | zero => rfl
    | succ l => rw [List.range'_1_concat, List.foldl_append, List.foldl_cons, List.foldl_nil]; rfl
  obtain ⟨cr, j1⟩ := loop1 (n - 1) (by omega)
  rw [show n - 1 + 1 = n by omega] at j1
  have hout' := hout (n - 1)
  set st1 := (List.range' 1 (n - 1)).foldl (montyLow b md mc d) st0 with hst1
  have inv1 : HInv b n q 0 md d st1.v st1 cr := by
    refine ⟨rfl, by rw [hout']; rfl, by rw [hout']; intro z hz; simp at hz, by rw [Nat.add_zero]; exact j1.c, by rw [j1.s],
      j1.c0, j1.c1, ?_⟩
    rw [Nat.add_zero, j1.eq, hout']; simp [limbsVal]
  have loop2 : ∀ l, l + 1 ≤ n → ∃ carry, HInv b n q l md d st1.v ((List.range' n l).foldl (montyHigh b md d) st1) carry := by
    intro l
    induction l with
    | zero => intro _; exact ⟨_, inv1⟩
    | succ l ih =>
      intro hl
      obtain ⟨cr, h⟩ := ih (by omega)
      rw [List.range'_1_concat, List.foldl_append, List.foldl_cons, List.foldl_nil]
      exact montyHigh_step ok hn hq hm hd j1.dig hml j1.len hfit (by omega) h
  obtain ⟨cr2, k1⟩ := loop2 (n - 1) (by omega)
  have hres : monty b md mc d = ((List.range' n (n - 1)).foldl (montyHigh b md d) st1).out ++
      [(((List.range' n (n - 1)).foldl (montyHigh b md d) st1).c &&& wide (bmask C b)).setWidth C] := by
    rw [hst1, hst0, hv0, ht0, ← hml]; rfl
  rw [hres]
  clear hres
  generalize (List.range' n (n - 1)).foldl (montyHigh b md d) st1 = st2 at *
  have hdl' := at'_lim (mul_nonneg (by positivity) (by omega)) hd (n + (n - 1))
  have hcI : st2.c.toInt = seq d (n + (n - 1)) + cr2 := by
    rw [k1.c]
    have := k1.c0
    have := k1.c1
    have hB : (512 : Int) ≤ 2 ^ b := by
      calc (512 : Int) = 2 ^ 9 := by norm_num
        _ ≤ 2 ^ b := pow_le_pow_right₀ (by norm_num) ok.hb
    have hlt : seq d (n + (n - 1)) + cr2 < 2 ^ (2 * C - 1) := by
      have hn' : (2 : Int) ≤ n := by exact_mod_cast hn
      unfold seq; nlinarith
    apply toInt_ofInt_of (by omega)
    · have := two_pow_pos' (2 * C - 1); have : (2 : Int) ^ b ≤ 2 ^ (2 * C - 1) := pow_le_pow_right₀ (by norm_num) (by omega); have := low_step (b := b) hq; unfold seq; omega
    · exact hlt
  have hdig := digit_toInt ok st2.c
  rw [hcI] at hdig
  have hd1 := Int.emod_nonneg (seq d (n + (n - 1)) + cr2) hp.ne'
  have hd2 := Int.emod_lt_of_pos (seq d (n + (n - 1)) + cr2) hp
  have hdg : Digits b (st2.out ++ [(st2.c &&& wide (bmask C b)).setWidth C]) := by
    apply k1.dig.append
    intro z hz; simp only [List.mem_singleton] at hz; subst hz
    rw [hdig]; exact ⟨hd1, hd2⟩
  have hlen : (st2.out ++ [(st2.c &&& wide (bmask C b)).setWidth C]).length = n := by simp [k1.len]; omega
  refine ⟨hlen, hdg, limbsVal b st1.v, limbsVal b st2.out + (2 ^ b) ^ (n - 1) * (seq d (n + (n - 1)) + cr2), j1.dig.bounds.1, ?_, ?_, ?_⟩
  · have := j1.dig.bounds.2; rw [j1.len] at this; exact this
  · -- total
    have hsumD : limbsVal b d = ∑ j ∈ range (n + (n - 1)), seq d j * (2 ^ b) ^ j + seq d (n + (n - 1)) * (2 ^ b) ^ (n + (n - 1)) := by
      rw [val_sum b d, hdl, show 2 * n = n + (n - 1) + 1 by omega, sum_range_succ]; rfl
    have hsumV : limbsVal b st1.v * limbsVal b md = ∑ j ∈ range (n + (n - 1)), col (seq st1.v) (seq md) j * (2 ^ b) ^ j := by
      rw [val_sum b st1.v, val_sum b md, j1.len, hml]
      exact cauchy n n _ _ (fun i hi => at'_out st1.v i (by rw [j1.len]; omega)) (fun i hi => at'_out md i (by omega)) (2 ^ b)
        (n + (n - 1)) (by omega)
    rw [hsumD, hsumV]
    have he := k1.eq
    simp only [add_mul, sum_add_distrib] at he
    have e2 : (2 : Int) ^ (b * n) = (2 ^ b) ^ n := by rw [pow_mul]
    rw [e2]
    have e3 : ((2 : Int) ^ b) ^ (n + (n - 1)) = (2 ^ b) ^ n * (2 ^ b) ^ (n - 1) := pow_add _ _ _
    rw [e3]
    linarith
  · rw [val_append, k1.len]
    simp only [limbsVal, hdig, mul_zero, add_zero]
    have e2 : (2 : Int) ^ (b * n) = (2 ^ b) ^ (n - 1) * 2 ^ b := by
      rw [pow_mul, ← pow_succ]; congr 1; omega
    have hb2 := k1.dig.bounds
    rw [k1.len, pow_mul] at hb2
    have hpp : (0 : Int) < (2 ^ b) ^ (n - 1) := by positivity
    rw [pow_mul, e2]
    have e := Int.emod_add_mul_ediv (seq d (n + (n - 1)) + cr2) (2 ^ b)
    have hrew : limbsVal b st2.out + (2 ^ b) ^ (n - 1) * (seq d (n + (n - 1)) + cr2)
        = (limbsVal b st2.out + (2 ^ b) ^ (n - 1) * ((seq d (n + (n - 1)) + cr2) % 2 ^ b))
          + ((2 ^ b) ^ (n - 1) * 2 ^ b) * ((seq d (n + (n - 1)) + cr2) / 2 ^ b) := by
      conv => lhs; rw [← e]
      ring
    rw [hrew, Int.add_mul_emod_self_left]
    refine (Int.emod_eq_of_lt ?_ ?_).symm
    · have := mul_nonneg hpp.le hd1; omega
    · have : (2 ^ b) ^ (n - 1) * ((seq d (n + (n - 1)) + cr2) % 2 ^ b + 1) ≤ (2 ^ b) ^ (n - 1) * 2 ^ b :=
        mul_le_mul_of_nonneg_left (by omega) hpp.le
      linarith

/-- exact description of Montgomery reduction, for a number whose limbs are digits up to sign -/
theorem monty_signed {b n : Nat} (ok : Ok C b) (hn : 2 ≤ n) {md d : Limbs C} (hm : Digits b md) (hd : LimbsWithin (2 ^ b - 1) d)
    (mc : BitVec C) (hmc : ((at' md 0).toInt * mc.toInt + 1) % 2 ^ b = 0)
    (hml : md.length = n) (hdl : d.length = 2 * n) (hfit : (n : Int) * (2 ^ b * 2 ^ b) ≤ 2 ^ (2 * C - 1)) :
    (monty b md mc d).length = n ∧ Digits b (monty b md mc d) ∧
    ∃ v t : Int, 0 ≤ v ∧ v < 2 ^ (b * n) ∧ 2 ^ (b * n) * t = limbsVal b d + v * limbsVal b md ∧
      limbsVal b (monty b md mc d) = t % 2 ^ (b * n) :=
  monty_gen (q := 1) ok hn (by omega) hm (by rw [Nat.cast_one, one_mul]; exact hd) mc hmc hml hdl hfit

/-- exact description of Montgomery reduction -/
theorem monty_spec {b n : Nat} (ok : Ok C b) (hn : 2 ≤ n) {md d : Limbs C} (hm : Digits b md) (hd : Digits b d)
    (mc : BitVec C) (hmc : ((at' md 0).toInt * mc.toInt + 1) % 2 ^ b = 0)
    (hml : md.length = n) (hdl : d.length = 2 * n) (hfit : (n : Int) * (2 ^ b * 2 ^ b) ≤ 2 ^ (2 * C - 1)) :
    (monty b md mc d).length = n ∧ Digits b (monty b md mc d) ∧
    ∃ v t : Int, 0 ≤ v ∧ v < 2 ^ (b * n) ∧ 2 ^ (b * n) * t = limbsVal b d + v * limbsVal b md ∧
      limbsVal b (monty b md mc d) = t % 2 ^ (b * n) := by
  have hp := two_pow_pos' b
  exact monty_signed ok hn hm (fun z hz => by have := hd z hz; omega) mc hmc hml hdl hfit

end Verif.Big
