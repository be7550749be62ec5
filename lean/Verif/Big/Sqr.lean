import Verif.Big.Mul
/- Helper lemmas: `Big::sqr` and `Big::monty`. -/
namespace Verif.Big
open Spec (limbsVal Normal LimbsWithin)
open Finset

variable {C : Nat}

theorem square_sum (X : Nat → Int) (e : Nat) : ∀ a k, k = 2 * a + e →
    ∑ j ∈ Ico a (a + e + 1), X j * X (k - j) = 2 * ∑ j ∈ Ico a ((k + 1) / 2), X (k - j) * X j
      + (if k % 2 = 0 then X (k / 2) * X (k / 2) else 0) := by
  induction e using Nat.strong_induction_on with
  | _ e ih =>
    intro a k hk
    match e, hk with
    | 0, hk =>
      have h1 : k / 2 = a := by omega
      have h3 : (k + 1) / 2 = a := by omega
      have h2 : k - a = a := by omega
      rw [if_pos (by omega), h1, h3]; simp [h2]
    | 1, hk =>
      rw [if_neg (by omega), show (k + 1) / 2 = a + 1 by omega]
      rw [sum_Ico_succ_top (by omega : a ≤ a + 1), Nat.Ico_succ_singleton, sum_singleton, sum_singleton]
      rw [show k - a = a + 1 by omega, show k - (a + 1) = a by omega]; ring
    | e + 2, hk =>
      have := ih e (by omega) (a + 1) k (by omega)
      rw [show a + (e + 2) + 1 = (a + 1 + e + 1) + 1 by omega]
      rw [sum_Ico_succ_top (by omega : a ≤ a + 1 + e + 1), sum_eq_sum_Ico_succ_bot (by omega : a < a + 1 + e + 1), this,
        sum_eq_sum_Ico_succ_bot (by omega : a < (k + 1) / 2)]
      rw [show k - a = a + 1 + e + 1 by omega, show k - (a + 1 + e + 1) = a by omega]; ring

theorem col_sq (n : Nat) (X : Nat → Int) (hX : ∀ i, n ≤ i → X i = 0) (k a : Nat)
    (ha : (k < n ∧ a = 0) ∨ (n ≤ k + 1 ∧ k + 2 ≤ 2 * n ∧ a = k + 1 - n)) :
    col X X k = 2 * ∑ j ∈ Ico a ((k + 1) / 2), X (k - j) * X j
      + (if k % 2 = 0 then X (k / 2) * X (k / 2) else 0) := by
  rcases ha with ⟨h, rfl⟩ | ⟨h1, h2, rfl⟩
  · have := square_sum X k 0 k (by omega)
    simp only [Nat.zero_add] at this
    rw [col, range_eq_Ico, this]
  · rw [col_window n X X hX hX k h1]
    have := square_sum X (2 * n - 2 - k) (k + 1 - n) k (by omega)
    rw [show k + 1 - n + (2 * n - 2 - k) + 1 = n by omega] at this
    exact this

theorem sqrSum_eq (x : Limbs C) (lo j : Nat) (hlo : lo < (j + 1) / 2) (co : BitVec (2 * C)) :
    sqrSum x (j - lo) lo j (lo + 1) co = BitVec.ofInt (2 * C)
      (2 * (∑ i ∈ Ico lo ((j + 1) / 2), (at' x (j - i)).toInt * (at' x i).toInt) + co.toInt) := by
  unfold sqrSum
  rw [wide_mul, foldl_ofInt _ _ (fun i => (at' x (j - i)).toInt * (at' x i).toInt) (fun i _ => wide_mul _ _), sum_range',
    show lo + 1 + ((j + 1) / 2 - (lo + 1)) = (j + 1) / 2 by omega]
  conv => lhs; simp only; rw [show co = BitVec.ofInt (2 * C) co.toInt from (ofInt_toInt' _).symm, ← BitVec.ofInt_add, ← BitVec.ofInt_add]
  rw [sum_eq_sum_Ico_succ_bot hlo]
  congr 1; ring

theorem emit_step {b k : Nat} (ok : Ok C b) {x : Limbs C} (hx : LimbsWithin (2 ^ b - 1) x)
    (hfit : (x.length : Int) * (2 ^ b * 2 ^ b) ≤ 2 ^ (2 * C - 1)) {st : ColSt C}
    (inv : ColInv b k st.c st.co (∑ k ∈ range k, col (fun i => (at' x i).toInt) (fun i => (at' x i).toInt) k * (2 ^ b) ^ k)
      x.length) (t : BitVec (2 * C))
    (ht : t = BitVec.ofInt (2 * C) (st.co.toInt + col (fun i => (at' x i).toInt) (fun i => (at' x i).toInt) k)) :
    ColInv b (k + 1) (emit b st t).c (emit b st t).co
      (∑ k ∈ range (k + 1), col (fun i => (at' x i).toInt) (fun i => (at' x i).toInt) k * (2 ^ b) ^ k) x.length := by
  have hp := two_pow_pos' b
  obtain ⟨cb0, cb1⟩ := col_abs x.length (fun i => (at' x i).toInt) (fun i => (at' x i).toInt) (2 ^ b - 1) (by omega)
    (at'_within hx) (at'_within hx) (at'_out x) k
  rw [sum_range_succ]
  exact col_step ok inv cb0 cb1 (by positivity) hfit t ht

theorem sqrPair_step {b k : Nat} (ok : Ok C b) {x : Limbs C} (hx : LimbsWithin (2 ^ b - 1) x)
    (hfit : (x.length : Int) * (2 ^ b * 2 ^ b) ≤ 2 ^ (2 * C - 1)) {st : ColSt C} (high : Bool)
    (hodd : k % 2 = 1)
    (hk : if high then x.length ≤ k + 1 ∧ k + 4 ≤ 2 * x.length else k + 1 < x.length)
    (inv : ColInv b k st.c st.co (∑ k ∈ range k, col (fun i => (at' x i).toInt) (fun i => (at' x i).toInt) k * (2 ^ b) ^ k)
      x.length) :
    ColInv b (k + 2) (sqrPair b x high st k).c (sqrPair b x high st k).co
      (∑ k ∈ range (k + 2), col (fun i => (at' x i).toInt) (fun i => (at' x i).toInt) k * (2 ^ b) ^ k) x.length := by
  unfold sqrPair
  have h1 := emit_step ok hx hfit inv
    (if high then sqrSum x (x.length - 1) (k + 1 - x.length) k (k + 2 - x.length) st.co else sqrSum x k 0 k 1 st.co) (by
      cases high with
      | true =>
        simp only [if_true] at hk ⊢
        rw [show x.length - 1 = k - (k + 1 - x.length) by omega, show k + 2 - x.length = (k + 1 - x.length) + 1 by omega,
          sqrSum_eq x (k + 1 - x.length) k (by omega),
          col_sq x.length _ (at'_out x) k (k + 1 - x.length) (Or.inr ⟨by omega, by omega, rfl⟩), if_neg (by omega)]
        congr 1; ring
      | false =>
        simp only [Bool.false_eq_true, if_false] at hk ⊢
        have := sqrSum_eq x 0 k (by omega) st.co
        rw [Nat.sub_zero, Nat.zero_add] at this
        rw [this, col_sq x.length _ (at'_out x) k 0 (Or.inl ⟨by omega, rfl⟩), if_neg (by omega)]
        congr 1; ring)
  dsimp only
  generalize emit b st (if high then sqrSum x (x.length - 1) (k + 1 - x.length) k (k + 2 - x.length) st.co
    else sqrSum x k 0 k 1 st.co) = st1 at h1 ⊢
  refine emit_step ok hx hfit h1 _ ?_
  cases high with
  | true =>
    simp only [if_true] at hk ⊢
    conv => lhs; rw [show x.length - 1 = (k + 1) - (k + 1 + 1 - x.length) by omega, show k + 1 + 2 - x.length = (k + 1 + 1 - x.length) + 1 by omega]
    rw [sqrSum_eq x (k + 1 + 1 - x.length) (k + 1) (by omega), wide_mul, ← BitVec.ofInt_add,
      col_sq x.length _ (at'_out x) (k + 1) (k + 1 + 1 - x.length) (Or.inr ⟨by omega, by omega, rfl⟩), if_pos (by omega)]
    congr 1; ring
  | false =>
    simp only [Bool.false_eq_true, if_false] at hk ⊢
    have := sqrSum_eq x 0 (k + 1) (by omega) st1.co
    rw [Nat.sub_zero, Nat.zero_add] at this
    rw [this, wide_mul, ← BitVec.ofInt_add, col_sq x.length _ (at'_out x) (k + 1) 0 (Or.inl ⟨by omega, rfl⟩), if_pos (by omega)]
    congr 1; ring

theorem sqrLoop {b : Nat} (ok : Ok C b) {x : Limbs C} (hx : LimbsWithin (2 ^ b - 1) x)
    (hfit : (x.length : Int) * (2 ^ b * 2 ^ b) ≤ 2 ^ (2 * C - 1)) (high : Bool) (j0 : Nat) (hodd : j0 % 2 = 1) (l : Nat)
    (hk : ∀ i < l, if high then x.length ≤ j0 + 2 * i + 1 ∧ j0 + 2 * i + 4 ≤ 2 * x.length else j0 + 2 * i + 1 < x.length)
    (st : ColSt C)
    (inv : ColInv b j0 st.c st.co (∑ k ∈ range j0, col (fun i => (at' x i).toInt) (fun i => (at' x i).toInt) k * (2 ^ b) ^ k)
      x.length) :
    let st' := (List.range l).foldl (fun st i => sqrPair b x high st (j0 + 2 * i)) st
    ColInv b (j0 + 2 * l) st'.c st'.co
      (∑ k ∈ range (j0 + 2 * l), col (fun i => (at' x i).toInt) (fun i => (at' x i).toInt) k * (2 ^ b) ^ k) x.length := by
  induction l with
  | zero => exact inv
  | succ l ih =>
    have IH := ih (fun i hi => hk i (by omega))
    rw [List.range_succ, List.foldl_append, List.foldl_cons, List.foldl_nil]
    have ho : (j0 + 2 * l) % 2 = 1 := by omega
    exact sqrPair_step ok hx hfit high ho (hk l (by omega)) IH

theorem colInv_final {b n : Nat} (ok : Ok C b) {x y : Limbs C} (hx : LimbsWithin (2 ^ b - 1) x) (hy : LimbsWithin (2 ^ b - 1) y)
    (hx0 : 0 ≤ limbsVal b x) (hy0 : 0 ≤ limbsVal b y)
    (hl : x.length = n) (hl2 : y.length = n) (hn : 0 < n) (c : Limbs C) (co : BitVec (2 * C)) (N : Int)
    (k1 : ColInv b (2 * n - 1) c co (∑ k ∈ range (2 * n - 1), col (fun i => (at' x i).toInt) (fun i => (at' y i).toInt) k * (2 ^ b) ^ k) N) :
    (c ++ [co.setWidth C]).length = 2 * n ∧ Digits b (c ++ [co.setWidth C]) ∧
      limbsVal b (c ++ [co.setWidth C]) = limbsVal b x * limbsVal b y := by
  have hC := ok.hC
  have hp := two_pow_pos' b
  have hprod : ∑ k ∈ range (2 * n - 1), col (fun i => (at' x i).toInt) (fun i => (at' y i).toInt) k * (2 ^ b) ^ k
      = limbsVal b x * limbsVal b y := by
    rw [val_sum b x, val_sum b y, hl, hl2]
    exact (cauchy n n _ _ (fun i hi => at'_out x i (by omega)) (fun i hi => at'_out y i (by omega)) (2 ^ b) (2 * n - 1) (by omega)).symm
  rw [hprod] at k1
  have bx := within_lt hx
  have by' := within_lt hy
  rw [hl] at bx
  rw [hl2] at by'
  have hco0 : 0 ≤ co.toInt := by
    have hv := k1.dig.bounds.2
    have he := k1.eq
    rw [k1.len, pow_mul] at hv
    have hxy := mul_nonneg hx0 hy0
    have hpp : (0 : Int) < (2 ^ b) ^ (2 * n - 1) := by positivity
    by_contra hc
    have := mul_le_mul_of_nonneg_left (show co.toInt ≤ -1 by omega) hpp.le
    linarith
  have hco : co.toInt < 2 ^ b := by
    have hv := k1.dig.bounds.1
    have he := k1.eq
    have hlt : limbsVal b x * limbsVal b y < 2 ^ (b * n) * 2 ^ (b * n) := by
      have := two_pow_pos' (b * n)
      nlinarith
    have e : (2 : Int) ^ (b * n) * 2 ^ (b * n) = (2 ^ b) ^ (2 * n - 1) * 2 ^ b := by
      rw [← pow_mul, ← pow_add, ← pow_add]; congr 1
      rw [← Nat.mul_succ, ← Nat.mul_add]; congr 1; omega
    rw [e] at hlt
    have hpp : (0 : Int) < (2 ^ b) ^ (2 * n - 1) := by positivity
    by_contra hc
    have := mul_le_mul_of_nonneg_left (not_lt.1 hc) hpp.le
    linarith
  have hle : (2 : Int) ^ b ≤ 2 ^ (C - 1) := pow_le_pow_right₀ (by norm_num) (by omega)
  have hnar := toInt_narrow co hco0 (by omega) (by omega)
  refine ⟨by simp [k1.len]; omega, ?_, ?_⟩
  · apply k1.dig.append
    intro z hz
    simp only [List.mem_singleton] at hz
    subst hz
    rw [hnar]; exact ⟨hco0, hco⟩
  · rw [val_append, k1.len, ← k1.eq]
    simp [limbsVal, hnar, pow_mul]

theorem sqr_signed {b : Nat} (ok : Ok C b) {x : Limbs C} (hx : LimbsWithin (2 ^ b - 1) x) (hx0 : 0 ≤ limbsVal b x) (hn : 2 ≤ x.length)
    (hfit : (x.length : Int) * (2 ^ b * 2 ^ b) ≤ 2 ^ (2 * C - 1)) :
    (sqr b x).length = 2 * x.length ∧ Digits b (sqr b x) ∧
      limbsVal b (sqr b x) = limbsVal b x * limbsVal b x := by
  have hp := two_pow_pos' b
  set n := x.length with hnn
  have hi : ColInv (C := C) b 0 [] 0 (∑ k ∈ range 0, col (fun i => (at' x i).toInt) (fun i => (at' x i).toInt) k * (2 ^ b) ^ k) x.length :=
    ⟨rfl, fun x hx => by simp at hx, by simp [limbsVal], by simpa using mul_nonneg (by positivity) (by omega : (0 : Int) ≤ 2 ^ b - 1),
      by simpa using mul_nonneg (by positivity) (by omega : (0 : Int) ≤ 2 ^ b - 1)⟩
  have i0 := emit_step ok hx hfit (st := { c := [], co := 0 }) hi (wide (at' x 0) * wide (at' x 0)) (by simp [wide_mul, col])
  have i1 := sqrLoop ok hx hfit false (0 + 1) (by omega) ((n - 1) / 2) (fun i hi => by simp only [Bool.false_eq_true, if_false]; omega) _ i0
  have hj0 : 0 + 1 + 2 * ((n - 1) / 2) = n + n % 2 - 1 := by omega
  simp only at i1
  rw [hj0] at i1
  have i2 := sqrLoop ok hx hfit true (n + n % 2 - 1) (by omega) ((2 * n - 3 - (n + n % 2 - 1) + 1) / 2)
    (fun i hi => by simp only [if_true]; omega) _ i1
  have hj1 : n + n % 2 - 1 + 2 * ((2 * n - 3 - (n + n % 2 - 1) + 1) / 2) = 2 * n - 3 := by omega
  simp only at i2
  rw [hj1] at i2
  have hsqr : sqr b x = (emit b (emit b ((List.range ((2 * n - 3 - (n + n % 2 - 1) + 1) / 2)).foldl
        (fun st i => sqrPair b x true st (n + n % 2 - 1 + 2 * i))
        ((List.range ((n - 1) / 2)).foldl (fun st i => sqrPair b x false st (0 + 1 + 2 * i))
          (emit b { c := [], co := 0 } (wide (at' x 0) * wide (at' x 0)))))
      (wide (at' x (n - 2)) * wide (at' x (n - 1)) + wide (at' x (n - 2)) * wide (at' x (n - 1)) +
        ((List.range ((2 * n - 3 - (n + n % 2 - 1) + 1) / 2)).foldl
        (fun st i => sqrPair b x true st (n + n % 2 - 1 + 2 * i))
        ((List.range ((n - 1) / 2)).foldl (fun st i => sqrPair b x false st (0 + 1 + 2 * i))
          (emit b { c := [], co := 0 } (wide (at' x 0) * wide (at' x 0))))).co))
      (wide (at' x (n - 1)) * wide (at' x (n - 1)) + (emit b ((List.range ((2 * n - 3 - (n + n % 2 - 1) + 1) / 2)).foldl
        (fun st i => sqrPair b x true st (n + n % 2 - 1 + 2 * i))
        ((List.range ((n - 1) / 2)).foldl (fun st i => sqrPair b x false st (0 + 1 + 2 * i))
          (emit b { c := [], co := 0 } (wide (at' x 0) * wide (at' x 0)))))
      (wide (at' x (n - 2)) * wide (at' x (n - 1)) + wide (at' x (n - 2)) * wide (at' x (n - 1)) +
        ((List.range ((2 * n - 3 - (n + n % 2 - 1) + 1) / 2)).foldl
        (fun st i => sqrPair b x true st (n + n % 2 - 1 + 2 * i))
        ((List.range ((n - 1) / 2)).foldl (fun st i => sqrPair b x false st (0 + 1 + 2 * i))
          (emit b { c := [], co := 0 } (wide (at' x 0) * wide (at' x 0))))).co)).co)).c ++
      [(emit b (emit b ((List.range ((2 * n - 3 - (n + n % 2 - 1) + 1) / 2)).foldl
        (fun st i => sqrPair b x true st (n + n % 2 - 1 + 2 * i))
        ((List.range ((n - 1) / 2)).foldl (fun st i => sqrPair b x false st (0 + 1 + 2 * i))
          (emit b { c := [], co := 0 } (wide (at' x 0) * wide (at' x 0)))))
      (wide (at' x (n - 2)) * wide (at' x (n - 1)) + wide (at' x (n - 2)) * wide (at' x (n - 1)) +
        ((List.range ((2 * n - 3 - (n + n % 2 - 1) + 1) / 2)).foldl
        (fun st i => sqrPair b x true st (n + n % 2 - 1 + 2 * i))
        ((List.range ((n - 1) / 2)).foldl (fun st i => sqrPair b x false st (0 + 1 + 2 * i))
          (emit b { c := [], co := 0 } (wide (at' x 0) * wide (at' x 0))))).co))
      (wide (at' x (n - 1)) * wide (at' x (n - 1)) + (emit b ((List.range ((2 * n - 3 - (n + n % 2 - 1) + 1) / 2)).foldl
        (fun st i => sqrPair b x true st (n + n % 2 - 1 + 2 * i))
        ((List.range ((n - 1) / 2)).foldl (fun st i => sqrPair b x false st (0 + 1 + 2 * i))
          (emit b { c := [], co := 0 } (wide (at' x 0) * wide (at' x 0)))))
      (wide (at' x (n - 2)) * wide (at' x (n - 1)) + wide (at' x (n - 2)) * wide (at' x (n - 1)) +
        ((List.range ((2 * n - 3 - (n + n % 2 - 1) + 1) / 2)).foldl
        (fun st i => sqrPair b x true st (n + n % 2 - 1 + 2 * i))
        ((List.range ((n - 1) / 2)).foldl (fun st i => sqrPair b x false st (0 + 1 + 2 * i))
          (emit b { c := [], co := 0 } (wide (at' x 0) * wide (at' x 0))))).co)).co)).co.setWidth C] := by
    rfl
  rw [hsqr]
  clear hsqr
  generalize (List.range ((2 * n - 3 - (n + n % 2 - 1) + 1) / 2)).foldl
        (fun st i => sqrPair b x true st (n + n % 2 - 1 + 2 * i))
        ((List.range ((n - 1) / 2)).foldl (fun st i => sqrPair b x false st (0 + 1 + 2 * i))
          (emit b { c := [], co := 0 } (wide (at' x 0) * wide (at' x 0)))) = st at *
  have i3 := emit_step ok hx hfit i2
    (wide (at' x (n - 2)) * wide (at' x (n - 1)) + wide (at' x (n - 2)) * wide (at' x (n - 1)) + st.co) (by
      rw [col_sq x.length _ (at'_out x) (2 * n - 3) (n - 2) (Or.inr ⟨by omega, by omega, by omega⟩), if_neg (by omega),
        show (2 * n - 3 + 1) / 2 = (n - 2) + 1 by omega, Nat.Ico_succ_singleton, sum_singleton,
        show 2 * n - 3 - (n - 2) = n - 1 by omega, wide_mul]
      conv => lhs; rw [show st.co = BitVec.ofInt (2 * C) st.co.toInt from (ofInt_toInt' _).symm, ← BitVec.ofInt_add, ← BitVec.ofInt_add]
      congr 1; ring)
  generalize emit b st (wide (at' x (n - 2)) * wide (at' x (n - 1)) + wide (at' x (n - 2)) * wide (at' x (n - 1)) + st.co) = st' at *
  have i4 := emit_step ok hx hfit i3 (wide (at' x (n - 1)) * wide (at' x (n - 1)) + st'.co) (by
      rw [show 2 * n - 3 + 1 = 2 * n - 2 by omega, col_sq x.length _ (at'_out x) (2 * n - 2) (n - 1) (Or.inr ⟨by omega, by omega, by omega⟩),
        if_pos (by omega), show (2 * n - 2 + 1) / 2 = n - 1 by omega, show (2 * n - 2) / 2 = n - 1 by omega, wide_mul]
      conv => lhs; rw [show st'.co = BitVec.ofInt (2 * C) st'.co.toInt from (ofInt_toInt' _).symm, ← BitVec.ofInt_add]
      congr 1; simp; ring)
  rw [show 2 * n - 3 + 1 + 1 = 2 * n - 1 by omega] at i4
  exact colInv_final ok hx hx hx0 hx0 rfl rfl (by omega) _ _ _ i4

theorem sqr_spec {b : Nat} (ok : Ok C b) {x : Limbs C} (hx : Digits b x) (hn : 2 ≤ x.length)
    (hfit : (x.length : Int) * (2 ^ b * 2 ^ b) ≤ 2 ^ (2 * C - 1)) :
    (sqr b x).length = 2 * x.length ∧ Digits b (sqr b x) ∧
      limbsVal b (sqr b x) = limbsVal b x * limbsVal b x := sqr_signed ok hx.within1 hx.bounds.1 hn hfit

end Verif.Big
