import Verif.Big.Sqr
/- `Big::mul` and `Big::sqr` of operands that were not normalised after an addition (as in `Mul.lean` and `Sqr.lean`, with limbs up to two digits). -/
namespace Verif.Big.Wide
open Spec (limbsVal Normal LimbsWithin)
open Finset

set_option linter.unusedVariables false
variable {C : Nat}

theorem at'_within {b : Nat} {w : Limbs C} (h : LimbsWithin (2 * (2 ^ b - 1)) w) (i : Nat) :
    -(2 * (2 ^ b - 1) : Int) ≤ (at' w i).toInt ∧ (at' w i).toInt ≤ 2 * (2 ^ b - 1) := by
  by_cases hi : i < w.length
  · exact h _ (at'_mem w i hi)
  · rw [at'_out w i (not_lt.1 hi)]
    have := two_pow_pos' b
    omega

theorem crossTerm_eq {b : Nat} (ok : Ok C b) {x y : Limbs C} (hx : LimbsWithin (2 * (2 ^ b - 1)) x) (hy : LimbsWithin (2 * (2 ^ b - 1)) y) (k i : Nat) :
    crossTerm x y k i = BitVec.ofInt (2 * C)
      (((at' x i).toInt - (at' x (k - i)).toInt) * ((at' y (k - i)).toInt - (at' y i).toInt)) := by
  have hC := ok.hC
  have hle : (2 : Int) ^ (b + 1 + 1) ≤ 2 ^ (C - 1) := pow_le_pow_right₀ (by norm_num) (by omega)
  rw [pow_succ, pow_succ] at hle
  have h1 := at'_within hx i
  have h2 := at'_within hx (k - i)
  have h3 := at'_within hy i
  have h4 := at'_within hy (k - i)
  unfold crossTerm
  rw [wide_mul, toInt_sub_of _ _ (by omega) (by omega) (by omega), toInt_sub_of _ _ (by omega) (by omega) (by omega)]

theorem mulCol_step {b k : Nat} (ok : Ok C b) {x y : Limbs C} (hx : LimbsWithin (2 * (2 ^ b - 1)) x) (hy : LimbsWithin (2 * (2 ^ b - 1)) y)
    (hfit : (4 * x.length : Int) * (2 ^ b * 2 ^ b) ≤ 2 ^ (2 * C - 1)) {st : MulSt C} {S : Int}
    (inv : ColInv b k st.c st.co S (4 * x.length)) (s' : BitVec (2 * C)) (is : List Nat) (D : Int)
    (hs : s' = BitVec.ofInt (2 * C) D)
    (hcol : D + (is.map fun i => ((at' x i).toInt - (at' x (k - i)).toInt) * ((at' y (k - i)).toInt - (at' y i).toInt)).sum
      = col (fun i => (at' x i).toInt) (fun i => (at' y i).toInt) k) :
    ColInv b (k + 1) (mulCol b x y k s' is st).c (mulCol b x y k s' is st).co
      (S + col (fun i => (at' x i).toInt) (fun i => (at' y i).toInt) k * (2 ^ b) ^ k) (4 * x.length) := by
  have hp := two_pow_pos' b
  obtain ⟨cb0, cb1⟩ := col_abs x.length (fun i => (at' x i).toInt) (fun i => (at' y i).toInt) (2 * (2 ^ b - 1)) (by omega)
    (at'_within hx) (at'_within hy) (at'_out x) k
  rw [show (x.length : Int) * (2 * (2 ^ b - 1) * (2 * (2 ^ b - 1))) = 4 * x.length * ((2 ^ b - 1) * (2 ^ b - 1)) by ring] at cb0 cb1
  refine col_step ok inv cb0 cb1 (by positivity) hfit _ ?_
  rw [hs]
  conv => lhs; rw [show st.co = BitVec.ofInt (2 * C) st.co.toInt from (ofInt_toInt' _).symm, ← BitVec.ofInt_add]
  rw [foldl_ofInt is _ _ (fun i _ => crossTerm_eq ok hx hy k i), ← hcol]
  congr 1; ring

/-- `Big::mul` of operands whose limbs are up to two digits -/
theorem mul_signed {b : Nat} (ok : Ok C b) {x y : Limbs C} (hx : LimbsWithin (2 * (2 ^ b - 1)) x) (hy : LimbsWithin (2 * (2 ^ b - 1)) y)
    (hx0 : 0 ≤ limbsVal b x) (hy0 : 0 ≤ limbsVal b y)
    (hl : x.length = y.length) (hn : 0 < x.length) (hlt : limbsVal b x * limbsVal b y < 2 ^ (b * x.length) * 2 ^ (b * x.length))
    (hfit : (4 * x.length : Int) * (2 ^ b * 2 ^ b) ≤ 2 ^ (2 * C - 1)) :
    (mul b x y).length = 2 * x.length ∧ Digits b (mul b x y) ∧
      limbsVal b (mul b x y) = limbsVal b x * limbsVal b y := by
  have hC := ok.hC
  have hp := two_pow_pos' b
  set X : Nat → Int := fun i => (at' x i).toInt with hX
  set Y : Nat → Int := fun i => (at' y i).toInt with hY
  set n := x.length with hnn
  set st0 : MulSt C := mulCol b x y 0 (wide (at' x 0) * wide (at' y 0)) [] { c := [], s := 0, co := 0 } with h0
  have inv0 : ColInv b 1 st0.c st0.co (∑ k ∈ range 1, col X Y k * (2 ^ b) ^ k) (4 * n) := by
    have hi : ColInv (C := C) b 0 [] 0 0 (4 * x.length) :=
      ⟨rfl, fun x hx => by simp at hx, by simp [limbsVal], by simpa using mul_nonneg (by positivity) (by omega : (0 : Int) ≤ 2 ^ b - 1),
        by simpa using mul_nonneg (by positivity) (by omega : (0 : Int) ≤ 2 ^ b - 1)⟩
    have := mulCol_step ok hx hy hfit (st := { c := [], s := 0, co := 0 }) hi (wide (at' x 0) * wide (at' y 0)) []
      (X 0 * Y 0) (wide_mul _ _) (by simp [col, hX, hY])
    rw [sum_range_one]
    simp only [zero_add] at this
    exact this
  have hs0 : st0.s = BitVec.ofInt (2 * C) (∑ j ∈ range 1, X j * Y j) := by
    simp [h0, mulCol, wide_mul, hX, hY]
  -- first loop
  have loop1 : ∀ l, l + 1 ≤ n →
      let st := (List.range' 1 l).foldl (fun st k =>
        mulCol b x y k (st.s + wide (at' x k) * wide (at' y k)) (List.range' (1 + k / 2) (k - k / 2)) st) st0
      ColInv b (l + 1) st.c st.co (∑ k ∈ range (l + 1), col X Y k * (2 ^ b) ^ k) (4 * n) ∧
        st.s = BitVec.ofInt (2 * C) (∑ j ∈ range (l + 1), X j * Y j) := by
    intro l
    induction l with
    | zero => intro _; exact ⟨inv0, hs0⟩
    | succ l ih =>
      intro hl'
      obtain ⟨i1, i2⟩ := ih (by omega)
      rw [List.range'_1_concat, List.foldl_append, List.foldl_cons, List.foldl_nil]
      generalize (List.range' 1 l).foldl (fun st k =>
        mulCol b x y k (st.s + wide (at' x k) * wide (at' y k)) (List.range' (1 + k / 2) (k - k / 2)) st) st0 = st at *
      rw [show 1 + l = l + 1 by omega]
      have hsn : st.s + wide (at' x (l + 1)) * wide (at' y (l + 1))
          = BitVec.ofInt (2 * C) (∑ j ∈ range (l + 1 + 1), X j * Y j) := by
        rw [i2, wide_mul, ← BitVec.ofInt_add, sum_range_succ _ (l + 1)]
      refine ⟨?_, hsn⟩
      have := mulCol_step ok hx hy hfit i1 _ (List.range' (1 + (l + 1) / 2) (l + 1 - (l + 1) / 2)) _ hsn (by
        rw [sum_range', show 1 + (l + 1) / 2 + (l + 1 - (l + 1) / 2) = l + 1 + 1 by omega]
        exact (col_low X Y (l + 1)).symm)
      rw [← sum_range_succ] at this
      exact this
  obtain ⟨j1, j2⟩ := loop1 (n - 1) (by omega)
  rw [show n - 1 + 1 = n by omega] at j1 j2
  -- second loop
  set st1 := (List.range' 1 (n - 1)).foldl (fun st k =>
        mulCol b x y k (st.s + wide (at' x k) * wide (at' y k)) (List.range' (1 + k / 2) (k - k / 2)) st) st0 with h1
  have loop2 : ∀ l, l + 1 ≤ n →
      let st := (List.range' n l).foldl (fun st k =>
        mulCol b x y k (st.s - wide (at' x (k - n)) * wide (at' y (k - n))) (List.range' (1 + k / 2) (n - 1 - k / 2)) st) st1
      ColInv b (n + l) st.c st.co (∑ k ∈ range (n + l), col X Y k * (2 ^ b) ^ k) (4 * n) ∧
        st.s = BitVec.ofInt (2 * C) (∑ j ∈ Ico l n, X j * Y j) := by
    intro l
    induction l with
    | zero => intro _; exact ⟨by simpa using j1, by rw [← range_eq_Ico]; exact j2⟩
    | succ l ih =>
      intro hl'
      obtain ⟨i1, i2⟩ := ih (by omega)
      rw [List.range'_1_concat, List.foldl_append, List.foldl_cons, List.foldl_nil]
      generalize (List.range' n l).foldl (fun st k =>
        mulCol b x y k (st.s - wide (at' x (k - n)) * wide (at' y (k - n))) (List.range' (1 + k / 2) (n - 1 - k / 2)) st) st1 = st at *
      have hsn : st.s - wide (at' x (n + l - n)) * wide (at' y (n + l - n))
          = BitVec.ofInt (2 * C) (∑ j ∈ Ico (l + 1) n, X j * Y j) := by
        rw [Nat.add_sub_cancel_left, i2, wide_mul, sum_eq_sum_Ico_succ_bot (by omega), BitVec.ofInt_add,
          BitVec.add_comm, BitVec.add_sub_cancel]
      refine ⟨?_, hsn⟩
      have := mulCol_step ok hx hy hfit i1 _ (List.range' (1 + (n + l) / 2) (n - 1 - (n + l) / 2)) _ hsn (by
        rw [sum_range', show 1 + (n + l) / 2 + (n - 1 - (n + l) / 2) = n by omega]
        have := col_high n X Y (at'_out x) (fun i hi => at'_out y i (by omega)) (n + l) (by omega) (by omega)
        rw [show n + l + 1 - n = l + 1 by omega] at this
        exact this.symm)
      rw [← sum_range_succ] at this
      exact this
  obtain ⟨k1, _⟩ := loop2 (n - 1) (by omega)
  rw [show n + (n - 1) = 2 * n - 1 by omega] at k1
  have hmul : mul b x y = ((List.range' n (n - 1)).foldl (fun st k =>
        mulCol b x y k (st.s - wide (at' x (k - n)) * wide (at' y (k - n))) (List.range' (1 + k / 2) (n - 1 - k / 2)) st) st1).c
      ++ [((List.range' n (n - 1)).foldl (fun st k =>
        mulCol b x y k (st.s - wide (at' x (k - n)) * wide (at' y (k - n))) (List.range' (1 + k / 2) (n - 1 - k / 2)) st) st1).co.setWidth C] := rfl
  rw [hmul]
  clear hmul
  generalize (List.range' n (n - 1)).foldl (fun st k =>
        mulCol b x y k (st.s - wide (at' x (k - n)) * wide (at' y (k - n))) (List.range' (1 + k / 2) (n - 1 - k / 2)) st) st1 = st at *
  have hprod : ∑ k ∈ range (2 * n - 1), col X Y k * (2 ^ b) ^ k = limbsVal b x * limbsVal b y := by
    rw [val_sum b x, val_sum b y, ← hl]
    exact (cauchy n n X Y (at'_out x) (fun i hi => at'_out y i (by omega)) (2 ^ b) (2 * n - 1) (by omega)).symm
  rw [hprod] at k1
  have hco0 : 0 ≤ st.co.toInt := by
    have hv := k1.dig.bounds.2
    have he := k1.eq
    rw [k1.len, pow_mul] at hv
    have hxy := mul_nonneg hx0 hy0
    have hpp : (0 : Int) < (2 ^ b) ^ (2 * n - 1) := by positivity
    by_contra hc
    have := mul_le_mul_of_nonneg_left (show st.co.toInt ≤ -1 by omega) hpp.le
    linarith
  have hco : st.co.toInt < 2 ^ b := by
    have hv := k1.dig.bounds.1
    have he := k1.eq
    have hlt := hlt
    have e : (2 : Int) ^ (b * n) * 2 ^ (b * n) = (2 ^ b) ^ (2 * n - 1) * 2 ^ b := by
      rw [← pow_mul, ← pow_add, ← pow_add]; congr 1
      rw [← Nat.mul_succ, ← Nat.mul_add]; congr 1; omega
    rw [e] at hlt
    have hpp : (0 : Int) < (2 ^ b) ^ (2 * n - 1) := by positivity
    by_contra hc
    have := mul_le_mul_of_nonneg_left (not_lt.1 hc) hpp.le
    linarith
  have hle : (2 : Int) ^ b ≤ 2 ^ (C - 1) := pow_le_pow_right₀ (by norm_num) (by omega)
  have hnar := toInt_narrow st.co hco0 (by omega) (by omega)
  refine ⟨by simp [k1.len]; omega, ?_, ?_⟩
  · apply k1.dig.append
    intro z hz
    simp only [List.mem_singleton] at hz
    subst hz
    rw [hnar]; exact ⟨hco0, hco⟩
  · rw [val_append, k1.len, ← k1.eq]
    simp [limbsVal, hnar, pow_mul]

theorem emit_step {b k : Nat} (ok : Ok C b) {x : Limbs C} (hx : LimbsWithin (2 * (2 ^ b - 1)) x)
    (hfit : (4 * x.length : Int) * (2 ^ b * 2 ^ b) ≤ 2 ^ (2 * C - 1)) {st : ColSt C}
    (inv : ColInv b k st.c st.co (∑ k ∈ range k, col (fun i => (at' x i).toInt) (fun i => (at' x i).toInt) k * (2 ^ b) ^ k)
      (4 * x.length)) (t : BitVec (2 * C))
    (ht : t = BitVec.ofInt (2 * C) (st.co.toInt + col (fun i => (at' x i).toInt) (fun i => (at' x i).toInt) k)) :
    ColInv b (k + 1) (emit b st t).c (emit b st t).co
      (∑ k ∈ range (k + 1), col (fun i => (at' x i).toInt) (fun i => (at' x i).toInt) k * (2 ^ b) ^ k) (4 * x.length) := by
  have hp := two_pow_pos' b
  obtain ⟨cb0, cb1⟩ := col_abs x.length (fun i => (at' x i).toInt) (fun i => (at' x i).toInt) (2 * (2 ^ b - 1)) (by omega)
    (at'_within hx) (at'_within hx) (at'_out x) k
  rw [show (x.length : Int) * (2 * (2 ^ b - 1) * (2 * (2 ^ b - 1))) = 4 * x.length * ((2 ^ b - 1) * (2 ^ b - 1)) by ring] at cb0 cb1
  rw [sum_range_succ]
  exact col_step ok inv cb0 cb1 (by positivity) hfit t ht

theorem sqrPair_step {b k : Nat} (ok : Ok C b) {x : Limbs C} (hx : LimbsWithin (2 * (2 ^ b - 1)) x)
    (hfit : (4 * x.length : Int) * (2 ^ b * 2 ^ b) ≤ 2 ^ (2 * C - 1)) {st : ColSt C} (high : Bool)
    (hodd : k % 2 = 1)
    (hk : if high then x.length ≤ k + 1 ∧ k + 4 ≤ 2 * x.length else k + 1 < x.length)
    (inv : ColInv b k st.c st.co (∑ k ∈ range k, col (fun i => (at' x i).toInt) (fun i => (at' x i).toInt) k * (2 ^ b) ^ k)
      (4 * x.length)) :
    ColInv b (k + 2) (sqrPair b x high st k).c (sqrPair b x high st k).co
      (∑ k ∈ range (k + 2), col (fun i => (at' x i).toInt) (fun i => (at' x i).toInt) k * (2 ^ b) ^ k) (4 * x.length) := by
  unfold sqrPair
  have h1 := emit_step ok hx hfit inv
    (if high then sqrSum x (x.length - 1) (k + 1 - x.length) k (k + 2 - x.length) st.co else sqrSum x k 0 k 1 st.co) (by
      cases high with
      | true =>
        simp only [if_true] at hk ⊢
        rw [show x.length - 1 = k - (k + 1 - x.length) by omega, show k + 2 - x.length = (k + 1 - x.length) + 1 by omega,
          sqrSum_eq x (k + 1 - x.length) k (by omega),
          col_sq x.length _ (at'_out x) k (k + 1 - x.length) (Or.inr ⟨by omega, by omega, rfl⟩), if_neg (by omega)]
        congr 1; ring
      | false =>
        simp only [Bool.false_eq_true, if_false] at hk ⊢
        have := sqrSum_eq x 0 k (by omega) st.co
        rw [Nat.sub_zero, Nat.zero_add] at this
        rw [this, col_sq x.length _ (at'_out x) k 0 (Or.inl ⟨by omega, rfl⟩), if_neg (by omega)]
        congr 1; ring)
  dsimp only
  generalize emit b st (if high then sqrSum x (x.length - 1) (k + 1 - x.length) k (k + 2 - x.length) st.co
    else sqrSum x k 0 k 1 st.co) = st1 at h1 ⊢
  refine emit_step ok hx hfit h1 _ ?_
  cases high with
  | true =>
    simp only [if_true] at hk ⊢
    conv => lhs; rw [show x.length - 1 = (k + 1) - (k + 1 + 1 - x.length) by omega, show k + 1 + 2 - x.length = (k + 1 + 1 - x.length) + 1 by omega]
    rw [sqrSum_eq x (k + 1 + 1 - x.length) (k + 1) (by omega), wide_mul, ← BitVec.ofInt_add,
      col_sq x.length _ (at'_out x) (k + 1) (k + 1 + 1 - x.length) (Or.inr ⟨by omega, by omega, rfl⟩), if_pos (by omega)]
    congr 1; ring
  | false =>
    simp only [Bool.false_eq_true, if_false] at hk ⊢
    have := sqrSum_eq x 0 (k + 1) (by omega) st1.co
    rw [Nat.sub_zero, Nat.zero_add] at this
    rw [this, wide_mul, ← BitVec.ofInt_add, col_sq x.length _ (at'_out x) (k + 1) 0 (Or.inl ⟨by omega, rfl⟩), if_pos (by omega)]
    congr 1; ring

theorem sqrLoop {b : Nat} (ok : Ok C b) {x : Limbs C} (hx : LimbsWithin (2 * (2 ^ b - 1)) x)
    (hfit : (4 * x.length : Int) * (2 ^ b * 2 ^ b) ≤ 2 ^ (2 * C - 1)) (high : Bool) (j0 : Nat) (hodd : j0 % 2 = 1) (l : Nat)
    (hk : ∀ i < l, if high then x.length ≤ j0 + 2 * i + 1 ∧ j0 + 2 * i + 4 ≤ 2 * x.length else j0 + 2 * i + 1 < x.length)
    (st : ColSt C)
    (inv : ColInv b j0 st.c st.co (∑ k ∈ range j0, col (fun i => (at' x i).toInt) (fun i => (at' x i).toInt) k * (2 ^ b) ^ k)
      (4 * x.length)) :
    let st' := (List.range l).foldl (fun st i => sqrPair b x high st (j0 + 2 * i)) st
    ColInv b (j0 + 2 * l) st'.c st'.co
      (∑ k ∈ range (j0 + 2 * l), col (fun i => (at' x i).toInt) (fun i => (at' x i).toInt) k * (2 ^ b) ^ k) (4 * x.length) := by
  induction l with
  | zero => exact inv
  | succ l ih =>
    have IH := ih (fun i hi => hk i (by omega))
    rw [List.range_succ, List.foldl_append, List.foldl_cons, List.foldl_nil]
    have ho : (j0 + 2 * l) % 2 = 1 := by omega
    exact sqrPair_step ok hx hfit high ho (hk l (by omega)) IH

theorem colInv_final {b n : Nat} (ok : Ok C b) {x y : Limbs C} (hx : LimbsWithin (2 * (2 ^ b - 1)) x) (hy : LimbsWithin (2 * (2 ^ b - 1)) y)
    (hx0 : 0 ≤ limbsVal b x) (hy0 : 0 ≤ limbsVal b y)
    (hl : x.length = n) (hl2 : y.length = n) (hn : 0 < n) (hlt : limbsVal b x * limbsVal b y < 2 ^ (b * n) * 2 ^ (b * n)) (c : Limbs C) (co : BitVec (2 * C)) (N : Int)
    (k1 : ColInv b (2 * n - 1) c co (∑ k ∈ range (2 * n - 1), col (fun i => (at' x i).toInt) (fun i => (at' y i).toInt) k * (2 ^ b) ^ k) N) :
    (c ++ [co.setWidth C]).length = 2 * n ∧ Digits b (c ++ [co.setWidth C]) ∧
      limbsVal b (c ++ [co.setWidth C]) = limbsVal b x * limbsVal b y := by
  have hC := ok.hC
  have hp := two_pow_pos' b
  have hprod : ∑ k ∈ range (2 * n - 1), col (fun i => (at' x i).toInt) (fun i => (at' y i).toInt) k * (2 ^ b) ^ k
      = limbsVal b x * limbsVal b y := by
    rw [val_sum b x, val_sum b y, hl, hl2]
    exact (cauchy n n _ _ (fun i hi => at'_out x i (by omega)) (fun i hi => at'_out y i (by omega)) (2 ^ b) (2 * n - 1) (by omega)).symm
  rw [hprod] at k1
  have hco0 : 0 ≤ co.toInt := by
    have hv := k1.dig.bounds.2
    have he := k1.eq
    rw [k1.len, pow_mul] at hv
    have hxy := mul_nonneg hx0 hy0
    have hpp : (0 : Int) < (2 ^ b) ^ (2 * n - 1) := by positivity
    by_contra hc
    have := mul_le_mul_of_nonneg_left (show co.toInt ≤ -1 by omega) hpp.le
    linarith
  have hco : co.toInt < 2 ^ b := by
    have hv := k1.dig.bounds.1
    have he := k1.eq
    have hlt := hlt
    have e : (2 : Int) ^ (b * n) * 2 ^ (b * n) = (2 ^ b) ^ (2 * n - 1) * 2 ^ b := by
      rw [← pow_mul, ← pow_add, ← pow_add]; congr 1
      rw [← Nat.mul_succ, ← Nat.mul_add]; congr 1; omega
    rw [e] at hlt
    have hpp : (0 : Int) < (2 ^ b) ^ (2 * n - 1) := by positivity
    by_contra hc
    have := mul_le_mul_of_nonneg_left (not_lt.1 hc) hpp.le
    linarith
  have hle : (2 : Int) ^ b ≤ 2 ^ (C - 1) := pow_le_pow_right₀ (by norm_num) (by omega)
  have hnar := toInt_narrow co hco0 (by omega) (by omega)
  refine ⟨by simp [k1.len]; omega, ?_, ?_⟩
  · apply k1.dig.append
    intro z hz
    simp only [List.mem_singleton] at hz
    subst hz
    rw [hnar]; exact ⟨hco0, hco⟩
  · rw [val_append, k1.len, ← k1.eq]
    simp [limbsVal, hnar, pow_mul]

/-- `Big::sqr` of an operand whose limbs are up to two digits -/
theorem sqr_signed {b : Nat} (ok : Ok C b) {x : Limbs C} (hx : LimbsWithin (2 * (2 ^ b - 1)) x) (hx0 : 0 ≤ limbsVal b x) (hn : 2 ≤ x.length) (hlt : limbsVal b x * limbsVal b x < 2 ^ (b * x.length) * 2 ^ (b * x.length))
    (hfit : (4 * x.length : Int) * (2 ^ b * 2 ^ b) ≤ 2 ^ (2 * C - 1)) :
    (sqr b x).length = 2 * x.length ∧ Digits b (sqr b x) ∧
      limbsVal b (sqr b x) = limbsVal b x * limbsVal b x := by
  have hp := two_pow_pos' b
  set n := x.length with hnn
  have hi : ColInv (C := C) b 0 [] 0 (∑ k ∈ range 0, col (fun i => (at' x i).toInt) (fun i => (at' x i).toInt) k * (2 ^ b) ^ k) (4 * x.length) :=
    ⟨rfl, fun x hx => by simp at hx, by simp [limbsVal], by simpa using mul_nonneg (by positivity) (by omega : (0 : Int) ≤ 2 ^ b - 1),
      by simpa using mul_nonneg (by positivity) (by omega : (0 : Int) ≤ 2 ^ b - 1)⟩
  have i0 := emit_step ok hx hfit (st := { c := [], co := 0 }) hi (wide (at' x 0) * wide (at' x 0)) (by simp [wide_mul, col])
  have i1 := sqrLoop ok hx hfit false (0 + 1) (by omega) ((n - 1) / 2) (fun i hi => by simp only [Bool.false_eq_true, if_false]; omega) _ i0
  have hj0 : 0 + 1 + 2 * ((n - 1) / 2) = n + n % 2 - 1 := by omega
  simp only at i1
  rw [hj0] at i1
  have i2 := sqrLoop ok hx hfit true (n + n % 2 - 1) (by omega) ((2 * n - 3 - (n + n % 2 - 1) + 1) / 2)
    (fun i hi => by simp only [if_true]; omega) _ i1
  have hj1 : n + n % 2 - 1 + 2 * ((2 * n - 3 - (n + n % 2 - 1) + 1) / 2) = 2 * n - 3 := by omega
  simp only at i2
  rw [hj1] at i2
  have hsqr : sqr b x = (emit b (emit b ((List.range ((2 * n - 3 - (n + n % 2 - 1) + 1) / 2)).foldl
        (fun st i => sqrPair b x true st (n + n % 2 - 1 + 2 * i))
        ((List.range ((n - 1) / 2)).foldl (fun st i => sqrPair b x false st (0 + 1 + 2 * i))
          (emit b { c := [], co := 0 } (wide (at' x 0) * wide (at' x 0)))))
      (wide (at' x (n - 2)) * wide (at' x (n - 1)) + wide (at' x (n - 2)) * wide (at' x (n - 1)) +
        ((List.range ((2 * n - 3 - (n + n % 2 - 1) + 1) / 2)).foldl
        (fun st i => sqrPair b x true st (n + n % 2 - 1 + 2 * i))
        ((List.range ((n - 1) / 2)).foldl (fun st i => sqrPair b x false st (0 + 1 + 2 * i))
          (emit b { c := [], co := 0 } (wide (at' x 0) * wide (at' x 0))))).co))
      (wide (at' x (n - 1)) * wide (at' x (n - 1)) + (emit b ((List.range ((2 * n - 3 - (n + n % 2 - 1) + 1) / 2)).foldl
        (fun st i => sqrPair b x true st (n + n % 2 - 1 + 2 * i))
        ((List.range ((n - 1) / 2)).foldl (fun st i => sqrPair b x false st (0 + 1 + 2 * i))
          (emit b { c := [], co := 0 } (wide (at' x 0) * wide (at' x 0)))))
      (wide (at' x (n - 2)) * wide (at' x (n - 1)) + wide (at' x (n - 2)) * wide (at' x (n - 1)) +
        ((List.range ((2 * n - 3 - (n + n % 2 - 1) + 1) / 2)).foldl
        (fun st i => sqrPair b x true st (n + n % 2 - 1 + 2 * i))
        ((List.range ((n - 1) / 2)).foldl (fun st i => sqrPair b x false st (0 + 1 + 2 * i))
          (emit b { c := [], co := 0 } (wide (at' x 0) * wide (at' x 0))))).co)).co)).c ++
      [(emit b (emit b ((List.range ((2 * n - 3 - (n + n % 2 - 1) + 1) / 2)).foldl
        (fun st i => sqrPair b x true st (n + n % 2 - 1 + 2 * i))
        ((List.range ((n - 1) / 2)).foldl (fun st i => sqrPair b x false st (0 + 1 + 2 * i))
          (emit b { c := [], co := 0 } (wide (at' x 0) * wide (at' x 0)))))
      (wide (at' x (n - 2)) * wide (at' x (n - 1)) + wide (at' x (n - 2)) * wide (at' x (n - 1)) +
        ((List.range ((2 * n - 3 - (n + n % 2 - 1) + 1) / 2)).foldl
        (fun st i => sqrPair b x true st (n + n % 2 - 1 + 2 * i))
        ((List.range ((n - 1) / 2)).foldl (fun st i => sqrPair b x false st (0 + 1 + 2 * i))
          (emit b { c := [], co := 0 } (wide (at' x 0) * wide (at' x 0))))).co))
      (wide (at' x (n - 1)) * wide (at' x (n - 1)) + (emit b ((List.range ((2 * n - 3 - (n + n % 2 - 1) + 1) / 2)).foldl
        (fun st i => sqrPair b x true st (n + n % 2 - 1 + 2 * i))
        ((List.range ((n - 1) / 2)).foldl (fun st i => sqrPair b x false st (0 + 1 + 2 * i))
          (emit b { c := [], co := 0 } (wide (at' x 0) * wide (at' x 0)))))
      (wide (at' x (n - 2)) * wide (at' x (n - 1)) + wide (at' x (n - 2)) * wide (at' x (n - 1)) +
        ((List.range ((2 * n - 3 - (n + n % 2 - 1) + 1) / 2)).foldl
        (fun st i => sqrPair b x true st (n + n % 2 - 1 + 2 * i))
        ((List.range ((n - 1) / 2)).foldl (fun st i => sqrPair b x false st (0 + 1 + 2 * i))
          (emit b { c := [], co := 0 } (wide (at' x 0) * wide (at' x 0))))).co)).co)).co.setWidth C] := by
    rfl
  rw [hsqr]
  clear hsqr
  generalize (List.range ((2 * n - 3 - (n + n % 2 - 1) + 1) / 2)).foldl
        (fun st i => sqrPair b x true st (n + n % 2 - 1 + 2 * i))
        ((List.range ((n - 1) / 2)).foldl (fun st i => sqrPair b x false st (0 + 1 + 2 * i))
          (emit b { c := [], co := 0 } (wide (at' x 0) * wide (at' x 0)))) = st at *
  have i3 := emit_step ok hx hfit i2
    (wide (at' x (n - 2)) * wide (at' x (n - 1)) + wide (at' x (n - 2)) * wide (at' x (n - 1)) + st.co) (by
      rw [col_sq x.length _ (at'_out x) (2 * n - 3) (n - 2) (Or.inr ⟨by omega, by omega, by omega⟩), if_neg (by omega),
        show (2 * n - 3 + 1) / 2 = (n - 2) + 1 by omega, Nat.Ico_succ_singleton, sum_singleton,
        show 2 * n - 3 - (n - 2) = n - 1 by omega, wide_mul]
      conv => lhs; rw [show st.co = BitVec.ofInt (2 * C) st.co.toInt from (ofInt_toInt' _).symm, ← BitVec.ofInt_add, ← BitVec.ofInt_add]
      congr 1; ring)
  generalize emit b st (wide (at' x (n - 2)) * wide (at' x (n - 1)) + wide (at' x (n - 2)) * wide (at' x (n - 1)) + st.co) = st' at *
  have i4 := emit_step ok hx hfit i3 (wide (at' x (n - 1)) * wide (at' x (n - 1)) + st'.co) (by
      rw [show 2 * n - 3 + 1 = 2 * n - 2 by omega, col_sq x.length _ (at'_out x) (2 * n - 2) (n - 1) (Or.inr ⟨by omega, by omega, by omega⟩),
        if_pos (by omega), show (2 * n - 2 + 1) / 2 = n - 1 by omega, show (2 * n - 2) / 2 = n - 1 by omega, wide_mul]
      conv => lhs; rw [show st'.co = BitVec.ofInt (2 * C) st'.co.toInt from (ofInt_toInt' _).symm, ← BitVec.ofInt_add]
      congr 1; simp; ring)
  rw [show 2 * n - 3 + 1 + 1 = 2 * n - 1 by omega] at i4
  exact colInv_final ok hx hx hx0 hx0 rfl rfl (by omega) hlt _ _ _ i4

end Verif.Big.Wide
