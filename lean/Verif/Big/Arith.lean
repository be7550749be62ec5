import Verif.Big.Shift
/- Helper lemmas: general shifts, list surgery, division. -/
namespace Verif.Big
open Spec (limbsVal Normal LimbsWithin)

variable {C : Nat}

/-! ### value of concatenations -/

theorem val_append (b : Nat) (xs ys : Limbs C) :
    limbsVal b (xs ++ ys) = limbsVal b xs + 2 ^ (b * xs.length) * limbsVal b ys := by
  induction xs with
  | nil => simp [limbsVal]
  | cons x xs ih =>
    simp only [List.cons_append, limbsVal, ih, List.length_cons, Nat.mul_succ, pow_add]; ring

theorem val_replicate_zero (b n : Nat) : limbsVal b (List.replicate n (0 : BitVec C)) = 0 := by
  induction n with
  | zero => simp [limbsVal]
  | succ n ih => rw [List.replicate_succ, limbsVal, ih]; simp

theorem val_zero (b n : Nat) : limbsVal b (zero C n) = 0 := val_replicate_zero b n

theorem zero_rep (b n : Nat) : Rep b n (zero C n) 0 := by
  refine ⟨by simp [zero], ?_, val_zero b n⟩
  unfold zero
  induction n with
  | zero => trivial
  | succ n ih => exact Spec.Normal.cons (by simp) (by simp) ih

theorem newInt_rep {b n : Nat} (ok : Ok C b) (hn : 0 < n) (x : Int) (h0 : 0 ≤ x) (h1 : x < 2 ^ b) :
    Rep b n (newInt C n x) x := by
  have hC := ok.hC
  obtain ⟨m, rfl⟩ : ∃ m, n = m + 1 := ⟨n - 1, by omega⟩
  have hz := zero_rep (C := C) b m
  have e : newInt C (m + 1) x = BitVec.ofInt C x :: zero C m := by simp [newInt, zero, List.replicate_succ]
  have hle : (2 : Int) ^ b ≤ 2 ^ (C - 1) := pow_le_pow_right₀ (by norm_num) (by omega)
  have hx : (BitVec.ofInt C x).toInt = x := toInt_ofInt_of (by omega) (by have := two_pow_pos' (C - 1); omega) (by omega)
  rw [e]
  exact ⟨by simp [hz.len], Spec.Normal.cons (by omega) (by omega) hz.low, by simp [limbsVal, hx, hz.val]⟩

theorem normal_append {b : Nat} (xs ys : Limbs C)
    (h : ∀ x ∈ xs, 0 ≤ x.toInt ∧ x.toInt < 2 ^ b) (hy : Normal b ys) : Normal b (xs ++ ys) := by
  induction xs with
  | nil => exact hy
  | cons x xs ih =>
    have := h x (by simp)
    exact Spec.Normal.cons this.1 this.2 (ih (fun z hz => h z (by simp [hz])))

theorem Digits.normal {b : Nat} {w : Limbs C} (h : Digits b w) : Normal b w := by
  induction w with
  | nil => trivial
  | cons x xs ih =>
    have := h x (by simp)
    exact Spec.Normal.cons this.1 this.2 (ih (fun z hz => h z (by simp [hz])))

theorem Digits.bounds {b : Nat} {w : Limbs C} (h : Digits b w) : 0 ≤ limbsVal b w ∧ limbsVal b w < 2 ^ (b * w.length) := by
  have hB := two_pow_pos' b
  induction w with
  | nil => simp [limbsVal]
  | cons x xs ih =>
    have hx := h x (by simp)
    have IH := ih (fun z hz => h z (by simp [hz]))
    simp only [limbsVal, List.length_cons, Nat.mul_succ, pow_add]
    constructor
    · have := mul_nonneg hB.le IH.1; omega
    · have : 2 ^ b * (limbsVal b xs + 1) ≤ 2 ^ b * 2 ^ (b * xs.length) :=
        mul_le_mul_of_nonneg_left (by omega) hB.le
      linarith

/-- a normal number in `[0, 2^(b n))` has only digits -/
theorem digits_of_normal {b : Nat} {w : Limbs C} (hN : Normal b w) (h0 : 0 ≤ limbsVal b w)
    (h1 : limbsVal b w < 2 ^ (b * w.length)) : Digits b w := by
  have hB := two_pow_pos' b
  induction w with
  | nil => intro x hx; simp at hx
  | cons x xs ih =>
    by_cases hne : xs = []
    · subst hne
      simp only [limbsVal, mul_zero, add_zero, List.length_singleton, mul_one] at h0 h1
      intro z hz; simp only [List.mem_singleton] at hz; subst hz; exact ⟨h0, h1⟩
    · have hx := hN.head hne
      simp only [limbsVal, List.length_cons, Nat.mul_succ, pow_add] at h0 h1
      have i := ih hN.tail
        (by
          by_contra hc
          have : 2 ^ b * (limbsVal b xs + 1) ≤ 2 ^ b * 0 := mul_le_mul_of_nonneg_left (by omega) hB.le
          linarith)
        (by
          by_contra hc
          have : 2 ^ b * 2 ^ (b * xs.length) ≤ 2 ^ b * limbsVal b xs :=
            mul_le_mul_of_nonneg_left (by omega) hB.le
          linarith)
      intro z hz
      simp only [List.mem_cons] at hz
      rcases hz with rfl | hz
      · exact hx
      · exact i z hz

theorem Digits.append {b : Nat} {u v : Limbs C} (hu : Digits b u) (hv : Digits b v) : Digits b (u ++ v) := by
  intro x hx; rcases List.mem_append.1 hx with h | h
  · exact hu x h
  · exact hv x h

theorem Digits.take {b : Nat} {u : Limbs C} (hu : Digits b u) (k : Nat) : Digits b (u.take k) :=
  fun x hx => hu x (List.mem_of_mem_take hx)
theorem Digits.drop {b : Nat} {u : Limbs C} (hu : Digits b u) (k : Nat) : Digits b (u.drop k) :=
  fun x hx => hu x (List.mem_of_mem_drop hx)

theorem digits_zero (b n : Nat) : Digits b (List.replicate n (0 : BitVec C)) := by
  intro x hx
  rw [List.eq_of_mem_replicate hx]
  simp

theorem Digits.within {b : Nat} {u : Limbs C} (hu : Digits b u) (T : Int) (hT : 2 ^ b ≤ T) : LimbsWithin T u :=
  fun x hx => by have := hu x hx; have := two_pow_pos' b; constructor <;> omega

/-- low part / high part of a digit string -/
theorem take_drop_val {b : Nat} {w : Limbs C} (h : Digits b w) (k : Nat) (hk : k ≤ w.length) :
    limbsVal b (w.take k) = limbsVal b w % 2 ^ (b * k) ∧ limbsVal b (w.drop k) = limbsVal b w / 2 ^ (b * k) := by
  have e := val_append b (w.take k) (w.drop k)
  rw [List.take_append_drop, List.length_take, Nat.min_eq_left hk] at e
  have hb := (h.take k).bounds
  rw [List.length_take, Nat.min_eq_left hk] at hb
  have hp := two_pow_pos' (b * k)
  constructor
  · rw [e, Int.add_mul_emod_self_left, Int.emod_eq_of_lt hb.1 hb.2]
  · rw [e, Int.add_mul_ediv_left _ _ hp.ne', Int.ediv_eq_zero_of_lt hb.1 hb.2, zero_add]

theorem normal_drop {b : Nat} {w : Limbs C} (h : Normal b w) (k : Nat) : Normal b (w.drop k) := by
  induction k generalizing w with
  | zero => simpa using h
  | succ k ih => cases w with
    | nil => simpa using h
    | cons x xs => simpa using ih h.tail

theorem drop_val {b : Nat} {w : Limbs C} (h : Normal b w) (k : Nat) (hk : k < w.length) :
    limbsVal b (w.drop k) = limbsVal b w / 2 ^ (b * k) := by
  induction k generalizing w with
  | zero => simp
  | succ k ih => cases w with
    | nil => simp at hk
    | cons x xs =>
      have hne : xs ≠ [] := by rintro rfl; simp at hk
      have hx := h.head hne
      have hB := two_pow_pos' b
      rw [List.drop_succ_cons, ih h.tail (by simpa using hk), limbsVal, Nat.mul_succ, Nat.add_comm, pow_add,
        ← Int.ediv_ediv_of_nonneg hB.le, Int.add_mul_ediv_left _ _ hB.ne', Int.ediv_eq_zero_of_lt hx.1 hx.2, zero_add]

/-! ### general shifts -/

theorem shr_length {b k : Nat} (ws : Limbs C) (hk : k / b < ws.length) : (shr b k ws).length = ws.length := by
  simp [shr, fshr_length, List.length_drop]; omega

theorem shr_val {b k : Nat} (ok : Ok C b) (ws : Limbs C) (hk : k / b < ws.length) (hN : Normal b ws) :
    limbsVal b (shr b k ws) = limbsVal b ws / 2 ^ k := by
  have hbpos : 0 < b := by have := ok.hb; omega
  obtain ⟨f1, f2⟩ := fshr_spec ok (Nat.mod_lt k hbpos).le (ws.drop (k / b)) (normal_drop hN _)
  unfold shr
  rw [val_append, val_replicate_zero, mul_zero, add_zero, f2, drop_val hN _ hk,
    Int.ediv_ediv_of_nonneg (two_pow_pos' _).le, ← pow_add, Nat.div_add_mod]

theorem Rep.digits {b n : Nat} {w : Limbs C} {V : Int} (h : Rep b n w V) (h0 : 0 ≤ V) (h1 : V < 2 ^ (b * n)) :
    Digits b w := digits_of_normal h.low (by rw [h.val]; exact h0) (by rw [h.val, h.len]; exact h1)

theorem Rep.of_digits {b : Nat} {w : Limbs C} (h : Digits b w) : Rep b w.length w (limbsVal b w) :=
  ⟨rfl, h.normal, rfl⟩

theorem shr_rep {b k n : Nat} (ok : Ok C b) {ws : Limbs C} {V : Int} (hr : Rep b n ws V) (hk : k / b < n)
    (h0 : 0 ≤ V) (h1 : V < 2 ^ (b * n)) : Rep b n (shr b k ws) (V / 2 ^ k) := by
  have hbpos : 0 < b := by have := ok.hb; omega
  have hk' : k / b < ws.length := by rw [hr.len]; exact hk
  have hd := hr.digits h0 h1
  refine ⟨by rw [shr_length ws hk', hr.len], ?_, by rw [shr_val ok ws hk' hr.low, hr.val]⟩
  obtain ⟨f1, f2⟩ := fshr_spec ok (Nat.mod_lt k hbpos).le (ws.drop (k / b)) (normal_drop hr.low _)
  apply normal_append _ _ _ (Digits.normal (digits_zero b _))
  have hb := (hd.drop (k / b)).bounds
  apply digits_of_normal f1
  · rw [f2]; exact Int.ediv_nonneg hb.1 (two_pow_pos' _).le
  · rw [f2, fshr_length]
    exact lt_of_le_of_lt (Int.ediv_le_self _ hb.1) hb.2

theorem fshlGo_at {b n : Nat} (prev : BitVec C) (ws : Limbs C) (i : Nat) (hi : i < ws.length) :
    (fshlGo b n prev ws)[i]? = some (if i = ws.length - 1 then
        (at' ws i <<< n) ||| (at' (prev :: ws) i).sshiftRight (b - n)
      else ((at' ws i <<< n) &&& bmask C b) ||| (at' (prev :: ws) i).sshiftRight (b - n)) := by
  induction ws generalizing prev i with
  | nil => simp at hi
  | cons x xs ih =>
    cases xs with
    | nil =>
      have : i = 0 := by simpa using hi
      subst this; simp [fshlGo, at']
    | cons y r =>
      cases i with
      | zero => simp [fshlGo, at']
      | succ i =>
        have IH := ih x i (by simpa using hi)
        show ((_ :: fshlGo b n x (y :: r))[i+1]?) = _
        rw [List.getElem?_cons_succ, IH]
        simp only [at', List.getD_cons_succ, List.length_cons]
        congr 2
        simp

theorem fshlGo_length {b n : Nat} (prev : BitVec C) (ws : Limbs C) : (fshlGo b n prev ws).length = ws.length := by
  induction ws generalizing prev with
  | nil => rfl
  | cons x xs ih =>
    cases xs with
    | nil => rfl
    | cons y r => show (_ :: fshlGo b n x (y :: r)).length = _; rw [List.length_cons, ih]; rfl

theorem fshl_length {b n : Nat} (ws : Limbs C) : (fshl b n ws).length = ws.length := by
  cases ws with
  | nil => rfl
  | cons x xs => simp [fshl, fshlGo_length]

theorem at'_take (w : Limbs C) (k i : Nat) (h : i < k) : at' (w.take k) i = at' w i := by
  simp [at', h]

theorem shl_eq {b k : Nat} (ws : Limbs C) (hk : k / b < ws.length) :
    shl b k ws = List.replicate (k / b) 0 ++ fshl b (k % b) (ws.take (ws.length - k / b)) := by
  unfold shl
  generalize hm : k / b = m at hk ⊢
  generalize hr : k % b = r
  apply List.ext_getElem?
  intro i
  have hl : (fshl b r (ws.take (ws.length - m))).length = ws.length - m := by
    rw [fshl_length, List.length_take]; omega
  by_cases hi : i < ws.length
  · simp only [List.getElem?_map, List.getElem?_range hi, Option.map_some]
    by_cases hm : i < m
    · rw [if_pos hm, List.getElem?_append_left (by simpa using hm)]
      simp [hm]
    · rw [if_neg hm, List.getElem?_append_right (by simpa using (by omega : m ≤ i))]
      simp only [List.length_replicate]
      cases ws with
      | nil => simp at hi
      | cons x xs =>
        have ht : (x :: xs).take ((x :: xs).length - m) = x :: xs.take (xs.length - m) := by
          rw [show (x :: xs).length - m = (xs.length - m) + 1 by simp at hk ⊢; omega]; rfl
        rw [ht]
        by_cases he : i = m
        · simp [he, fshl, at']
        · rw [if_neg he]
          obtain ⟨j, hj⟩ : ∃ j, i - m = j + 1 := ⟨i - m - 1, by omega⟩
          rw [hj]
          simp only [fshl, List.getElem?_cons_succ]
          have hjl : j < (xs.take (xs.length - m)).length := by
            rw [List.length_take]; simp at hi hk ⊢; omega
          rw [fshlGo_at _ _ _ hjl]
          have e1 : at' (xs.take (xs.length - m)) j = at' (x :: xs) (j + 1) := by
            rw [at'_take _ _ _ (by simp at hjl; omega)]; simp [at']
          have e2 : at' (x :: xs.take (xs.length - m)) j = at' (x :: xs) (j + 1 - 1) := by
            rw [Nat.add_sub_cancel]
            rw [show x :: xs.take (xs.length - m) = (x :: xs).take (xs.length - m + 1) from rfl]
            rw [at'_take _ _ _ (by simp at hjl; omega)]
          rw [e1, e2]
          have e3 : (i = (x :: xs).length - 1) ↔ (j = (xs.take (xs.length - m)).length - 1) := by
            rw [List.length_take]; simp at hi hk ⊢; omega
          simp only [e3]
  · rw [List.getElem?_eq_none (by simp; omega), List.getElem?_eq_none (by simp [hl]; omega)]

theorem shl_small {b k : Nat} (hk : k < b) (ws : Limbs C) (hne : ws ≠ []) : shl b k ws = fshl b k ws := by
  have h : k / b = 0 := Nat.div_eq_of_lt hk
  rw [shl_eq ws (by rw [h]; exact List.length_pos_of_ne_nil hne), h, Nat.mod_eq_of_lt hk]
  simp

theorem shr_small {b k : Nat} (hk : k < b) (ws : Limbs C) : shr b k ws = fshr b k ws := by
  have h : k / b = 0 := Nat.div_eq_of_lt hk
  simp [shr, h, Nat.mod_eq_of_lt hk]

/-- the top limb is the quotient by the weight of its position -/
theorem top_eq {b : Nat} (w : Limbs C) (hne : w ≠ []) (hN : Normal b w) :
    (w.getLastD 0).toInt = limbsVal b w / 2 ^ (b * (w.length - 1)) := by
  have hl := List.length_pos_of_ne_nil hne
  rw [← drop_val hN _ (by omega), List.drop_length_sub_one hne]
  simp [limbsVal, List.getLastD_eq_getLast?, List.getLast?_eq_some_getLast hne]

/-- exact shift left when the result fits in the digits of the array -/
theorem shl_rep {b k n : Nat} (ok : Ok C b) {ws : Limbs C} {V : Int} (hr : Rep b n ws V) (hk : k / b < n)
    (h0 : 0 ≤ V) (h1 : V * 2 ^ k < 2 ^ (b * n)) : Rep b n (shl b k ws) (V * 2 ^ k) := by
  have hb := ok.hb
  have hC := ok.hC
  have hkb := Nat.div_add_mod k b
  have hmod := Nat.mod_lt k (by omega : b > 0)
  have hlen := hr.len
  rw [shl_eq ws (by omega)]
  generalize k / b = m at *
  generalize k % b = r at *
  have hVlt : V < 2 ^ (b * n) := by
    have : V * 1 ≤ V * 2 ^ k := mul_le_mul_of_nonneg_left (by have := two_pow_pos' k; omega) h0
    omega
  have hd := hr.digits h0 hVlt
  have hsplit : (2 : Int) ^ (b * n) = 2 ^ (b * (n - m)) * 2 ^ (b * m) := by
    rw [← pow_add, ← Nat.mul_add]; congr 2; omega
  have hk2 : (2 : Int) ^ k = 2 ^ (b * m) * 2 ^ r := by
    rw [← pow_add, hkb]
  have hV2 : V * 2 ^ r < 2 ^ (b * (n - m)) := by
    have hp := two_pow_pos' (b * m)
    rw [hsplit, hk2] at h1
    by_contra hc
    push Not at hc
    have := mul_le_mul_of_nonneg_right hc hp.le
    nlinarith
  have hV3 : V < 2 ^ (b * (n - m)) := by
    have : V * 1 ≤ V * 2 ^ r := mul_le_mul_of_nonneg_left (by have := two_pow_pos' r; omega) h0
    omega
  obtain ⟨t1, t2⟩ := take_drop_val hd (n - m) (by omega)
  rw [hr.val, Int.emod_eq_of_lt h0 hV3] at t1
  rw [hlen]
  have htl : (ws.take (n - m)).length = n - m := by rw [List.length_take]; omega
  have htd := hd.take (n - m)
  have hfl : (fshl b r (ws.take (n - m))).length = n - m := by
    rw [fshl_length, htl]
  have key : Normal b (fshl b r (ws.take (n - m))) ∧
      limbsVal b (fshl b r (ws.take (n - m))) = V * 2 ^ r := by
    by_cases h2 : 2 ≤ n - m
    · have hne : ws.take (n - m) ≠ [] := by intro h; rw [h] at htl; simp at htl; omega
      have ht := top_eq _ hne htd.normal
      rw [htl, t1] at ht
      have hp := two_pow_pos' (b * (n - m - 1))
      have hpr := two_pow_pos' r
      have hle : (V / 2 ^ (b * (n - m - 1)) ) * 2 ^ r < 2 ^ b := by
        have e : (2 : Int) ^ (b * (n - m)) = 2 ^ b * 2 ^ (b * (n - m - 1)) := by
          rw [← pow_add]; congr 1
          conv => lhs; rw [show n - m = (n - m - 1) + 1 by omega, Nat.mul_succ, Nat.add_comm]
        have h3 := Int.mul_ediv_self_le (x := V) (k := 2 ^ (b * (n - m - 1))) hp.ne'
        by_contra hc
        push Not at hc
        have h4 := mul_le_mul_of_nonneg_right hc hp.le
        have h5 := mul_le_mul_of_nonneg_right h3 hpr.le
        nlinarith
      have h2b : (2 : Int) ^ b + 2 ^ r ≤ 2 ^ (C - 1) := by
        have e1 : (2 : Int) ^ r ≤ 2 ^ b := pow_le_pow_right₀ (by norm_num) (by omega)
        have e2 : (2 : Int) ^ (b + 1) ≤ 2 ^ (C - 1) := pow_le_pow_right₀ (by norm_num) (by omega)
        rw [pow_succ] at e2; linarith
      have := fshl_spec' (n := r) ok hmod.le (ws.take (n - m)) (by omega)
        htd.normal
        (by rw [ht]; have := mul_nonneg (Int.ediv_nonneg h0 hp.le) hpr.le; have := two_pow_pos' (C - 1); omega)
        (by rw [ht]; nlinarith)
      rw [t1] at this; exact ⟨this.2.1, by rw [this.2.2]; ring⟩
    · have h1' : n - m = 1 := by omega
      rw [h1'] at htl t1 hV2 ⊢
      match hw : ws.take 1, htl with
      | [x], _ =>
        rw [hw] at t1
        simp only [limbsVal, mul_zero, add_zero] at t1
        rw [mul_one] at hV2
        refine ⟨trivial, ?_⟩
        simp only [fshl, fshlGo, limbsVal, mul_zero, add_zero]
        rw [toInt_shl_mask _ _ _ (by omega), t1, Int.emod_eq_of_lt (by have := two_pow_pos' r; positivity) hV2]
  refine ⟨by simp [hfl]; omega, ?_, ?_⟩
  · exact normal_append _ _ (digits_zero b m) key.1
  · rw [val_append, val_replicate_zero, List.length_replicate, key.2, hk2]; ring

end Verif.Big
