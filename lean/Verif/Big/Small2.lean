import Verif.Big.Small
import Verif.Common.Bytes
import Mathlib.Tactic.LinearCombination
/- Helper lemmas: small multiples, multiply-add, division by three, truncated product, byte codecs. -/
namespace Verif.Big
open Spec (limbsVal Normal LimbsWithin)

variable {C : Nat}

theorem imul_val {b : Nat} (hC : 0 < C) (w : Limbs C) (c T : Int) (hw : LimbsWithin T w)
    (hc : |c| * T < 2 ^ (C - 1)) (hc' : |c| < 2 ^ (C - 1)) :
    limbsVal b (imul w c) = c * limbsVal b w ∧ LimbsWithin (|c| * T) (imul w c) := by
  have hcc : (BitVec.ofInt C c).toInt = c :=
    toInt_ofInt_of hC (by have := neg_abs_le c; linarith) (lt_of_le_of_lt (le_abs_self c) hc')
  have key : ∀ x ∈ w, (x * BitVec.ofInt C c).toInt = x.toInt * c ∧ |x.toInt * c| ≤ |c| * T := by
    intro x hx
    have h := hw x hx
    have h1 : |x.toInt * c| ≤ |c| * T := by
      rw [abs_mul, mul_comm]
      exact mul_le_mul_of_nonneg_left (abs_le.2 ⟨by linarith, h.2⟩) (abs_nonneg c)
    have h2 := abs_le.1 h1
    refine ⟨?_, h1⟩
    rw [toInt_mul_of _ _ hC, hcc] <;> rw [hcc] <;> linarith [h2.1, h2.2]
  constructor
  · clear hw
    induction w with
    | nil => simp [imul, limbsVal]
    | cons x xs ih =>
      have := (key x (by simp)).1
      have IH := ih (fun z hz => key z (by simp [hz]))
      simp only [imul, List.map_cons, limbsVal] at IH ⊢
      rw [this, IH]; ring
  · intro z hz
    simp only [imul, List.mem_map] at hz
    obtain ⟨x, hx, rfl⟩ := hz
    obtain ⟨k1, k2⟩ := key x hx
    have := abs_le.1 k2
    rw [k1]; exact ⟨by linarith, by linarith⟩

theorem dbl_eq_add (w : Limbs C) : dbl w = add w w := by
  simp [dbl, add, List.zipWith_self]

theorem rsub_eq (x y : Limbs C) : rsub x y = sub y x := by
  simp only [rsub, sub]
  rw [List.zipWith_comm]

theorem set_zero_val {b : Nat} (w : Limbs C) (hne : w ≠ []) (x : BitVec C) :
    limbsVal b (w.set 0 x) = limbsVal b w - (at' w 0).toInt + x.toInt := by
  cases w with
  | nil => exact absurd rfl hne
  | cons y ys => simp [limbsVal, at']; ring

theorem inc_val {b n : Nat} (ok : Ok C b) (hn : 0 < n) (w : Limbs C) {V : Int} (h : Rep b n (norm b w) V) (x : Int)
    (hx : |x| < 2 ^ (C - 2)) (h1 : |(at' (norm b w) 0).toInt| < 2 ^ (C - 2)) :
    limbsVal b (inc b w x) = V + x ∧ limbsVal b (dec b w x) = V - x := by
  have hC := ok.hC
  have e : (2 : Int) ^ (C - 1) = 2 * 2 ^ (C - 2) := by rw [← pow_succ']; congr 1; omega
  have hx' := abs_lt.1 hx
  have h1' := abs_lt.1 h1
  have hxx : (BitVec.ofInt C x).toInt = x := toInt_ofInt_of (by omega) (by linarith) (by linarith)
  have hne := h.ne_nil hn
  constructor
  · simp only [inc]
    rw [set_zero_val _ hne, toInt_add_of _ _ (by omega) (by rw [hxx]; linarith) (by rw [hxx]; linarith), hxx, h.val]; ring
  · simp only [dec]
    rw [set_zero_val _ hne, toInt_sub_of _ _ (by omega) (by rw [hxx]; linarith) (by rw [hxx]; linarith), hxx, h.val]; ring

/-! ### multiply-add -/

theorem muladd_spec {b : Nat} (ok : Ok C b) (x y c r : BitVec C) (hx : 0 ≤ x.toInt ∧ x.toInt < 2 ^ b)
    (hy : 0 ≤ y.toInt ∧ y.toInt < 2 ^ b) (hc : 0 ≤ c.toInt ∧ c.toInt < 2 ^ b) (hr : 0 ≤ r.toInt ∧ r.toInt < 2 ^ b) :
    (0 ≤ (muladd b x y c r).1.toInt ∧ (muladd b x y c r).1.toInt < 2 ^ b) ∧
    (0 ≤ (muladd b x y c r).2.toInt ∧ (muladd b x y c r).2.toInt < 2 ^ b) ∧
    (muladd b x y c r).2.toInt + 2 ^ b * (muladd b x y c r).1.toInt = x.toInt * y.toInt + c.toInt + r.toInt := by
  have hC := ok.hC
  have hb := ok.hb
  have hB := two_pow_pos' b
  have hP0 : 0 ≤ x.toInt * y.toInt := mul_nonneg hx.1 hy.1
  have hP1 : x.toInt * y.toInt ≤ (2 ^ b - 1) * (2 ^ b - 1) :=
    mul_le_mul (by omega) (by omega) hy.1 (by omega)
  have hPlt : x.toInt * y.toInt + c.toInt + r.toInt < 2 ^ b * 2 ^ b := by nlinarith
  have hP0' : 0 ≤ x.toInt * y.toInt + c.toInt + r.toInt := by linarith [hc.1, hr.1]
  have hbig : (2 : Int) ^ b * 2 ^ b ≤ 2 ^ (2 * C - 1) := by
    rw [← pow_add]; exact pow_le_pow_right₀ (by norm_num) (by omega)
  have hprod : (wide x * wide y + wide c + wide r).toInt = x.toInt * y.toInt + c.toInt + r.toInt := by
    rw [wide_mul, wide_eq c, wide_eq r, ← BitVec.ofInt_add, ← BitVec.ofInt_add]
    exact toInt_ofInt_of (by omega) (by have := two_pow_pos' (2 * C - 1); omega) (by omega)
  have e : muladd b x y c r = (((wide x * wide y + wide c + wide r).sshiftRight b).setWidth C,
      ((wide x * wide y + wide c + wide r) &&& wide (bmask C b)).setWidth C) := rfl
  generalize wide x * wide y + wide c + wide r = p at *
  generalize x.toInt * y.toInt + c.toInt + r.toInt = P at *
  have h2 : (muladd b x y c r).2.toInt = P % 2 ^ b := by rw [e]; simp only; rw [digit_toInt ok, hprod]
  have hd0 : 0 ≤ P / 2 ^ b := Int.ediv_nonneg hP0' hB.le
  have hd1 : P / 2 ^ b < 2 ^ b := Int.ediv_lt_of_lt_mul hB hPlt
  have hle : (2 : Int) ^ b ≤ 2 ^ (C - 1) := pow_le_pow_right₀ (by norm_num) (by omega)
  have h1 : (muladd b x y c r).1.toInt = P / 2 ^ b := by
    rw [e]; simp only
    have hs : (p.sshiftRight b).toInt = P / 2 ^ b := by rw [toInt_sshr, hprod]
    rw [toInt_narrow _ (by omega) (by omega) (by omega), hs]
  rw [h1, h2]
  refine ⟨⟨hd0, hd1⟩, ⟨Int.emod_nonneg _ hB.ne', Int.emod_lt_of_pos _ hB⟩, Int.emod_add_mul_ediv _ _⟩

theorem pmulGo_spec {b : Nat} (ok : Ok C b) (c : BitVec C) (hc : 0 ≤ c.toInt ∧ c.toInt < 2 ^ b) (w : Limbs C)
    (hw : Digits b w) (carry : BitVec C) (hcar : 0 ≤ carry.toInt ∧ carry.toInt < 2 ^ b) :
    (pmulGo b c carry w).1.length = w.length ∧ Digits b (pmulGo b c carry w).1 ∧
      (0 ≤ (pmulGo b c carry w).2.toInt ∧ (pmulGo b c carry w).2.toInt < 2 ^ b) ∧
      limbsVal b (pmulGo b c carry w).1 + 2 ^ (b * w.length) * (pmulGo b c carry w).2.toInt
        = c.toInt * limbsVal b w + carry.toInt := by
  induction w generalizing carry with
  | nil => refine ⟨rfl, ?_, hcar, ?_⟩
           · intro z hz; simp [pmulGo] at hz
           · simp [pmulGo, limbsVal]
  | cons x xs ih =>
    have hx := hw x (by simp)
    obtain ⟨m1, m2, m3⟩ := muladd_spec ok x c carry 0 hx hc hcar (by simp)
    obtain ⟨i1, i2, i3, i4⟩ := ih (fun z hz => hw z (by simp [hz])) (muladd b x c carry 0).1 m1
    refine ⟨by simp only [pmulGo, List.length_cons, i1], ?_, i3, ?_⟩
    · intro z hz
      simp only [pmulGo, List.mem_cons] at hz
      rcases hz with rfl | hz
      · exact m2
      · exact i2 z hz
    · simp only [pmulGo, limbsVal, List.length_cons, Nat.mul_succ, pow_add]
      have : (0 : BitVec C).toInt = 0 := by simp
      rw [this] at m3
      linear_combination m3 + 2 ^ b * i4

/-! ### division by three -/

theorem div3Go_spec {b : Nat} (ok : Ok C b) (w : Limbs C) (hN : Normal b w) (h0 : 0 ≤ limbsVal b w) :
    (div3Go b w).1.length = w.length ∧ Normal b (div3Go b w).1 ∧
      limbsVal b (div3Go b w).1 = limbsVal b w / 3 ∧ (div3Go b w).2.toInt = limbsVal b w % 3 := by
  have hC := ok.hC
  have hb := ok.hb
  have hB := two_pow_pos' b
  have three : (3 : BitVec C).toInt = 3 := by
    have h8 : (2 : Int) ^ 2 ≤ 2 ^ (C - 1) := pow_le_pow_right₀ (by norm_num) (by omega)
    have := toInt_ofInt_of (C := C) (x := 3) (by omega) (by omega) (by omega)
    rw [← this]; congr 1
  have hsd : ∀ a : BitVec C, 0 ≤ a.toInt → (a.sdiv 3).toInt = a.toInt / 3 := by
    intro a ha
    rw [BitVec.toInt_sdiv_of_ne_or_ne _ _ (Or.inr (by
          intro h
          have := congrArg BitVec.toInt h
          rw [three, BitVec.toInt_neg] at this
          have h1 : (1#C).toInt = 1 := by simpa using toInt_one_shl (C := C) (k := 0) (by omega)
          have h8 : (2 : Int) ^ 2 ≤ 2 ^ (C - 1) := pow_le_pow_right₀ (by norm_num) (by omega)
          rw [h1, bmod_two_pow (by omega) (by omega) (by omega)] at this
          omega)), three, Int.tdiv_eq_ediv_of_nonneg ha]
  have hsm : ∀ a : BitVec C, 0 ≤ a.toInt → (a.srem 3).toInt = a.toInt % 3 := by
    intro a ha
    rw [BitVec.toInt_srem, three, Int.tmod_eq_emod_of_nonneg ha]
  induction w with
  | nil => simp [div3Go, limbsVal, Normal]
  | cons x xs ih =>
    simp only [limbsVal] at h0
    by_cases hne : xs = []
    · subst hne
      simp only [limbsVal, mul_zero, add_zero] at h0
      have e : ((div3Go b ([] : Limbs C)).2 * (1#C <<< b) + x) = x := by simp [div3Go]
      have hg : div3Go b [x] = ([x.sdiv 3], x.srem 3) := by
        simp [div3Go]
      rw [hg]
      refine ⟨rfl, trivial, ?_, ?_⟩
      · simp only [limbsVal, mul_zero, add_zero]; exact hsd x h0
      · simp only [limbsVal, mul_zero, add_zero]; exact hsm x h0
    · have hx := hN.head hne
      have hxs0 : 0 ≤ limbsVal b xs := by
        by_contra h
        have : limbsVal b xs ≤ -1 := by omega
        nlinarith
      obtain ⟨i1, i2, i3, i4⟩ := ih hN.tail hxs0
      have hm0 := Int.emod_nonneg (limbsVal b xs) (by norm_num : (3 : Int) ≠ 0)
      have hm3 := Int.emod_lt_of_pos (limbsVal b xs) (by norm_num : (0 : Int) < 3)
      have hle : (4 : Int) * 2 ^ b ≤ 2 ^ (C - 1) := by
        rw [show (4 : Int) = 2 ^ 2 by norm_num, ← pow_add]; exact pow_le_pow_right₀ (by norm_num) (by omega)
      have h1 := toInt_one_shl (C := C) (k := b) (by omega)
      have hmul : ((div3Go b xs).2 * (1#C <<< b)).toInt = limbsVal b xs % 3 * 2 ^ b := by
        rw [toInt_mul_of _ _ (by omega), h1, i4] <;> rw [h1, i4] <;> nlinarith
      have hak : ((div3Go b xs).2 * (1#C <<< b) + x).toInt = limbsVal b xs % 3 * 2 ^ b + x.toInt := by
        rw [toInt_add_of _ _ (by omega), hmul] <;> rw [hmul] <;> nlinarith
      have hak0 : 0 ≤ limbsVal b xs % 3 * 2 ^ b + x.toInt := by nlinarith
      have hsum : x.toInt + 2 ^ b * limbsVal b xs = (limbsVal b xs % 3 * 2 ^ b + x.toInt) + 3 * (2 ^ b * (limbsVal b xs / 3)) := by
        have := Int.emod_add_mul_ediv (limbsVal b xs) 3
        linear_combination (2 : Int) ^ b * (-this)
      simp only [div3Go]
      have hq : (((div3Go b xs).2 * (1#C <<< b) + x).sdiv 3).toInt = (limbsVal b xs % 3 * 2 ^ b + x.toInt) / 3 := by
        rw [hsd _ (by rw [hak]; exact hak0), hak]
      refine ⟨by simp [i1], ?_, ?_, ?_⟩
      · apply Spec.Normal.cons _ _ i2
        · rw [hq]; omega
        · rw [hq]; apply Int.ediv_lt_of_lt_mul (by norm_num); nlinarith
      · simp only [limbsVal]
        rw [hq, i3, hsum, Int.add_mul_ediv_left _ _ (by norm_num)]
      · simp only [limbsVal]
        rw [hsm _ (by rw [hak]; exact hak0), hak, hsum, Int.add_mul_emod_self_left]

/-! ### truncated product -/

theorem smulRow_spec {b : Nat} (ok : Ok C b) (x : BitVec C) (hx : 0 ≤ x.toInt ∧ x.toInt < 2 ^ b) (ys cs : Limbs C)
    (hl : cs.length ≤ ys.length) (hy : Digits b ys) (hc : Digits b cs) (carry : BitVec C)
    (hcar : 0 ≤ carry.toInt ∧ carry.toInt < 2 ^ b) :
    (smulRow b x carry ys cs).length = cs.length ∧ Digits b (smulRow b x carry ys cs) ∧
      ∃ k : Int, limbsVal b (smulRow b x carry ys cs) + 2 ^ (b * cs.length) * k
        = limbsVal b cs + carry.toInt + x.toInt * limbsVal b ys := by
  induction cs generalizing ys carry with
  | nil =>
    cases ys with
    | nil => exact ⟨rfl, hc, carry.toInt, by simp [smulRow, limbsVal]⟩
    | cons y ys => exact ⟨rfl, hc, carry.toInt + x.toInt * limbsVal b (y :: ys), by simp [smulRow, limbsVal]⟩
  | cons c cs ih =>
    cases ys with
    | nil => simp at hl
    | cons y ys =>
      obtain ⟨m1, m2, m3⟩ := muladd_spec ok x y carry c hx (hy y (by simp)) hcar (hc c (by simp))
      obtain ⟨i1, i2, k, i3⟩ := ih ys (by simpa using hl) (fun z hz => hy z (by simp [hz]))
        (fun z hz => hc z (by simp [hz])) (muladd b x y carry c).1 m1
      refine ⟨by simp [smulRow, i1], ?_, k, ?_⟩
      · intro z hz
        simp only [smulRow, List.mem_cons] at hz
        rcases hz with rfl | hz
        · exact m2
        · exact i2 z hz
      · simp only [smulRow, limbsVal, List.length_cons, Nat.mul_succ, pow_add]
        linear_combination m3 + 2 ^ b * i3

theorem smulGo_spec {b : Nat} (ok : Ok C b) (y : Limbs C) (hy : Digits b y) (xs cs : Limbs C) (hl : xs.length = cs.length)
    (hl2 : cs.length ≤ y.length) (hx : Digits b xs) (hc : Digits b cs) :
    (smulGo b y xs cs).length = cs.length ∧ Digits b (smulGo b y xs cs) ∧
      ∃ k : Int, limbsVal b (smulGo b y xs cs) + 2 ^ (b * cs.length) * k = limbsVal b cs + limbsVal b xs * limbsVal b y := by
  induction xs generalizing cs with
  | nil =>
    have : cs = [] := by simpa using hl.symm
    subst this
    exact ⟨rfl, hc, 0, by simp [smulGo, limbsVal]⟩
  | cons x xs ih =>
    cases cs with
    | nil => simp at hl
    | cons c cs =>
      obtain ⟨r1, r2, k, r3⟩ := smulRow_spec ok x (hx x (by simp)) y (c :: cs) hl2 hy hc 0 (by simp)
      cases hrow : smulRow b x 0 y (c :: cs) with
      | nil => rw [hrow] at r1; simp at r1
      | cons c0 cs0 =>
        rw [hrow] at r1 r2 r3
        have hl0 : cs0.length = cs.length := by simpa using r1
        obtain ⟨i1, i2, k2, i3⟩ := ih cs0 (by rw [hl0]; simpa using hl) (by rw [hl0]; simp at hl2; omega)
          (fun z hz => hx z (by simp [hz])) (fun z hz => r2 z (by simp [hz]))
        have hg : smulGo b y (x :: xs) (c :: cs) = c0 :: smulGo b y xs cs0 := by
          simp only [smulGo, hrow]
        rw [hg]
        refine ⟨by simp [i1, hl0], ?_, k + k2, ?_⟩
        · intro z hz
          simp only [List.mem_cons] at hz
          rcases hz with rfl | hz
          · exact r2 z (by simp)
          · exact i2 z hz
        · simp only [limbsVal, List.length_cons, Nat.mul_succ, pow_add] at r3 ⊢
          rw [hl0] at i3
          have hz : (0 : BitVec C).toInt = 0 := by simp
          rw [hz] at r3
          linear_combination r3 + 2 ^ b * i3

theorem smul_spec {b : Nat} (ok : Ok C b) {x y : Limbs C} (hx : Digits b x) (hy : Digits b y) (hl : x.length = y.length) :
    (smul b x y).length = x.length ∧ Digits b (smul b x y) ∧
      limbsVal b (smul b x y) = limbsVal b x * limbsVal b y % 2 ^ (b * x.length) := by
  have hzl : (zero C x.length).length = x.length := by simp [zero]
  obtain ⟨h1, h2, k, h3⟩ := smulGo_spec ok y hy x (zero C x.length) hzl.symm (by rw [hzl, hl]) hx (digits_zero b _)
  rw [val_zero, hzl, zero_add] at h3
  refine ⟨h1.trans hzl, h2, ?_⟩
  have hb := h2.bounds
  rw [h1, hzl] at hb
  rw [← h3, Int.add_mul_emod_self_left]
  exact (Int.emod_eq_of_lt hb.1 hb.2).symm

/-! ### byte codecs -/

open Spec (beNat beBytes)

theorem fshr_rep {b k n : Nat} (ok : Ok C b) (hk : k ≤ b) {w : Limbs C} {V : Int} (h : Rep b n w V) :
    Rep b n (fshr b k w) (V / 2 ^ k) := by
  have := fshr_spec (k := k) ok hk w h.low
  exact ⟨by rw [fshr_length, h.len], this.1, by rw [this.2, h.val]⟩

theorem fshl8_rep {b n : Nat} (ok : Ok C b) (hn : 2 ≤ n) {w : Limbs C} {V : Int} (h : Rep b n w V)
    (h0 : 0 ≤ V) (h1 : V * 256 < 2 ^ (b * n)) : Rep b n (fshl b 8 w) (V * 256) := by
  have hb := ok.hb
  rw [← shl_small (by omega) w (h.ne_nil (by omega))]
  have := shl_rep (k := 8) ok h (by rw [Nat.div_eq_of_lt (by omega)]; omega) h0 (by norm_num; exact h1)
  norm_num at this
  exact this

theorem rep_byte {b : Nat} (ok : Ok C b) {w : Limbs C} {n : Nat} {V : Int} (h : Rep b n w V) :
    ((at' w 0 &&& 0xff).setWidth 8 : BitVec 8) = BitVec.ofInt 8 V := by
  have hC := ok.hC
  have hb := ok.hb
  have hff : (0xff : BitVec C) = bmask C 8 := by
    apply BitVec.eq_of_toNat_eq
    rw [toNat_bmask 8 (by omega)]
    have h8 : 2 ^ 9 ≤ 2 ^ C := Nat.pow_le_pow_right (by norm_num) (by omega)
    show (BitVec.ofNat C 255).toNat = _
    rw [BitVec.toNat_ofNat]
    exact Nat.mod_eq_of_lt (by omega)
  rw [hff]
  have hm := toInt_and_mask (at' w 0) 8 (by omega)
  rw [low_emod (b := b) w (by omega), h.val] at hm
  apply BitVec.eq_of_toNat_eq
  have h0 := Int.emod_nonneg V (by norm_num : (2 : Int) ^ 8 ≠ 0)
  have hn := toNat_of_toInt_nonneg _ (by rw [hm]; exact h0)
  rw [hm] at hn
  rw [BitVec.toNat_setWidth]
  apply Int.ofNat_inj.1
  show (((_ % 2 ^ 8 : Nat)) : Int) = _
  push_cast
  rw [hn]
  rw [BitVec.toNat_ofInt, Int.toNat_of_nonneg (Int.emod_nonneg _ (by norm_num))]
  norm_num

theorem toBytesGo_spec {b n : Nat} (ok : Ok C b) (k : Nat) (w : Limbs C) (V : Nat) (h : Rep b n w V) :
    (toBytesGo b k w).reverse = beBytes k V := by
  have hb := ok.hb
  induction k generalizing w V with
  | zero => simp [toBytesGo, beBytes]
  | succ k ih =>
    have h8 : Rep b n (fshr b 8 w) ((V / 256 : Nat) : Int) := by
      have := fshr_rep (k := 8) ok (by omega) h
      norm_num at this
      exact_mod_cast this
    have := ih _ _ h8
    simp only [toBytesGo, List.reverse_cons, this, rep_byte ok h]
    rw [show k + 1 = k + 1 from rfl, Spec.beBytes_add k 1 V]
    congr 1

theorem byte_toInt {b : Nat} (ok : Ok C b) (x : BitVec 8) : (x.setWidth C : BitVec C).toInt = x.toNat := by
  have hC := ok.hC
  have hb := ok.hb
  have hx := x.isLt
  have h9 : 2 ^ 8 ≤ 2 ^ (C - 1) := Nat.pow_le_pow_right (by norm_num) (by omega)
  have h10 : 2 ^ (C - 1) ≤ 2 ^ C := Nat.pow_le_pow_right (by norm_num) (by omega)
  have hn : (x.setWidth C : BitVec C).toNat = x.toNat := by
    rw [BitVec.toNat_setWidth]; exact Nat.mod_eq_of_lt (by omega)
  rw [toInt_of_toNat_lt _ (by rw [hn]; omega), hn]

/-- add a byte to a number whose low 8 bits are zero -/
theorem add_low_rep {b n k : Nat} (ok : Ok C b) (hn : 2 ≤ n) (hk : k ≤ b) {w : Limbs C} {V : Int} (h : Rep b n w (V * 2 ^ k)) (x : BitVec C)
    (hx0 : 0 ≤ x.toInt) (hx1 : x.toInt < 2 ^ k) : Rep b n (w.set 0 (at' w 0 + x)) (V * 2 ^ k + x.toInt) := by
  have hC := ok.hC
  have hb := ok.hb
  have hne := h.ne_nil (by omega)
  have hlow := low_emod (b := b) (k := k) w hk
  rw [h.val, Int.mul_emod_left] at hlow
  have hval : limbsVal b w = V * 2 ^ k := h.val
  have hN := h.low
  have hlen := h.len
  match w, hlen, hN, hlow with
  | [], hlen, _, _ => exact absurd rfl hne
  | [y], hlen, _, _ => simp at hlen; omega
  | y :: z :: r, hlen, hN, hlow =>
    simp only [at', List.getD_cons_zero] at hlow ⊢
    have hy := hN.1
    have hB : (2 : Int) ^ b = 2 ^ k * 2 ^ (b - k) := by rw [← pow_add]; congr 1; omega
    obtain ⟨q, hq⟩ := Int.dvd_of_emod_eq_zero hlow
    have hkp := two_pow_pos' k
    have hqlt : q < 2 ^ (b - k) := by
      by_contra hc
      push Not at hc
      have := mul_le_mul_of_nonneg_left hc hkp.le
      rw [← hB] at this; omega
    have hsum : y.toInt + x.toInt < 2 ^ b := by
      have : 2 ^ k * (q + 1) ≤ 2 ^ k * 2 ^ (b - k) := mul_le_mul_of_nonneg_left (by omega) hkp.le
      rw [← hB] at this
      nlinarith
    have hle : (2 : Int) ^ b ≤ 2 ^ (C - 1) := pow_le_pow_right₀ (by norm_num) (by omega)
    have hadd : (y + x).toInt = y.toInt + x.toInt := toInt_add_of _ _ (by omega) (by have := two_pow_pos' (C-1); omega) (by omega)
    refine ⟨by simpa using hlen, ?_, ?_⟩
    · exact Spec.Normal.cons (by rw [hadd]; omega) (by rw [hadd]; omega) hN.2
    · simp only [List.set_cons_zero, limbsVal, hadd] at hval ⊢
      linarith

theorem fromBytes_rep {b n : Nat} (ok : Ok C b) (hn : 2 ≤ n) (modbytes : Nat) (hmb : 8 * modbytes ≤ b * n) (bytes : List (BitVec 8)) :
    Rep b n (fromBytes (C := C) b n modbytes bytes) (beNat (bytes.take modbytes)) := by
  have hb := ok.hb
  unfold fromBytes
  have hlen : (bytes.take modbytes).length ≤ modbytes := by simp
  generalize bytes.take modbytes = bs at *
  clear bytes
  induction bs using List.reverseRecOn with
  | nil => simpa using zero_rep (C := C) b n
  | append_singleton bs x ih =>
    rw [List.foldl_append, List.foldl_cons, List.foldl_nil, Spec.beNat_append_singleton]
    rw [List.length_append, List.length_singleton] at hlen
    have IH := ih (by omega)
    have hlt := Spec.beNat_lt bs
    have h1 : ((beNat bs : Nat) : Int) * 256 < 2 ^ (b * n) := by
      have hnat : beNat bs * 256 < 2 ^ (b * n) := by
        calc beNat bs * 256 < 256 ^ bs.length * 256 := by omega
          _ = 2 ^ (8 * (bs.length + 1)) := by rw [← pow_succ, show (256 : Nat) = 2 ^ 8 by norm_num, ← pow_mul]
          _ ≤ 2 ^ (b * n) := Nat.pow_le_pow_right (by norm_num) (by omega)
      exact_mod_cast hnat
    have h2 := fshl8_rep ok hn IH (by positivity) h1
    have hx := byte_toInt ok x
    have hxlt := x.isLt
    have := add_low_rep (k := 8) (V := beNat bs) ok hn (by omega) (by norm_num; exact h2) (x.setWidth C) (by rw [hx]; positivity)
      (by rw [hx]; exact_mod_cast hxlt)
    rw [hx] at this
    norm_num at this
    rw [mul_comm] at this
    push_cast
    exact this

end Verif.Big
