import Verif.Ff.Kar2
import Verif.Big.Div
/- Helper lemmas: comparison, shifts, `rmod` and `dmod` of ff.rs. -/
namespace Verif.Ff
open Spec Verif.Big

variable {C b n R : Nat}

theorem FOk.Bpos (_f : FOk C b n R) : (0 : Int) < 2 ^ R := two_pow_pos' R

/-! ### Comparison -/

theorem sign_lex {B a c u v : Int} (a0 : 0 ≤ a) (a1 : a < B) (c0 : 0 ≤ c) (c1 : c < B) :
    Int.sign (a + B * u - (c + B * v)) = if Int.sign (u - v) ≠ 0 then Int.sign (u - v) else Int.sign (a - c) := by
  rcases lt_trichotomy u v with h | h | h
  · rw [Int.sign_eq_neg_one_of_neg (show u - v < 0 by omega), if_pos (by decide)]
    apply Int.sign_eq_neg_one_of_neg
    have : B * (u + 1) ≤ B * v := mul_le_mul_of_nonneg_left (by omega) (by omega)
    linarith
  · subst h
    simp only [sub_self, Int.sign_zero, ne_eq, not_true_eq_false, if_false]
    congr 1; ring
  · rw [Int.sign_eq_one_of_pos (show 0 < u - v by omega), if_pos (by decide)]
    apply Int.sign_eq_one_of_pos
    have : B * (v + 1) ≤ B * u := mul_le_mul_of_nonneg_left (by omega) (by omega)
    linarith

theorem comp_sign (x y : FF C) (hl : x.length = y.length) (hx : FNorm b n R x) (hy : FNorm b n R y) :
    comp x y = Int.sign (fval b R x - fval b R y) := by
  induction x generalizing y with
  | nil => cases y with
    | nil => simp [comp, fval]
    | cons => simp at hl
  | cons x xs ih =>
    cases y with
    | nil => simp at hl
    | cons y ys =>
      have hl' : xs.length = ys.length := by simpa using hl
      have hi := ih ys hl' hx.tail hy.tail
      rw [comp, hi]
      cases xs with
      | nil =>
        cases ys with
        | cons => simp at hl'
        | nil =>
          simp only [fval, mul_zero, add_zero, sub_self, Int.sign_zero, ne_eq, not_true_eq_false, if_false]
          exact comp_spec x y (hx.1.trans hy.1.symm) hx.2 hy.2
      | cons x' xs =>
        cases ys with
        | nil => simp at hl'
        | cons y' ys =>
          obtain ⟨cx, _⟩ := hx
          obtain ⟨cy, _⟩ := hy
          rw [fval.eq_2 b R x, fval.eq_2 b R y, sign_lex cx.nonneg cx.lt cy.nonneg cy.lt,
            comp_spec x y (cx.len.trans cy.len.symm) cx.low cy.low]

theorem FRep.comp {m : Nat} {x y : FF C} {X Y : Int} (hx : FRep b n R m x X) (hy : FRep b n R m y Y) :
    comp x y = Int.sign (X - Y) := by
  rw [comp_sign x y (hx.len.trans hy.len.symm) hx.low hy.low, hx.val, hy.val]

theorem FRep.comp_lt {m : Nat} {x y : FF C} {X Y : Int} (hx : FRep b n R m x X) (hy : FRep b n R m y Y) :
    Ff.comp x y < 0 ↔ X < Y := by
  rw [hx.comp hy, sign_neg]; omega

theorem FRep.comp_ge {m : Nat} {x y : FF C} {X Y : Int} (hx : FRep b n R m x X) (hy : FRep b n R m y Y) :
    Ff.comp x y ≥ 0 ↔ Y ≤ X := by
  rw [ge_iff_le, ← not_lt, hx.comp_lt hy, not_lt]

/-! ### Shift left -/

theorem inc_even (ok : Ok C b) (hn : 2 ≤ n) {d : Limbs C} {V δ : Int} (h : Rep b n d (2 * V)) (hδ : δ = 0 ∨ δ = 1)
    (hw : LimbsWithin (2 ^ (C - 2)) d) : Rep b n (Big.inc b d δ) (2 * V + δ) := by
  have hC := ok.hC
  have hb := ok.hb
  have hr := norm_rep ok d (h.ne_nil (by omega)) hw
  rw [h.len, h.val] at hr
  have e2 : (2 : Int) ^ b = 2 * 2 ^ (b - 1) := by rw [← pow_succ']; congr 1; omega
  have e3 : (2 : Int) ^ b < 2 ^ (C - 2) := pow_lt_pow_right₀ (by norm_num) (by omega)
  have e4 : (2 : Int) ^ (C - 1) = 2 * 2 ^ (C - 2) := by rw [← pow_succ']; congr 1; omega
  have hp1 := two_pow_pos' (b - 1)
  unfold Big.inc
  simp only
  generalize hw' : Big.norm b d = w at *
  match w, hr with
  | [], hr => have := hr.len; simp at this; omega
  | [x], hr => have := hr.len; simp at this; omega
  | x :: y :: r, hr =>
    have hx := hr.low.1
    have hv := hr.val
    rw [limbsVal, e2] at hv
    have hev : x.toInt % 2 = 0 := by
      have : x.toInt = 2 * (V - 2 ^ (b - 1) * limbsVal b (y :: r)) := by linear_combination hv
      rw [this]; omega
    have hx2 : x.toInt + 1 < 2 ^ b := by rw [e2] at hx ⊢; omega
    have hofi : (BitVec.ofInt C δ).toInt = δ := by
      apply toInt_ofInt_of (by omega) <;> rcases hδ with h | h <;> rw [h] <;> omega
    have hadd : (x + BitVec.ofInt C δ).toInt = x.toInt + δ := by
      rw [toInt_add_of _ _ (by omega) (by rw [hofi]; rcases hδ with h | h <;> rw [h] <;> omega) (by rw [hofi]; rcases hδ with h | h <;> rw [h] <;> omega), hofi]
    simp only [at', List.getD_cons_zero, List.set_cons_zero]
    refine ⟨by simpa using hr.len, Normal.cons ?_ ?_ hr.low.2, ?_⟩
    · rw [hadd]; rcases hδ with h | h <;> rw [h] <;> omega
    · rw [hadd]; rcases hδ with h | h <;> rw [h] <;> omega
    · have hv' := hr.val
      rw [limbsVal] at hv' ⊢
      rw [hadd]
      linear_combination hv'

theorem fshl_digit (f : FOk C b n R) {d : Limbs C} {V δ : Int} (h : Rep b n d V) (h0 : 0 ≤ V) (h1 : V < 2 ^ (b * n)) (hδ : δ = 0 ∨ δ = 1) :
    Rep b n (Big.fshl b 1 d) (2 * V) ∧ Rep b n (Big.inc b (Big.fshl b 1 d) δ) (2 * V + δ) := by
  have hC := f.ok.hC
  have hn := f.hn
  have hc := cap_ge f.ok (show 0 < n by omega)
  have hcp := cap_pos C b n
  have h2 := fshl_one_rep f.ok f.hn h (by omega) (by omega)
  refine ⟨h2, inc_even f.ok f.hn h2 hδ ?_⟩
  have hP := two_pow_pos' (b * (n - 1))
  have e1 : (2 : Int) ^ (b * n) = 2 ^ b * 2 ^ (b * (n - 1)) := by
    rw [← pow_add]; congr 1; obtain ⟨k, rfl⟩ : ∃ k, n = k + 1 := ⟨n - 1, by omega⟩; simp; ring
  have e2 : (2 : Int) * 2 ^ b ≤ 2 ^ (C - 2) := by rw [← pow_succ']; exact pow_le_pow_right₀ (by norm_num) (by omega)
  have e3 : 2 * 2 ^ b * 2 ^ (b * (n - 1)) ≤ (2 : Int) ^ (C - 2) * 2 ^ (b * (n - 1)) := mul_le_mul_of_nonneg_right e2 hP.le
  have hbp := two_pow_pos' b
  have e4 : 0 ≤ (2 : Int) ^ (C - 2) * 2 ^ (b * (n - 1)) := by positivity
  apply h2.low.within _ (2 ^ (C - 2)) (by omega)
  · rw [h2.val, h2.len]; linarith
  · rw [h2.val, h2.len]; rw [e1] at h1; linarith

theorem shlGo_spec (f : FOk C b n R) (x : FF C) (hne : x ≠ []) (hx : FNorm b n R x) (hd : ∀ d ∈ x, 0 ≤ limbsVal b d ∧ limbsVal b d < 2 ^ (b * n))
    {δ : Int} (hδ : δ = 0 ∨ δ = 1) : FRep b n R x.length (shlGo b R δ x) (2 * fval b R x + δ) := by
  induction x generalizing δ with
  | nil => exact absurd rfl hne
  | cons d r ih =>
    have hdd := hd d (List.mem_cons_self ..)
    cases r with
    | nil =>
      have h := (fshl_digit f ⟨hx.1, hx.2, rfl⟩ hdd.1 hdd.2 hδ).2
      exact ⟨rfl, ⟨h.len, h.low⟩, by simp only [shlGo, fval, h.val]; ring⟩
    | cons e r =>
      obtain ⟨cd, _⟩ := hx
      obtain ⟨h1, h2⟩ := fshl_digit f cd.rep hdd.1 hdd.2 hδ
      have hB : (2 : Int) ^ R = 2 * 2 ^ (R - 1) := by rw [← pow_succ']; congr 1; have := f.R1; omega
      have hBp := two_pow_pos' (R - 1)
      have hlt := cd.lt
      have hq : (2 * limbsVal b d) / 2 ^ R = 0 ∨ (2 * limbsVal b d) / 2 ^ R = 1 := by
        have q0 : 0 ≤ (2 * limbsVal b d) / 2 ^ R := Int.ediv_nonneg (by omega) (by omega)
        have q1 : (2 * limbsVal b d) / 2 ^ R < 2 := Int.ediv_lt_of_lt_mul (by omega) (by omega)
        omega
      have hqq : (2 * limbsVal b d + δ) / 2 ^ R = (2 * limbsVal b d) / 2 ^ R := by
        rw [hB, ← Int.ediv_ediv_of_nonneg (by norm_num), ← Int.ediv_ediv_of_nonneg (by norm_num)]
        congr 1
        rcases hδ with h | h <;> rw [h] <;> omega
      have hc : carryOf b R (Big.fshl b 1 d) = carryOf b R (Big.inc b (Big.fshl b 1 d) δ) := by
        apply BitVec.eq_of_toInt_eq
        rw [carryOf_val f h1, carryOf_val f h2, hqq]
      have hcv := carryOf_val f h1
      obtain ⟨m1, m2⟩ := mask_canon f h2
      have hi := ih (by simp) (FNorm.tail (x := d) ⟨cd, by assumption⟩) (fun d hd' => hd d (List.mem_cons_of_mem _ hd')) (δ := (carryOf b R (Big.fshl b 1 d)).toInt)
        (by rw [hcv]; exact hq)
      rw [shlGo]
      have hl := hi.len
      obtain ⟨y, ys, hys⟩ : ∃ y ys, shlGo b R (carryOf b R (Big.fshl b 1 d)).toInt (e :: r) = y :: ys := by
        cases h : shlGo b R (carryOf b R (Big.fshl b 1 d)).toInt (e :: r) with
        | nil => rw [h] at hl; simp at hl
        | cons y ys => exact ⟨_, _, rfl⟩
      rw [hys] at hi ⊢
      rw [hc]
      refine ⟨by have := hi.len; simpa using this, ⟨m1, hi.low⟩, ?_⟩
      rw [fval, m2, hi.val, hcv, fval.eq_2 b R d]
      have := Int.emod_add_mul_ediv (2 * limbsVal b d + δ) (2 ^ R)
      rw [hqq] at this
      linear_combination this

/-- the digits of a number below `2·F·2^(R·m)` -/
theorem FRep.digs (f : FOk C b n R) {m : Nat} (hm : 0 < m) {x : FF C} {V : Int} (h : FRep b n R m x V) (h0 : 0 ≤ V)
    (h1 : V < 2 * fex b n R * 2 ^ (R * m)) : ∀ d ∈ x, 0 ≤ limbsVal b d ∧ limbsVal b d < 2 ^ (b * n) := by
  obtain ⟨m, rfl⟩ : ∃ k, m = k + 1 := ⟨m - 1, by omega⟩
  obtain ⟨ds, d, e, hl, hc, hr⟩ := h.top
  have hp := f.pow_lt
  have hB := f.Bpos
  rw [e]
  intro u hu
  rw [List.mem_append, List.mem_singleton] at hu
  rcases hu with hu | rfl
  · have := hc u hu
    exact ⟨this.nonneg, by have := this.lt; linarith⟩
  · rw [hr.val]
    refine ⟨Int.ediv_nonneg h0 (two_pow_pos' _).le, Int.ediv_lt_of_lt_mul (two_pow_pos' _) ?_⟩
    rw [← f.fex2, mul_assoc, ← pow_add, show R + R * m = R * (m + 1) by ring]
    exact h1

theorem shl_spec (f : FOk C b n R) {m : Nat} (hm : 0 < m) {x : FF C} {V : Int} (h : FRep b n R m x V) (h0 : 0 ≤ V)
    (h1 : V < 2 * fex b n R * 2 ^ (R * m)) : FRep b n R m (shl b R x) (2 * V) := by
  have := shlGo_spec f x (ne_of_len hm h.len) h.low (h.digs f hm h0 h1) (δ := 0) (Or.inl rfl)
  rw [h.len, h.val, add_zero] at this
  exact this

/-! ### Shift right -/

theorem xortop_set (f : FOk C b n R) {d : Limbs C} (h : CanonD b n R d) {c : BitVec C} (hc : c.toInt = 0 ∨ c.toInt = 1) :
    Rep b n (xortop d (c <<< tbits b R)) (limbsVal b d + 2 ^ R * c.toInt) := by
  have hne : d ≠ [] := h.rep.ne_nil (by have := f.hn; omega)
  have hT := f.tlt
  have hC := f.ok.hC
  have hb := f.ok.hb
  have ht := top_eq d hne h.low
  rw [h.len] at ht
  have hq := h.lt
  have h0 := h.nonneg
  rw [f.pow] at hq
  have ht0 : 0 ≤ (d.getLastD 0).toInt := by rw [ht]; exact Int.ediv_nonneg h0 (two_pow_pos' _).le
  have ht1 : (d.getLastD 0).toInt < 2 ^ tbits b R := by
    rw [ht]; exact Int.ediv_lt_of_lt_mul (two_pow_pos' _) (by linarith)
  have htn : (d.getLastD 0).toNat < 2 ^ tbits b R := by
    have h3 := toNat_of_toInt_nonneg _ ht0
    rw [← h3] at ht1
    exact_mod_cast ht1
  have hxo : d.getLastD 0 ^^^ (c <<< tbits b R) = (c <<< tbits b R) ||| d.getLastD 0 := by
    apply BitVec.eq_of_getLsbD_eq
    intro i hi
    simp only [BitVec.getLsbD_xor, BitVec.getLsbD_or, BitVec.getLsbD_shiftLeft]
    by_cases hin : i < tbits b R
    · simp [hin]
    · have : (d.getLastD 0).getLsbD i = false := by
        unfold BitVec.getLsbD
        exact Nat.testBit_lt_two_pow (lt_of_lt_of_le htn (Nat.pow_le_pow_right (by omega) (by omega)))
      rw [this, Bool.false_xor, Bool.or_false]
  have e1 : (2 : Int) ^ tbits b R * 2 ≤ 2 ^ (C - 1) := by rw [← pow_succ]; exact pow_le_pow_right₀ (by norm_num) (by omega)
  have hp := two_pow_pos' (tbits b R)
  have hv := toInt_shl_or c (d.getLastD 0) (tbits b R) (by omega) ht0 ht1
    (by rcases hc with h | h <;> rw [h] <;> omega) (by rcases hc with h | h <;> rw [h] <;> omega)
  refine ⟨by simp [xortop, h.len], set_last_normal d _ h.low, ?_⟩
  unfold xortop
  rw [set_last_val d _ hne, hxo, hv, h.len, f.pow]
  ring

theorem shrGo_spec (f : FOk C b n R) (x : FF C) (hne : x ≠ []) (hx : FNorm b n R x) :
    FRep b n R x.length (shrGo b R x).1 (fval b R x / 2) ∧ (shrGo b R x).2.toInt = fval b R x % 2 := by
  have hn := f.hn
  have hb := f.ok.hb
  induction x with
  | nil => exact absurd rfl hne
  | cons d r ih =>
    cases r with
    | nil =>
      have h : Rep b n d (limbsVal b d) := ⟨hx.1, hx.2, rfl⟩
      have h1 := fshr_one_rep f.ok h
      have h2 := fshrOut_spec (k := 1) f.ok (by omega) d (h.ne_nil (by omega))
      simp only [shrGo, List.isEmpty_nil, if_true, fval, mul_zero, add_zero]
      refine ⟨⟨rfl, ⟨h1.len, h1.low⟩, by simp [fval, h1.val]⟩, by rw [h2]; norm_num⟩
    | cons e r =>
      obtain ⟨cd, hx'⟩ := hx
      obtain ⟨i1, i2⟩ := ih (by simp) hx'
      rw [shrGo]
      simp only [List.isEmpty_cons, Bool.false_eq_true, if_false]
      generalize shrGo b R (e :: r) = sr at *
      have hc : sr.2.toInt = 0 ∨ sr.2.toInt = 1 := by rw [i2]; omega
      have h := xortop_set f cd hc
      have h1 := fshr_one_rep f.ok h
      have h2 := fshrOut_spec (k := 1) f.ok (by omega) _ (h.ne_nil (by omega))
      rw [h.val] at h2
      obtain ⟨y, ys, hys⟩ : ∃ y ys, sr.1 = y :: ys := by
        have hl := i1.len
        cases h : sr.1 with
        | nil => rw [h] at hl; simp at hl
        | cons y ys => exact ⟨_, _, rfl⟩
      have hB : (2 : Int) ^ R = 2 * 2 ^ (R - 1) := by rw [← pow_succ']; congr 1; have := f.R1; omega
      have hBp := two_pow_pos' (R - 1)
      have hlt := cd.lt
      have h0 := cd.nonneg
      generalize xortop d (sr.2 <<< tbits b R) = dd at *
      rw [fval.eq_2 b R d]
      have hdm := Int.emod_add_mul_ediv (fval b R (e :: r)) 2
      have e1 : limbsVal b d + 2 ^ R * fval b R (e :: r) = limbsVal b d + 2 ^ R * sr.2.toInt + 2 * (2 ^ R * (fval b R (e :: r) / 2)) := by
        rw [i2]; linear_combination -2 ^ R * hdm
      have e2 : (limbsVal b d + 2 ^ R * sr.2.toInt + 2 * (2 ^ R * (fval b R (e :: r) / 2))) / 2
          = (limbsVal b d + 2 ^ R * sr.2.toInt) / 2 + 2 ^ R * (fval b R (e :: r) / 2) := Int.add_mul_ediv_left _ _ (by norm_num)
      have e3 : (limbsVal b d + 2 ^ R * sr.2.toInt + 2 * (2 ^ R * (fval b R (e :: r) / 2))) % 2
          = (limbsVal b d + 2 ^ R * sr.2.toInt) % 2 := Int.add_mul_emod_self_left _ _ _
      rw [e1, e2, e3]
      refine ⟨?_, by rw [h2]; norm_num⟩
      have hcan : CanonD b n R (Big.fshr b 1 dd) := ⟨h1.len, h1.low, by
        rw [h1.val]; exact Int.ediv_nonneg (by rcases hc with h | h <;> rw [h] <;> omega) (by norm_num), by
        rw [h1.val]; exact Int.ediv_lt_of_lt_mul (by norm_num) (by rcases hc with h | h <;> rw [h] <;> omega)⟩
      rw [hys] at i1 ⊢
      refine ⟨by simpa using i1.len, ⟨hcan, i1.low⟩, ?_⟩
      rw [fval.eq_2, h1.val, i1.val]

theorem shr_spec (f : FOk C b n R) {m : Nat} (hm : 0 < m) {x : FF C} {V : Int} (h : FRep b n R m x V) :
    FRep b n R m (shr b R x) (V / 2) := by
  have := (shrGo_spec f x (ne_of_len hm h.len) h.low).1
  rw [h.len, h.val] at this
  exact this

/-! ### Reduction -/

theorem norm_sub_frep (f : FOk C b n R) {m : Nat} (hm : 0 < m) {x y : FF C} {X Y : Int} (hx : FRep b n R m x X) (hy : FRep b n R m y Y)
    (h0 : 0 ≤ X) (h1 : X < 2 * fex b n R * 2 ^ (R * m)) (h2 : 0 ≤ Y) (h3 : Y < 2 * fex b n R * 2 ^ (R * m)) :
    FRep b n R m (norm b R (sub x y)) (X - Y) := by
  have hC : 0 < C := by have := f.ok.hC; omega
  have hE' := f.epos
  have hwd := f.word
  have gx := hx.rng f hm (K := 4) h0 h1 le_rfl (by linarith)
  have gy := hy.rng f hm (K := 4) h2 h3 le_rfl (by linarith)
  obtain ⟨a1, a2, a3⟩ := sub_rng (b := b) (R := R) hC (hx.len.trans hy.len.symm) gx gy (by linarith) (by linarith)
  have nm := norm_frep f _ (ne_of_len hm (a1.trans hx.len)) (a2.loose (by unfold wideB; linarith) (by unfold wideB; linarith))
  rw [a1.trans hx.len, a3, hx.val, hy.val] at nm
  exact nm

theorem downLoop_spec (f : FOk C b n R) {m : Nat} (hm : 0 < m) {M : Int} (hM : 0 < M) (k : Nat) {c x : FF C} {X : Int}
    (hc : FRep b n R m c (2 ^ k * M)) (hx : FRep b n R m x X) (h0 : 0 ≤ X) (hlt : X < 2 ^ k * M)
    (hX : X < 2 * fex b n R * 2 ^ (R * m)) (hcM : 2 ^ k * M ≤ 2 * (2 * fex b n R * 2 ^ (R * m) - 1)) :
    FRep b n R m (downLoop b R k c x) (X % M) := by
  have hfe := f.fex_ge
  have hp : 0 < fex b n R * 2 ^ (R * m) := mul_pos (by linarith) (two_pow_pos' _)
  induction k generalizing c x X with
  | zero =>
    simp only [pow_zero, one_mul] at hlt
    rw [downLoop, Int.emod_eq_of_lt h0 hlt]; exact hx
  | succ k ih =>
    have hc2 := shr_spec f hm hc
    have e : 2 ^ (k + 1) * M = 2 * (2 ^ k * M) := by rw [pow_succ]; ring
    rw [e, Int.mul_ediv_cancel_left _ (by norm_num)] at hc2
    have hp' : 0 < 2 ^ k * M := mul_pos (two_pow_pos' k) hM
    rw [e] at hlt hcM
    rw [downLoop]
    by_cases h : 2 ^ k * M ≤ X
    · have h' := (hx.comp_ge hc2).2 h
      simp only [h', if_true]
      have hs := norm_sub_frep f hm hx hc2 h0 hX hp'.le (by linarith)
      have := ih hc2 hs (by linarith) (by linarith) (by linarith) (by linarith)
      rwa [Int.sub_mul_emod_self_right] at this
    · have h' : ¬ comp x (shr b R c) ≥ 0 := fun hh => h ((hx.comp_ge hc2).1 hh)
      simp only [h', if_false]
      exact ih hc2 hx h0 (by linarith) hX (by linarith)

theorem upLoop_spec (f : FOk C b n R) {m : Nat} (hm : 0 < m) {x : FF C} {X M : Int} (hM : 0 < M) (hx : FRep b n R m x X)
    (hX : X < 2 * fex b n R * 2 ^ (R * m)) (fuel : Nat) {c : FF C} {k : Nat} (hc : FRep b n R m c (2 ^ k * M))
    (hk : 2 ^ k * M ≤ 2 * X) (hf : X < 2 ^ (k + fuel) * M) (hf1 : X < 2 ^ (k + (fuel - 1)) * M) (hf0 : 0 < fuel) :
    ∃ c' k', upLoop b R x fuel c k = some (c', k') ∧ FRep b n R m c' (2 ^ k' * M) ∧ X < 2 ^ k' * M ∧ 2 ^ k' * M ≤ 2 * X := by
  induction fuel generalizing c k with
  | zero => omega
  | succ fu ih =>
    rw [upLoop]
    by_cases h : 2 ^ k * M ≤ X
    · have h' := (hx.comp_ge hc).2 h
      simp only [h', if_true]
      have hp : 0 < 2 ^ k * M := mul_pos (two_pow_pos' k) hM
      have hc2 := shl_spec f hm hc hp.le (by linarith)
      have e : 2 ^ (k + 1) * M = 2 * (2 ^ k * M) := by rw [pow_succ]; ring
      rw [← e] at hc2
      have hfu : 0 < fu := by
        rcases Nat.eq_zero_or_pos fu with h0 | h0
        · subst h0; simp at hf1; linarith
        · exact h0
      exact ih hc2 (by linarith) (by rw [show k + 1 + fu = k + (fu + 1) by omega]; exact hf)
        (by rw [show k + 1 + (fu - 1) = k + (fu + 1 - 1) by omega]; exact hf1) hfu
    · have h' : ¬ comp x c ≥ 0 := fun hh => h ((hx.comp_ge hc).1 hh)
      simp only [h', if_false]
      exact ⟨_, _, rfl, hc, by linarith, hk⟩

theorem rmod_spec (f : FOk C b n R) {m : Nat} (hm : 0 < m) (fuel : Nat) {x p : FF C} {X M : Int}
    (hx : FRep b n R m (norm b R x) X) (hp : FRep b n R m p M) (h0 : 0 ≤ X) (hX : X < 2 * fex b n R * 2 ^ (R * m)) (hM : 0 < M)
    (hf : X < 2 ^ fuel * M) :
    ∃ r, rmod b R fuel x p = some r ∧ FRep b n R m r (X % M) := by
  unfold rmod
  simp only
  by_cases h : X < M
  · exact ⟨norm b R x, by simp only [(hx.comp_lt hp).2 h, if_true], by rw [Int.emod_eq_of_lt h0 h]; exact hx⟩
  · have h' : ¬ comp (norm b R x) p < 0 := fun hh => h ((hx.comp_lt hp).1 hh)
    simp only [h', if_false]
    have hs := shl_spec f hm hp hM.le (by linarith)
    have e1 : (2 : Int) * M = 2 ^ 1 * M := by ring
    rw [e1] at hs
    have hfu : 0 < fuel := by
      rcases Nat.eq_zero_or_pos fuel with h0 | h0
      · subst h0; simp at hf; linarith
      · exact h0
    obtain ⟨c', k', e1, e2, e3, e4⟩ := upLoop_spec f hm hM hx hX fuel hs (by linarith)
      (by rw [show 1 + fuel = fuel + 1 by omega, pow_succ]
          have : 0 < 2 ^ fuel * M := mul_pos (two_pow_pos' _) hM
          linarith) (by rw [show 1 + (fuel - 1) = fuel by omega]; exact hf) hfu
    rw [e1, Option.map_some]
    exact ⟨_, rfl, downLoop_spec f hm hM k' e2 hx h0 e3 hX (by linarith)⟩

theorem subLoop_spec (f : FOk C b n R) {m : Nat} (hm : 0 < m) {p : FF C} {M : Int} (hM : 0 < M) (hp : FRep b n R m p M)
    (hMX : M < 2 * fex b n R * 2 ^ (R * m)) (fuel : Nat) {x : FF C} {X : Int} (hx : FRep b n R m x X)
    (h0 : 0 ≤ X) (hX : X < 2 * fex b n R * 2 ^ (R * m)) (hf : X < fuel * M) :
    ∃ r, subLoop b R p fuel x = some r ∧ FRep b n R m r (X % M) := by
  induction fuel generalizing x X with
  | zero => simp at hf; omega
  | succ fu ih =>
    rw [subLoop]
    by_cases h : M ≤ X
    · have h' := (hx.comp_ge hp).2 h
      simp only [h', if_true]
      have hs := norm_sub_frep f hm hx hp h0 hX hM.le hMX
      obtain ⟨r, r1, r2⟩ := ih hs (by linarith) (by linarith) (by push_cast at hf; linarith)
      exact ⟨r, r1, by rwa [show (X - M) % M = X % M by rw [Int.sub_emod_right]] at r2⟩
    · have h' : ¬ comp x p ≥ 0 := fun hh => h ((hx.comp_ge hp).1 hh)
      simp only [h', if_false]
      exact ⟨_, rfl, by rw [Int.emod_eq_of_lt h0 (by linarith)]; exact hx⟩

theorem zero_val (n m : Nat) : fval b R (zero n m : FF C) = 0 := by
  induction m with
  | zero => rfl
  | succ m ih =>
    have : (zero n (m + 1) : FF C) = Big.zero C n :: zero n m := rfl
    rw [this, fval, ih, (zero_rep b n).val]; ring

theorem zero_canon (f : FOk C b n R) (m : Nat) : Canon b n R (zero n m : FF C) := by
  intro d hd
  have hd' := List.eq_of_mem_replicate hd
  have h := zero_rep (C := C) b n
  rw [hd']
  exact ⟨h.len, h.low, by rw [h.val], by rw [h.val]; exact f.Bpos⟩

theorem canon_norm (f : FOk C b n R) {m : Nat} (hm : 0 < m) {x : FF C} (hl : x.length = m) (h : Canon b n R x) :
    FRep b n R m (norm b R x) (fval b R x) := by
  have hE' := f.epos
  have := norm_frep f x (ne_of_len hm hl) ((h.rng f).loose (by unfold wideB; linarith) (by unfold wideB; linarith))
  rwa [hl] at this

theorem frep_norm (f : FOk C b n R) {m : Nat} (hm : 0 < m) {x : FF C} {X : Int} (h : FRep b n R m x X) (h0 : 0 ≤ X)
    (h1 : X < 2 * fex b n R * 2 ^ (R * m)) :
    FRep b n R m (norm b R x) X := by
  have hE' := f.epos
  have gx := h.rng f hm (K := 4) h0 h1 le_rfl (by linarith)
  have := norm_frep f x (ne_of_len hm h.len) (gx.loose (by unfold wideB; linarith) (by unfold wideB; linarith))
  rwa [h.len, h.val] at this

theorem dmod_spec (f : FOk C b n R) {m : Nat} (hm : 0 < m) (fuel : Nat) {x p : FF C} {X M : Int}
    (hx : FRep b n R (m + m) (norm b R x) X) (hp : FRep b n R m p M) (h0 : 0 ≤ X) (hX : X < 2 * fex b n R * 2 ^ (R * (m + m)))
    (hM : 0 < M) (hM1 : M < 2 ^ (R * m)) (hf : X < fuel * (2 ^ (R * m) * M)) (hf1 : 0 < fuel) :
    ∃ r, dmod b n R fuel x p = some r ∧ FRep b n R m r (X % M) := by
  have hfe := f.fex_ge
  have hB := two_pow_pos' (R * m)
  have cp := hp.canon hM.le hM1
  have csh : Canon b n R (zero n p.length ++ p) := (zero_canon f _).append cp
  have lsh : (zero n p.length ++ p).length = m + m := by simp [zero, hp.len]
  have vsh : fval b R (zero n p.length ++ p) = 2 ^ (R * m) * M := by
    rw [fval_append, zero_val, hp.val, show (zero n p.length : FF C).length = m by simp [zero, hp.len]]; ring
  have rsh := csh.frep lsh
  rw [vsh] at rsh
  have hpos : 0 < 2 ^ (R * m) * M := mul_pos hB hM
  have e2 : (2 : Int) ^ (R * (m + m)) = 2 ^ (R * m) * 2 ^ (R * m) := by rw [← pow_add]; congr 1; ring
  have hsl : 2 ^ (R * m) * M < 2 ^ (R * (m + m)) := by rw [e2]; exact mul_lt_mul_of_pos_left hM1 hB
  have hBB := two_pow_pos' (R * (m + m))
  have hsF : 2 ^ (R * m) * M < 2 * fex b n R * 2 ^ (R * (m + m)) := by
    have : 1 * (2 : Int) ^ (R * (m + m)) ≤ 2 * fex b n R * 2 ^ (R * (m + m)) := mul_le_mul_of_nonneg_right (by linarith) hBB.le
    linarith
  unfold dmod
  simp only
  obtain ⟨r, r1, r2⟩ := subLoop_spec f (by omega) hpos rsh hsF fuel hx h0 hX hf
  rw [r1, Option.bind_some]
  have hr0 : 0 ≤ X % (2 ^ (R * m) * M) := Int.emod_nonneg _ hpos.ne'
  have hr1 : X % (2 ^ (R * m) * M) < 2 ^ (R * m) * M := Int.emod_lt_of_pos _ hpos
  have hd := downLoop_spec f (k := R * m) (by omega) hM rsh r2 hr0 hr1 (by linarith) (by linarith)
  rw [Int.emod_emod_of_dvd _ (Dvd.intro_left _ rfl)] at hd
  have hq0 : 0 ≤ X % M := Int.emod_nonneg _ hM.ne'
  have hq1 : X % M < M := Int.emod_lt_of_pos _ hM
  rw [hp.len] at hd ⊢
  generalize downLoop b R (R * m) (zero n m ++ p) r = w at *
  have hd' : FRep b n R (2 * m) w (X % M) := by rw [two_mul]; exact hd
  obtain ⟨V0, V1, l0, c0, v0, -, e, a0, a1, b0, -⟩ := hd'.halves hm (E := 1) hq0 (by rw [two_mul, e2, one_mul]; nlinarith)
  have hV1 : V1 = 0 := by
    by_contra hne
    have : 1 ≤ V1 := by omega
    have : 2 ^ (R * m) * 1 ≤ 2 ^ (R * m) * V1 := mul_le_mul_of_nonneg_left this hB.le
    linarith
  rw [hV1, mul_zero, add_zero] at e
  have hn := canon_norm f hm l0 c0
  rw [v0, ← e] at hn
  have h2 : 1 * 2 ^ (R * m) ≤ 2 * fex b n R * 2 ^ (R * m) := mul_le_mul_of_nonneg_right (by linarith) hB.le
  obtain ⟨q, q1, q2⟩ := rmod_spec f hm fuel hn hp hq0 (by linarith) hM
    (by have h3 : 1 * M ≤ 2 ^ fuel * M := mul_le_mul_of_nonneg_right (two_pow_pos' fuel) hM.le
        linarith)
  exact ⟨q, q1, by rwa [Int.emod_emod_of_dvd _ (dvd_refl M)] at q2⟩

end Verif.Ff
