import Verif.Big.Sqr
import Verif.Big.Small2
import Mathlib.Data.Int.ModEq
/- Helper lemmas: modular multiplication, powers, shift-subtract step. -/
namespace Verif.Big
open Spec (limbsVal Normal LimbsWithin)

variable {C : Nat}

theorem Rep.norm {b n : Nat} (ok : Ok C b) (hn : 0 < n) {w : Limbs C} {V : Int} (h : Rep b n w V)
    (h1 : -cap C b n ≤ V) (h2 : V < cap C b n) : Rep b n (norm b w) V := by
  obtain ⟨p1, p2, p3⟩ := pow_c3 ok
  have := norm_rep ok w (h.ne_nil hn) (within_mono (by rw [p2]; have := two_pow_pos' (C - 3); omega) w (h.within ok h1 h2))
  rw [h.len, h.val] at this
  exact this

theorem Digits.norm_rep {b : Nat} (ok : Ok C b) {w : Limbs C} (hne : w ≠ []) (h : Digits b w) :
    Rep b w.length (Verif.Big.norm b w) (limbsVal b w) := by
  have hC := ok.hC
  exact Verif.Big.norm_rep ok w hne (h.within _ (pow_le_pow_right₀ (by norm_num) (by omega)))

/-- enough fuel for every reduction of `n`-limb and `2n`-limb numbers -/
theorem fuel_cap {b n fuel : Nat} (ok : Ok C b) (hn : 2 ≤ n) (hf : 2 * (b * n) ≤ fuel) {X M : Int} (hX : 2 * X < cap C b n)
    (hM : 0 < M) : X < 2 ^ fuel * M := by
  have h2 := ok.h2
  have hb := ok.hb
  have hp := two_pow_pos' fuel
  have hc : cap C b n ≤ 2 ^ fuel := by
    unfold cap; rw [← pow_add]
    apply pow_le_pow_right₀ (by norm_num)
    obtain ⟨m, rfl⟩ : ∃ m, n = m + 2 := ⟨n - 2, by omega⟩
    have e1 : b * (m + 2 - 1) = b * m + b := by rw [show m + 2 - 1 = m + 1 by omega, Nat.mul_succ]
    have e2 : b * (m + 2) = b * m + b + b := by rw [Nat.mul_add]; omega
    omega
  have hcp := cap_pos C b n
  nlinarith

theorem modmul_spec {b n : Nat} (ok : Ok C b) (hn : 2 ≤ n) (hfit : Fits C b n) (fuel : Nat) (hf : 2 * (b * n) ≤ fuel)
    {x y m : Limbs C} {X Y M : Int} (hx : Rep b n (norm b x) X) (hy : Rep b n (norm b y) Y) (hm : Rep b n m M)
    (hX0 : 0 ≤ X) (hX : 2 * X < cap C b n) (hY0 : 0 ≤ Y) (hY : 2 * Y < cap C b n) (hM : 0 < M) (hM2 : 2 * M ≤ 2 ^ (b * n)) :
    ∃ r, modmul b fuel x y m = some r ∧ Rep b n r (X * Y % M) := by
  obtain ⟨x', ex, rx⟩ := rmod_spec ok hn fuel hx hm hX0 hX hM (fuel_cap ok hn hf hX hM)
  obtain ⟨y', ey, ry⟩ := rmod_spec ok hn fuel hy hm hY0 hY hM (fuel_cap ok hn hf hY hM)
  have x0 := Int.emod_nonneg X hM.ne'
  have x1 := Int.emod_lt_of_pos X hM
  have y0 := Int.emod_nonneg Y hM.ne'
  have y1 := Int.emod_lt_of_pos Y hM
  have dx := rx.digits x0 (by omega)
  have dy := ry.digits y0 (by omega)
  obtain ⟨m1, m2, m3⟩ := mul_spec ok dx dy (by rw [rx.len, ry.len]) (by rw [rx.len]; omega) (by rw [rx.len]; exact hfit)
  rw [rx.val, ry.val] at m3
  have hne : mul b x' y' ≠ [] := by intro h; rw [h, rx.len] at m1; simp at m1; omega
  have hr := Digits.norm_rep ok hne m2
  rw [m1, rx.len, m3] at hr
  have hp0 : 0 ≤ X % M * (Y % M) := mul_nonneg x0 y0
  have hpM : X % M * (Y % M) ≤ M * M := mul_le_mul x1.le y1.le y0 hM.le
  have hMM : 4 * (M * M) ≤ 2 ^ (b * n) * 2 ^ (b * n) := by nlinarith
  have hMMe : (2 : Int) ^ (b * n) * 2 ^ (b * n) = 2 ^ (2 * (b * n)) := by rw [← pow_add]; congr 1; omega
  have hcap := cap_ge (n := 2 * n) ok (by omega)
  have e2 : b * (2 * n) = 2 * (b * n) := by ring
  rw [e2] at hcap
  have hMpos := mul_pos hM hM
  have hpow : (2 : Int) ^ (2 * (b * n)) ≤ 2 ^ fuel := pow_le_pow_right₀ (by norm_num) hf
  obtain ⟨r, er, rr⟩ := dmod_spec ok (by omega) fuel hr hm hp0 (by linarith) hM (by omega)
    (by have := two_pow_pos' fuel; nlinarith)
  refine ⟨r, ?_, ?_⟩
  · simp [modmul, ex, ey, er]
  · rw [← Int.mul_emod] at rr; exact rr

theorem modsqr_spec {b n : Nat} (ok : Ok C b) (hn : 2 ≤ n) (hfit : Fits C b n) (fuel : Nat) (hf : 2 * (b * n) ≤ fuel)
    {x m : Limbs C} {X M : Int} (hx : Rep b n (norm b x) X) (hm : Rep b n m M)
    (hX0 : 0 ≤ X) (hX : 2 * X < cap C b n) (hM : 0 < M) (hM2 : 2 * M ≤ 2 ^ (b * n)) :
    ∃ r, modsqr b fuel x m = some r ∧ Rep b n r (X * X % M) := by
  obtain ⟨x', ex, rx⟩ := rmod_spec ok hn fuel hx hm hX0 hX hM (fuel_cap ok hn hf hX hM)
  have x0 := Int.emod_nonneg X hM.ne'
  have x1 := Int.emod_lt_of_pos X hM
  have dx := rx.digits x0 (by omega)
  obtain ⟨m1, m2, m3⟩ := sqr_spec ok dx (by rw [rx.len]; omega) (by rw [rx.len]; exact hfit)
  rw [rx.val] at m3
  have hne : sqr b x' ≠ [] := by intro h; rw [h, rx.len] at m1; simp at m1; omega
  have hr := Digits.norm_rep ok hne m2
  rw [m1, rx.len, m3] at hr
  have hp0 : 0 ≤ X % M * (X % M) := mul_nonneg x0 x0
  have hpM : X % M * (X % M) ≤ M * M := mul_le_mul x1.le x1.le x0 hM.le
  have hMM : 4 * (M * M) ≤ 2 ^ (b * n) * 2 ^ (b * n) := by nlinarith
  have hMMe : (2 : Int) ^ (b * n) * 2 ^ (b * n) = 2 ^ (2 * (b * n)) := by rw [← pow_add]; congr 1; omega
  have hcap := cap_ge (n := 2 * n) ok (by omega)
  have e2 : b * (2 * n) = 2 * (b * n) := by ring
  rw [e2] at hcap
  have hMpos := mul_pos hM hM
  have hpow : (2 : Int) ^ (2 * (b * n)) ≤ 2 ^ fuel := pow_le_pow_right₀ (by norm_num) hf
  obtain ⟨r, er, rr⟩ := dmod_spec ok (by omega) fuel hr hm hp0 (by linarith) hM (by omega)
    (by have := two_pow_pos' fuel; nlinarith)
  refine ⟨r, ?_, ?_⟩
  · simp [modsqr, ex, er]
  · rw [← Int.mul_emod] at rr; exact rr

theorem modneg_spec {b n : Nat} (ok : Ok C b) (hn : 2 ≤ n) (fuel : Nat) (hf : 2 * (b * n) ≤ fuel)
    {x m : Limbs C} {X M : Int} (hx : Rep b n (norm b x) X) (hm : Rep b n m M)
    (hX0 : 0 ≤ X) (hX : 2 * X < cap C b n) (hM : 0 < M) (hM2 : M ≤ 2 ^ (b * n)) :
    ∃ r, modneg b fuel x m = some r ∧ r.length = n ∧ limbsVal b r = M - X % M ∧ LimbsWithin (2 ^ (C - 2)) r := by
  obtain ⟨x', ex, rx⟩ := rmod_spec ok hn fuel hx hm hX0 hX hM (fuel_cap ok hn hf hX hM)
  have hC := ok.hC
  have x0 := Int.emod_nonneg X hM.ne'
  have x1 := Int.emod_lt_of_pos X hM
  obtain ⟨p1, p2, p3⟩ := pow_c3 ok
  have hc := cap_ge (n := n) ok (by omega)
  have hcp := cap_pos C b n
  have hp3 := two_pow_pos' (C - 3)
  have wx := rx.within ok (by omega) (by omega)
  have hmc : M ≤ cap C b n := by omega
  have wm : LimbsWithin (2 ^ (C - 3)) m := by
    rcases lt_or_eq_of_le hmc with h | h
    · exact hm.within ok (by omega) h
    · -- M = cap: only possible when cap = 2^(b n); the top limb is then 2^(C-3)
      have ht := top_eq m (hm.ne_nil (by omega)) hm.low
      rw [hm.val, hm.len, h] at ht
      unfold cap at ht
      rw [Int.mul_ediv_cancel _ (two_pow_pos' _).ne'] at ht
      intro z hz
      have hdl : m = m.dropLast ++ [m.getLastD 0] := by
        have hne := hm.ne_nil (by omega)
        rw [List.getLastD_eq_getLast?, List.getLast?_eq_some_getLast hne]
        exact (List.dropLast_append_getLast hne).symm
      rw [hdl] at hz
      rcases List.mem_append.1 hz with hz | hz
      · obtain ⟨i, hi, rfl⟩ := List.getElem_of_mem hz
        have hi' : i + 1 < m.length := by simp at hi; omega
        have hN := normal_drop hm.low i
        rw [List.drop_eq_getElem_cons (by omega : i < m.length)] at hN
        have hne2 : m.drop (i + 1) ≠ [] := by intro h; have := congrArg List.length h; simp at this; omega
        have := hN.head hne2
        have hle : (2 : Int) ^ b ≤ 2 ^ (C - 3) := pow_le_pow_right₀ (by norm_num) (by omega)
        simp only [List.getElem_dropLast]
        constructor <;> omega
      · simp only [List.mem_singleton] at hz
        rw [hz, ht]; constructor <;> omega
  refine ⟨sub m x', by simp [modneg, ex], by simp [sub, hm.len, rx.len], ?_, ?_⟩
  · rw [sub_val (b := b) (by omega) m x' (by rw [hm.len, rx.len]) _ _ wm wx (by rw [p1]; omega), hm.val, rx.val]
  · have := sub_within (by omega) m x' _ _ wm wx (by rw [p1]; omega)
    rw [p2, two_mul]; exact this

theorem powLoop_spec {b n : Nat} (ok : Ok C b) (hn : 2 ≤ n) (hfit : Fits C b n) (f0 : Nat) (hf : 2 * (b * n) ≤ f0)
    {m : Limbs C} {M : Int} (hm : Rep b n m M) (hM : 1 < M) (hM2 : 2 * M ≤ 2 ^ (b * n)) (fuel : Nat)
    (a z s : Limbs C) (A S : Int) (Z : Nat) (ha : Rep b n a A) (hz : Rep b n z Z) (hs : Rep b n s S)
    (hA0 : 0 ≤ A) (hA : A < M) (hS0 : 0 ≤ S) (hS : 2 * S < cap C b n) (hZ : Z < 2 ^ fuel) (hf1 : 0 < fuel) :
    ∃ r, powLoop b f0 m fuel a z s = some r ∧ Rep b n r (A * S ^ Z % M) := by
  induction fuel generalizing a z s A S Z with
  | zero => omega
  | succ f ih =>
    have hcg := cap_ge (n := n) ok (by omega)
    have hcp := cap_pos C b n
    have hz' : Rep b n (fshr b 1 z) ((Z / 2 : Nat) : Int) := by
      have := fshr_one_rep ok hz
      exact_mod_cast this
    have hpar : parity z = ((Z % 2 : Nat) : Int) := by rw [hz.parity ok hn]; push_cast; rfl
    have hnA := ha.norm ok (by omega) (by omega) (by omega)
    have hnS := hs.norm ok (by omega) (by omega) (by omega)
    -- the accumulator after this step
    have hstep : ∃ a', (if parity z = 1 then modmul b f0 a s m else some a) = some a' ∧
        Rep b n a' (A * S ^ (Z % 2) % M) := by
      rcases Nat.mod_two_eq_zero_or_one Z with h | h
      · refine ⟨a, by rw [hpar, h]; simp, ?_⟩
        rw [h, pow_zero, mul_one, Int.emod_eq_of_lt hA0 hA]; exact ha
      · obtain ⟨r, e, hr⟩ := modmul_spec ok hn hfit f0 hf hnA hnS hm hA0 (by omega) hS0 hS (by omega) hM2
        exact ⟨r, by rw [hpar, h]; simpa using e, by rw [h, pow_one]; exact hr⟩
    obtain ⟨a', e1, ra⟩ := hstep
    unfold powLoop
    simp only [e1, Option.bind_some]
    have hsplit : S ^ Z = S ^ (Z % 2) * (S * S) ^ (Z / 2) := by
      conv => lhs; rw [← Nat.mod_add_div Z 2, pow_add, pow_mul, pow_two]
    by_cases h0 : Z / 2 = 0
    · have : iszilch (fshr b 1 z) = true := hz'.iszilch.2 (by simp [h0])
      simp only [this, if_true]
      refine ⟨a', rfl, ?_⟩
      rw [hsplit, h0, pow_zero, mul_one]; exact ra
    · have : ¬ iszilch (fshr b 1 z) = true := fun h => h0 (by exact_mod_cast hz'.iszilch.1 h)
      simp only [this]
      obtain ⟨s', e2, rs⟩ := modsqr_spec ok hn hfit f0 hf hnS hm hS0 hS (by omega) hM2
      rw [e2]
      simp only [Option.bind_some]
      have hM0 : 0 < M := by omega
      have s0 := Int.emod_nonneg (S * S) hM0.ne'
      have s1 := Int.emod_lt_of_pos (S * S) hM0
      have hf' : 0 < f := by
        rcases Nat.eq_zero_or_pos f with h | h
        · subst h; simp at hZ; omega
        · exact h
      obtain ⟨r, e3, rr⟩ := ih a' (fshr b 1 z) s' _ _ (Z / 2) ra hz' rs (Int.emod_nonneg _ hM0.ne')
        (Int.emod_lt_of_pos _ hM0) s0 (by omega) (by rw [pow_succ] at hZ; omega) hf'
      refine ⟨r, by simpa using e3, ?_⟩
      have : A * S ^ (Z % 2) % M * (S * S % M) ^ (Z / 2) % M = A * S ^ Z % M := by
        rw [hsplit, ← mul_assoc]
        exact ((Int.mod_modEq _ _).mul ((Int.mod_modEq _ _).pow _))
      rw [← this]; exact rr

theorem powmod_spec {b n : Nat} (ok : Ok C b) (hn : 2 ≤ n) (hfit : Fits C b n) (fuel : Nat) (hf : 2 * (b * n) ≤ fuel)
    {x e m : Limbs C} {X M : Int} {E : Nat} (hx : Rep b n (norm b x) X) (he : Rep b n (norm b e) E) (hm : Rep b n m M)
    (hX0 : 0 ≤ X) (hX : 2 * X < cap C b n) (hE : 2 * (E : Int) < cap C b n) (hM : 1 < M) (hM2 : 2 * M ≤ 2 ^ (b * n)) :
    ∃ r, powmod b fuel x e m = some r ∧ Rep b n r (X ^ E % M) := by
  have hb := ok.hb
  have h9 : (2 : Int) ^ 1 ≤ 2 ^ b := pow_le_pow_right₀ (by norm_num) (by omega)
  have hEf := fuel_cap (M := 1) ok hn hf hE (by norm_num)
  obtain ⟨r, e1, hr⟩ := powLoop_spec ok hn hfit fuel hf hm hM hM2 fuel (newInt C m.length 1) (norm b e) (norm b x) 1 X E
    (by rw [hm.len]; exact newInt_rep ok (by omega) 1 (by norm_num) (by omega)) he hx (by norm_num) hM hX0 hX
    (by have h := hEf; rw [mul_one] at h; exact_mod_cast h) (by have : 0 < b * n := by positivity
                                                                omega)
  rw [one_mul] at hr
  exact ⟨r, e1, hr⟩

/-! ### `ssn` is one shift-and-subtract step of the reduction loop -/

theorem ssnGo_eq (b : Nat) (carry : BitVec C) (a m : Limbs C) (hl : a.length = m.length) :
    ssnGo b carry a m = (fshr b 1 m, normGo b carry (sub a (fshr b 1 m))) := by
  induction m generalizing a carry with
  | nil => cases a <;> simp_all [ssnGo, fshr, sub, normGo]
  | cons x m ih =>
    cases a with
    | nil => simp at hl
    | cons a as =>
      cases m with
      | nil =>
        have : as = [] := by simpa using hl
        subst this
        simp [ssnGo, fshr, sub, normGo]
      | cons y ms =>
        have IH := fun c => ih c as (by simpa using hl)
        have hfl : (fshr b 1 (y :: ms)).length = ms.length + 1 := by rw [fshr_length]; rfl
        cases as with
        | nil => simp at hl
        | cons a2 as2 =>
          cases hf : fshr b 1 (y :: ms) with
          | nil => rw [hf] at hfl; simp at hfl
          | cons f fs =>
            simp only [ssnGo, IH, fshr, hf]
            simp [sub, normGo]

theorem ssn_eq (b : Nat) (a m : Limbs C) (hl : a.length = m.length) :
    ssn b a m = (fshr b 1 m, norm b (sub a (fshr b 1 m)), topSign (norm b (sub a (fshr b 1 m)))) := by
  unfold ssn norm
  rw [ssnGo_eq b 0 a m hl]

end Verif.Big
