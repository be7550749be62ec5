import Verif.Big.Arith
/- Helper lemmas: `rmod`, `div`, `dmod`. -/
namespace Verif.Big
open Spec (limbsVal Normal LimbsWithin)

variable {C : Nat}

theorem cap_pos (C b n : Nat) : 0 < cap C b n := mul_pos (two_pow_pos' _) (two_pow_pos' _)

theorem cap_ge {b n : Nat} (ok : Ok C b) (hn : 0 < n) : 2 ^ (b * n) ≤ cap C b n := by
  unfold cap
  rw [← pow_add]
  apply pow_le_pow_right₀ (by norm_num)
  obtain ⟨m, rfl⟩ : ∃ m, n = m + 1 := ⟨n - 1, by omega⟩
  have := ok.hC
  rw [Nat.add_sub_cancel, Nat.mul_succ]; omega

theorem Rep.ne_nil {b n : Nat} {w : Limbs C} {V : Int} (h : Rep b n w V) (hn : 0 < n) : w ≠ [] := by
  rintro rfl; have := h.len; simp at this; omega

theorem Rep.within {b n : Nat} (ok : Ok C b) {w : Limbs C} {V : Int} (h : Rep b n w V)
    (h1 : -cap C b n ≤ V) (h2 : V < cap C b n) : LimbsWithin (2 ^ (C - 3)) w := by
  have := ok.hC
  apply h.low.within w (2 ^ (C - 3)) (pow_le_pow_right₀ (by norm_num) (by omega))
  · rw [h.val, h.len]; exact h1
  · rw [h.val, h.len]; exact h2

theorem pow_c3 {b : Nat} (ok : Ok C b) : (2 : Int) ^ (C - 1) = 4 * 2 ^ (C - 3) ∧ (2 : Int) ^ (C - 2) = 2 * 2 ^ (C - 3)
    ∧ (64 : Int) ≤ 2 ^ (C - 3) := by
  have := ok.hC
  have hb := ok.hb
  refine ⟨?_, ?_, ?_⟩
  · rw [show C - 1 = (C - 3) + 2 by omega, pow_add]; ring
  · rw [show C - 2 = (C - 3) + 1 by omega, pow_add]; ring
  · calc (64 : Int) = 2 ^ 6 := by norm_num
      _ ≤ 2 ^ (C - 3) := pow_le_pow_right₀ (by norm_num) (by omega)

theorem fshl_one_rep {b n : Nat} (ok : Ok C b) (hn : 2 ≤ n) {w : Limbs C} {V : Int} (h : Rep b n w V)
    (h1 : -cap C b n ≤ V) (h2 : V < cap C b n) : Rep b n (fshl b 1 w) (2 * V) := by
  obtain ⟨p1, p2, p3⟩ := pow_c3 ok
  have := fshl_spec (n := 1) ok (by have := ok.hb; omega) w (by rw [h.len]; exact hn) h.low _ (h.within ok h1 h2)
    (by rw [p1]; omega)
  exact ⟨by rw [this.1, h.len], this.2.1, by rw [this.2.2, h.val]; ring⟩

theorem fshr_one_rep {b n : Nat} (ok : Ok C b) {w : Limbs C} {V : Int} (h : Rep b n w V) :
    Rep b n (fshr b 1 w) (V / 2) := by
  have := fshr_spec (k := 1) ok (by have := ok.hb; omega) w h.low
  exact ⟨by rw [fshr_length, h.len], this.1, by rw [this.2, h.val]; rfl⟩

theorem norm_sub_rep {b n : Nat} (ok : Ok C b) (hn : 0 < n) {x y : Limbs C} {X Y : Int} (hx : Rep b n x X)
    (hy : Rep b n y Y) (h1 : -cap C b n ≤ X) (h2 : X < cap C b n) (h3 : -cap C b n ≤ Y) (h4 : Y < cap C b n) :
    Rep b n (norm b (sub x y)) (X - Y) := by
  obtain ⟨p1, p2, p3⟩ := pow_c3 ok
  have hC := ok.hC
  have wx := hx.within ok h1 h2
  have wy := hy.within ok h3 h4
  have hl : x.length = y.length := by rw [hx.len, hy.len]
  have hs := sub_within (by omega) x y _ _ wx wy (by rw [p1]; omega)
  have hv := sub_val (b := b) (by omega) x y hl _ _ wx wy (by rw [p1]; omega)
  have hlen : (sub x y).length = n := by simp [sub, hx.len, hy.len]
  have := norm_rep ok (sub x y) (by intro h; rw [h] at hlen; simp at hlen; omega) (by rw [p2, two_mul]; exact hs)
  rw [hlen, hv, hx.val, hy.val] at this
  exact this

theorem norm_add_rep {b n : Nat} (ok : Ok C b) (hn : 0 < n) {x y : Limbs C} {X Y : Int} (hx : Rep b n x X)
    (hy : Rep b n y Y) (h1 : -cap C b n ≤ X) (h2 : X < cap C b n) (h3 : -cap C b n ≤ Y) (h4 : Y < cap C b n) :
    Rep b n (norm b (add x y)) (X + Y) := by
  obtain ⟨p1, p2, p3⟩ := pow_c3 ok
  have hC := ok.hC
  have wx := hx.within ok h1 h2
  have wy := hy.within ok h3 h4
  have hl : x.length = y.length := by rw [hx.len, hy.len]
  have hs := add_within (by omega) x y _ _ wx wy (by rw [p1]; omega)
  have hv := add_val (b := b) (by omega) x y hl _ _ wx wy (by rw [p1]; omega)
  have hlen : (add x y).length = n := by simp [add, hx.len, hy.len]
  have := norm_rep ok (add x y) (by intro h; rw [h] at hlen; simp at hlen; omega) (by rw [p2, two_mul]; exact hs)
  rw [hlen, hv, hx.val, hy.val] at this
  exact this

theorem Rep.comp {b n : Nat} {x y : Limbs C} {X Y : Int} (hx : Rep b n x X)
    (hy : Rep b n y Y) : comp x y = Int.sign (X - Y) := by
  rw [comp_spec x y (by rw [hx.len, hy.len]) hx.low hy.low, hx.val, hy.val]

theorem sign_neg (a : Int) : Int.sign a < 0 ↔ a < 0 := by
  rcases lt_trichotomy a 0 with h | h | h
  · simp [h, Int.sign_eq_neg_one_of_neg h]
  · simp [h]
  · rw [Int.sign_eq_one_of_pos h]; omega

theorem Rep.comp_lt {b n : Nat} {x y : Limbs C} {X Y : Int} (hx : Rep b n x X)
    (hy : Rep b n y Y) : Verif.Big.comp x y < 0 ↔ X < Y := by
  rw [hx.comp hy, sign_neg]; omega

theorem Rep.comp_ge {b n : Nat} {x y : Limbs C} {X Y : Int} (hx : Rep b n x X)
    (hy : Rep b n y Y) : Verif.Big.comp x y ≥ 0 ↔ Y ≤ X := by
  rw [ge_iff_le, ← not_lt, hx.comp_lt hy, not_lt]

theorem Rep.comp_eq {b n : Nat} {x y : Limbs C} {X Y : Int} (hx : Rep b n x X)
    (hy : Rep b n y Y) : Verif.Big.comp x y = 0 ↔ X = Y := by
  rw [hx.comp hy, Int.sign_eq_zero_iff_zero]; omega

theorem Rep.comp_gt {b n : Nat} {x y : Limbs C} {X Y : Int} (hx : Rep b n x X)
    (hy : Rep b n y Y) : Verif.Big.comp x y > 0 ↔ Y < X := by
  rw [hx.comp hy, gt_iff_lt, Int.sign_pos_iff]; omega

theorem Rep.topSign {b n : Nat} (ok : Ok C b) (hn : 0 < n) {x : Limbs C} {X : Int} (hx : Rep b n x X) :
    topSign x = if X < 0 then 1 else 0 := by
  rw [topSign_spec (by have := ok.hC; omega) x (hx.ne_nil hn) hx.low, hx.val]

theorem cmove_sign_rep {b n : Nat} (ok : Ok C b) (hn : 0 < n) {x r y : Limbs C} {X Y R : Int} (hx : Rep b n x X)
    (hr : Rep b n r R) (hy : Rep b n y Y) :
    Rep b n (cmove x y (1 - topSign r)) (if R < 0 then X else Y) := by
  rw [hr.topSign ok hn]
  split
  · rw [show (1 : Int) - 1 = 0 by rfl, cmove_zero x y (by rw [hx.len, hy.len])]; exact hx
  · rw [show (1 : Int) - 0 = 1 by rfl, cmove_one x y (by rw [hx.len, hy.len])]; exact hy

/-! ### doubling loop -/

theorem upLoop_spec {b n : Nat} (ok : Ok C b) (hn : 2 ≤ n) {x : Limbs C} {X M : Int} (hx : Rep b n x X)
    (hX : 2 * X < cap C b n) (hM : 0 < M) (fuel : Nat) (m : Limbs C) (k : Nat) (hm : Rep b n m (2 ^ k * M))
    (hle : 2 ^ k * M ≤ X) (hf : X < 2 ^ (k + fuel) * M) :
    ∃ m' k', upLoop b x fuel m k = some (m', k') ∧ Rep b n m' (2 ^ k' * M) ∧ X < 2 ^ k' * M ∧ 2 ^ k' * M ≤ 2 * X := by
  induction fuel generalizing m k with
  | zero => rw [Nat.add_zero] at hf; omega
  | succ f ih =>
    have hp : 0 < 2 ^ k * M := mul_pos (two_pow_pos' k) hM
    have hc := cap_pos C b n
    have hm2 := fshl_one_rep ok hn hm (by omega) (by omega)
    have e : 2 * (2 ^ k * M) = 2 ^ (k + 1) * M := by rw [pow_succ]; ring
    rw [e] at hm2
    unfold upLoop
    by_cases h : X < 2 ^ (k + 1) * M
    · exact ⟨fshl b 1 m, k + 1, by simp only [(hx.comp_lt hm2).2 h, if_true], hm2, h, by omega⟩
    · have h' : ¬ comp x (fshl b 1 m) < 0 := fun hh => h ((hx.comp_lt hm2).1 hh)
      simp only [h', if_false]
      exact ih _ _ hm2 (by omega) (by rw [show k + 1 + f = k + (f + 1) by omega]; exact hf)

theorem downLoop_spec {b n : Nat} (ok : Ok C b) (hn : 0 < n) {M : Int} (hM : 0 < M) (k : Nat) (m x : Limbs C) (X : Int)
    (hm : Rep b n m (2 ^ k * M)) (hx : Rep b n x X) (h0 : 0 ≤ X) (hX : X < cap C b n) (hlt : X < 2 ^ k * M)
    (hmc : 2 ^ k * M ≤ cap C b n) :
    Rep b n (downLoop b k m x) (X % M) := by
  induction k generalizing m x X with
  | zero =>
    simp only [pow_zero, one_mul] at hlt
    rw [downLoop, Int.emod_eq_of_lt h0 hlt]; exact hx
  | succ k ih =>
    have hm2 := fshr_one_rep ok hm
    have e : 2 ^ (k + 1) * M = 2 * (2 ^ k * M) := by rw [pow_succ]; ring
    rw [e, Int.mul_ediv_cancel_left _ (by norm_num)] at hm2
    have hp : 0 < 2 ^ k * M := mul_pos (two_pow_pos' k) hM
    have hr := norm_sub_rep ok hn hx hm2 (by omega) hX (by omega) (by omega)
    have hcm := cmove_sign_rep ok hn hx hr hr
    rw [downLoop]
    have := ih (fshr b 1 m) (cmove x (norm b (sub x (fshr b 1 m))) (1 - topSign (norm b (sub x (fshr b 1 m))))) _ hm2 hcm
      (by split <;> omega) (by split <;> omega) (by split <;> omega) (by omega)
    have e2 : (if X - 2 ^ k * M < 0 then X else X - 2 ^ k * M) % M = X % M := by
      split
      · rfl
      · rw [Int.sub_mul_emod_self_right]
    rw [e2] at this
    exact this

theorem rmod_spec {b n : Nat} (ok : Ok C b) (hn : 2 ≤ n) (fuel : Nat) {x m : Limbs C} {X M : Int}
    (hx : Rep b n (norm b x) X) (hm : Rep b n m M) (h0 : 0 ≤ X) (hX : 2 * X < cap C b n) (hM : 0 < M)
    (hf : X < 2 ^ fuel * M) :
    ∃ r, rmod b fuel x m = some r ∧ Rep b n r (X % M) := by
  unfold rmod
  by_cases h : X < M
  · exact ⟨norm b x, by simp only [(hx.comp_lt hm).2 h, if_true], by rw [Int.emod_eq_of_lt h0 h]; exact hx⟩
  · have h' : ¬ comp (norm b x) m < 0 := fun hh => h ((hx.comp_lt hm).1 hh)
    simp only [h', if_false]
    obtain ⟨m', k', e1, e2, e3, e4⟩ := upLoop_spec ok hn hx hX hM fuel m 0 (by simpa using hm) (by simpa using not_lt.1 h)
      (by simpa using hf)
    rw [e1, Option.map_some]
    have hc := cap_pos C b n
    exact ⟨_, rfl, downLoop_spec ok (by omega) hM k' m' _ X e2 hx h0 (by omega) e3 (by omega)⟩

/-! ### division -/

theorem divUp_spec {b n n' : Nat} (ok : Ok C b) (hn : 2 ≤ n) (hn' : 2 ≤ n') {x : Limbs C} {X M : Int} (hx : Rep b n x X)
    (hX : 2 * X < cap C b n) (hM : 0 < M) (hQ : X / M < cap C b n') (fuel : Nat) (e m : Limbs C) (k : Nat)
    (he : Rep b n' e (2 ^ k)) (hm : Rep b n m (2 ^ k * M))
    (hf : X < 2 ^ (k + fuel) * M) (hf1 : 1 ≤ fuel) (hf2 : X < 2 ^ (k + (fuel - 1)) * M) (hk : k = 0 ∨ 2 ^ k * M ≤ 2 * X) :
    ∃ e' m' k', divUp b x fuel e m k = some (e', m', k') ∧ Rep b n' e' (2 ^ k') ∧ Rep b n m' (2 ^ k' * M) ∧
      X < 2 ^ k' * M ∧ (k' = 0 ∨ 2 ^ k' * M ≤ 2 * X) := by
  induction fuel generalizing e m k with
  | zero => omega
  | succ f ih =>
    have hkp := two_pow_pos' k
    have hp : 0 < 2 ^ k * M := mul_pos hkp hM
    have hc := cap_pos C b n
    have hc' := cap_pos C b n'
    unfold divUp
    by_cases h : 2 ^ k * M ≤ X
    · simp only [(hx.comp_ge hm).2 h, if_true]
      have hkM : 2 ^ k ≤ X / M := (Int.le_ediv_iff_mul_le hM).2 h
      have hm2 := fshl_one_rep ok hn hm (by omega) (by omega)
      have he2 := fshl_one_rep ok hn' he (by omega) (by omega)
      have e1 : 2 * (2 ^ k * M) = 2 ^ (k + 1) * M := by rw [pow_succ]; ring
      have e2 : 2 * (2 : Int) ^ k = 2 ^ (k + 1) := by rw [pow_succ]; ring
      rw [e1] at hm2
      rw [e2] at he2
      have hf1' : 1 ≤ f := by
        by_contra hc
        have : f = 0 := by omega
        subst this
        simp only [Nat.zero_add, Nat.sub_self, Nat.add_zero] at hf2
        omega
      exact ih _ _ _ he2 hm2 (by rw [show k + 1 + f = k + (f + 1) by omega]; exact hf) hf1'
        (by rw [show k + 1 + (f - 1) = k + (f + 1 - 1) by omega]; exact hf2) (Or.inr (by omega))
    · have h' : ¬ comp x m ≥ 0 := fun hh => h ((hx.comp_ge hm).1 hh)
      simp only [h', if_false]
      exact ⟨e, m, k, rfl, he, hm, by omega, hk⟩

theorem divDown_spec {b n n' : Nat} (ok : Ok C b) (hn : 0 < n) (hn' : 0 < n') {M : Int} (hM : 0 < M) (k : Nat)
    (e m x q : Limbs C)
    (X Q : Int) (he : Rep b n' e (2 ^ k)) (hm : Rep b n m (2 ^ k * M)) (hx : Rep b n x X) (hq : Rep b n' q Q)
    (h0 : 0 ≤ X) (hX : X < cap C b n) (hlt : X < 2 ^ k * M)
    (hmc : k = 0 ∨ 2 ^ k * M ≤ cap C b n) (hec : ∀ j < k, 2 ^ j < cap C b n') (hQ : 0 ≤ Q)
    (hQc : Q + X / M < cap C b n') :
    Rep b n' (divDown b k e m x q) (Q + X / M) := by
  induction k generalizing e m x q X Q with
  | zero =>
    simp only [pow_zero, one_mul] at hlt
    rw [divDown, Int.ediv_eq_zero_of_lt h0 hlt, add_zero]; exact hq
  | succ k ih =>
    have hm2 := fshr_one_rep ok hm
    have he2 := fshr_one_rep ok he
    have e1 : 2 ^ (k + 1) * M = 2 * (2 ^ k * M) := by rw [pow_succ]; ring
    have e2 : (2 : Int) ^ (k + 1) = 2 * 2 ^ k := by rw [pow_succ]; ring
    rw [e1, Int.mul_ediv_cancel_left _ (by norm_num)] at hm2
    rw [e2, Int.mul_ediv_cancel_left _ (by norm_num)] at he2
    have hkp := two_pow_pos' k
    have hp : 0 < 2 ^ k * M := mul_pos hkp hM
    have hq0 : 0 ≤ X / M := Int.ediv_nonneg h0 hM.le
    have hec' := hec k (by omega)
    have hmc' : 2 ^ (k + 1) * M ≤ cap C b n := by rcases hmc with h | h <;> omega
    have hr := norm_sub_rep ok hn hx hm2 (by omega) hX (by omega) (by omega)
    have hcm := cmove_sign_rep ok hn hx hr hr
    have hr2 := norm_add_rep ok hn' hq he2 (by omega) (by omega) (by omega) (by omega)
    have hcq : Rep b n' (cmove q (norm b (add q (fshr b 1 e))) (1 - topSign (norm b (sub x (fshr b 1 m)))))
        (if X - 2 ^ k * M < 0 then Q else Q + 2 ^ k) := by
      rw [hr.topSign ok hn]
      split
      · rw [show (1 : Int) - 1 = 0 by rfl, cmove_zero _ _ (by rw [hq.len, hr2.len])]; exact hq
      · rw [show (1 : Int) - 0 = 1 by rfl, cmove_one _ _ (by rw [hq.len, hr2.len])]; exact hr2
    rw [divDown]
    have e3 : (if X - 2 ^ k * M < 0 then Q else Q + 2 ^ k) + (if X - 2 ^ k * M < 0 then X else X - 2 ^ k * M) / M
        = Q + X / M := by
      split
      · rfl
      · rw [Int.sub_mul_ediv_right _ _ hM.ne']; ring
    have := ih _ _ _ _ _ _ he2 hm2 hcm hcq (by split <;> omega) (by split <;> omega) (by split <;> omega) (by right; omega)
      (fun j hj => hec j (by omega)) (by split <;> omega) (by rw [e3]; exact hQc)
    rw [e3] at this
    exact this

theorem divLoops_spec {b n n' : Nat} (ok : Ok C b) (hn : 2 ≤ n) (hn' : 2 ≤ n') (fuel : Nat) {x m : Limbs C} {X M : Int}
    (hx : Rep b n x X) (hm : Rep b n m M) (h0 : 0 ≤ X) (hX : 2 * X < cap C b n) (hM : 0 < M)
    (hQ : X / M < cap C b n') (hf : X < 2 ^ fuel * M) :
    ∃ emk, divUp b x (fuel + 1) (newInt C n' 1) m 0 = some emk ∧
      Rep b n' (divDown b emk.2.2 emk.1 emk.2.1 x (zero C n')) (X / M) := by
  have h1 : Rep b n' (newInt C n' 1) (2 ^ 0) := by
    rw [pow_zero]
    apply newInt_rep ok (by omega) 1 (by norm_num)
    calc (1 : Int) < 2 ^ 1 := by norm_num
      _ ≤ 2 ^ b := pow_le_pow_right₀ (by norm_num) (by have := ok.hb; omega)
  have hp := two_pow_pos' fuel
  obtain ⟨e', m', k', g1, g2, g3, g4, g5⟩ := divUp_spec ok hn hn' hx hX hM hQ (fuel + 1) (newInt C n' 1) m 0 h1 (by simpa using hm)
    (by rw [Nat.zero_add, pow_succ]; nlinarith) (by omega) (by simpa using hf) (Or.inl rfl)
  have hc := cap_pos C b n
  refine ⟨(e', m', k'), g1, ?_⟩
  have := divDown_spec ok (by omega) (by omega) hM k' e' m' x (zero C n') X 0 g2 g3 hx (zero_rep b n') h0 (by omega) g4
    (by rcases g5 with h | h; exact Or.inl h; right; omega)
    (fun j hj => by
      refine lt_of_le_of_lt ?_ hQ
      rw [Int.le_ediv_iff_mul_le hM]
      have h2 : 2 ^ k' * M ≤ 2 * X := by rcases g5 with h | h; omega; exact h
      have h3 : (2 : Int) ^ (j + 1) ≤ 2 ^ k' := pow_le_pow_right₀ (by norm_num) (by omega)
      rw [pow_succ] at h3
      have := mul_le_mul_of_nonneg_right h3 hM.le
      nlinarith) (le_refl 0) (by omega)
  rw [zero_add] at this
  exact this

theorem div_spec {b n : Nat} (ok : Ok C b) (hn : 2 ≤ n) (fuel : Nat) {x m : Limbs C} {X M : Int}
    (hx : Rep b n (norm b x) X) (hm : Rep b n m M) (h0 : 0 ≤ X) (hX : 2 * X < cap C b n) (hM : 0 < M)
    (hf : X < 2 ^ fuel * M) :
    ∃ q, div b (fuel + 1) x m = some q ∧ Rep b n q (X / M) := by
  have hlen : (norm b x).length = n := hx.len
  have hq := Int.ediv_le_self M h0
  obtain ⟨emk, e1, e2⟩ := divLoops_spec ok hn hn fuel hx hm h0 hX hM (by omega) hf
  unfold div
  simp only [hlen, e1, Option.map_some]
  exact ⟨_, rfl, e2⟩

/-! ### double-length -/

theorem val_dropLast_getLast {b : Nat} (w : Limbs C) (hne : w ≠ []) :
    limbsVal b w = limbsVal b w.dropLast + 2 ^ (b * (w.length - 1)) * (w.getLastD 0).toInt := by
  conv => lhs; rw [← List.dropLast_append_getLast hne]
  rw [val_append, List.length_dropLast, List.getLastD_eq_getLast?, List.getLast?_eq_some_getLast hne]
  simp [limbsVal]

theorem newScopy_rep {b n : Nat} (ok : Ok C b) (hn : 0 < n) {x : Limbs C} {X : Int} (hx : Rep b n x X) (h0 : 0 ≤ X) :
    Rep b (2 * n) (newScopy b x) X := by
  have hne := hx.ne_nil hn
  have hC := ok.hC
  have hBpos := two_pow_pos' b
  have ht := top_eq x hne hx.low
  rw [hx.val] at ht
  have htop : 0 ≤ (x.getLastD 0).toInt := by rw [ht]; exact Int.ediv_nonneg h0 (two_pow_pos' _).le
  have hm : (x.getLastD 0 &&& bmask C b).toInt = (x.getLastD 0).toInt % 2 ^ b := toInt_and_mask _ _ (by omega)
  have hs : ((x.getLastD 0).sshiftRight b).toInt = (x.getLastD 0).toInt / 2 ^ b := toInt_sshr _ _
  have hdd : Digits b x.dropLast := by
    have hlow := hx.low
    clear hx ht hm hs htop
    induction x with
    | nil => exact absurd rfl hne
    | cons y ys ih =>
      cases ys with
      | nil => intro z hz; simp at hz
      | cons z zs =>
        intro u hu
        simp only [List.dropLast_cons_cons, List.mem_cons] at hu
        rcases hu with rfl | hu
        · exact hlow.1
        · exact ih (by simp) hlow.2 u hu
  refine ⟨?_, ?_, ?_⟩
  · simp [newScopy, hx.len]; omega
  · unfold newScopy
    rw [List.append_assoc]
    apply normal_append _ _ hdd
    apply Spec.Normal.cons
    · rw [hm]; exact Int.emod_nonneg _ hBpos.ne'
    · rw [hm]; exact Int.emod_lt_of_pos _ hBpos
    · apply Spec.Normal.cons
      · rw [hs]; exact Int.ediv_nonneg htop hBpos.le
      · rw [hs]
        apply Int.ediv_lt_of_lt_mul hBpos
        have h2 := toInt_bounds (x.getLastD 0)
        have h3 : (2 : Int) ^ (C - 1) ≤ 2 ^ (b + b) := pow_le_pow_right₀ (by norm_num) (by have := ok.h2; omega)
        rw [pow_add] at h3; omega
      · exact (digits_zero b _).normal
  · rw [← hx.val, val_dropLast_getLast x hne]
    simp only [newScopy, val_append, val_replicate_zero, limbsVal, hm, hs, List.length_dropLast]
    have := Int.emod_add_mul_ediv (x.getLastD 0).toInt (2 ^ b)
    conv => rhs; rw [← this]
    ring

/-- `new_scopy` of a number whose limbs are digits up to sign -/
theorem newScopy_gen {b n q : Nat} (ok : Ok C b) (hn : 0 < n) (hq : 1 ≤ q) {x : Limbs C} (hl : x.length = n) (hx : Spec.LimbsWithin (q * (2 ^ b - 1)) x) :
    (newScopy b x).length = 2 * n ∧ Spec.LimbsWithin (q * (2 ^ b - 1)) (newScopy b x) ∧ limbsVal b (newScopy b x) = limbsVal b x := by
  have hne : x ≠ [] := by intro h; rw [h] at hl; simp at hl; omega
  have hC := ok.hC
  have hb := ok.hb
  have hBpos := two_pow_pos' b
  have h2B : (2 : Int) ≤ 2 ^ b := by
    calc (2 : Int) = 2 ^ 1 := by norm_num
      _ ≤ 2 ^ b := pow_le_pow_right₀ (by norm_num) (by omega)
  have hm : (x.getLastD 0 &&& bmask C b).toInt = (x.getLastD 0).toInt % 2 ^ b := toInt_and_mask _ _ (by omega)
  have hs : ((x.getLastD 0).sshiftRight b).toInt = (x.getLastD 0).toInt / 2 ^ b := toInt_sshr _ _
  have hmem : x.getLastD 0 ∈ x := by
    rw [List.getLastD_eq_getLast?, List.getLast?_eq_some_getLast hne]; exact List.getLast_mem hne
  have ht := hx _ hmem
  have hq' : (1 : Int) ≤ q := by exact_mod_cast hq
  have hqB : (q : Int) ≤ q * (2 ^ b - 1) := by nlinarith
  have h1B : (2 : Int) ^ b - 1 ≤ q * (2 ^ b - 1) := by nlinarith
  refine ⟨by simp [newScopy, hl]; omega, ?_, ?_⟩
  · intro z hz
    simp only [newScopy, List.mem_append, List.mem_cons, List.not_mem_nil, or_false] at hz
    rcases hz with (hz | rfl | rfl) | hz
    · exact hx z (List.mem_of_mem_dropLast hz)
    · rw [hm]
      have := Int.emod_nonneg (x.getLastD 0).toInt hBpos.ne'
      have := Int.emod_lt_of_pos (x.getLastD 0).toInt hBpos
      omega
    · rw [hs]
      have h1 : -(q : Int) ≤ (x.getLastD 0).toInt / 2 ^ b := by rw [Int.le_ediv_iff_mul_le hBpos]; linarith
      have h2 : (x.getLastD 0).toInt / 2 ^ b < q := by rw [Int.ediv_lt_iff_lt_mul hBpos]; linarith
      omega
    · rw [List.eq_of_mem_replicate hz]; simp; omega
  · rw [val_dropLast_getLast x hne]
    simp only [newScopy, val_append, val_replicate_zero, limbsVal, hm, hs, List.length_dropLast]
    have := Int.emod_add_mul_ediv (x.getLastD 0).toInt (2 ^ b)
    conv => rhs; rw [← this]
    ring

theorem newScopy_signed {b n : Nat} (ok : Ok C b) (hn : 0 < n) {x : Limbs C} (hl : x.length = n) (hx : Spec.LimbsWithin (2 ^ b - 1) x) :
    (newScopy b x).length = 2 * n ∧ Spec.LimbsWithin (2 ^ b - 1) (newScopy b x) ∧ limbsVal b (newScopy b x) = limbsVal b x := by
  have := newScopy_gen (q := 1) ok hn le_rfl hl (by rw [Nat.cast_one, one_mul]; exact hx)
  rw [Nat.cast_one, one_mul] at this
  exact this

theorem take_rep {b n k : Nat} {w : Limbs C} {V : Int} (h : Rep b n w V) (hk : k ≤ n) (h0 : 0 ≤ V)
    (h1 : V < 2 ^ (b * k)) : Rep b k (w.take k) V := by
  have hle : (2 : Int) ^ (b * k) ≤ 2 ^ (b * n) := pow_le_pow_right₀ (by norm_num) (Nat.mul_le_mul_left b hk)
  have hd := h.digits h0 (by omega)
  refine ⟨by rw [List.length_take, h.len]; omega, (hd.take k).normal, ?_⟩
  rw [(take_drop_val hd k (by rw [h.len]; exact hk)).1, h.val, Int.emod_eq_of_lt h0 h1]

theorem dmod_spec {b n : Nat} (ok : Ok C b) (hn : 0 < n) (fuel : Nat) {d m : Limbs C} {X M : Int}
    (hd : Rep b (2 * n) (norm b d) X) (hm : Rep b n m M) (h0 : 0 ≤ X) (hX : 2 * X < cap C b (2 * n)) (hM : 0 < M)
    (hM2 : M ≤ 2 ^ (b * n)) (hf : X < 2 ^ fuel * M) :
    ∃ r, dmod b fuel d m = some r ∧ Rep b n r (X % M) := by
  unfold dmod
  have hs := newScopy_rep ok hn hm hM.le
  have hr := Int.emod_lt_of_pos X hM
  have hr0 := Int.emod_nonneg X hM.ne'
  have hml := hm.len
  by_cases h : X < M
  · refine ⟨(norm b d).take m.length, by simp only [(hd.comp_lt hs).2 h, if_true], ?_⟩
    rw [Int.emod_eq_of_lt h0 h, hml]
    exact take_rep hd (by omega) h0 (by omega)
  · have h' : ¬ comp (norm b d) (newScopy b m) < 0 := fun hh => h ((hd.comp_lt hs).1 hh)
    simp only [h', if_false]
    obtain ⟨m', k', e1, e2, e3, e4⟩ := upLoop_spec ok (by omega) hd hX hM fuel (newScopy b m) 0 (by simpa using hs)
      (by simpa using not_lt.1 h) (by simpa using hf)
    rw [e1, Option.map_some, hml]
    have hc := cap_pos C b (2 * n)
    have := downLoop_spec ok (by omega) hM k' m' _ X e2 hd h0 (by omega) e3 (by omega)
    exact ⟨_, rfl, take_rep this (by omega) hr0 (by omega)⟩

theorem ddiv_spec {b n : Nat} (ok : Ok C b) (hn : 2 ≤ n) (fuel : Nat) {d m : Limbs C} {X M : Int}
    (hd : Rep b (2 * n) (norm b d) X) (hm : Rep b n m M) (h0 : 0 ≤ X) (hX : 2 * X < cap C b (2 * n)) (hM : 0 < M)
    (hQ : X / M < cap C b n) (hf : X < 2 ^ fuel * M) :
    ∃ q, ddiv b (fuel + 1) d m = some q ∧ Rep b n q (X / M) := by
  obtain ⟨emk, e1, e2⟩ := divLoops_spec ok (by omega) hn fuel hd (newScopy_rep ok (by omega) hm hM.le) h0 hX hM hQ hf
  unfold ddiv
  simp only [hm.len, e1, Option.map_some]
  exact ⟨_, rfl, e2⟩

/-! ### a zero modulus is never reduced away -/

theorem upLoop_zero_diverges {b n : Nat} (ok : Ok C b) (hn : 2 ≤ n) {x : Limbs C} {X : Int} (hx : Rep b n x X)
    (h0 : 0 ≤ X) (fuel : Nat) (m : Limbs C) (k : Nat) (hm : Rep b n m 0) : upLoop b x fuel m k = none := by
  induction fuel generalizing m k with
  | zero => rfl
  | succ f ih =>
    have hc := cap_pos C b n
    have hm2 := fshl_one_rep ok hn hm (by omega) (by omega)
    rw [mul_zero] at hm2
    unfold upLoop
    have h' : ¬ comp x (fshl b 1 m) < 0 := fun hh => by
      have := (hx.comp_lt hm2).1 hh; omega
    simp only [h', if_false]
    exact ih _ _ hm2

theorem rmod_zero_diverges {b n : Nat} (ok : Ok C b) (hn : 2 ≤ n) (fuel : Nat) {x m : Limbs C} {X : Int}
    (hx : Rep b n (norm b x) X) (hm : Rep b n m 0) (h0 : 0 ≤ X) : rmod b fuel x m = none := by
  unfold rmod
  have h' : ¬ comp (norm b x) m < 0 := fun hh => by
    have := (hx.comp_lt hm).1 hh; omega
  simp only [h', if_false, upLoop_zero_diverges ok hn hx h0 fuel m 0 hm, Option.map_none]

end Verif.Big
