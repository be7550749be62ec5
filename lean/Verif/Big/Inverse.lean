import Verif.Big.Modular
import Mathlib.Data.Int.GCD
import Mathlib.Tactic.Push
/- Helper lemmas: binary modular inversion. -/
namespace Verif.Big
open Spec (limbsVal Normal LimbsWithin)

variable {C : Nat}

/-- coefficient invariant: `a·X ≡ u (mod P)`, `0 ≤ a < P` -/
structure Coef (b n : Nat) (P X : Int) (x : Limbs C) (U : Int) : Prop where
  ex : ∃ A, Rep b n x A ∧ 0 ≤ A ∧ A < P ∧ A * X ≡ U [ZMOD P]

theorem half_modEq {P A X U : Int} (hP : P % 2 = 1) (h : 2 * A * X ≡ 2 * U [ZMOD P]) : A * X ≡ U [ZMOD P] := by
  rw [Int.modEq_iff_dvd] at h ⊢
  obtain ⟨k, hk⟩ := h
  have e : P * k = 2 * (U - A * X) := by rw [← hk]; ring
  have hk2 : k % 2 = 0 := by
    have : P * k % 2 = 0 := by omega
    rw [Int.mul_emod, hP] at this
    omega
  exact ⟨k / 2, by
    have : k = 2 * (k / 2) := by omega
    rw [this, mul_left_comm] at e
    linarith⟩

theorem digits_sub_within {b : Nat} (ok : Ok C b) (xs ys : Limbs C) (hx : Digits b xs) (hy : Digits b ys) :
    LimbsWithin (2 ^ b) (sub xs ys) := by
  have hC := ok.hC
  have hle : (2 : Int) ^ b ≤ 2 ^ (C - 1) := pow_le_pow_right₀ (by norm_num) (by omega)
  induction xs generalizing ys with
  | nil => intro z hz; simp [sub] at hz
  | cons x xs ih =>
    cases ys with
    | nil => intro z hz; simp [sub] at hz
    | cons y ys =>
      have h1 := hx x (by simp)
      have h2 := hy y (by simp)
      intro z hz
      simp only [sub, List.zipWith_cons_cons, List.mem_cons] at hz
      rcases hz with rfl | hz
      · rw [toInt_sub_of _ _ (by omega) (by omega) (by omega)]; omega
      · exact ih ys (fun w hw => hx w (by simp [hw])) (fun w hw => hy w (by simp [hw])) z hz

theorem halve_coef {b n : Nat} (ok : Ok C b) (hn : 2 ≤ n) {P X : Int} {p : Limbs C} (hp : Rep b n p P) (hP : P % 2 = 1)
    (hP2 : 2 * P ≤ 2 ^ (b * n)) {x : Limbs C} {U : Int} (hU : U % 2 = 0) (h : Coef b n P X x U) :
    Coef b n P X (fshr b 1 (if parity x ≠ 0 then norm b (add x p) else x)) (U / 2) := by
  obtain ⟨A, rA, a0, a1, aeq⟩ := h.ex
  have hcg := cap_ge (n := n) ok (by omega)
  have hcp := cap_pos C b n
  rw [rA.parity ok hn]
  have hU2 : 2 * (U / 2) = U := by omega
  by_cases ho : A % 2 = 0
  · rw [if_neg (by rw [ho]; simp)]
    refine ⟨A / 2, fshr_one_rep ok rA, by omega, by omega, half_modEq hP ?_⟩
    rw [hU2, show 2 * (A / 2) = A by omega]; exact aeq
  · rw [if_pos ho]
    have hs := norm_add_rep ok (by omega) rA hp (by omega) (by omega) (by omega) (by omega)
    refine ⟨(A + P) / 2, fshr_one_rep ok hs, by omega, by omega, half_modEq hP ?_⟩
    rw [hU2, show 2 * ((A + P) / 2) = A + P by omega, add_mul]
    have : A * X + P * X ≡ U + 0 [ZMOD P] := aeq.add ((Int.modEq_zero_iff_dvd).2 ⟨X, rfl⟩)
    simpa using this

/-- partial correctness of the inner loops -/
theorem invHalve_sound {b n : Nat} (ok : Ok C b) (hn : 2 ≤ n) {P X : Int} {p : Limbs C} (hp : Rep b n p P) (hP : P % 2 = 1)
    (hP2 : 2 * P ≤ 2 ^ (b * n)) (fuel : Nat) (u x : Limbs C) (U : Nat) (hu : Rep b n u U) (h : Coef b n P X x U)
    {r : Limbs C × Limbs C} (hr : invHalve b p fuel u x = some r) :
    ∃ U' k : Nat, Rep b n r.1 U' ∧ Coef b n P X r.2 U' ∧ U' % 2 = 1 ∧ U = 2 ^ k * U' := by
  induction fuel generalizing u x U with
  | zero => simp [invHalve] at hr
  | succ f ih =>
    unfold invHalve at hr
    rw [hu.parity ok hn] at hr
    by_cases he : U % 2 = 0
    · have he' : (U : Int) % 2 = 0 := by omega
      simp only [he', if_true] at hr
      have hu2 : Rep b n (fshr b 1 u) ((U / 2 : Nat) : Int) := by
        have := fshr_one_rep ok hu; exact_mod_cast this
      have hc2 := halve_coef ok hn hp hP hP2 he' h
      obtain ⟨U', k, h1, h2, h3, h4⟩ := ih _ _ (U / 2) hu2 (by exact_mod_cast hc2) hr
      exact ⟨U', k + 1, h1, h2, h3, by rw [pow_succ]; have : U = 2 * (U / 2) := by omega
                                       rw [this]; conv => lhs; rw [h4]
                                       ring⟩
    · have he' : ¬ (U : Int) % 2 = 0 := by omega
      simp only [he', if_false, Option.some.injEq] at hr
      subst hr
      exact ⟨U, 0, hu, h, by omega, by simp⟩

theorem invHalve_some {b n : Nat} (ok : Ok C b) (hn : 2 ≤ n) {p : Limbs C} (fuel : Nat) (u x : Limbs C) (U : Nat)
    (hu : Rep b n u U) (h0 : 0 < U) (hf : U < 2 ^ fuel) : ∃ r, invHalve b p fuel u x = some r := by
  induction fuel generalizing u x U with
  | zero => simp at hf; omega
  | succ f ih =>
    unfold invHalve
    rw [hu.parity ok hn]
    by_cases he : U % 2 = 0
    · have he' : (U : Int) % 2 = 0 := by omega
      simp only [he', if_true]
      have hu2 : Rep b n (fshr b 1 u) ((U / 2 : Nat) : Int) := by
        have := fshr_one_rep ok hu; exact_mod_cast this
      exact ih _ _ (U / 2) hu2 (by omega) (by rw [pow_succ] at hf; omega)
    · have he' : ¬ (U : Int) % 2 = 0 := by omega
      simp only [he', if_false]
      exact ⟨_, rfl⟩

theorem invHalve_zero {b n : Nat} (ok : Ok C b) (hn : 2 ≤ n) {p : Limbs C} (fuel : Nat) (u x : Limbs C)
    (hu : Rep b n u 0) : invHalve b p fuel u x = none := by
  induction fuel generalizing u x with
  | zero => rfl
  | succ f ih =>
    unfold invHalve
    rw [hu.parity ok hn]
    simp only [Int.zero_emod, if_true]
    exact ih _ _ (by simpa using fshr_one_rep ok hu)

theorem invSub_coef {b n : Nat} (ok : Ok C b) (hn : 2 ≤ n) {P X : Int} {p : Limbs C} (hp : Rep b n p P)
    (hP2 : 2 * P ≤ 2 ^ (b * n)) {x y : Limbs C} {U V : Int} (hx : Coef b n P X x U) (hy : Coef b n P X y V) :
    Coef b n P X (invSub b p x y) (U - V) := by
  obtain ⟨A, rA, a0, a1, aeq⟩ := hx.ex
  obtain ⟨B, rB, b0, b1, beq⟩ := hy.ex
  have hC := ok.hC
  have hcg := cap_ge (n := n) ok (by omega)
  have hcp := cap_pos C b n
  unfold invSub
  by_cases h : B ≤ A
  · rw [if_pos ((rA.comp_ge rB).2 h)]
    refine ⟨A - B, norm_sub_rep ok (by omega) rA rB (by omega) (by omega) (by omega) (by omega), by omega, by omega, ?_⟩
    rw [sub_mul]; exact aeq.sub beq
  · rw [if_neg (fun hh => h ((rA.comp_ge rB).1 hh))]
    have dA := rA.digits a0 (by omega)
    have dB := rB.digits b0 (by omega)
    have dP := hp.digits (by omega) (by omega)
    have e1 : (4 : Int) * 2 ^ b ≤ 2 ^ (C - 1) := by
      rw [show (4 : Int) = 2 ^ 2 by norm_num, ← pow_add]; exact pow_le_pow_right₀ (by norm_num) (by omega)
    have e2 : (2 : Int) * 2 ^ b ≤ 2 ^ (C - 2) := by
      rw [← pow_succ']; exact pow_le_pow_right₀ (by norm_num) (by omega)
    have hbp := two_pow_pos' b
    have wp := dP.within (2 ^ b) le_rfl
    have wb := dB.within (2 ^ b) le_rfl
    have wa := dA.within (2 ^ b) le_rfl
    have wsub := digits_sub_within ok p y dP dB
    have hls : (sub p y).length = n := by simp [sub, hp.len, rB.len]
    have vs := sub_val (b := b) (by omega) p y (by rw [hp.len, rB.len]) _ _ wp wb (by linarith)
    have va := add_val (b := b) (by omega) x (sub p y) (by rw [rA.len, hls]) _ _ wa wsub (by linarith)
    have wadd := add_within (by omega) x (sub p y) _ _ wa wsub (by linarith)
    have hla : (add x (sub p y)).length = n := by simp [add, rA.len, hls]
    have hr := norm_rep ok (add x (sub p y)) (by intro h; rw [h] at hla; simp at hla; omega)
      (within_mono (by linarith) _ wadd)
    rw [hla, va, vs, rA.val, hp.val, rB.val] at hr
    refine ⟨A + (P - B), hr, by omega, by omega, ?_⟩
    have e : (A + (P - B)) * X = A * X - B * X + P * X := by ring
    rw [e]
    have := (aeq.sub beq).add ((Int.modEq_zero_iff_dvd (n := P)).2 ⟨X, rfl⟩ : P * X ≡ 0 [ZMOD P])
    simpa using this

theorem one_rep {b n : Nat} (ok : Ok C b) (hn : 0 < n) : Rep b n (newInt C n 1) 1 := by
  have hb := ok.hb
  have h9 : (2 : Int) ^ 1 ≤ 2 ^ b := pow_le_pow_right₀ (by norm_num) (by omega)
  exact newInt_rep ok hn 1 (by norm_num) (by omega)

/-- partial correctness of the main loop -/
theorem invLoop_sound {b n : Nat} (ok : Ok C b) (hn : 2 ≤ n) {P X : Int} {p : Limbs C} (hp : Rep b n p P) (hP : P % 2 = 1)
    (hP2 : 2 * P ≤ 2 ^ (b * n)) (f0 fuel : Nat) (u v x1 x2 : Limbs C) (U V : Nat) (hu : Rep b n u U) (hv : Rep b n v V)
    (hUP : (U : Int) ≤ P) (hVP : (V : Int) ≤ P)
    (h1 : Coef b n P X x1 U) (h2 : Coef b n P X x2 V) {r : Limbs C}
    (hr : invLoop b f0 p (newInt C n 1) fuel u v x1 x2 = some r) : Coef b n P X r 1 := by
  have hcg := cap_ge (n := n) ok (by omega)
  have hcp := cap_pos C b n
  have hone := one_rep (C := C) (n := n) ok (by omega)
  induction fuel generalizing u v x1 x2 U V with
  | zero => simp [invLoop] at hr
  | succ f ih =>
    unfold invLoop at hr
    split at hr
    · cases ha : invHalve b p f0 u x1 with
      | none => rw [ha] at hr; simp at hr
      | some ux =>
        cases hb : invHalve b p f0 v x2 with
        | none => rw [ha, hb] at hr; simp at hr
        | some vx =>
          rw [ha, hb] at hr
          simp only [Option.bind_some] at hr
          obtain ⟨U', k, a1, a2, a3, a4⟩ := invHalve_sound ok hn hp hP hP2 f0 u x1 U hu h1 ha
          obtain ⟨V', k', b1, b2, b3, b4⟩ := invHalve_sound ok hn hp hP hP2 f0 v x2 V hv h2 hb
          have hU' : U' ≤ U := by rw [a4]; exact Nat.le_mul_of_pos_left _ (by positivity)
          have hV' : V' ≤ V := by rw [b4]; exact Nat.le_mul_of_pos_left _ (by positivity)
          by_cases hc : (V' : Int) ≤ U'
          · rw [if_pos ((a1.comp_ge b1).2 hc)] at hr
            have hs := norm_sub_rep ok (by omega) a1 b1 (by omega) (by omega) (by omega) (by omega)
            have hcast : (U' : Int) - V' = ((U' - V' : Nat) : Int) := by omega
            have hcf := invSub_coef ok hn hp hP2 a2 b2
            rw [hcast] at hs hcf
            exact ih _ _ _ _ (U' - V') V' hs b1 (by omega) (by omega) hcf b2 hr
          · rw [if_neg (fun hh => hc ((a1.comp_ge b1).1 hh))] at hr
            have hs := norm_sub_rep ok (by omega) b1 a1 (by omega) (by omega) (by omega) (by omega)
            have hcast : (V' : Int) - U' = ((V' - U' : Nat) : Int) := by omega
            have hcf := invSub_coef ok hn hp hP2 b2 a2
            rw [hcast] at hs hcf
            exact ih _ _ _ _ U' (V' - U') a1 hs (by omega) (by omega) a2 hcf hr
    · rename_i hcond
      simp only [Option.some.injEq] at hr
      subst hr
      split
      · rename_i hc
        have := (hu.comp_eq hone).1 hc
        rw [this] at h1; exact h1
      · rename_i hc
        have hc2 : comp v (newInt C n 1) = 0 := by
          by_contra h; exact hcond ⟨hc, h⟩
        have := (hv.comp_eq hone).1 hc2
        rw [this] at h2; exact h2

/-- termination of the main loop for coprime arguments -/
theorem invLoop_some {b n : Nat} (ok : Ok C b) (hn : 2 ≤ n) {P X : Int} {p : Limbs C} (hp : Rep b n p P) (hP : P % 2 = 1)
    (hP2 : 2 * P ≤ 2 ^ (b * n)) (f0 : Nat) (hf0 : b * n ≤ f0) (fuel : Nat) (u v x1 x2 : Limbs C) (U V : Nat)
    (hu : Rep b n u U) (hv : Rep b n v V) (hUP : (U : Int) ≤ P) (hVP : (V : Int) ≤ P)
    (h1 : Coef b n P X x1 U) (h2 : Coef b n P X x2 V) (hco : Nat.Coprime U V) (hU0 : 0 < U) (hV0 : 0 < V)
    (hf : U * V * (if U % 2 = 1 ∧ V % 2 = 1 then 2 else 1) < 2 ^ fuel) :
    ∃ r, invLoop b f0 p (newInt C n 1) fuel u v x1 x2 = some r := by
  have hcg := cap_ge (n := n) ok (by omega)
  have hcp := cap_pos C b n
  have hone := one_rep (C := C) (n := n) ok (by omega)
  induction fuel generalizing u v x1 x2 U V with
  | zero =>
    exfalso
    have : 0 < U * V := Nat.mul_pos hU0 hV0
    split at hf <;> omega
  | succ f ih =>
    unfold invLoop
    have hpow : (2 : Int) ^ (b * n) ≤ 2 ^ f0 := pow_le_pow_right₀ (by norm_num) hf0
    have hUf : U < 2 ^ f0 := by
      have : (U : Int) < 2 ^ f0 := by omega
      exact_mod_cast this
    have hVf : V < 2 ^ f0 := by
      have : (V : Int) < 2 ^ f0 := by omega
      exact_mod_cast this
    by_cases hcond : comp u (newInt C n 1) ≠ 0 ∧ comp v (newInt C n 1) ≠ 0
    · rw [if_pos hcond]
      have hU1 : U ≠ 1 := fun h => hcond.1 ((hu.comp_eq hone).2 (by exact_mod_cast h))
      have hV1 : V ≠ 1 := fun h => hcond.2 ((hv.comp_eq hone).2 (by exact_mod_cast h))
      obtain ⟨ux, ha⟩ := invHalve_some (p := p) ok hn f0 u x1 U hu hU0 hUf
      obtain ⟨vx, hb⟩ := invHalve_some (p := p) ok hn f0 v x2 V hv hV0 hVf
      rw [ha, hb]
      simp only [Option.bind_some]
      obtain ⟨U', k, a1, a2, a3, a4⟩ := invHalve_sound ok hn hp hP hP2 f0 u x1 U hu h1 ha
      obtain ⟨V', k', b1, b2, b3, b4⟩ := invHalve_sound ok hn hp hP hP2 f0 v x2 V hv h2 hb
      have hU' : U' ≤ U := by rw [a4]; exact Nat.le_mul_of_pos_left _ (by positivity)
      have hV' : V' ≤ V := by rw [b4]; exact Nat.le_mul_of_pos_left _ (by positivity)
      have hco' : Nat.Coprime U' V' :=
        Nat.Coprime.coprime_dvd_left ⟨2 ^ k, by rw [a4, mul_comm]⟩
          (Nat.Coprime.coprime_dvd_right ⟨2 ^ k', by rw [b4, mul_comm]⟩ hco)
      -- at most one of them was even
      have hprod : U' * V' < 2 ^ f := by
        by_cases hodd : U % 2 = 1 ∧ V % 2 = 1
        · rw [if_pos hodd, pow_succ] at hf
          have : U' * V' ≤ U * V := Nat.mul_le_mul hU' hV'
          omega
        · rw [if_neg hodd, pow_succ, mul_one] at hf
          have hkk : 0 < k ∨ 0 < k' := by
            by_contra hk
            have e1 : k = 0 := by omega
            have e2 : k' = 0 := by omega
            rw [e1, pow_zero, one_mul] at a4
            rw [e2, pow_zero, one_mul] at b4
            exact hodd ⟨by omega, by omega⟩
          have : 2 * (U' * V') ≤ U * V := by
            rcases hkk with hk | hk
            · have h2U : 2 * U' ≤ U := by
                rw [a4]; apply Nat.mul_le_mul_right
                calc 2 = 2 ^ 1 := by norm_num
                  _ ≤ 2 ^ k := Nat.pow_le_pow_right (by norm_num) hk
              calc 2 * (U' * V') = 2 * U' * V' := by ring
                _ ≤ U * V := Nat.mul_le_mul h2U hV'
            · have h2V : 2 * V' ≤ V := by
                rw [b4]; apply Nat.mul_le_mul_right
                calc 2 = 2 ^ 1 := by norm_num
                  _ ≤ 2 ^ k' := Nat.pow_le_pow_right (by norm_num) hk
              calc 2 * (U' * V') = U' * (2 * V') := by ring
                _ ≤ U * V := Nat.mul_le_mul hU' h2V
          omega
      have hne : U' ≠ V' := by
        intro he
        rw [he, Nat.coprime_self] at hco'
        -- then U' = V' = 1, so both were even or one of them was 1
        have hU1' : U' = 1 := he.trans hco'
        rw [hU1', mul_one] at a4
        rw [hco', mul_one] at b4
        have hk : 0 < k := by
          rcases Nat.eq_zero_or_pos k with h | h
          · rw [h] at a4; exact absurd a4 hU1
          · exact h
        have hk' : 0 < k' := by
          rcases Nat.eq_zero_or_pos k' with h | h
          · rw [h] at b4; exact absurd b4 hV1
          · exact h
        have d1 : 2 ∣ U := by rw [a4]; exact dvd_pow_self 2 hk.ne'
        have d2 : 2 ∣ V := by rw [b4]; exact dvd_pow_self 2 hk'.ne'
        have := Nat.dvd_gcd d1 d2
        rw [hco] at this
        omega
      have hU'0 : 0 < U' := by omega
      have hV'0 : 0 < V' := by omega
      by_cases hc : (V' : Int) ≤ U'
      · rw [if_pos ((a1.comp_ge b1).2 hc)]
        have hs := norm_sub_rep ok (by omega) a1 b1 (by omega) (by omega) (by omega) (by omega)
        have hcast : (U' : Int) - V' = ((U' - V' : Nat) : Int) := by omega
        have hcf := invSub_coef ok hn hp hP2 a2 b2
        rw [hcast] at hs hcf
        refine ih _ _ _ _ (U' - V') V' hs b1 (by omega) (by omega) hcf b2 ?_ (by omega) hV'0 ?_
        · exact (Nat.coprime_sub_self_left (by omega)).2 hco'
        · rw [if_neg (by omega), mul_one]
          exact lt_of_le_of_lt (Nat.mul_le_mul_right _ (Nat.sub_le _ _)) hprod
      · rw [if_neg (fun hh => hc ((a1.comp_ge b1).1 hh))]
        have hs := norm_sub_rep ok (by omega) b1 a1 (by omega) (by omega) (by omega) (by omega)
        have hcast : (V' : Int) - U' = ((V' - U' : Nat) : Int) := by omega
        have hcf := invSub_coef ok hn hp hP2 b2 a2
        rw [hcast] at hs hcf
        refine ih _ _ _ _ U' (V' - U') a1 hs (by omega) (by omega) a2 hcf ?_ hU'0 (by omega) ?_
        · exact (Nat.coprime_sub_self_right (by omega)).2 hco'
        · rw [if_neg (by omega), mul_one]
          exact lt_of_le_of_lt (Nat.mul_le_mul_left _ (Nat.sub_le _ _)) hprod
    · rw [if_neg hcond]; exact ⟨_, rfl⟩

theorem upLoop_mono {b : Nat} (x : Limbs C) (f f' : Nat) (hf : f ≤ f') (m : Limbs C) (k : Nat) {r : Limbs C × Nat}
    (h : upLoop b x f m k = some r) : upLoop b x f' m k = some r := by
  induction f generalizing f' m k with
  | zero => simp [upLoop] at h
  | succ f ih =>
    obtain ⟨g, rfl⟩ : ∃ g, f' = g + 1 := ⟨f' - 1, by omega⟩
    unfold upLoop at h ⊢
    simp only at h ⊢
    split at h
    · rename_i hc; rw [if_pos hc]; exact h
    · rename_i hc; rw [if_neg hc]; exact ih g (by omega) _ _ h

/-- whatever the fuel, a result of `rmod` is the remainder -/
theorem rmod_sound {b n : Nat} (ok : Ok C b) (hn : 2 ≤ n) (fuel : Nat) {x m : Limbs C} {X M : Int}
    (hx : Rep b n (norm b x) X) (hm : Rep b n m M) (h0 : 0 ≤ X) (hX : 2 * X < cap C b n) (hM : 0 < M) {r : Limbs C}
    (h : rmod b fuel x m = some r) : Rep b n r (X % M) := by
  obtain ⟨r', e, hr⟩ := rmod_spec ok hn (fuel + 2 * (b * n)) hx hm h0 hX hM (fuel_cap ok hn (by omega) hX hM)
  have : rmod b (fuel + 2 * (b * n)) x m = some r := by
    unfold rmod at h ⊢
    simp only at h ⊢
    split at h
    · rename_i hc; rw [if_pos hc]; exact h
    · rename_i hc; rw [if_neg hc]
      obtain ⟨mk, e1, e2⟩ := Option.map_eq_some_iff.1 h
      rw [upLoop_mono _ fuel _ (by omega) _ _ e1]
      simpa using e2
  rw [this] at e
  cases e
  exact hr

/-- `invmodp`: whenever it returns, it returns the inverse -/
theorem invmodp_sound {b n : Nat} (ok : Ok C b) (hn : 2 ≤ n) (fuel : Nat) {x p : Limbs C} {X P : Int}
    (hx : Rep b n (norm b x) X) (hp : Rep b n p P) (hX0 : 0 ≤ X) (hX : 2 * X < cap C b n) (hP1 : 1 < P) (hP : P % 2 = 1)
    (hP2 : 2 * P ≤ 2 ^ (b * n)) {y : Limbs C} (hy : invmodp b fuel x p = some y) :
    ∃ Y, Rep b n y Y ∧ 0 ≤ Y ∧ Y < P ∧ X * Y % P = 1 := by
  obtain ⟨u, eu, hy⟩ := Option.bind_eq_some_iff.1 hy
  have ru := rmod_sound ok hn fuel hx hp hX0 hX (by omega) eu
  have u0 := Int.emod_nonneg X (by omega : P ≠ 0)
  have u1 := Int.emod_lt_of_pos X (by omega : 0 < P)
  simp only [hp.len] at hy
  obtain ⟨U, hU⟩ := Int.eq_ofNat_of_zero_le u0
  obtain ⟨P', hP'⟩ := Int.eq_ofNat_of_zero_le (by omega : 0 ≤ P)
  have := invLoop_sound (X := X) ok hn hp hP hP2 fuel fuel u p _ _ U P' (by rw [← hU]; exact ru) (by rw [← hP']; exact hp) (by omega) (by omega)
    ⟨1, one_rep ok (by omega), by omega, hP1, by rw [one_mul, ← hU]; exact (Int.mod_modEq X P).symm⟩
    ⟨0, zero_rep b n, by omega, by omega, by rw [zero_mul, ← hP']; exact (Int.modEq_zero_iff_dvd.2 dvd_rfl).symm⟩ hy
  obtain ⟨Y, rY, y0, y1, ye⟩ := this.ex
  refine ⟨Y, rY, y0, y1, ?_⟩
  rw [mul_comm, ye.eq, Int.emod_eq_of_lt (by omega) hP1]

theorem invmodp_some {b n : Nat} (ok : Ok C b) (hn : 2 ≤ n) (fuel : Nat) (hf : 2 * (b * n) ≤ fuel) {x p : Limbs C} {X P : Int}
    (hx : Rep b n (norm b x) X) (hp : Rep b n p P) (hX0 : 0 ≤ X) (hX : 2 * X < cap C b n) (hP1 : 1 < P) (hP : P % 2 = 1)
    (hP2 : 2 * P ≤ 2 ^ (b * n)) (hco : Int.gcd X P = 1) : ∃ y, invmodp b fuel x p = some y := by
  obtain ⟨u, eu, ru⟩ := rmod_spec ok hn fuel hx hp hX0 hX (by omega) (fuel_cap ok hn hf hX (by omega))
  have u0 := Int.emod_nonneg X (by omega : P ≠ 0)
  have u1 := Int.emod_lt_of_pos X (by omega : 0 < P)
  unfold invmodp
  rw [eu]
  simp only [Option.bind_some, hp.len]
  obtain ⟨U, hU⟩ := Int.eq_ofNat_of_zero_le u0
  obtain ⟨P', hP'⟩ := Int.eq_ofNat_of_zero_le (by omega : 0 ≤ P)
  have hg : Nat.Coprime U P' := by
    have : Int.gcd (X % P) P = 1 := by
      have e : X % P = X - P * (X / P) := Int.emod_def X P
      rw [e, Int.gcd_sub_mul_left_left]; exact hco
    rw [hU, hP'] at this
    simpa using this
  have hU0 : 0 < U := by
    rcases Nat.eq_zero_or_pos U with h | h
    · rw [h] at hg; simp at hg; omega
    · exact h
  have hlt : U * P' * 2 < 2 ^ fuel := by
    have h1 : (U : Int) * P' * 2 < 2 ^ fuel := by
      have e1 : (U : Int) * P' ≤ P * P := mul_le_mul (by omega) (by omega) (by omega) (by omega)
      have e2 : 4 * (P * P) ≤ 2 ^ (b * n) * 2 ^ (b * n) := by nlinarith
      have e3 : (2 : Int) ^ (b * n) * 2 ^ (b * n) ≤ 2 ^ fuel := by
        rw [← pow_add]; exact pow_le_pow_right₀ (by norm_num) (by omega)
      have : 0 < P * P := by positivity
      linarith
    exact_mod_cast h1
  refine invLoop_some (X := X) ok hn hp hP hP2 fuel (by omega) fuel u p _ _ U P' (by rw [← hU]; exact ru) (by rw [← hP']; exact hp) (by omega) (by omega)
    ⟨1, one_rep ok (by omega), by omega, hP1, by rw [one_mul, ← hU]; exact (Int.mod_modEq X P).symm⟩
    ⟨0, zero_rep b n, by omega, by omega, by rw [zero_mul, ← hP']; exact (Int.modEq_zero_iff_dvd.2 dvd_rfl).symm⟩
    hg hU0 (by omega) ?_
  split
  · exact hlt
  · omega

/-- only invertible residues are inverted: otherwise the program loops for ever -/
theorem invmodp_diverges {b n : Nat} (ok : Ok C b) (hn : 2 ≤ n) (fuel : Nat) {x p : Limbs C} {X P : Int}
    (hx : Rep b n (norm b x) X) (hp : Rep b n p P) (hX0 : 0 ≤ X) (hX : 2 * X < cap C b n) (hP1 : 1 < P) (hP : P % 2 = 1)
    (hP2 : 2 * P ≤ 2 ^ (b * n)) (hco : Int.gcd X P ≠ 1) : invmodp b fuel x p = none := by
  cases hr : invmodp b fuel x p with
  | none => rfl
  | some y =>
    exfalso
    obtain ⟨Y, _, _, _, h⟩ := invmodp_sound ok hn fuel hx hp hX0 hX hP1 hP hP2 hr
    apply hco
    have h2 := Int.emod_add_mul_ediv (X * Y) P
    rw [h] at h2
    have hd1 := Int.gcd_dvd_left X P
    have hd2 := Int.gcd_dvd_right X P
    have hd : ((Int.gcd X P : Nat) : Int) ∣ 1 := by
      have e : (1 : Int) = X * Y - P * (X * Y / P) := by linarith
      rw [e]
      exact dvd_sub (hd1.mul_right _) (hd2.mul_right _)
    exact_mod_cast Int.natAbs_dvd_natAbs.2 hd |> Nat.dvd_one.1

end Verif.Big
