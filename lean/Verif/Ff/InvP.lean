import Verif.Ff.Div
import Verif.Ff.Inv
import Verif.Big.Inverse
/- Helper lemmas: the binary modular inversion of ff.rs. -/
namespace Verif.Ff
open Spec Verif.Big

variable {C b n R : Nat}

theorem norm_add_frep (f : FOk C b n R) {m : Nat} (hm : 0 < m) {x y : FF C} {X Y : Int} (hx : FRep b n R m x X) (hy : FRep b n R m y Y)
    (h0 : 0 ≤ X) (h1 : X < 2 * fex b n R * 2 ^ (R * m)) (h2 : 0 ≤ Y) (h3 : Y < 2 * fex b n R * 2 ^ (R * m)) :
    FRep b n R m (norm b R (add x y)) (X + Y) := by
  have hC : 0 < C := by have := f.ok.hC; omega
  have hE' := f.epos
  have hwd := f.word
  have gx := hx.rng f hm (K := 4) h0 h1 le_rfl (by linarith)
  have gy := hy.rng f hm (K := 4) h2 h3 le_rfl (by linarith)
  obtain ⟨a1, a2, a3⟩ := add_rng (b := b) (R := R) hC (hx.len.trans hy.len.symm) gx gy (by linarith) (by linarith)
  have nm := norm_frep f _ (ne_of_len hm (a1.trans hx.len)) (a2.loose (by unfold wideB; linarith) (by unfold wideB; linarith))
  rw [a1.trans hx.len, a3, hx.val, hy.val] at nm
  exact nm

theorem norm_addsub_frep (f : FOk C b n R) {m : Nat} (hm : 0 < m) {x y p : FF C} {X Y P : Int} (hx : FRep b n R m x X) (hy : FRep b n R m y Y)
    (hp : FRep b n R m p P)
    (h0 : 0 ≤ X) (h1 : X < 2 * fex b n R * 2 ^ (R * m)) (h2 : 0 ≤ Y) (h3 : Y < 2 * fex b n R * 2 ^ (R * m))
    (h4 : 0 ≤ P) (h5 : P < 2 * fex b n R * 2 ^ (R * m)) :
    FRep b n R m (norm b R (add x (sub p y))) (X + (P - Y)) := by
  have hC : 0 < C := by have := f.ok.hC; omega
  have hE' := f.epos
  have hwd := f.word
  have gx := hx.rng f hm (K := 4) h0 h1 le_rfl (by linarith)
  have gy := hy.rng f hm (K := 4) h2 h3 le_rfl (by linarith)
  have gp := hp.rng f hm (K := 4) h4 h5 le_rfl (by linarith)
  obtain ⟨a1, a2, a3⟩ := sub_rng (b := b) (R := R) hC (hp.len.trans hy.len.symm) gp gy (by linarith) (by linarith)
  obtain ⟨c1, c2, c3⟩ := add_rng (b := b) (R := R) hC (hx.len.trans (a1.trans hp.len).symm) gx a2 (by linarith) (by linarith)
  have nm := norm_frep f _ (ne_of_len hm (c1.trans hx.len)) (c2.loose (by unfold wideB; linarith) (by unfold wideB; linarith))
  rw [c1.trans hx.len, c3, a3, hx.val, hy.val, hp.val] at nm
  exact nm

theorem FRep.parity_val (f : FOk C b n R) {m : Nat} (hm : 0 < m) {x : FF C} {V : Int} (h : FRep b n R m x V) : parity x = V % 2 := by
  have hR : 0 < R := by
    have h1 := f.hT
    rcases Nat.eq_zero_or_pos R with h | h
    · simp [h] at h1
    · exact h
  obtain ⟨k, rfl⟩ : ∃ k, m = k + 1 := ⟨m - 1, by omega⟩
  match x, h with
  | [], h => have := h.len; simp at this
  | d :: ds, h =>
    have hd := h.low.digit d (by simp)
    have hr : Rep b n d (limbsVal b d) := ⟨hd.1, hd.2, rfl⟩
    unfold parity
    rw [show dig (d :: ds) 0 = d from rfl, hr.parity f.ok f.hn, ← h.val]
    simp only [fval]
    obtain ⟨r, rfl⟩ : ∃ r, R = r + 1 := ⟨R - 1, by omega⟩
    rw [pow_succ, mul_comm _ (2 : Int), mul_assoc, Int.add_mul_emod_self_left]

/-- coefficient invariant: `a·X ≡ u (mod P)`, `0 ≤ a < P` -/
structure Coef (b n R m : Nat) (P X : Int) (x : FF C) (U : Int) : Prop where
  ex : ∃ A, FRep b n R m x A ∧ 0 ≤ A ∧ A < P ∧ A * X ≡ U [ZMOD P]

section
variable {m : Nat} {P X : Int} {p : FF C}

theorem le_cap (f : FOk C b n R) (m : Nat) : 256 * 2 ^ (R * m) ≤ 2 * fex b n R * 2 ^ (R * m) :=
  mul_le_mul_of_nonneg_right (by have := f.fex_ge; linarith) (two_pow_pos' _).le

theorem halve_coef (f : FOk C b n R) (hm : 0 < m) (hp : FRep b n R m p P) (hP : P % 2 = 1) (hP2 : P < 2 ^ (R * m)) {x : FF C} {U : Int}
    (hU : U % 2 = 0) (h : Coef b n R m P X x U) :
    Coef b n R m P X (shr b R (if parity x ≠ 0 then norm b R (add x p) else x)) (U / 2) := by
  obtain ⟨A, rA, a0, a1, aeq⟩ := h.ex
  have hc := le_cap f m
  rw [rA.parity_val f hm]
  have hU2 : 2 * (U / 2) = U := by omega
  by_cases ho : A % 2 = 0
  · rw [if_neg (by rw [ho]; simp)]
    refine ⟨A / 2, shr_spec f hm rA, by omega, by omega, half_modEq hP ?_⟩
    rw [hU2, show 2 * (A / 2) = A by omega]; exact aeq
  · rw [if_pos ho]
    have hs := norm_add_frep f hm rA hp a0 (by omega) (by omega) (by omega)
    refine ⟨(A + P) / 2, shr_spec f hm hs, by omega, by omega, half_modEq hP ?_⟩
    rw [hU2, show 2 * ((A + P) / 2) = A + P by omega, add_mul]
    have : A * X + P * X ≡ U + 0 [ZMOD P] := aeq.add ((Int.modEq_zero_iff_dvd).2 ⟨X, rfl⟩)
    simpa using this

theorem invHalve_spec (f : FOk C b n R) (hm : 0 < m) (hp : FRep b n R m p P) (hP : P % 2 = 1) (hP2 : P < 2 ^ (R * m)) (fuel : Nat)
    (u x : FF C) (U : Nat) (hu : FRep b n R m u U) (h : Coef b n R m P X x U) (h0 : 0 < U) (hf : U < 2 ^ fuel) :
    ∃ r, invHalve b R p fuel u x = some r ∧
    ∃ U' k : Nat, FRep b n R m r.1 U' ∧ Coef b n R m P X r.2 U' ∧ U' % 2 = 1 ∧ U = 2 ^ k * U' := by
  induction fuel generalizing u x U with
  | zero => simp at hf; omega
  | succ g ih =>
    unfold invHalve
    rw [hu.parity_val f hm]
    by_cases he : U % 2 = 0
    · have he' : (U : Int) % 2 = 0 := by omega
      simp only [he', if_true]
      have hu2 : FRep b n R m (shr b R u) ((U / 2 : Nat) : Int) := by
        have := shr_spec f hm hu; exact_mod_cast this
      have hc2 := halve_coef f hm hp hP hP2 he' h
      obtain ⟨r, hr, U', k, h1, h2, h3, h4⟩ := ih _ _ (U / 2) hu2 (by exact_mod_cast hc2) (by omega) (by rw [pow_succ] at hf; omega)
      exact ⟨r, hr, U', k + 1, h1, h2, h3, by rw [pow_succ]; have : U = 2 * (U / 2) := by omega
                                              rw [this]; conv => lhs; rw [h4]
                                              ring⟩
    · have he' : ¬ (U : Int) % 2 = 0 := by omega
      simp only [he', if_false]
      exact ⟨_, rfl, U, 0, hu, h, by omega, by simp⟩

theorem invSub_coef (f : FOk C b n R) (hm : 0 < m) (hp : FRep b n R m p P) (hP2 : P < 2 ^ (R * m)) {x y : FF C} {U V : Int}
    (hx : Coef b n R m P X x U) (hy : Coef b n R m P X y V) : Coef b n R m P X (invSub b R p x y) (U - V) := by
  obtain ⟨A, rA, a0, a1, aeq⟩ := hx.ex
  obtain ⟨B, rB, b0, b1, beq⟩ := hy.ex
  have hc := le_cap f m
  unfold invSub
  by_cases h : B ≤ A
  · rw [if_pos ((rA.comp_ge rB).2 h)]
    refine ⟨A - B, norm_sub_frep f hm rA rB a0 (by omega) b0 (by omega), by omega, by omega, ?_⟩
    rw [sub_mul]; exact aeq.sub beq
  · rw [if_neg (fun hh => h ((rA.comp_ge rB).1 hh))]
    refine ⟨A + (P - B), norm_addsub_frep f hm rA rB hp a0 (by omega) b0 (by omega) (by omega) (by omega), by omega, by omega, ?_⟩
    have e : (A + (P - B)) * X = A * X - B * X + P * X := by ring
    rw [e]
    have := (aeq.sub beq).add ((Int.modEq_zero_iff_dvd (n := P)).2 ⟨X, rfl⟩ : P * X ≡ 0 [ZMOD P])
    simpa using this

theorem FRep.comp_eq {m : Nat} {x y : FF C} {X Y : Int} (hx : FRep b n R m x X) (hy : FRep b n R m y Y) :
    Ff.comp x y = 0 ↔ X = Y := by
  rw [hx.comp hy, Int.sign_eq_zero_iff_zero]; omega

theorem one_frep (f : FOk C b n R) (hm : 0 < m) : FRep b n R m (one n m : FF C) 1 := by
  obtain ⟨o1, o2, o3, -⟩ := one_val (C := C) f hm
  have := o2.frep o1
  rwa [o3] at this

theorem zero_frep (f : FOk C b n R) (m : Nat) : FRep b n R m (zero n m : FF C) 0 := by
  have := (zero_canon (C := C) f m).frep (m := m) (by simp [zero])
  rwa [zero_val] at this

set_option maxHeartbeats 1000000 in
theorem invLoop_spec (f : FOk C b n R) (hm : 0 < m) (hp : FRep b n R m p P) (hP : P % 2 = 1) (hP2 : P < 2 ^ (R * m))
    (f0 : Nat) (hf0 : R * m ≤ f0) (fuel : Nat) (u v x1 x2 : FF C) (U V : Nat)
    (hu : FRep b n R m u U) (hv : FRep b n R m v V) (hUP : (U : Int) < 2 ^ (R * m)) (hVP : (V : Int) < 2 ^ (R * m))
    (h1 : Coef b n R m P X x1 U) (h2 : Coef b n R m P X x2 V) (hco : Nat.Coprime U V) (hU0 : 0 < U) (hV0 : 0 < V)
    (hf : U * V * (if U % 2 = 1 ∧ V % 2 = 1 then 2 else 1) < 2 ^ fuel) :
    ∃ r, invLoop b R f0 p (one n m) fuel u v x1 x2 = some r ∧ Coef b n R m P X r 1 := by
  have hc := le_cap f m
  have hone := one_frep (C := C) f hm
  induction fuel generalizing u v x1 x2 U V with
  | zero =>
    exfalso
    have : 0 < U * V := Nat.mul_pos hU0 hV0
    split at hf <;> omega
  | succ g ih =>
    unfold invLoop
    have hpow : (2 : Int) ^ (R * m) ≤ 2 ^ f0 := pow_le_pow_right₀ (by norm_num) hf0
    have hUf : U < 2 ^ f0 := by
      have : (U : Int) < 2 ^ f0 := by omega
      exact_mod_cast this
    have hVf : V < 2 ^ f0 := by
      have : (V : Int) < 2 ^ f0 := by omega
      exact_mod_cast this
    by_cases hcond : comp u (one n m) ≠ 0 ∧ comp v (one n m) ≠ 0
    · rw [if_pos hcond]
      have hU1 : U ≠ 1 := fun h => hcond.1 ((hu.comp_eq hone).2 (by exact_mod_cast h))
      have hV1 : V ≠ 1 := fun h => hcond.2 ((hv.comp_eq hone).2 (by exact_mod_cast h))
      obtain ⟨ux, ha, U', k, a1, a2, a3, a4⟩ := invHalve_spec f hm hp hP hP2 f0 u x1 U hu h1 hU0 hUf
      obtain ⟨vx, hb, V', k', b1, b2, b3, b4⟩ := invHalve_spec f hm hp hP hP2 f0 v x2 V hv h2 hV0 hVf
      rw [ha, hb]
      simp only [Option.bind_some]
      have hU' : U' ≤ U := by rw [a4]; exact Nat.le_mul_of_pos_left _ (by positivity)
      have hV' : V' ≤ V := by rw [b4]; exact Nat.le_mul_of_pos_left _ (by positivity)
      have hco' : Nat.Coprime U' V' :=
        Nat.Coprime.coprime_dvd_left ⟨2 ^ k, by rw [a4, mul_comm]⟩
          (Nat.Coprime.coprime_dvd_right ⟨2 ^ k', by rw [b4, mul_comm]⟩ hco)
      have hprod : U' * V' < 2 ^ g := by
        by_cases hodd : U % 2 = 1 ∧ V % 2 = 1
        · rw [if_pos hodd, pow_succ] at hf
          have : U' * V' ≤ U * V := Nat.mul_le_mul hU' hV'
          omega
        · rw [if_neg hodd, pow_succ, mul_one] at hf
          have hkk : 0 < k ∨ 0 < k' := by
            by_contra hk
            have e1 : k = 0 := by omega
            have e2 : k' = 0 := by omega
            rw [e1, pow_zero, one_mul] at a4
            rw [e2, pow_zero, one_mul] at b4
            exact hodd ⟨by omega, by omega⟩
          have : 2 * (U' * V') ≤ U * V := by
            rcases hkk with hk | hk
            · have h2U : 2 * U' ≤ U := by
                rw [a4]; apply Nat.mul_le_mul_right
                calc 2 = 2 ^ 1 := by norm_num
                  _ ≤ 2 ^ k := Nat.pow_le_pow_right (by norm_num) hk
              calc 2 * (U' * V') = 2 * U' * V' := by ring
                _ ≤ U * V := Nat.mul_le_mul h2U hV'
            · have h2V : 2 * V' ≤ V := by
                rw [b4]; apply Nat.mul_le_mul_right
                calc 2 = 2 ^ 1 := by norm_num
                  _ ≤ 2 ^ k' := Nat.pow_le_pow_right (by norm_num) hk
              calc 2 * (U' * V') = U' * (2 * V') := by ring
                _ ≤ U * V := Nat.mul_le_mul hU' h2V
          omega
      have hne : U' ≠ V' := by
        intro he
        rw [he, Nat.coprime_self] at hco'
        have hU1' : U' = 1 := he.trans hco'
        rw [hU1', mul_one] at a4
        rw [hco', mul_one] at b4
        have hk : 0 < k := by
          rcases Nat.eq_zero_or_pos k with h | h
          · rw [h] at a4; exact absurd a4 hU1
          · exact h
        have hk' : 0 < k' := by
          rcases Nat.eq_zero_or_pos k' with h | h
          · rw [h] at b4; exact absurd b4 hV1
          · exact h
        have d1 : 2 ∣ U := by rw [a4]; exact dvd_pow_self 2 hk.ne'
        have d2 : 2 ∣ V := by rw [b4]; exact dvd_pow_self 2 hk'.ne'
        have := Nat.dvd_gcd d1 d2
        rw [hco] at this
        omega
      have hU'0 : 0 < U' := by omega
      have hV'0 : 0 < V' := by omega
      by_cases hcc : (V' : Int) ≤ U'
      · rw [if_pos ((a1.comp_ge b1).2 hcc)]
        have hs := norm_sub_frep f hm a1 b1 (by omega) (by omega) (by omega) (by omega)
        have hcast : (U' : Int) - V' = ((U' - V' : Nat) : Int) := by omega
        have hcf := invSub_coef f hm hp hP2 a2 b2
        rw [hcast] at hs hcf
        refine ih _ _ _ _ (U' - V') V' hs b1 (by omega) (by omega) hcf b2 ?_ (by omega) hV'0 ?_
        · exact (Nat.coprime_sub_self_left (by omega)).2 hco'
        · rw [if_neg (by omega), mul_one]
          exact lt_of_le_of_lt (Nat.mul_le_mul_right _ (Nat.sub_le _ _)) hprod
      · rw [if_neg (fun hh => hcc ((a1.comp_ge b1).1 hh))]
        have hs := norm_sub_frep f hm b1 a1 (by omega) (by omega) (by omega) (by omega)
        have hcast : (V' : Int) - U' = ((V' - U' : Nat) : Int) := by omega
        have hcf := invSub_coef f hm hp hP2 b2 a2
        rw [hcast] at hs hcf
        refine ih _ _ _ _ U' (V' - U') a1 hs (by omega) (by omega) a2 hcf ?_ hU'0 (by omega) ?_
        · exact (Nat.coprime_sub_self_right (by omega)).2 hco'
        · rw [if_neg (by omega), mul_one]
          exact lt_of_le_of_lt (Nat.mul_le_mul_left _ (Nat.sub_le _ _)) hprod
    · rw [if_neg hcond]
      refine ⟨_, rfl, ?_⟩
      split
      · rename_i hc
        have := (hu.comp_eq hone).1 hc
        rw [this] at h1; exact h1
      · rename_i hc
        have hc2 : comp v (one n m) = 0 := by
          by_contra h; exact hcond ⟨hc, h⟩
        have := (hv.comp_eq hone).1 hc2
        rw [this] at h2; exact h2

theorem invmodp_spec (f : FOk C b n R) (hm : 0 < m) (fuel : Nat) (hf : 2 * (R * m) + 1 ≤ fuel) {x : FF C} {X P : Nat}
    (hx : FRep b n R m x X) (hp : FRep b n R m p P) (hX0 : 0 < X) (hX : (X : Int) < 2 ^ (R * m)) (hP1 : 1 < P) (hP : P % 2 = 1)
    (hP2 : (P : Int) < 2 ^ (R * m)) (hco : Nat.Coprime X P) :
    ∃ (r : FF C) (Y : Nat), invmodp b n R fuel x p = some r ∧ FRep b n R m r Y ∧ Y < P ∧ X * Y % P = 1 := by
  unfold invmodp
  rw [hp.len]
  have hlt : X * P * 2 < 2 ^ fuel := by
    have h1 : (X : Int) * P * 2 < 2 ^ fuel := by
      have e1 : (X : Int) * P < 2 ^ (R * m) * 2 ^ (R * m) := mul_lt_mul'' hX hP2 (by omega) (by omega)
      have e3 : (2 : Int) ^ (R * m) * 2 ^ (R * m) * 2 ≤ 2 ^ fuel := by
        rw [← pow_add, ← pow_succ]; exact pow_le_pow_right₀ (by norm_num) (by omega)
      linarith
    exact_mod_cast h1
  obtain ⟨r, hr, hC⟩ := invLoop_spec (X := (X : Int)) (P := (P : Int)) f hm hp (by omega) hP2 fuel (by omega) fuel x p _ _ X P hx hp hX hP2
    ⟨1, one_frep f hm, by omega, by exact_mod_cast hP1, by rw [one_mul]⟩
    ⟨0, zero_frep f m, by omega, by omega, by rw [zero_mul]; exact (Int.modEq_zero_iff_dvd.2 dvd_rfl).symm⟩ hco hX0 (by omega)
    (by split
        · exact hlt
        · omega)
  obtain ⟨Y, rY, y0, y1, ye⟩ := hC.ex
  obtain ⟨Y', rfl⟩ := Int.eq_ofNat_of_zero_le y0
  refine ⟨r, Y', hr, rY, by exact_mod_cast y1, ?_⟩
  have h2 := ye.eq
  rw [Int.emod_eq_of_lt (a := 1) (by omega) (by exact_mod_cast hP1)] at h2
  rw [mul_comm]
  exact_mod_cast h2

end

end Verif.Ff
