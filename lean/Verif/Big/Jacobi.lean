import Verif.Big.Inverse
import Mathlib.NumberTheory.LegendreSymbol.JacobiSymbol
/- Helper lemmas: the Jacobi symbol. -/
namespace Verif.Big
open Spec (limbsVal Normal LimbsWithin)

variable {C : Nat}

open NumberTheorySymbols in
/-- the arithmetic of one round -/
theorem jac_round (n x' k : Nat) (hn : n % 2 = 1) (hx : x' % 2 = 1) :
    J(((2 ^ k * x' : Nat) : Int) | n) =
      (-1) ^ ((if k % 2 = 1 then ((n % 8) * (n % 8) - 1) / 8 else 0) + (n % 8 - 1) * (x' % 4 - 1) / 4)
        * J(((n % x' : Nat) : Int) | x') := by
  have h2 : J((2 : Int) | n) = (-1) ^ (((n % 8) * (n % 8) - 1) / 8) := by
    rw [jacobiSym.at_two (Nat.odd_iff.2 hn), ZMod.χ₈_nat_eq_if_mod_eight, if_neg (by omega)]
    have : n % 8 = 1 ∨ n % 8 = 3 ∨ n % 8 = 5 ∨ n % 8 = 7 := by omega
    rcases this with h | h | h | h <;> rw [h] <;> norm_num
  have h2k : J((2 : Int) | n) ^ k = (-1) ^ (if k % 2 = 1 then ((n % 8) * (n % 8) - 1) / 8 else 0) := by
    have hsq : J((2 : Int) | n) ^ 2 = 1 := by
      rw [h2, ← pow_mul, mul_comm, pow_mul]; norm_num
    conv => lhs; rw [← Nat.mod_add_div k 2, pow_add, pow_mul, hsq, one_pow, mul_one]
    rcases Nat.mod_two_eq_zero_or_one k with h | h
    · rw [h]; simp
    · rw [h]; simp [h2]
  have hqr := jacobiSym.quadratic_reciprocity_if hx hn
  have hm : J((n : Int) | x') = J(((n % x' : Nat) : Int) | x') := by
    rw [jacobiSym.mod_left]; push_cast; rfl
  push_cast
  rw [jacobiSym.mul_left, jacobiSym.pow_left, h2k, pow_add, mul_assoc, ← hqr, hm]
  congr 1
  have h8 : n % 8 = 1 ∨ n % 8 = 3 ∨ n % 8 = 5 ∨ n % 8 = 7 := by omega
  have h4 : x' % 4 = 1 ∨ x' % 4 = 3 := by omega
  have h48 : n % 4 = n % 8 % 4 := by omega
  rw [h48]
  rcases h4 with h4 | h4 <;> rcases h8 with h | h | h | h <;> rw [h, h4] <;> norm_num

theorem jacHalve_spec {b n : Nat} (ok : Ok C b) (hn : 2 ≤ n) (fuel : Nat) (x : Limbs C) (X k : Nat) (hx : Rep b n x X)
    (h0 : 0 < X) (hf : X < 2 ^ fuel) :
    ∃ x' X' j, jacHalve b fuel x k = some (x', k + j) ∧ Rep b n x' ((X' : Nat) : Int) ∧ X' % 2 = 1 ∧ X = 2 ^ j * X' := by
  have hb := ok.hb
  induction fuel generalizing x X k with
  | zero => simp at hf; omega
  | succ f ih =>
    unfold jacHalve
    rw [hx.parity ok hn]
    by_cases he : X % 2 = 0
    · have he' : (X : Int) % 2 = 0 := by omega
      simp only [he', if_true]
      have hu2 : Rep b n (shr b 1 x) ((X / 2 : Nat) : Int) := by
        rw [shr_small (by omega)]
        have := fshr_one_rep ok hx; exact_mod_cast this
      obtain ⟨x', X', j, h1, h2, h3, h4⟩ := ih _ (X / 2) (k + 1) hu2 (by omega) (by rw [pow_succ] at hf; omega)
      exact ⟨x', X', j + 1, by rw [h1]; congr 2; omega, h2, h3, by
        rw [pow_succ]; have : X = 2 * (X / 2) := by omega
        rw [this]; conv => lhs; rw [h4]
        ring⟩
    · have he' : ¬ (X : Int) % 2 = 0 := by omega
      simp only [he', if_false]
      exact ⟨x, X, 0, rfl, hx, by omega, by simp⟩

theorem lastbits_toNat {b n k : Nat} (ok : Ok C b) (hk : k ≤ b) {w : Limbs C} {V : Nat} (h : Rep b n (norm b w) V) :
    (lastbits b w k).toNat = V % 2 ^ k := by
  have hs := lastbits_spec ok hk h
  have h0 : 0 ≤ (lastbits b w k).toInt := by rw [hs]; exact Int.emod_nonneg _ (two_pow_pos' k).ne'
  have := toNat_of_toInt_nonneg _ h0
  rw [hs] at this
  exact_mod_cast this

open NumberTheorySymbols in
theorem jacLoop_spec {b n : Nat} (ok : Ok C b) (hn : 2 ≤ n) (f0 : Nat) (hf0 : 2 * (b * n) ≤ f0) (fuel m : Nat) (x y : Limbs C)
    (X N : Nat) (hx : Rep b n x X) (hy : Rep b n y N) (hN : N % 2 = 1) (hXN : X < N) (hNc : 2 * (N : Int) < 2 ^ (b * n))
    (hm : m < 2) (hf : X * N < 2 ^ fuel) :
    jacLoop b f0 (newInt C n 1) (fuel + 1) m x y = some ((-1) ^ m * J((X : Int) | N)) := by
  have hb := ok.hb
  have hcg := cap_ge (n := n) ok (by omega)
  have hcp := cap_pos C b n
  have hone := one_rep (C := C) (n := n) ok (by omega)
  induction fuel generalizing m x y X N with
  | zero =>
    have hX0 : X = 0 := by
      rcases Nat.eq_zero_or_pos X with h | h
      · exact h
      · have : 0 < X * N := Nat.mul_pos h (by omega)
        simp at hf; omega
    subst hX0
    unfold jacLoop
    by_cases h1 : 1 < N
    · have : comp y (newInt C n 1) > 0 := (hy.comp_gt hone).2 (by exact_mod_cast h1)
      have hz : iszilch x = true := hx.iszilch.2 rfl
      simp only [this, hz, if_true]
      rw [show ((0 : Nat) : Int) = 0 from rfl, jacobiSym.zero_left h1, mul_zero]
    · have hN1 : N = 1 := by omega
      have : ¬ comp y (newInt C n 1) > 0 := fun h => by have := (hy.comp_gt hone).1 h; omega
      simp only [this, if_false]
      rw [hN1, jacobiSym.one_right, mul_one]
      interval_cases m <;> simp
  | succ f ih =>
    unfold jacLoop
    by_cases h1 : 1 < N
    · have hgt : comp y (newInt C n 1) > 0 := (hy.comp_gt hone).2 (by exact_mod_cast h1)
      simp only [hgt, if_true]
      by_cases hX : X = 0
      · have hz : iszilch x = true := hx.iszilch.2 (by simp [hX])
        simp only [hz, if_true]
        rw [hX, show ((0 : Nat) : Int) = 0 from rfl, jacobiSym.zero_left h1, mul_zero]
      · have hz : ¬ iszilch x = true := fun h => hX (by exact_mod_cast hx.iszilch.1 h)
        simp only [hz]
        have hpow : (2 : Int) ^ (b * n) ≤ 2 ^ f0 := pow_le_pow_right₀ (by norm_num) (by omega)
        have hXf : X < 2 ^ f0 := by
          have : (X : Int) < 2 ^ f0 := by omega
          exact_mod_cast this
        obtain ⟨x', X', j, e1, r1, o1, p1⟩ := jacHalve_spec ok hn f0 x X 0 hx (by omega) hXf
        rw [e1]
        simp only [Option.bind_some, Nat.zero_add]
        have hX'le : X' ≤ X := by rw [p1]; exact Nat.le_mul_of_pos_left _ (by positivity)
        have rny := hy.norm ok (by omega) (by omega) (by omega)
        have rnx := r1.norm ok (by omega) (by omega) (by omega)
        have rnny := rny.norm ok (by omega) (by omega) (by omega)
        have l8 := lastbits_toNat (k := 3) ok (by omega) rny
        have l4 := lastbits_toNat (k := 2) ok (by omega) rnx
        obtain ⟨t, e2, r2⟩ := rmod_spec (M := (X' : Int)) ok hn f0 rnny rnx (by omega) (by omega) (by omega)
          (fuel_cap ok hn hf0 (by omega) (by omega))
        rw [e2]
        simp only [Option.bind_some]
        have r2' : Rep b n t ((N % X' : Nat) : Int) := by exact_mod_cast r2
        have hlt := Nat.mod_lt N (by omega : X' > 0)
        have hprod : N % X' * X' < 2 ^ f := by
          have hle : 2 * (N % X') ≤ N := by
            have hd := Nat.div_add_mod N X'
            have : 1 ≤ N / X' := (Nat.one_le_div_iff (by omega)).2 (by omega)
            have : X' * 1 ≤ X' * (N / X') := Nat.mul_le_mul_left _ this
            omega
          have : 2 * (N % X') * X' ≤ N * X := Nat.mul_le_mul hle hX'le
          rw [pow_succ] at hf
          nlinarith
        have IH := ih ((m + (if j % 2 = 1 then ((N % 8) * (N % 8) - 1) / 8 else 0) + (N % 8 - 1) * (X' % 4 - 1) / 4) % 2)
          t (norm b x') (N % X') X' r2' rnx o1 hlt (by omega) (Nat.mod_lt _ (by norm_num)) hprod
        have hm' : (if j % 2 = 1 then m + ((lastbits b y 3).toNat * (lastbits b y 3).toNat - 1) / 8 else m)
            + ((lastbits b y 3).toNat - 1) * ((lastbits b x' 2).toNat - 1) / 4
            = m + (if j % 2 = 1 then ((N % 8) * (N % 8) - 1) / 8 else 0) + (N % 8 - 1) * (X' % 4 - 1) / 4 := by
          rw [l8, l4]; norm_num
          split <;> simp
        simp only [hm'] at IH ⊢
        rw [if_neg (by simp), IH]
        congr 1
        have hr := jac_round N X' j hN o1
        rw [← p1] at hr
        rw [hr, ← mul_assoc]
        congr 1
        rw [← pow_add, ← Nat.add_assoc]
        generalize m + (if j % 2 = 1 then ((N % 8) * (N % 8) - 1) / 8 else 0) + (N % 8 - 1) * (X' % 4 - 1) / 4 = e
        conv => rhs; rw [← Nat.mod_add_div e 2, pow_add, pow_mul]
        norm_num
    · have hN1 : N = 1 := by omega
      have : ¬ comp y (newInt C n 1) > 0 := fun h => by have := (hy.comp_gt hone).1 h; omega
      simp only [this, if_false]
      rw [hN1, jacobiSym.one_right, mul_one]
      interval_cases m <;> simp

open NumberTheorySymbols in
theorem jacobi_spec {b n : Nat} (ok : Ok C b) (hn : 2 ≤ n) (fuel : Nat) (hf : 2 * (b * n) < fuel) {x p : Limbs C} {X P : Nat}
    (hx : Rep b n (norm b x) X) (hp : Rep b n p P) (hX : 2 * (X : Int) < cap C b n) (hP1 : 1 < P) (hP : P % 2 = 1)
    (hP2 : 2 * (P : Int) < 2 ^ (b * n)) : jacobi b fuel x p = some J((X : Int) | P) := by
  have hone := one_rep (C := C) (n := n) ok (by omega)
  have hcg := cap_ge (n := n) ok (by omega)
  have hcp := cap_pos C b n
  unfold jacobi
  have c1 : ¬ parity p = 0 := by rw [hp.parity ok hn]; omega
  have c3 : ¬ comp p (newInt C n 1) ≤ 0 := by
    have := (hp.comp_gt hone).2 (by exact_mod_cast hP1); omega
  simp only [hp.len]
  by_cases hz : iszilch x = true
  · have hX0 : X = 0 := by
      have hzz : x = zero C n := by
        have hl : x.length = n := by
          have := hx.len
          have hnl : ∀ (ws : Limbs C) (c : BitVec C), (normGo b c ws).length = ws.length := by
            intro ws
            induction ws with
            | nil => intro c; rfl
            | cons a r ih => intro c; cases r with
              | nil => rfl
              | cons a2 r2 => simp [normGo, ih]
          rw [← this]; exact (hnl x 0).symm
        rw [iszilch, List.all_eq_true] at hz
        rw [zero, ← hl]
        exact List.eq_replicate_iff.2 ⟨rfl, fun y hy => by simpa using hz y hy⟩
      have h0 := zero_rep (C := C) b n
      have h1 := h0.norm ok (by omega) (by omega) (by omega)
      rw [← hzz] at h1
      have := hx.val.symm.trans h1.val
      exact_mod_cast this
    simp only [hz, Bool.or_true, Bool.true_or, if_true]
    rw [hX0, show ((0 : Nat) : Int) = 0 from rfl, jacobiSym.zero_left hP1]
  · have hz' : iszilch x = false := by simpa using hz
    simp only [c1, c3, hz', decide_false, Bool.or_false, Bool.false_eq_true, if_false]
    have hnn := hx.norm ok (by omega) (by omega) (by omega)
    obtain ⟨u, e, r⟩ := rmod_spec (M := (P : Int)) ok hn fuel hnn hp (by omega) hX (by omega) (fuel_cap ok hn (by omega) hX (by omega))
    rw [e]
    simp only [Option.bind_some]
    obtain ⟨f, rfl⟩ : ∃ f, fuel = f + 1 := ⟨fuel - 1, by omega⟩
    have r' : Rep b n u ((X % P : Nat) : Int) := by exact_mod_cast r
    have hlt := Nat.mod_lt X (by omega : P > 0)
    rw [jacLoop_spec ok hn (f + 1) (by omega) f 0 u p (X % P) P r' hp hP hlt hP2 (by norm_num) ?_]
    · rw [pow_zero, one_mul, jacobiSym.mod_left (X : Int) P]; push_cast; rfl
    · have h1 : ((X % P : Nat) : Int) * P < 2 ^ f := by
        have e1 : ((X % P : Nat) : Int) * P ≤ P * P := mul_le_mul_of_nonneg_right (by omega) (by omega)
        have e2 : 4 * ((P : Int) * P) ≤ 2 ^ (b * n) * 2 ^ (b * n) := by nlinarith
        have e3 : (2 : Int) ^ (b * n) * 2 ^ (b * n) ≤ 2 ^ f := by
          rw [← pow_add]; exact pow_le_pow_right₀ (by norm_num) (by omega)
        have : (0 : Int) < (P : Int) * P := by positivity
        linarith
      exact_mod_cast h1

theorem jacobi_even {b n : Nat} (ok : Ok C b) (hn : 2 ≤ n) (fuel : Nat) {x p : Limbs C} {P : Int}
    (hp : Rep b n p P) (hP : P % 2 = 0 ∨ P ≤ 1) : jacobi b fuel x p = some 0 := by
  have hone := one_rep (C := C) (n := n) ok (by omega)
  unfold jacobi
  rw [if_pos]
  rcases hP with h | h
  · have : parity p = 0 := by rw [hp.parity ok hn]; exact h
    simp [this]
  · have : comp p (newInt C n 1) ≤ 0 := by
      by_contra hc
      have := (hp.comp_gt hone).1 (by omega); omega
    simp [hp.len, this]

end Verif.Big
