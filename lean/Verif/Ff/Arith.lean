import Verif.Ff.Mont0
/- Helper lemmas: a common interface to the Montgomery arithmetic of ff.rs for every digit count. -/
namespace Verif.Ff
open Spec Verif.Big

variable {C b n R : Nat}

/-- Montgomery arithmetic modulo `pv` with radix `W`; `S j` bounds values after `j` multiplications in a row -/
structure MArith (b n R fuel k : Nat) (p nd : FF C) (pv W : Int) (S : Nat → Int → Prop) (T : Nat) : Prop where
  plt : 1 < pv
  cop : IsCoprime W pv
  mono : ∀ j V, S j V → S (j + 1) V
  nonneg : ∀ j V, S j V → 0 ≤ V
  small : ∀ V, 0 ≤ V → V < pv → S 0 V
  nres : ∀ (x : FF C) X, FRep b n R (2 ^ k) x X → 0 ≤ X → X < 2 ^ (R * 2 ^ k) → X < fuel * pv →
    ∃ z, Ff.nres b n R fuel k x p = some z ∧ FRep b n R (2 ^ k) z (X * W % pv)
  mul : ∀ i j (x y : FF C) X Y, j ≤ T → i < T → FRep b n R (2 ^ k) x X → FRep b n R (2 ^ k) y Y → S j X → S i Y →
    ∃ z Z, modmul b n R fuel k x y p nd = some z ∧ FRep b n R (2 ^ k) z Z ∧ S (i + 1) Z ∧ W * Z ≡ X * Y [ZMOD pv]
  sqr : ∀ j (x : FF C) X, j ≤ T → FRep b n R (2 ^ k) x X → S j X →
    ∃ z Z, modsqr b n R fuel k x p nd = some z ∧ FRep b n R (2 ^ k) z Z ∧ S 0 Z ∧ W * Z ≡ X * X [ZMOD pv]
  redc : ∀ j (x : FF C) X, j ≤ T → FRep b n R (2 ^ k) x X → S j X →
    ∃ z Z, Ff.redc b n R fuel k x p nd = some z ∧ FRep b n R (2 ^ k) z Z ∧ 0 ≤ Z ∧ Z < pv ∧ W * Z ≡ X [ZMOD pv]

theorem cop_two {pv : Int} (h : pv % 2 = 1) (k : Nat) : IsCoprime ((2 : Int) ^ k) pv := by
  apply IsCoprime.pow_left
  exact ⟨-(pv / 2), 1, by omega⟩

theorem MArith.zero (f : FOk C b n R) {fuel : Nat} {p nd : FF C} {pv : Int} (c : MCtx b n R fuel 0 p nd pv) (hpr : Prime pv) (T : Nat) :
    MArith b n R fuel 0 p nd pv (2 ^ (b * n)) (fun _ => S0 pv) T where
  plt := c.p1
  cop := cop_two c.odd _
  mono := fun _ _ h => h
  nonneg := fun _ _ h => h.1
  small := fun _ h0 h1 => S0.of_lt h0 h1
  nres := fun x X hx h0 h1 _ => by
    simp only [pow_zero, Nat.mul_one] at *
    exact nres0 f c h0 h1 hx
  mul := fun i j x y X Y _ _ hx hy sx sy => by
    simp only [pow_zero] at *
    exact modmul0 f c hpr sx sy hx hy
  sqr := fun j x X _ hx sx => by
    simp only [pow_zero] at *
    exact modsqr0 f c hpr sx hx
  redc := fun j x X _ hx sx => by
    simp only [pow_zero] at *
    exact redc0 f c hpr sx hx

theorem nres_succ (f : FOk C b n R) {fuel k : Nat} {p nd : FF C} {pv X : Int} (c : MCtx b n R fuel (k + 1) p nd pv) (h0 : 0 ≤ X)
    (h1 : X < 2 ^ (R * 2 ^ (k + 1))) (hfl : X < fuel * pv) {x : FF C} (rx : FRep b n R (2 ^ (k + 1)) x X) :
    ∃ z, nres b n R fuel (k + 1) x p = some z ∧ FRep b n R (2 ^ (k + 1)) z (X * 2 ^ (R * 2 ^ (k + 1)) % pv) := by
  have hN : 0 < 2 ^ (k + 1) := by positivity
  have hfe := f.fex_ge
  have hP := two_pow_pos' (R * 2 ^ (k + 1))
  have hp1 := c.p1
  have cx := rx.canon h0 h1
  have cc := (zero_canon f (2 ^ (k + 1))).append cx
  have hl : (zero n (2 ^ (k + 1)) ++ x : FF C).length = 2 ^ (k + 1) + 2 ^ (k + 1) := by simp [zero, rx.len]
  have hv : fval b R (zero n (2 ^ (k + 1)) ++ x : FF C) = X * 2 ^ (R * 2 ^ (k + 1)) := by
    rw [fval_append, zero_val, rx.val]; simp [zero]; ring
  have hn := canon_norm f (by omega) hl cc
  rw [hv] at hn
  unfold nres
  rw [if_neg (by omega), c.rp.len]
  have e2 : (2 : Int) ^ (R * (2 ^ (k + 1) + 2 ^ (k + 1))) = 2 ^ (R * 2 ^ (k + 1)) * 2 ^ (R * 2 ^ (k + 1)) := by rw [Nat.mul_add, pow_add]
  refine dmod_spec f hN fuel hn c.rp (mul_nonneg h0 hP.le) ?_ (by linarith) c.plt ?_ (by have := c.fu; have := f.hf; omega)
  · rw [e2]
    have h3 : X * 2 ^ (R * 2 ^ (k + 1)) < 2 ^ (R * 2 ^ (k + 1)) * 2 ^ (R * 2 ^ (k + 1)) := mul_lt_mul_of_pos_right h1 hP
    have h4 : 1 * ((2 : Int) ^ (R * 2 ^ (k + 1)) * 2 ^ (R * 2 ^ (k + 1))) ≤ 2 * fex b n R * (2 ^ (R * 2 ^ (k + 1)) * 2 ^ (R * 2 ^ (k + 1))) :=
      mul_le_mul_of_nonneg_right (by linarith) (by positivity)
    linarith
  · have h3 : X * 2 ^ (R * 2 ^ (k + 1)) < fuel * pv * 2 ^ (R * 2 ^ (k + 1)) := mul_lt_mul_of_pos_right hfl hP
    linarith

theorem redc_succ (f : FOk C b n R) {fuel k : Nat} (hk : k ≤ 19) {p nd : FF C} {pv X : Int} (c : MCtx b n R fuel (k + 1) p nd pv) (h0 : 0 ≤ X)
    (h1 : X < 2 * fex b n R * 2 ^ (R * 2 ^ (k + 1))) {x : FF C} (rx : FRep b n R (2 ^ (k + 1)) x X) :
    ∃ z Z, redc b n R fuel (k + 1) x p nd = some z ∧ FRep b n R (2 ^ (k + 1)) z Z ∧ 0 ≤ Z ∧ Z < pv ∧ 2 ^ (R * 2 ^ (k + 1)) * Z ≡ X [ZMOD pv] := by
  have hN : 0 < 2 ^ (k + 1) := by positivity
  have hfe := f.fex_ge
  have hP := two_pow_pos' (R * 2 ^ (k + 1))
  have hp1 := c.p1
  have hplt := c.plt
  unfold redc
  simp only
  obtain ⟨r, r1, r2⟩ := c.rmod f rx h0 h1
  rw [r1, Option.bind_some]
  have q0 : 0 ≤ X % pv := Int.emod_nonneg _ (by linarith)
  have q1 : X % pv < pv := Int.emod_lt_of_pos _ (by linarith)
  have cr := r2.canon q0 (by linarith)
  have cc := cr.append (zero_canon f r.length)
  have hl : (r ++ zero n r.length : FF C).length = 2 * 2 ^ (k + 1) := by simp [zero, r2.len]; ring
  have hv : fval b R (r ++ zero n r.length : FF C) = X % pv := by
    rw [fval_append, zero_val, r2.val]; simp
  have hd := cc.frep hl
  rw [hv] at hd
  have ePP := pow_two_mul R (2 ^ (k + 1))
  have hT : X % pv < 1 * 2 ^ (R * (2 * 2 ^ (k + 1))) := by
    rw [one_mul, ePP]
    have : (2 : Int) ^ (R * 2 ^ (k + 1)) * 1 ≤ 2 ^ (R * 2 ^ (k + 1)) * 2 ^ (R * 2 ^ (k + 1)) := mul_le_mul_of_nonneg_left hP hP.le
    linarith
  obtain ⟨Z, z1, z2, z3, z4⟩ := c.reduce f hk hd q0 hT (by linarith)
  have hZ : Z < 2 * fex b n R * 2 ^ (R * 2 ^ (k + 1)) := by
    have h4 : 2 * 2 ^ (R * 2 ^ (k + 1)) ≤ 2 * fex b n R * 2 ^ (R * 2 ^ (k + 1)) := mul_le_mul_of_nonneg_right (by linarith) hP.le
    have h5 : 2 ^ (R * 2 ^ (k + 1)) * Z < 2 ^ (R * 2 ^ (k + 1)) * (2 ^ (R * 2 ^ (k + 1)) + 1) := by
      have : 2 ^ (R * 2 ^ (k + 1)) * pv ≤ 2 ^ (R * 2 ^ (k + 1)) * 2 ^ (R * 2 ^ (k + 1)) := mul_le_mul_of_nonneg_left hplt.le hP.le
      linarith
    have h6 := lt_of_mul_lt_mul_left h5 hP.le
    linarith
  obtain ⟨w, w1, w2⟩ := c.rmod f z1 z2 hZ
  refine ⟨w, Z % pv, w1, w2, Int.emod_nonneg _ (by linarith), Int.emod_lt_of_pos _ (by linarith), ?_⟩
  exact ((Int.mod_modEq Z pv).mul_left _).trans (z3.trans (Int.mod_modEq X pv))

/-- the excess bound after `j` multiplications in a row is `B j` -/
theorem MArith.succ (f : FOk C b n R) {fuel k : Nat} (hk : k ≤ 2) {p nd : FF C} {pv : Int} (c : MCtx b n R fuel (k + 1) p nd pv) (T : Nat)
    (B : Nat → Int) (hB : ∀ j, fex b n R - 2 ≤ B j) (hmono : ∀ j, B j ≤ B (j + 1)) (hB2 : ∀ j, j ≤ T → B j ≤ 2 * fex b n R)
    (hBm : ∀ i, i < T → 16 * (B i + 3) ≤ 17 * fex b n R)
    (hstep : ∀ i, i < T → pv * B i + pv ≤ B (i + 1) * 2 ^ (R * 2 ^ (k + 1))) :
    MArith b n R fuel (k + 1) p nd pv (2 ^ (R * 2 ^ (k + 1))) (fun j V => 0 ≤ V ∧ V < B j * 2 ^ (R * 2 ^ (k + 1))) T := by
  have hP := two_pow_pos' (R * 2 ^ (k + 1))
  have hfe := f.fex_ge
  have hp1 := c.p1
  have hplt := c.plt
  exact {
    plt := c.p1
    cop := cop_two c.odd _
    mono := fun j V h => ⟨h.1, lt_of_lt_of_le h.2 (mul_le_mul_of_nonneg_right (hmono j) hP.le)⟩
    nonneg := fun _ _ h => h.1
    small := fun V h0 h1 => ⟨h0, by
      have : 1 * 2 ^ (R * 2 ^ (k + 1)) ≤ B 0 * 2 ^ (R * 2 ^ (k + 1)) := mul_le_mul_of_nonneg_right (by linarith [hB 0]) hP.le
      linarith⟩
    nres := fun x X hx h0 h1 h2 => nres_succ f c h0 h1 h2 hx
    mul := fun i j x y X Y hj hi hx hy sx sy => by
      obtain ⟨z, Z, z1, z2, z3, z4, z5⟩ := modmul_spec f hk c hx hy sx.1
        (lt_of_lt_of_le sx.2 (mul_le_mul_of_nonneg_right (hB2 j hj) hP.le)) sy.1 sy.2 (hBm i hi)
      refine ⟨z, Z, z1, z2, ⟨z3, ?_⟩, z4⟩
      rcases z5 with h | h
      · exact lt_of_lt_of_le h (mul_le_mul_of_nonneg_right (hB _) hP.le)
      · have h3 : pv * Y < pv * (B i * 2 ^ (R * 2 ^ (k + 1))) := mul_lt_mul_of_pos_left sy.2 (by linarith)
        have h4 := mul_le_mul_of_nonneg_left (hstep i hi) hP.le
        have h5 : 2 ^ (R * 2 ^ (k + 1)) * Z < 2 ^ (R * 2 ^ (k + 1)) * (B (i + 1) * 2 ^ (R * 2 ^ (k + 1))) := by linarith
        exact lt_of_mul_lt_mul_left h5 hP.le
    sqr := fun j x X hj hx sx => by
      obtain ⟨z, Z, z1, z2, z3, z4, z5⟩ := modsqr_spec f hk c hx sx.1
        (lt_of_lt_of_le sx.2 (mul_le_mul_of_nonneg_right (hB2 j hj) hP.le))
      exact ⟨z, Z, z1, z2, ⟨z3, lt_of_lt_of_le z5 (mul_le_mul_of_nonneg_right (hB _) hP.le)⟩, z4⟩
    redc := fun j x X hj hx sx => redc_succ f (by omega) c sx.1
      (lt_of_lt_of_le sx.2 (mul_le_mul_of_nonneg_right (hB2 j hj) hP.le)) hx }

/-- always available: two multiplications by a squared value in a row -/
theorem MArith.two (f : FOk C b n R) {fuel k : Nat} (hk : k ≤ 2) {p nd : FF C} {pv : Int} (c : MCtx b n R fuel (k + 1) p nd pv) :
    ∃ S, MArith b n R fuel (k + 1) p nd pv (2 ^ (R * 2 ^ (k + 1))) S 1 := by
  have hfe := f.fex_ge
  have hp1 := c.p1
  have hplt := c.plt
  refine ⟨_, MArith.succ f hk c 1 (fun j => fex b n R - 2 + j) (fun j => by simp) (fun j => by push_cast; linarith) ?_ ?_ ?_⟩
  · intro j hj
    have : (j : Int) ≤ 1 := by exact_mod_cast hj
    linarith
  · intro i hi
    have : (i : Int) = 0 := by exact_mod_cast (by omega : i = 0)
    rw [this]
    linarith
  · intro i hi
    have e : (i : Int) = 0 := by exact_mod_cast (by omega : i = 0)
    push_cast
    rw [e]
    have : pv * (fex b n R - 1) ≤ 2 ^ (R * 2 ^ (k + 1)) * (fex b n R - 1) := mul_le_mul_of_nonneg_right hplt.le (by linarith)
    linarith

/-- enough excess for `T` multiplications in a row, or a modulus away from the top of its range -/
theorem MArith.room (f : FOk C b n R) {fuel k : Nat} (hk : k ≤ 2) {p nd : FF C} {pv : Int} (c : MCtx b n R fuel (k + 1) p nd pv) (T : Nat)
    (h : 16 * (T + 1) ≤ fex b n R ∨ pv * (fex b n R - 1) ≤ (fex b n R - 2) * 2 ^ (R * 2 ^ (k + 1))) :
    ∃ S, MArith b n R fuel (k + 1) p nd pv (2 ^ (R * 2 ^ (k + 1))) S T := by
  have hfe := f.fex_ge
  have hp1 := c.p1
  have hplt := c.plt
  rcases h with h | h
  · refine ⟨_, MArith.succ f hk c T (fun j => fex b n R - 2 + j) (fun j => by simp) (fun j => by push_cast; linarith) ?_ ?_ ?_⟩
    · intro j hj
      have : (j : Int) ≤ T := by exact_mod_cast hj
      linarith
    · intro i hi
      have : (i : Int) ≤ T := by exact_mod_cast hi.le
      linarith
    · intro i hi
      have e : (i : Int) ≤ T := by exact_mod_cast hi.le
      push_cast
      have : pv * (fex b n R - 1 + i) ≤ 2 ^ (R * 2 ^ (k + 1)) * (fex b n R - 1 + i) := mul_le_mul_of_nonneg_right hplt.le (by linarith [Int.natCast_nonneg i])
      linarith
  · refine ⟨_, MArith.succ f hk c T (fun _ => fex b n R - 2) (fun j => le_refl _) (fun j => le_refl _) ?_ ?_ ?_⟩
    · intro j hj; linarith
    · intro j hj; linarith
    · intro j hj; linarith

end Verif.Ff
