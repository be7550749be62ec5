import Verif.Ff.Inv
import Verif.Big.Monty
/- Helper lemmas: excess tests, Montgomery arithmetic of ff.rs. -/
namespace Verif.Ff
open Spec Verif.Big

variable {C b n R : Nat}

theorem mask_shift (t : BitVec C) (k : Nat) (hk : k < C) : (t &&& (BitVec.allOnes C <<< k)).sshiftRight k = t.sshiftRight k := by
  apply BitVec.eq_of_getLsbD_eq
  intro i hi
  rw [BitVec.getLsbD_sshiftRight, BitVec.getLsbD_sshiftRight]
  by_cases h : k + i < C
  · simp [h]
  · simp only [h, decide_false, if_false, Bool.not_false]
    have hm : (BitVec.allOnes C <<< k).msb = true := by
      rw [BitVec.msb_eq_getLsbD_last]; simp; omega
    rw [BitVec.msb_and, hm, Bool.and_true]

theorem FOk.fex_lt (f : FOk C b n R) : 32 * fex b n R ≤ 2 ^ b := by
  have hT := f.fexT
  have hb := f.ok.hb
  have h32 : (2 : Int) ^ 5 ≤ 2 ^ tbits b R := pow_le_pow_right₀ (by norm_num) f.hT
  have e4 : (4 : Int) * 2 ^ (b - 2) = 2 ^ b := by
    rw [show (4 : Int) = 2 ^ 2 by norm_num, ← pow_add]; congr 1; omega
  have hfe := f.fex_ge
  have : 2 * fex b n R * 2 ^ 5 ≤ 2 * fex b n R * 2 ^ tbits b R := mul_le_mul_of_nonneg_left h32 (by linarith)
  rw [hT, e4] at this
  norm_num at this
  linarith

/-- the excess of the top digit -/
theorem excess_val (f : FOk C b n R) {m : Nat} (hm : 0 < m) {x : FF C} {V : Int} (h : FRep b n R m x V) (h0 : 0 ≤ V)
    (h1 : V < 2 * fex b n R * 2 ^ (R * m)) : (excess b R (x.getLastD [])).toInt = V / 2 ^ (R * m) + 1 := by
  obtain ⟨m, rfl⟩ : ∃ k, m = k + 1 := ⟨m - 1, by omega⟩
  obtain ⟨ds, d, e, hl, hc, hr⟩ := h.top
  have hg : x.getLastD [] = d := by rw [e]; simp
  have hT := f.tlt
  have hC := f.ok.hC
  rw [hg]
  unfold excess omask
  rw [mask_shift _ _ (by omega)]
  have hcv := carryOf_val f hr
  unfold carryOf at hcv
  rw [Int.ediv_ediv_of_nonneg (two_pow_pos' _).le, ← pow_add, show R * m + R = R * (m + 1) by ring] at hcv
  have q0 : 0 ≤ V / 2 ^ (R * (m + 1)) := Int.ediv_nonneg h0 (two_pow_pos' _).le
  have q1 : V / 2 ^ (R * (m + 1)) < 2 * fex b n R := Int.ediv_lt_of_lt_mul (two_pow_pos' _) h1
  have hfl := f.fex_lt
  have hbC : (2 : Int) ^ b ≤ 2 ^ (C - 1) := pow_le_pow_right₀ (by norm_num) (by omega)
  have hfe := f.fex_ge
  have o : (1#C).toInt = 1 := by
    have := toInt_ofInt_of (C := C) (x := 1) (by omega) (by have := two_pow_pos' (C - 1); linarith) (by linarith)
    simpa using this
  rw [toInt_add_of _ _ (by omega) (by rw [hcv, o]; linarith) (by rw [hcv, o]; linarith), hcv, o]

theorem fexcess_val (f : FOk C b n R) : (fexcess C b n R).toInt = fex b n R := by
  have hC := f.ok.hC
  have hfl := f.fex_lt
  have hfe := f.fex_ge
  have hbC : (2 : Int) ^ b ≤ 2 ^ (C - 1) := pow_le_pow_right₀ (by norm_num) (by omega)
  have o : (1#C).toInt = 1 := by
    have := toInt_ofInt_of (C := C) (x := 1) (by omega) (by have := two_pow_pos' (C - 1); linarith) (by linarith)
    simpa using this
  unfold fexcess
  rw [toInt_shl_of _ _ (by omega) (by rw [o, one_mul]; have := two_pow_pos' (C - 1); have := two_pow_pos' (b * n - R - 1); linarith)
    (by rw [o, one_mul]; unfold fex at hfl hfe; linarith), o, one_mul]
  rfl

theorem pexceed_iff (f : FOk C b n R) {m : Nat} (hm : 0 < m) {x y : FF C} {X Y : Int} (hx : FRep b n R m x X) (hy : FRep b n R m y Y)
    (h0 : 0 ≤ X) (h1 : X < 2 * fex b n R * 2 ^ (R * m)) (g0 : 0 ≤ Y) (g1 : Y < 2 * fex b n R * 2 ^ (R * m)) :
    pexceed b n R (x.getLastD []) (y.getLastD []) = decide (fex b n R < (X / 2 ^ (R * m) + 2) * (Y / 2 ^ (R * m) + 2)) := by
  have hC := f.ok.hC
  have hb := f.ok.hb
  have hfl := f.fex_lt
  have hfe := f.fex_ge
  have hbC : (2 : Int) ^ b ≤ 2 ^ (C - 1) := pow_le_pow_right₀ (by norm_num) (by omega)
  have o : (1#C).toInt = 1 := by
    have := toInt_ofInt_of (C := C) (x := 1) (by omega) (by have := two_pow_pos' (C - 1); linarith) (by linarith)
    simpa using this
  have hP := two_pow_pos' (R * m)
  have x0 : 0 ≤ X / 2 ^ (R * m) := Int.ediv_nonneg h0 hP.le
  have x1 : X / 2 ^ (R * m) < 2 * fex b n R := Int.ediv_lt_of_lt_mul hP h1
  have y0 : 0 ≤ Y / 2 ^ (R * m) := Int.ediv_nonneg g0 hP.le
  have y1 : Y / 2 ^ (R * m) < 2 * fex b n R := Int.ediv_lt_of_lt_mul hP g1
  have ex := excess_val f hm hx h0 h1
  have ey := excess_val f hm hy g0 g1
  generalize X / 2 ^ (R * m) = u at *
  generalize Y / 2 ^ (R * m) = v at *
  have ax : (excess b R (x.getLastD []) + 1#C).toInt = u + 2 := by
    rw [toInt_add_of _ _ (by omega) (by rw [ex, o]; linarith) (by rw [ex, o]; linarith), ex, o]; ring
  have ay : (excess b R (y.getLastD []) + 1#C).toInt = v + 2 := by
    rw [toInt_add_of _ _ (by omega) (by rw [ey, o]; linarith) (by rw [ey, o]; linarith), ey, o]; ring
  unfold pexceed
  rw [toInt_wide, fexcess_val f, wide_mul, ax, ay]
  have hmul : (u + 2) * (v + 2) < 2 ^ (2 * C - 1) := by
    have h2 : (u + 2) * (v + 2) ≤ (2 ^ b) * (2 ^ b) := mul_le_mul (by linarith) (by linarith) (by linarith) (by linarith)
    have h3 : (2 : Int) ^ b * 2 ^ b < 2 ^ (2 * C - 1) := by
      rw [← pow_add]; exact pow_lt_pow_right₀ (by norm_num) (by omega)
    linarith
  have hpos : 0 ≤ (u + 2) * (v + 2) := mul_nonneg (by linarith) (by linarith)
  have := two_pow_pos' (2 * C - 1)
  rw [toInt_ofInt_of (by omega) (by linarith) hmul]

theorem sexceed_eq (b n R : Nat) (x : Limbs C) : sexceed b n R x = pexceed b n R x x := rfl

/-- a modulus with its Montgomery constant -/
structure MCtx (b n R fuel k : Nat) (p nd : FF C) (pv : Int) : Prop where
  rp : FRep b n R (2 ^ k) p pv
  p1 : 1 < pv
  plt : pv < 2 ^ (R * 2 ^ k)
  odd : pv % 2 = 1
  rn : ∃ M, FRep b n R (2 ^ k) nd M ∧ 0 ≤ M ∧ M < 2 * 2 ^ (R * 2 ^ k) ∧ M * pv ≡ 1 [ZMOD 2 ^ (R * 2 ^ k)]
  fu : b * n + R * 2 ^ k ≤ fuel

theorem MCtx.rmod {fuel k : Nat} {p nd : FF C} {pv : Int} (f : FOk C b n R) (c : MCtx b n R fuel k p nd pv) {x : FF C} {X : Int}
    (hx : FRep b n R (2 ^ k) x X) (h0 : 0 ≤ X) (h1 : X < 2 * fex b n R * 2 ^ (R * 2 ^ k)) :
    ∃ r, rmod b R fuel x p = some r ∧ FRep b n R (2 ^ k) r (X % pv) := by
  have hk : 0 < 2 ^ k := by positivity
  have hp1 := c.p1
  refine rmod_spec f hk fuel (frep_norm f hk hx h0 h1) c.rp h0 h1 (by linarith) ?_
  have h2 : 2 * fex b n R * 2 ^ (R * 2 ^ k) ≤ 2 ^ fuel := by
    have e : 2 * fex b n R = 2 ^ (b * n - R) := by
      unfold fex; rw [← pow_succ']; congr 1; have := f.hf; omega
    rw [e, ← pow_add]
    exact pow_le_pow_right₀ (by norm_num) (by have := c.fu; omega)
  have h3 : 2 ^ fuel * 1 ≤ 2 ^ fuel * pv := mul_le_mul_of_nonneg_left (by linarith) (two_pow_pos' _).le
  linarith

theorem MCtx.reduce {fuel k : Nat} {p nd : FF C} {pv : Int} (f : FOk C b n R) (hk : k ≤ 19) (c : MCtx b n R fuel (k + 1) p nd pv) {d : FF C} {T G : Int}
    (hd : FRep b n R (2 * 2 ^ (k + 1)) d T) (h0 : 0 ≤ T) (hT : T < G * 2 ^ (R * (2 * 2 ^ (k + 1)))) (hG : 4 * G ≤ 17 * fex b n R) :
    ∃ Z, FRep b n R (2 ^ (k + 1)) (reduce b n R k d p nd) Z ∧ 0 ≤ Z ∧ 2 ^ (R * 2 ^ (k + 1)) * Z ≡ T [ZMOD pv] ∧
      2 ^ (R * 2 ^ (k + 1)) * Z ≤ T + 2 ^ (R * 2 ^ (k + 1)) * pv := by
  obtain ⟨M, m1, m2, m3, m4⟩ := c.rn
  have hfe := f.fex_ge
  have hP := two_pow_pos' (R * 2 ^ (k + 1))
  have hp1 := c.p1
  have cp := c.rp.canon (by linarith) c.plt
  obtain ⟨V, m, v1, v2, v3, v4⟩ := reduce_spec f k hk hd h0 hT hG c.rp.len cp c.rp.val m1 m2
    (by have : (2 : Int) * 2 ^ (R * 2 ^ (k + 1)) ≤ 2 * fex b n R * 2 ^ (R * 2 ^ (k + 1)) := mul_le_mul_of_nonneg_right (by linarith) hP.le
        linarith) m4
  refine ⟨V, v1, ?_, ?_, ?_⟩
  · have h1 : m * pv ≤ 2 ^ (R * 2 ^ (k + 1)) * pv := mul_le_mul_of_nonneg_right v3.le (by linarith)
    have h2 : 0 ≤ 2 ^ (R * 2 ^ (k + 1)) * V := by linarith
    by_contra hn
    have : 2 ^ (R * 2 ^ (k + 1)) * V < 0 := mul_neg_of_pos_of_neg hP (by linarith)
    linarith
  · rw [v4]
    exact Int.modEq_iff_dvd.2 ⟨m - 2 ^ (R * 2 ^ (k + 1)), by ring⟩
  · rw [v4]
    have h1 : 0 ≤ m * pv := mul_nonneg v2 (by linarith)
    linarith

theorem ediv_bounds {P X : Int} (hP : 0 < P) (h0 : 0 ≤ X) : 0 ≤ X / P ∧ X < (X / P + 1) * P := by
  refine ⟨Int.ediv_nonneg h0 hP.le, ?_⟩
  have := Int.lt_ediv_add_one_mul_self X hP
  exact this

theorem modmul_spec {fuel k : Nat} {p nd : FF C} {pv : Int} (f : FOk C b n R) (hk : k ≤ 2) (c : MCtx b n R fuel (k + 1) p nd pv)
    {x y : FF C} {X Y Ey : Int} (hx : FRep b n R (2 ^ (k + 1)) x X) (hy : FRep b n R (2 ^ (k + 1)) y Y)
    (h0 : 0 ≤ X) (h1 : X < 2 * fex b n R * 2 ^ (R * 2 ^ (k + 1))) (g0 : 0 ≤ Y) (g1 : Y < Ey * 2 ^ (R * 2 ^ (k + 1)))
    (hEy : 16 * (Ey + 3) ≤ 17 * fex b n R) :
    ∃ z Z, modmul b n R fuel (k + 1) x y p nd = some z ∧ FRep b n R (2 ^ (k + 1)) z Z ∧ 0 ≤ Z ∧
      2 ^ (R * 2 ^ (k + 1)) * Z ≡ X * Y [ZMOD pv] ∧
      (Z < (fex b n R - 2) * 2 ^ (R * 2 ^ (k + 1)) ∨ 2 ^ (R * 2 ^ (k + 1)) * Z ≤ pv * Y + 2 ^ (R * 2 ^ (k + 1)) * pv) := by
  have hfe := f.fex_ge
  have hP := two_pow_pos' (R * 2 ^ (k + 1))
  have hN : 0 < 2 ^ (k + 1) := by positivity
  have hk1 : ((k + 1 : Nat) : Int) ≤ 3 := by exact_mod_cast (by omega : k + 1 ≤ 3)
  have hk0 : (0 : Int) ≤ ((k + 1 : Nat) : Int) := by positivity
  have hp1 := c.p1
  have hplt := c.plt
  have hEy0 : 0 < Ey := by by_contra hh; nlinarith
  have g1' : Y < 2 * fex b n R * 2 ^ (R * 2 ^ (k + 1)) :=
    lt_of_lt_of_le g1 (mul_le_mul_of_nonneg_right (by linarith) hP.le)
  unfold modmul
  rw [pexceed_iff f hN hx hy h0 h1 g0 g1']
  have ePP := pow_two_mul R (2 ^ (k + 1))
  by_cases hex : fex b n R < (X / 2 ^ (R * 2 ^ (k + 1)) + 2) * (Y / 2 ^ (R * 2 ^ (k + 1)) + 2)
  · rw [if_pos (by simpa using hex)]
    obtain ⟨r, r1, r2⟩ := c.rmod f hx h0 h1
    rw [r1, Option.map_some]
    have q0 : 0 ≤ X % pv := Int.emod_nonneg _ (by linarith)
    have q1 : X % pv < pv := Int.emod_lt_of_pos _ (by linarith)
    have pm := karmul_spec f (k + 1) (Ex := 1) (Ey := Ey) r2 hy q0 (by linarith) g0 g1
      (by have : (1 + ((k + 1 : Nat) : Int)) * (Ey + ((k + 1 : Nat) : Int)) ≤ 4 * (Ey + 3) := mul_le_mul (by linarith) (by linarith) (by linarith) (by norm_num)
          linarith) (by linarith) (by linarith)
    have hTY : X % pv * Y ≤ pv * Y := mul_le_mul_of_nonneg_right q1.le g0
    have hT : X % pv * Y < Ey * 2 ^ (R * (2 * 2 ^ (k + 1))) := by
      rw [ePP]
      have h2 : X % pv * Y ≤ 2 ^ (R * 2 ^ (k + 1)) * Y := mul_le_mul_of_nonneg_right (by linarith) g0
      have h3 : 2 ^ (R * 2 ^ (k + 1)) * Y < 2 ^ (R * 2 ^ (k + 1)) * (Ey * 2 ^ (R * 2 ^ (k + 1))) := mul_lt_mul_of_pos_left g1 hP
      linarith
    obtain ⟨Z, z1, z2, z3, z4⟩ := c.reduce f (by omega) pm (mul_nonneg q0 g0) hT (by linarith)
    refine ⟨_, Z, rfl, z1, z2, ?_, Or.inr (by linarith)⟩
    exact z3.trans ((Int.mod_modEq X pv).mul_right Y)
  · rw [if_neg (by simpa using hex), Option.map_some]
    obtain ⟨x0, x1⟩ := ediv_bounds hP h0
    obtain ⟨y0, y1⟩ := ediv_bounds hP g0
    generalize X / 2 ^ (R * 2 ^ (k + 1)) = u at *
    generalize Y / 2 ^ (R * 2 ^ (k + 1)) = v at *
    have hex' : (u + 2) * (v + 2) ≤ fex b n R := not_lt.1 hex
    have hu2 : (u + 2) * 2 ≤ (u + 2) * (v + 2) := mul_le_mul_of_nonneg_left (by linarith) (by linarith)
    have hv2 : 2 * (v + 2) ≤ (u + 2) * (v + 2) := mul_le_mul_of_nonneg_right (by linarith) (by linarith)
    have pm := karmul_spec f (k + 1) (Ex := u + 1) (Ey := v + 1) hx hy h0 x1 g0 y1
      (by have h3 : (u + 1 + ((k + 1 : Nat) : Int)) * (v + 1 + ((k + 1 : Nat) : Int)) ≤ (2 * (u + 2)) * (2 * (v + 2)) :=
            mul_le_mul (by linarith) (by linarith) (by linarith) (by linarith)
          have h4 : (2 * (u + 2)) * (2 * (v + 2)) = 4 * ((u + 2) * (v + 2)) := by ring
          linarith) (by linarith) (by linarith)
    have hT : X * Y < ((u + 1) * (v + 1)) * 2 ^ (R * (2 * 2 ^ (k + 1))) := by
      rw [ePP]
      have h2 : X * Y ≤ ((u + 1) * 2 ^ (R * 2 ^ (k + 1))) * Y := mul_le_mul_of_nonneg_right x1.le g0
      have h3 : ((u + 1) * 2 ^ (R * 2 ^ (k + 1))) * Y < ((u + 1) * 2 ^ (R * 2 ^ (k + 1))) * ((v + 1) * 2 ^ (R * 2 ^ (k + 1))) :=
        mul_lt_mul_of_pos_left y1 (mul_pos (by linarith) hP)
      linarith
    have hprod : (u + 1) * (v + 1) + 3 ≤ fex b n R := by
      have : (u + 2) * (v + 2) = (u + 1) * (v + 1) + u + v + 3 := by ring
      linarith
    obtain ⟨Z, z1, z2, z3, z4⟩ := c.reduce f (by omega) pm (mul_nonneg h0 g0) hT (by linarith)
    refine ⟨_, Z, rfl, z1, z2, z3, Or.inl ?_⟩
    rw [ePP] at hT
    have h5 : 2 ^ (R * 2 ^ (k + 1)) * Z < 2 ^ (R * 2 ^ (k + 1)) * ((fex b n R - 2) * 2 ^ (R * 2 ^ (k + 1))) := by
      have h6 : 2 ^ (R * 2 ^ (k + 1)) * pv ≤ 2 ^ (R * 2 ^ (k + 1)) * 2 ^ (R * 2 ^ (k + 1)) := mul_le_mul_of_nonneg_left hplt.le hP.le
      have h7 : ((u + 1) * (v + 1) + 3) * ((2 : Int) ^ (R * 2 ^ (k + 1)) * 2 ^ (R * 2 ^ (k + 1))) ≤ fex b n R * (2 ^ (R * 2 ^ (k + 1)) * 2 ^ (R * 2 ^ (k + 1))) :=
        mul_le_mul_of_nonneg_right hprod (by positivity)
      linarith
    exact lt_of_mul_lt_mul_left h5 hP.le

theorem modsqr_spec {fuel k : Nat} {p nd : FF C} {pv : Int} (f : FOk C b n R) (hk : k ≤ 2) (c : MCtx b n R fuel (k + 1) p nd pv)
    {x : FF C} {X : Int} (hx : FRep b n R (2 ^ (k + 1)) x X)
    (h0 : 0 ≤ X) (h1 : X < 2 * fex b n R * 2 ^ (R * 2 ^ (k + 1))) :
    ∃ z Z, modsqr b n R fuel (k + 1) x p nd = some z ∧ FRep b n R (2 ^ (k + 1)) z Z ∧ 0 ≤ Z ∧
      2 ^ (R * 2 ^ (k + 1)) * Z ≡ X * X [ZMOD pv] ∧ Z < (fex b n R - 2) * 2 ^ (R * 2 ^ (k + 1)) := by
  have hfe := f.fex_ge
  have hP := two_pow_pos' (R * 2 ^ (k + 1))
  have hN : 0 < 2 ^ (k + 1) := by positivity
  have hk1 : ((k + 1 : Nat) : Int) ≤ 3 := by exact_mod_cast (by omega : k + 1 ≤ 3)
  have hk0 : (0 : Int) ≤ ((k + 1 : Nat) : Int) := by positivity
  have h8 : (2 : Int) ^ (k + 1) ≤ 2 ^ 3 := pow_le_pow_right₀ (by norm_num) (by omega)
  have hp1 := c.p1
  have hplt := c.plt
  have ePP := pow_two_mul R (2 ^ (k + 1))
  -- the common part
  have core : ∀ {w : FF C} {W u : Int}, FRep b n R (2 ^ (k + 1)) w W → 0 ≤ W → 0 ≤ u → W < (u + 1) * 2 ^ (R * 2 ^ (k + 1)) → (u + 2) * (u + 2) ≤ fex b n R →
      ∃ Z, FRep b n R (2 ^ (k + 1)) (Ff.reduce b n R k (norm b R (sqr b n R (k + 1) w)) p nd) Z ∧ 0 ≤ Z ∧
      2 ^ (R * 2 ^ (k + 1)) * Z ≡ W * W [ZMOD pv] ∧ Z < (fex b n R - 2) * 2 ^ (R * 2 ^ (k + 1)) := by
    intro w W u hw w0 u0 w1 hu
    have hu8 : 8 * (1 + 2 * (u + 1)) ≤ 2 * fex b n R := by
      by_cases h6 : u ≤ 6
      · linarith
      · nlinarith
    have hu2 : 2 * (u + 2) ≤ (u + 2) * (u + 2) := mul_le_mul_of_nonneg_right (by linarith) (by linarith)
    have pm := sqr_norm_spec f (k + 1) (E := u + 1) hw w0 w1
      (by have h3 : (u + 1 + ((k + 1 : Nat) : Int)) * (u + 1 + ((k + 1 : Nat) : Int)) ≤ (2 * (u + 2)) * (2 * (u + 2)) :=
            mul_le_mul (by linarith) (by linarith) (by linarith) (by linarith)
          have h4 : (2 * (u + 2)) * (2 * (u + 2)) = 4 * ((u + 2) * (u + 2)) := by ring
          linarith)
      (by have h3 : (2 : Int) ^ (k + 1) * (1 + 2 * (u + 1)) ≤ 2 ^ 3 * (1 + 2 * (u + 1)) := mul_le_mul_of_nonneg_right h8 (by linarith)
          linarith)
    have hT : W * W < ((u + 1) * (u + 1)) * 2 ^ (R * (2 * 2 ^ (k + 1))) := by
      rw [ePP]
      have h2 : W * W ≤ ((u + 1) * 2 ^ (R * 2 ^ (k + 1))) * W := mul_le_mul_of_nonneg_right w1.le w0
      have h3 : ((u + 1) * 2 ^ (R * 2 ^ (k + 1))) * W < ((u + 1) * 2 ^ (R * 2 ^ (k + 1))) * ((u + 1) * 2 ^ (R * 2 ^ (k + 1))) :=
        mul_lt_mul_of_pos_left w1 (mul_pos (by linarith) hP)
      linarith
    have hprod : (u + 1) * (u + 1) + 3 ≤ fex b n R := by
      have : (u + 2) * (u + 2) = (u + 1) * (u + 1) + u + u + 3 := by ring
      linarith
    obtain ⟨Z, z1, z2, z3, z4⟩ := c.reduce f (by omega) pm (mul_nonneg w0 w0) hT (by linarith)
    refine ⟨Z, z1, z2, z3, ?_⟩
    rw [ePP] at hT
    have h5 : 2 ^ (R * 2 ^ (k + 1)) * Z < 2 ^ (R * 2 ^ (k + 1)) * ((fex b n R - 2) * 2 ^ (R * 2 ^ (k + 1))) := by
      have h6 : 2 ^ (R * 2 ^ (k + 1)) * pv ≤ 2 ^ (R * 2 ^ (k + 1)) * 2 ^ (R * 2 ^ (k + 1)) := mul_le_mul_of_nonneg_left hplt.le hP.le
      have h7 : ((u + 1) * (u + 1) + 3) * ((2 : Int) ^ (R * 2 ^ (k + 1)) * 2 ^ (R * 2 ^ (k + 1))) ≤ fex b n R * (2 ^ (R * 2 ^ (k + 1)) * 2 ^ (R * 2 ^ (k + 1))) :=
        mul_le_mul_of_nonneg_right hprod (by positivity)
      linarith
    exact lt_of_mul_lt_mul_left h5 hP.le
  unfold modsqr
  rw [sexceed_eq, pexceed_iff f hN hx hx h0 h1 h0 h1]
  by_cases hex : fex b n R < (X / 2 ^ (R * 2 ^ (k + 1)) + 2) * (X / 2 ^ (R * 2 ^ (k + 1)) + 2)
  · rw [if_pos (by simpa using hex)]
    obtain ⟨r, r1, r2⟩ := c.rmod f hx h0 h1
    rw [r1, Option.map_some]
    have q0 : 0 ≤ X % pv := Int.emod_nonneg _ (by linarith)
    have q1 : X % pv < pv := Int.emod_lt_of_pos _ (by linarith)
    obtain ⟨Z, z1, z2, z3, z4⟩ := core r2 q0 (le_refl 0) (by linarith) (by linarith)
    exact ⟨_, Z, rfl, z1, z2, z3.trans ((Int.mod_modEq X pv).mul (Int.mod_modEq X pv)), z4⟩
  · rw [if_neg (by simpa using hex), Option.map_some]
    obtain ⟨x0, x1⟩ := ediv_bounds hP h0
    obtain ⟨Z, z1, z2, z3, z4⟩ := core hx h0 x0 x1 (not_lt.1 hex)
    exact ⟨_, Z, rfl, z1, z2, z3, z4⟩

end Verif.Ff
