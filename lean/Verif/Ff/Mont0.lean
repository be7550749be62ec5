import Verif.Ff.Mont
import Mathlib.RingTheory.Coprime.Lemmas
import Mathlib.RingTheory.Int.Basic
/- Helper lemmas: the one-digit branches of ff.rs. -/
namespace Verif.Ff
open Spec Verif.Big

variable {C b n R : Nat}

theorem FRep.single {x : FF C} {V : Int} (h : FRep b n R 1 x V) : ∃ d, x = [d] ∧ Rep b n d V := by
  obtain ⟨d, rfl⟩ := List.length_eq_one_iff.1 h.len
  exact ⟨d, rfl, h.low.1, h.low.2, by have := h.val; simpa [fval] using this⟩

theorem frep_single {d : Limbs C} {V : Int} (h : Rep b n d V) : FRep b n R 1 [d] V :=
  ⟨rfl, ⟨h.len, h.low⟩, by simp [fval, h.val]⟩

/-- what the one-digit values satisfy -/
def S0 (pv : Int) (V : Int) : Prop := 0 ≤ V ∧ V < 2 * pv ∧ (pv ∣ V → V = 0)

theorem at0_val {w : Limbs C} (h : Digits b w) (hl : 0 < w.length) : (at' w 0).toInt = limbsVal b w % 2 ^ b := by
  have := digit_at h 0 hl
  simpa using this

theorem mc_cond (f : FOk C b n R) {fuel : Nat} {p nd : FF C} {pv : Int} (c : MCtx b n R fuel 0 p nd pv) :
    ((at' (dig p 0) 0).toInt * (mcOf b nd).toInt + 1) % 2 ^ b = 0 := by
  obtain ⟨M, m1, m2, m3, m4⟩ := c.rn
  have hf := f.hf
  have hp1 := c.p1
  have hplt := c.plt
  have hn := f.hn
  have hC := f.ok.hC
  have hb := f.ok.hb
  simp only [pow_zero, Nat.mul_one] at m1 m3 m4 hplt
  obtain ⟨pd, rfl, rp⟩ := FRep.single (by simpa using c.rp)
  obtain ⟨md, rfl, rm⟩ := FRep.single m1
  have hRn : (2 : Int) * 2 ^ R ≤ 2 ^ (b * n) := by
    rw [← pow_succ']; exact pow_le_pow_right₀ (by norm_num) (by omega)
  have dp := rp.digits (by linarith) (by linarith [two_pow_pos' R])
  have dm := rm.digits m2 (by linarith)
  have ep := at0_val dp (by rw [rp.len]; omega)
  have em := at0_val dm (by rw [rm.len]; omega)
  rw [rp.val] at ep
  rw [rm.val] at em
  have hB := two_pow_pos' b
  have hm0 := Int.emod_nonneg M hB.ne'
  have hm1 := Int.emod_lt_of_pos M hB
  have hbC : (2 : Int) ^ b < 2 ^ (C - 1) := pow_lt_pow_right₀ (by norm_num) (by omega)
  have e1 : (1#C <<< b).toInt = 2 ^ b := by
    have o : (1#C).toInt = 1 := by
      have := toInt_ofInt_of (C := C) (x := 1) (by omega) (by have := two_pow_pos' (C - 1); linarith) (by linarith)
      simpa using this
    rw [toInt_shl_of _ _ (by omega) (by rw [o, one_mul]; linarith) (by rw [o, one_mul]; linarith), o, one_mul]
  have emc : (mcOf b [md]).toInt = 2 ^ b - M % 2 ^ b := by
    unfold mcOf dig
    rw [toInt_sub_of _ _ (by omega)] <;> simp only [List.getD_cons_zero] <;> rw [e1, em] <;> omega
  have hbR : b ≤ R := by
    have h1 := f.hR
    have h2 := Nat.div_add_mod R b
    rw [h1] at h2
    have : b * 1 ≤ b * (n - 1) := Nat.mul_le_mul_left _ (by omega)
    omega
  have h4 : M * pv ≡ 1 [ZMOD 2 ^ b] := m4.of_dvd (pow_dvd_pow _ hbR)
  have : dig [pd] 0 = pd := rfl
  rw [this, ep, emc]
  have h5 : pv % 2 ^ b * (2 ^ b - M % 2 ^ b) + 1 ≡ 0 [ZMOD 2 ^ b] := by
    have h6 : pv % 2 ^ b ≡ pv [ZMOD 2 ^ b] := Int.mod_modEq _ _
    have h7 : M % 2 ^ b ≡ M [ZMOD 2 ^ b] := Int.mod_modEq _ _
    have h8 : (2 : Int) ^ b ≡ 0 [ZMOD 2 ^ b] := by simp [Int.ModEq]
    have h9 := (h6.mul (h8.sub h7)).add_right 1
    refine h9.trans ?_
    have h10 := (h4.neg).add_right 1
    have e : pv * (0 - M) + 1 = -(M * pv) + 1 := by ring
    rw [e]
    simpa using h10
  simpa [Int.ModEq] using h5

theorem monty0 (f : FOk C b n R) {fuel : Nat} {p nd : FF C} {pv : Int} (c : MCtx b n R fuel 0 p nd pv) (hpr : Prime pv) {d : Limbs C} {D : Int}
    (hl : d.length = 2 * n) (hd : Digits b d) (hv : limbsVal b d = D) (hD : D < 2 ^ (b * n) * pv) (hz : pv ∣ D → D = 0) :
    ∃ t, FRep b n R 1 [Big.monty b (dig p 0) (mcOf b nd) d] t ∧ S0 pv t ∧ 2 ^ (b * n) * t ≡ D [ZMOD pv] ∧
      2 ^ (b * n) * t < D + 2 ^ (b * n) * pv := by
  have hmc := mc_cond f c
  have hp1 := c.p1
  have hplt := c.plt
  have hf := f.hf
  have hodd := c.odd
  have hD0 : 0 ≤ D := by rw [← hv]; exact hd.bounds.1
  simp only [pow_zero, Nat.mul_one] at hplt
  obtain ⟨pd, rfl, rp⟩ := FRep.single (by simpa using c.rp)
  have hRn : (2 : Int) * 2 ^ R ≤ 2 ^ (b * n) := by
    rw [← pow_succ']; exact pow_le_pow_right₀ (by norm_num) (by omega)
  have dp := rp.digits (by linarith) (by linarith [two_pow_pos' R])
  have hmc' : ((at' pd 0).toInt * (mcOf b nd).toInt + 1) % 2 ^ b = 0 := hmc
  obtain ⟨l1, d1, v, t, v0, v1, e1, e2⟩ := monty_spec f.ok f.hn dp hd (mcOf b nd) hmc' rp.len hl f.fits
  rw [hv, rp.val] at e1
  have hW := two_pow_pos' (b * n)
  have hvp : v * pv ≤ (2 ^ (b * n) - 1) * pv := mul_le_mul_of_nonneg_right (by linarith) (by linarith)
  have hvp0 : 0 ≤ v * pv := mul_nonneg v0 (by linarith)
  have ht0 : 0 ≤ t := by
    by_contra hh
    have : 2 ^ (b * n) * t < 0 := mul_neg_of_pos_of_neg hW (by linarith)
    linarith
  have ht2 : t < 2 * pv := by
    have : 2 ^ (b * n) * t < 2 ^ (b * n) * (2 * pv) := by linarith
    exact lt_of_mul_lt_mul_left this hW.le
  have htm : t % 2 ^ (b * n) = t := Int.emod_eq_of_lt ht0 (by linarith)
  rw [htm] at e2
  have rr : Rep b n (Big.monty b pd (mcOf b nd) d) t := ⟨l1, by have := (Rep.of_digits d1).low; exact this, e2⟩
  have hcong : 2 ^ (b * n) * t ≡ D [ZMOD pv] := by
    rw [e1]; exact Int.modEq_iff_dvd.2 ⟨-v, by ring⟩
  refine ⟨t, frep_single rr, ⟨ht0, ht2, ?_⟩, hcong, by linarith⟩
  intro hdv
  have hDd : pv ∣ D := by
    have : D = 2 ^ (b * n) * t - v * pv := by linarith
    rw [this]
    exact dvd_sub (hdv.mul_left _) (Dvd.intro_left _ rfl)
  have hD00 := hz hDd
  rw [hD00, zero_add] at e1
  -- `2^(bn)` divides `v`
  have hcop : IsCoprime ((2 : Int) ^ (b * n)) pv := by
    apply IsCoprime.pow_left
    rw [Int.isCoprime_iff_gcd_eq_one]
    have : pv = 2 * (pv / 2) + 1 := by omega
    rw [this]
    simp [Int.gcd]
  have : (2 : Int) ^ (b * n) ∣ v := hcop.dvd_of_dvd_mul_right ⟨t, e1.symm⟩
  have hv00 : v = 0 := Int.eq_zero_of_dvd_of_nonneg_of_lt v0 v1 this
  rw [hv00, zero_mul] at e1
  exact (mul_eq_zero.1 e1).resolve_left hW.ne'

theorem S0.lt_pow (f : FOk C b n R) {fuel : Nat} {p nd : FF C} {pv V : Int} (c : MCtx b n R fuel 0 p nd pv) (h : S0 pv V) : V < 2 * 2 ^ R ∧ V < 2 ^ (b * n) := by
  have hf := f.hf
  have hplt := c.plt
  simp only [pow_zero, Nat.mul_one] at hplt
  have hRn : (2 : Int) * 2 ^ R ≤ 2 ^ (b * n) := by
    rw [← pow_succ']; exact pow_le_pow_right₀ (by norm_num) (by omega)
  have := h.2.1
  constructor <;> linarith

theorem prod_lt (f : FOk C b n R) {fuel : Nat} {p nd : FF C} {pv X Y : Int} (c : MCtx b n R fuel 0 p nd pv) (hx : S0 pv X) (hy : S0 pv Y) :
    X * Y < 2 ^ (b * n) * pv := by
  have hf := f.hf
  have hplt := c.plt
  have hp1 := c.p1
  simp only [pow_zero, Nat.mul_one] at hplt
  have hRn : (4 : Int) * 2 ^ R ≤ 2 ^ (b * n) := by
    rw [show (4 : Int) = 2 ^ 2 by norm_num, ← pow_add]; exact pow_le_pow_right₀ (by norm_num) (by omega)
  have h1 : X * Y ≤ (2 * pv) * (2 * pv) := mul_le_mul hx.2.1.le hy.2.1.le hy.1 (by linarith)
  have h2 : 4 * pv * pv < 2 ^ (b * n) * pv := mul_lt_mul_of_pos_right (by linarith) (by linarith)
  linarith

theorem pexceed0 (f : FOk C b n R) {fuel : Nat} {p nd : FF C} {pv X Y : Int} (c : MCtx b n R fuel 0 p nd pv) (hx : S0 pv X) (hy : S0 pv Y)
    {x y : FF C} (rx : FRep b n R 1 x X) (ry : FRep b n R 1 y Y) : pexceed b n R (x.getLastD []) (y.getLastD []) = false := by
  have hfe := f.fex_ge
  have hP := two_pow_pos' R
  have h2 : 2 * 2 ^ R ≤ 2 * fex b n R * 2 ^ (R * 1) := by
    rw [Nat.mul_one]; exact mul_le_mul_of_nonneg_right (by linarith) hP.le
  have hx2 := (hx.lt_pow f c).1
  have hy2 := (hy.lt_pow f c).1
  rw [pexceed_iff f one_pos rx ry hx.1 (by linarith) hy.1 (by linarith)]
  simp only [Nat.mul_one, decide_eq_false_iff_not, not_lt]
  have hu0 := Int.ediv_nonneg hx.1 hP.le
  have hv0 := Int.ediv_nonneg hy.1 hP.le
  have hu : X / 2 ^ R < 2 := Int.ediv_lt_of_lt_mul hP (by linarith)
  have hv : Y / 2 ^ R < 2 := Int.ediv_lt_of_lt_mul hP (by linarith)
  generalize X / 2 ^ R = u at *
  generalize Y / 2 ^ R = v at *
  have : (u + 2) * (v + 2) ≤ 3 * 3 := mul_le_mul (by linarith) (by linarith) (by linarith) (by norm_num)
  linarith

theorem modmul0 (f : FOk C b n R) {fuel : Nat} {p nd : FF C} {pv X Y : Int} (c : MCtx b n R fuel 0 p nd pv) (hpr : Prime pv) (hx : S0 pv X) (hy : S0 pv Y)
    {x y : FF C} (rx : FRep b n R 1 x X) (ry : FRep b n R 1 y Y) :
    ∃ z Z, modmul b n R fuel 0 x y p nd = some z ∧ FRep b n R 1 z Z ∧ S0 pv Z ∧ 2 ^ (b * n) * Z ≡ X * Y [ZMOD pv] := by
  have hn := f.hn
  unfold modmul
  rw [pexceed0 f c hx hy rx ry]
  simp only [Bool.false_eq_true, if_false, Option.map_some]
  obtain ⟨xd, rfl, qx⟩ := rx.single
  obtain ⟨yd, rfl, qy⟩ := ry.single
  obtain ⟨m1, m2, m3⟩ := Big.mul_spec f.ok (qx.digits hx.1 (hx.lt_pow f c).2) (qy.digits hy.1 (hy.lt_pow f c).2)
    (by rw [qx.len, qy.len]) (by rw [qx.len]; omega) (by rw [qx.len]; exact f.fits)
  rw [qx.len] at m1
  rw [qx.val, qy.val] at m3
  obtain ⟨t, t1, t2, t3, -⟩ := monty0 f c hpr m1 m2 m3 (prod_lt f c hx hy) (by
    intro h
    rcases hpr.dvd_or_dvd h with h | h
    · rw [hx.2.2 h, zero_mul]
    · rw [hy.2.2 h, mul_zero])
  exact ⟨_, t, rfl, t1, t2, t3⟩

theorem modsqr0 (f : FOk C b n R) {fuel : Nat} {p nd : FF C} {pv X : Int} (c : MCtx b n R fuel 0 p nd pv) (hpr : Prime pv) (hx : S0 pv X)
    {x : FF C} (rx : FRep b n R 1 x X) :
    ∃ z Z, modsqr b n R fuel 0 x p nd = some z ∧ FRep b n R 1 z Z ∧ S0 pv Z ∧ 2 ^ (b * n) * Z ≡ X * X [ZMOD pv] := by
  have hn := f.hn
  unfold modsqr
  rw [sexceed_eq, pexceed0 f c hx hx rx rx]
  simp only [Bool.false_eq_true, if_false, Option.map_some]
  obtain ⟨xd, rfl, qx⟩ := rx.single
  obtain ⟨m1, m2, m3⟩ := Big.sqr_spec f.ok (qx.digits hx.1 (hx.lt_pow f c).2) (by rw [qx.len]; omega) (by rw [qx.len]; exact f.fits)
  rw [qx.len] at m1
  rw [qx.val] at m3
  obtain ⟨t, t1, t2, t3, -⟩ := monty0 f c hpr m1 m2 m3 (prod_lt f c hx hx) (by
    intro h
    rcases hpr.dvd_or_dvd h with h | h
    · rw [hx.2.2 h, zero_mul]
    · rw [hx.2.2 h, mul_zero])
  exact ⟨_, t, rfl, t1, t2, t3⟩

theorem redc0 (f : FOk C b n R) {fuel : Nat} {p nd : FF C} {pv X : Int} (c : MCtx b n R fuel 0 p nd pv) (hpr : Prime pv) (hx : S0 pv X)
    {x : FF C} (rx : FRep b n R 1 x X) :
    ∃ z Z, redc b n R fuel 0 x p nd = some z ∧ FRep b n R 1 z Z ∧ 0 ≤ Z ∧ Z < pv ∧ 2 ^ (b * n) * Z ≡ X [ZMOD pv] := by
  have hn := f.hn
  have hp1 := c.p1
  have hf := f.hf
  have hplt := c.plt
  simp only [pow_zero, Nat.mul_one] at hplt
  unfold redc
  obtain ⟨xd, rfl, qx⟩ := rx.single
  have q := newScopy_rep f.ok (by omega) qx hx.1
  have hW := two_pow_pos' (b * n)
  have h4 : (4 : Int) * 2 ^ R ≤ 2 ^ (b * n) := by
    rw [show (4 : Int) = 2 ^ 2 by norm_num, ← pow_add]; exact pow_le_pow_right₀ (by norm_num) (by omega)
  have hlt := (hx.lt_pow f c).2
  have hlt2 : X < 2 ^ (b * (2 * n)) := lt_of_lt_of_le hlt (pow_le_pow_right₀ (by norm_num) (Nat.mul_le_mul_left _ (by omega)))
  have hXp : X < 2 ^ (b * n) * pv := by
    have : 2 ^ (b * n) * 1 ≤ 2 ^ (b * n) * pv := mul_le_mul_of_nonneg_left hp1.le hW.le
    linarith
  obtain ⟨t, t1, t2, t3, t4⟩ := monty0 f c hpr q.len (q.digits hx.1 hlt2) q.val hXp hx.2.2
  refine ⟨_, t, rfl, t1, t2.1, ?_, t3⟩
  have h5 : 2 ^ (b * n) * t < 2 ^ (b * n) * (pv + 1) := by linarith [hx.2.1]
  have h6 := lt_of_mul_lt_mul_left h5 hW.le
  rcases lt_or_eq_of_le (Int.lt_add_one_iff.1 h6) with h | h
  · exact h
  · exfalso
    have := t2.2.2 (by rw [h])
    linarith

theorem S0.of_lt {pv V : Int} (h0 : 0 ≤ V) (h1 : V < pv) : S0 pv V :=
  ⟨h0, by linarith, fun h => Int.eq_zero_of_dvd_of_nonneg_of_lt h0 h1 h⟩

theorem nres0 (f : FOk C b n R) {fuel : Nat} {p nd : FF C} {pv X : Int} (c : MCtx b n R fuel 0 p nd pv) (h0 : 0 ≤ X) (h1 : X < 2 ^ R)
    {x : FF C} (rx : FRep b n R 1 x X) :
    ∃ z, nres b n R fuel 0 x p = some z ∧ FRep b n R 1 z (X * 2 ^ (b * n) % pv) := by
  have hn := f.hn
  have hb := f.ok.hb
  have hp1 := c.p1
  have hf := f.hf
  have hplt := c.plt
  have hfu := c.fu
  simp only [pow_zero, Nat.mul_one] at hplt hfu
  unfold nres
  simp only [if_true]
  obtain ⟨xd, rfl, qx⟩ := rx.single
  obtain ⟨pd, rfl, qp⟩ := FRep.single (by simpa using c.rp)
  have q := newScopy_rep f.ok (by omega) qx h0
  have hW := two_pow_pos' (b * n)
  have hRn : (2 : Int) * 2 ^ R ≤ 2 ^ (b * n) := by
    rw [← pow_succ']; exact pow_le_pow_right₀ (by norm_num) (by omega)
  have e2 : (2 : Int) ^ (b * (2 * n)) = 2 ^ (b * n) * 2 ^ (b * n) := by rw [← pow_add]; congr 1; ring
  have hX2 : 2 * (X * 2 ^ (b * n)) < 2 ^ (b * (2 * n)) := by
    rw [e2]
    have : (2 * X) * 2 ^ (b * n) < 2 ^ (b * n) * 2 ^ (b * n) := mul_lt_mul_of_pos_right (by linarith) hW
    linarith
  have hX0 : 0 ≤ X * 2 ^ (b * n) := mul_nonneg h0 hW.le
  have hs := shl_rep f.ok (k := n * b) q (by rw [Nat.mul_div_cancel _ (by omega)]; omega) h0 (by rw [Nat.mul_comm n b]; linarith)
  rw [Nat.mul_comm n b] at hs
  have hcap := cap_ge f.ok (n := 2 * n) (by omega)
  have hs' := hs.norm f.ok (by omega) (by linarith) (by linarith)
  have hfl : X * 2 ^ (b * n) < 2 ^ fuel * pv := by
    have h2 : X * 2 ^ (b * n) < 2 ^ R * 2 ^ (b * n) := mul_lt_mul_of_pos_right h1 hW
    have h3 : (2 : Int) ^ R * 2 ^ (b * n) ≤ 2 ^ fuel := by
      rw [← pow_add]; exact pow_le_pow_right₀ (by norm_num) (by omega)
    have h4 : 2 ^ fuel * 1 ≤ 2 ^ fuel * pv := mul_le_mul_of_nonneg_left hp1.le (two_pow_pos' fuel).le
    linarith
  obtain ⟨r, r1, r2⟩ := Big.dmod_spec f.ok (by omega) fuel hs' qp hX0 (by linarith) (by linarith) (by linarith) hfl
  refine ⟨[r], ?_, frep_single r2⟩
  rw [Nat.mul_comm b n] at r1
  have : dig [xd] 0 = xd := rfl
  rw [this, show dig [pd] 0 = pd from rfl, Nat.mul_comm n b, Nat.mul_comm b n, r1]
  rfl

end Verif.Ff
