import Verif.Ff.Div
import Verif.Big.Inv2
/- Helper lemmas: the bound on the result of `Big::invmod2m` (one digit); the result may exceed
`2^BIGBITS` because the last sum is masked before it is normalised. -/
namespace Verif.Ff
open Spec Verif.Big

variable {C b n R : Nat}

theorem add_low_bound (ok : Ok C b) (x y : Limbs C) (hl : x.length = y.length) (hx : Digits b x) (hy : Normal b y) :
    ∀ z ∈ (Big.add x y).dropLast, 0 ≤ z.toInt ∧ z.toInt ≤ 2 ^ (b + 1) := by
  have hC := ok.hC
  have hp := two_pow_pos' b
  have e1 : (2 : Int) ^ (b + 1) = 2 * 2 ^ b := pow_succ' 2 b
  have hle : (2 : Int) ^ (b + 1) ≤ 2 ^ (C - 1) := pow_le_pow_right₀ (by norm_num) (by omega)
  induction x generalizing y with
  | nil => intro z hz; simp [Big.add] at hz
  | cons x xs ih =>
    cases y with
    | nil => simp at hl
    | cons y ys =>
      by_cases hxs : xs = []
      · subst hxs
        have : ys = [] := by simpa using hl.symm
        subst this
        intro z hz; simp [Big.add] at hz
      · have hys : ys ≠ [] := by rintro rfl; apply hxs; simpa using hl
        have hw := ih ys (by simpa using hl) (fun z hz => hx z (by simp [hz])) hy.tail
        have h1 := hx x (by simp)
        have h2 := hy.head hys
        have hadd : (x + y).toInt = x.toInt + y.toInt := toInt_add_of _ _ (by omega) (by omega) (by omega)
        intro z hz
        have hne2 : Big.add xs ys ≠ [] := by
          intro h; have := congrArg List.length h; simp [Big.add] at this
          rcases this with h | h
          · exact hxs h
          · exact hys h
        have e : Big.add (x :: xs) (y :: ys) = (x + y) :: Big.add xs ys := rfl
        rw [e, List.dropLast_cons_of_ne_nil hne2] at hz
        simp only [List.mem_cons] at hz
        rcases hz with rfl | hz
        · rw [hadd]; omega
        · exact hw z hz

theorem inv2Loop_low {BB : Nat} (ok : Ok C b) (hn : 2 ≤ n) {a : Limbs C} {A : Int} (ha : Digits b a)
    (la : a.length = n) (va : limbsVal b a = A) (hBB : BB < b * n) (hBB8 : 8 < BB) (k i : Nat) (u : Limbs C) (U : Int)
    (hu : Rep b n (Big.norm b u) U) (hU0 : 0 ≤ U) (hU1 : U < 2 ^ (i + 1)) (hi : 8 ≤ i) (hiB : i < BB)
    (hUA : U * A % 2 ^ i = 1) (hk : BB ≤ i * 2 ^ k) :
    ∀ z ∈ (Big.inv2Loop b BB a k i u).dropLast, 0 ≤ z.toInt ∧ z.toInt ≤ 2 ^ (b + 1) := by
  have hb := ok.hb
  have hC := ok.hC
  have hbp : 0 < b := by omega
  induction k generalizing i u U with
  | zero => simp at hk; omega
  | succ k ih =>
    rw [Big.inv2Loop, if_pos hiB]
    have hidx : i / b < n := (Nat.div_lt_iff_lt_mul hbp).2 (by rw [mul_comm n b]; omega)
    have hpi := two_pow_pos' i
    by_cases hlast : 2 * i < BB
    · obtain ⟨t, T, e, du, dt, lt, vt, t0, t1, hcong⟩ := inv2Step_spec (J := i) ok hn ha la va hu hU0 hU1 hi (by omega) le_rfl (by omega) hUA
      have hp2 : (2 : Int) ^ i * 2 ^ i = 2 ^ (2 * i) := by rw [← pow_add]; congr 1; omega
      have hlt : (2 : Int) ^ (2 * i) < 2 ^ (b * n) := pow_lt_pow_right₀ (by norm_num) (by omega)
      have hTi : T * 2 ^ i ≤ 2 ^ (2 * i) := by rw [← hp2]; exact mul_le_mul_of_nonneg_right t1 hpi.le
      have rs := shl_rep (k := i) ok (⟨lt, dt.normal, vt⟩ : Rep b n t T) hidx t0.le (by omega)
      have ds := rs.digits (by positivity) (by omega)
      have rn := norm_add_digits ok (by omega) du ds hu.len rs.len
      rw [hu.val, rs.val, ← e] at rn
      have hsm : (2 : Int) ^ (i + 1) ≤ 2 ^ (2 * i) := pow_le_pow_right₀ (by norm_num) (by omega)
      refine ih (2 * i) _ _ rn (by positivity) (by rw [pow_succ]; omega) (by omega) hlast ?_ (by rw [pow_succ] at hk; nlinarith)
      rw [hp2] at hcong
      rw [hcong.eq]
      exact Int.emod_eq_of_lt (by norm_num) (by
        have : (2 : Int) ^ 1 ≤ 2 ^ (2 * i) := pow_le_pow_right₀ (by norm_num) (by omega)
        omega)
    · have hstop : Big.inv2Loop b BB a k (2 * i) (Big.inv2Step b i a u) = Big.inv2Step b i a u := by
        cases k with
        | zero => rfl
        | succ k => rw [Big.inv2Loop, if_neg hlast]
      rw [hstop]
      obtain ⟨t, T, e, du, dt, lt, vt, t0, t1, hcong⟩ := inv2Step_spec (J := BB - i) ok hn ha la va hu hU0 hU1 hi (by omega) (by omega) (by omega) hUA
      obtain ⟨ls, -, hN⟩ := shl_mod (k := i) ok t (by rw [lt]; exact hidx) dt
      rw [e]
      exact add_low_bound ok _ _ (by rw [hu.len, ls, lt]) du hN

theorem low_val_bound (hb : 1 ≤ b) (w : Limbs C) (hw : ∀ z ∈ w, 0 ≤ z.toInt ∧ z.toInt ≤ 2 ^ (b + 1)) :
    0 ≤ limbsVal b w ∧ limbsVal b w ≤ 4 * (2 ^ (b * w.length) - 1) := by
  have hp := two_pow_pos' b
  have h2 : (2 : Int) ^ 1 ≤ 2 ^ b := pow_le_pow_right₀ (by norm_num) hb
  induction w with
  | nil => simp [limbsVal]
  | cons x xs ih =>
    obtain ⟨i1, i2⟩ := ih (fun z hz => hw z (by simp [hz]))
    obtain ⟨x1, x2⟩ := hw x (by simp)
    rw [pow_succ'] at x2
    rw [limbsVal, List.length_cons, Nat.mul_succ, pow_add]
    have h3 : 2 ^ b * limbsVal b xs ≤ 2 ^ b * (4 * (2 ^ (b * xs.length) - 1)) := mul_le_mul_of_nonneg_left i2 hp.le
    refine ⟨by positivity, ?_⟩
    have h4 : 2 ^ b * (4 * (2 ^ (b * xs.length) - 1)) = 4 * ((2 : Int) ^ (b * xs.length) * 2 ^ b) - 4 * 2 ^ b := by ring
    linarith

theorem invmod2m_bound (f : FOk C b n R) (hR8 : 8 < R) {a : Limbs C} {A V : Int} (ha : Rep b n (Big.norm b a) A)
    (hA0 : 0 ≤ A) (hA1 : A < 2 ^ (b * n)) (hodd : A % 2 = 1) (hV : Rep b n (Big.invmod2m b R a) V) :
    0 ≤ V ∧ V < 2 * 2 ^ R := by
  have ok := f.ok
  have hn := f.hn
  have hBB : R < b * n := by have := f.hf; omega
  have hb := ok.hb
  have hC := ok.hC
  have hbp : 0 < b := by omega
  have hl8 := lastbits_spec (k := 8) ok (by omega) ha
  have h80 := Int.emod_nonneg A (two_pow_pos' 8).ne'
  have h81 := Int.emod_lt_of_pos A (two_pow_pos' 8)
  obtain ⟨k, hk⟩ : ∃ k : Nat, A % 2 ^ 8 = 2 * k + 1 := ⟨((A % 2 ^ 8) / 2).toNat, by omega⟩
  have hk128 : k < 128 := by norm_num at h81 hk; omega
  have hse : (Big.lastbits b a 8).signExtend 64 = BitVec.ofNat 64 (2 * k + 1) := by
    rw [BitVec.signExtend, hl8, hk]
    apply BitVec.eq_of_toNat_eq
    simp [BitVec.toNat_ofInt]
    omega
  obtain ⟨i1, i2⟩ := invmod256_all k hk128
  unfold Big.invmod2m at hV
  rw [hse] at hV
  generalize invmod256 (BitVec.ofNat 64 (2 * k + 1)) = s at *
  have hsI : s.toInt = s.toNat := toInt_of_toNat_lt s (by norm_num; omega)
  simp only [hsI, ha.len] at hV
  have da := ha.digits hA0 hA1
  have hnz : Big.norm b (Big.zero C n) = Big.zero C n := by
    have hz := zero_rep (C := C) b n
    have hcp := cap_pos C b n
    have h1 := hz.norm ok (by omega) (by omega) (by omega)
    exact normal_unique _ _ (by rw [h1.len, hz.len]) h1.low hz.low (by rw [h1.val, hz.val])
  have hu0 : Big.inc b (Big.zero C n) (s.toNat : Int) = newInt C n s.toNat := by
    simp only [Big.inc, hnz, newInt]
    congr 1
    have : at' (Big.zero C n) 0 = 0 := by
      cases n with
      | zero => omega
      | succ m => simp [at', Big.zero, List.replicate_succ]
    rw [this]; simp
  have h9 : (2 : Int) ^ 9 ≤ 2 ^ b := pow_le_pow_right₀ (by norm_num) hb
  have ru := newInt_rep (C := C) (n := n) ok (by omega) (s.toNat : Int) (by positivity) (by norm_num at h9; omega)
  have hcg := cap_ge (n := n) ok (by omega)
  have hbn : (2 : Int) ^ b ≤ 2 ^ (b * n) := pow_le_pow_right₀ (by norm_num) (Nat.le_mul_of_pos_right b (by omega))
  have ru' := ru.norm ok (by omega) (by omega) (by norm_num at h9; omega)
  rw [hu0] at hV
  have hUA : (s.toNat : Int) * A % 2 ^ 8 = 1 := by
    rw [Int.mul_emod, ← Int.emod_emod_of_dvd A (dvd_refl ((2:Int)^8)), ← Int.mul_emod, hk]
    have : ((s.toNat * (2 * k + 1) % 256 : Nat) : Int) = 1 := by rw [i2]; rfl
    push_cast at this
    norm_num
    exact this
  have hpw := Nat.lt_two_pow_self (n := R)
  obtain ⟨l1, c1, w1⟩ := inv2Loop_spec (BB := R) ok hn da ha.len ha.val hBB hR8 R 8 (newInt C n s.toNat) s.toNat ru' (by positivity)
    (by norm_num; omega) le_rfl hR8 hUA (by omega)
  have w0 := inv2Loop_low (BB := R) ok hn da ha.len ha.val hBB hR8 R 8 (newInt C n s.toNat) s.toNat ru' (by positivity)
    (by norm_num; omega) le_rfl hR8 hUA (by omega)
  have hidx : R / b < n := by have := f.hR; omega
  obtain ⟨l2, -, w2⟩ := mod2m_mod (m := R) ok _ (by rw [l1]; exact hidx) w1
  have hle : (2 : Int) ^ (b + 1) ≤ 2 ^ (C - 2) := pow_le_pow_right₀ (by norm_num) (by omega)
  have hr := norm_rep ok _ (by intro h; rw [h] at l2; simp [l1] at l2; omega) (within_mono hle _ w2)
  rw [l2, l1] at hr
  have hVv : V = limbsVal b (Big.mod2m b R (Big.inv2Loop b R (Big.norm b a) R 8 (newInt C n s.toNat))) := by
    rw [← hV.val, hr.val]
  generalize Big.inv2Loop b R (Big.norm b a) R 8 (newInt C n s.toNat) = w at *
  have hm : Big.mod2m b R w = w.take (n - 1) ++ [at' w (n - 1) &&& bmask C (tbits b R)] := by
    unfold Big.mod2m
    simp only [f.hR, l1, show n - (n - 1 + 1) = 0 by omega, List.replicate_zero]; rfl
  have hx : (at' w (n - 1) &&& bmask C (tbits b R)).toInt = (at' w (n - 1)).toInt % 2 ^ tbits b R := toInt_and_mask _ _ (by have := f.tlt; omega)
  have hx0 := Int.emod_nonneg (at' w (n - 1)).toInt (two_pow_pos' (tbits b R)).ne'
  have hx1 := Int.emod_lt_of_pos (at' w (n - 1)).toInt (two_pow_pos' (tbits b R))
  rw [← hx] at hx0 hx1
  obtain ⟨q1, q2⟩ := low_val_bound (b := b) (by omega) (w.take (n - 1)) (by
    rw [List.dropLast_eq_take, l1] at w0; exact w0)
  have ltk : (w.take (n - 1)).length = n - 1 := by rw [List.length_take, l1]; omega
  rw [ltk] at q2
  rw [hVv, hm, val_append, ltk, f.pow]
  simp only [limbsVal, mul_zero, add_zero]
  have hP := two_pow_pos' (b * (n - 1))
  have h32 : (2 : Int) ^ 5 ≤ 2 ^ tbits b R := pow_le_pow_right₀ (by norm_num) f.hT
  norm_num at h32
  generalize (at' w (n - 1) &&& bmask C (tbits b R)).toInt = y at *
  generalize (2 : Int) ^ (b * (n - 1)) = P at *
  generalize (2 : Int) ^ tbits b R = T at *
  refine ⟨by positivity, ?_⟩
  have h1 : P * (y + 1) ≤ P * T := mul_le_mul_of_nonneg_left (by linarith) hP.le
  have h2 : P * 32 ≤ P * T := mul_le_mul_of_nonneg_left h32 hP.le
  linarith

end Verif.Ff
