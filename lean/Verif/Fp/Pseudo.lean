import Verif.Fp.Ops
import Verif.Big.Split
/- Pseudo-Mersenne reduction. -/
namespace Verif.Fp
open Verif.Big Spec

variable {C : Nat} {P : Params C} {p : Nat}

theorem normal_append_digits {b : Nat} {w : Limbs C} {z : BitVec C} (h : Normal b (w ++ [z])) : Digits b w := by
  induction w with
  | nil => intro x hx; simp at hx
  | cons a r ih =>
    have h' : Normal b (a :: (r ++ [z])) := h
    have hne : r ++ [z] ≠ [] := by simp
    intro x hx
    rcases List.mem_cons.1 hx with rfl | hx
    · exact h'.head hne
    · exact ih h'.tail x hx

theorem emod_mul_split (T : Int) {a m : Int} (ha : 0 < a) (hm : 0 < m) : T % (a * m) = T % a + a * (T / a % m) := by
  have e1 := Int.emod_add_mul_ediv T a
  have e2 := Int.emod_add_mul_ediv (T / a) m
  have a0 := Int.emod_nonneg T ha.ne'
  have a1 := Int.emod_lt_of_pos T ha
  have b0 := Int.emod_nonneg (T / a) hm.ne'
  have b1 := Int.emod_lt_of_pos (T / a) hm
  generalize T % a = r at *
  generalize T / a % m = s at *
  generalize T / a / m = q at *
  have hT : T = (r + a * s) + a * m * q := by rw [← e1, ← e2]; ring
  rw [hT, Int.add_mul_emod_self_left, Int.emod_eq_of_lt (by positivity) (by nlinarith)]

set_option maxHeartbeats 1000000 in
theorem modulo_pm (h : PMConsts P p) : ModuloSpec P p := by
  intro d hl hd hlt
  have hfac : P.factor = 1 := by simp [Params.factor, Params.plain, h.type]
  have hm : modulo P d = moduloPM P d := by simp [modulo, h.type]
  rw [hm, hfac]
  have hn := h.hn
  have ok := h.ok
  have hb := ok.hb
  have hC := ok.hC
  have hpz : (0 : Int) < p := by exact_mod_cast h.ppos
  have hps := h.p_sh
  have hmb : P.modbits = P.b * (P.n - 1) + P.tbits := h.cpow
  have htb : P.tbits < P.b := Nat.mod_lt _ (by omega)
  have hup : (p : Int) < 2 ^ P.modbits := by exact_mod_cast h.upper
  set c := P.mc.toInt with hc
  have hc0 := h.mcpos
  rw [← hc] at hc0
  set W := limbsVal P.b d with hW
  have hW0 : 0 ≤ W := hd.bounds.1
  have hM := two_pow_pos' P.modbits
  have hSh := two_pow_pos' P.sh
  have hWM : W < 2 ^ P.modbits * 2 ^ (P.b * P.n) := by
    calc W < 2 ^ P.sh * (p * p) := hlt
      _ = (2 ^ P.sh * p) * p := by ring
      _ ≤ 2 ^ (P.b * P.n) * p := mul_le_mul_of_nonneg_right hps.le hpz.le
      _ ≤ 2 ^ (P.b * P.n) * 2 ^ P.modbits := mul_le_mul_of_nonneg_left hup.le (two_pow_pos' _).le
      _ = _ := by ring
  obtain ⟨s1, s2, s3, s4, s5, s6⟩ := split_spec ok hn h.toplimb h.bits hl hd hWM
  rw [← hW] at s3 s6
  unfold moduloPM
  simp only
  set hi := (split P.b P.n P.modbits d).1 with hhi
  set lo := (split P.b P.n P.modbits d).2.take P.n with hlo
  have hofI : BitVec.ofInt C P.mc.toInt = P.mc := BitVec.ofInt_toInt
  obtain ⟨q1, q2, q3, q4⟩ := pmulGo_spec ok P.mc ⟨hc0.le, h.mcb⟩ hi s2 0 (by simp)
  have hpm : pmul P.b hi P.mc.toInt = pmulGo P.b P.mc 0 hi := by rw [pmul, hofI]
  rw [hpm]
  set tv := pmulGo P.b P.mc 0 hi with htv
  rw [s1, s3] at q4
  rw [show (0 : BitVec C).toInt = 0 by simp, add_zero, ← hc] at q4
  set T1 := limbsVal P.b tv.1 with hT1
  set v := tv.2.toInt with hv
  set H := W / 2 ^ P.modbits with hH
  set L := W % 2 ^ P.modbits with hL
  have hL0 : 0 ≤ L := Int.emod_nonneg _ hM.ne'
  have hL1 : L < 2 ^ P.modbits := Int.emod_lt_of_pos _ hM
  have hWe : L + 2 ^ P.modbits * H = W := Int.emod_add_mul_ediv W _
  have hH0 : 0 ≤ H := Int.ediv_nonneg hW0 hM.le
  have hH1 : H < 2 ^ P.sh * 2 ^ P.modbits := by
    apply Int.ediv_lt_of_lt_mul hM
    calc W < 2 ^ P.sh * (p * p) := hlt
      _ = (2 ^ P.sh * p) * p := by ring
      _ ≤ (2 ^ P.sh * p) * 2 ^ P.modbits := mul_le_mul_of_nonneg_left hup.le (by positivity)
      _ ≤ (2 ^ P.sh * 2 ^ P.modbits) * 2 ^ P.modbits := mul_le_mul_of_nonneg_right (mul_le_mul_of_nonneg_left hup.le hSh.le) hM.le
  -- the sum t
  have rep1 : Rep P.b P.n tv.1 T1 := ⟨by rw [q1, s1], q2.normal, rfl⟩
  have rep2 : Rep P.b P.n lo L := ⟨s4, s5.normal, s6⟩
  have hcg := cap_ge (n := P.n) ok (by omega)
  have hcp := cap_pos C P.b P.n
  have hT1b := q2.bounds
  rw [q1, s1, ← hT1] at hT1b
  have hLb := s5.bounds
  rw [s6, s4] at hLb
  have hsum := norm_add_rep ok (by omega : 0 < P.n) rep1 rep2 (by omega) (by omega) (by omega) (by omega)
  set t := Big.norm P.b (Big.add tv.1 lo) with ht
  set T := T1 + L with hT
  have hT0 : 0 ≤ T := by omega
  have htne := hsum.ne_nil (by omega)
  -- top limb
  have htw : (top t).toInt = T / 2 ^ (P.b * (P.n - 1)) := by
    have := top_eq t htne hsum.low
    rw [hsum.len, hsum.val] at this
    exact this
  have hPn := two_pow_pos' (P.b * (P.n - 1))
  have hPt := two_pow_pos' P.tbits
  have hpw : (2 : Int) ^ P.modbits = 2 ^ (P.b * (P.n - 1)) * 2 ^ P.tbits := by rw [hmb, pow_add]
  have hu : ((top t).sshiftRight P.tbits).toInt = T / 2 ^ P.modbits := by
    rw [toInt_sshr, htw, hpw, Int.ediv_ediv_of_nonneg hPn.le]
  have hr : (top t &&& P.tmask).toInt = (T / 2 ^ (P.b * (P.n - 1))) % 2 ^ P.tbits := by
    rw [Params.tmask, toInt_and_mask _ _ (by omega), htw]
  -- first set
  have htake : t = t.take (P.n - 1) ++ [top t] := by
    have e := List.take_append_drop (P.n - 1) t
    have e2 : t.drop (P.n - 1) = [top t] := by
      rw [← hsum.len, List.drop_length_sub_one htne, top, List.getLastD_eq_getLast?, List.getLast?_eq_some_getLast htne]; rfl
    rw [e2] at e; exact e.symm
  have htl : (t.take (P.n - 1)).length = P.n - 1 := by simp [hsum.len]
  have hTval : T = limbsVal P.b (t.take (P.n - 1)) + 2 ^ (P.b * (P.n - 1)) * (top t).toInt := by
    rw [← hsum.val]
    conv => lhs; rw [htake]
    rw [val_append, htl]; simp [limbsVal]
  set t2 := t.set (P.n - 1) (top t &&& P.tmask) with ht2
  have ht2e : t2 = t.take (P.n - 1) ++ [top t &&& P.tmask] := set_last_split' t P.n (by omega) hsum.len _
  have hlowd : T % 2 ^ (P.b * (P.n - 1)) = limbsVal P.b (t.take (P.n - 1)) := by
    have e := Int.emod_add_mul_ediv T (2 ^ (P.b * (P.n - 1)))
    rw [← htw] at e
    linarith
  have ht2v : limbsVal P.b t2 = T % 2 ^ P.modbits := by
    rw [ht2e, val_append, htl, ← hlowd]
    simp only [limbsVal, mul_zero, add_zero, hr]
    rw [hpw, emod_mul_split T hPn hPt]
  have ht2d : Digits P.b t2 := by
    rw [ht2e]
    intro z hz
    rcases List.mem_append.1 hz with hz | hz
    · -- low limbs of a normalised number
      have hnz : Normal P.b (t.take (P.n - 1) ++ [top t]) := htake ▸ hsum.low
      exact normal_append_digits hnz z hz
    · have hz' : z = top t &&& P.tmask := by simpa using hz
      have b0 := Int.emod_nonneg (T / 2 ^ (P.b * (P.n - 1))) hPt.ne'
      have b1 := Int.emod_lt_of_pos (T / 2 ^ (P.b * (P.n - 1))) hPt
      have : (2 : Int) ^ P.tbits ≤ 2 ^ P.b := pow_le_pow_right₀ (by norm_num) htb.le
      rw [hz', hr]; omega
  have ht2l : t2.length = P.n := by rw [ht2, List.length_set]; exact hsum.len
  have ht2ne : t2 ≠ [] := by intro e; rw [e] at ht2l; simp at ht2l; omega
  -- the correction word
  set S := c * H + L with hS
  set J : Int := 2 ^ (P.b - P.tbits) with hJ
  have hJp : 0 < J := two_pow_pos' _
  have hBn : (2 : Int) ^ (P.b * P.n) = 2 ^ P.modbits * J := by
    rw [hJ, ← pow_add]; congr 1
    have : P.b * P.n = P.b * (P.n - 1) + P.b := by
      conv => lhs; rw [show P.n = (P.n - 1) + 1 by omega]
      ring
    omega
  have hST : S = T + 2 ^ P.modbits * (J * v) := by
    have e : T1 + 2 ^ P.modbits * J * v = c * H := by rw [← hBn]; exact q4
    rw [hS, hT]; linarith
  have hS0 : 0 ≤ S := by positivity
  have hSlt : S < 2 ^ P.modbits * (2 ^ P.sh * c + 1) := by
    have : c * H ≤ c * (2 ^ P.sh * 2 ^ P.modbits) := mul_le_mul_of_nonneg_left hH1.le hc0.le
    rw [hS, show (2 : Int) ^ P.modbits * (2 ^ P.sh * c + 1) = c * (2 ^ P.sh * 2 ^ P.modbits) + 2 ^ P.modbits by ring]
    exact add_lt_add_of_le_of_lt this hL1
  set y := T / 2 ^ P.modbits + v * J with hy
  have hyS : S / 2 ^ P.modbits = y := by
    rw [hST, Int.add_mul_ediv_left _ _ hM.ne', hy, mul_comm J]
  have hlowS : S % 2 ^ P.modbits = T % 2 ^ P.modbits := by rw [hST, Int.add_mul_emod_self_left]
  have hy0 : 0 ≤ y := by rw [← hyS]; exact Int.ediv_nonneg hS0 hM.le
  have hy1 : y ≤ 2 ^ P.sh * c := by
    have : y < 2 ^ P.sh * c + 1 := by rw [← hyS]; apply Int.ediv_lt_of_lt_mul hM; rw [mul_comm]; exact hSlt
    omega
  have hv0 : 0 ≤ v := q3.1
  have hword := h.word
  rw [← hc] at hword
  have hcy : c * y ≤ c * (2 ^ P.sh * c) := mul_le_mul_of_nonneg_left hy1 hc0.le
  have hcy0 : 0 ≤ c * y := mul_nonneg hc0.le hy0
  have hexp : c * (2 ^ P.sh * c + 1) = c * (2 ^ P.sh * c) + c := by ring
  have hC2 : (2 : Int) ^ (C - 2) * 2 = 2 ^ (C - 1) := by rw [← pow_succ]; congr 1; omega
  have hBp := two_pow_pos' P.b
  have hTd0 : 0 ≤ T / 2 ^ P.modbits := Int.ediv_nonneg hT0 hM.le
  have hvJ0 : 0 ≤ v * J := mul_nonneg hv0 hJp.le
  have hyb : y ≤ c * y := le_mul_of_one_le_left hy0 hc0
  have hvs : (tv.2 <<< (P.b - P.tbits)).toInt = v * J := by
    rw [toInt_shl_of _ _ (by omega) (by rw [← hv, ← hJ]; omega) (by rw [← hv, ← hJ]; omega)]
  have hsumw : ((top t).sshiftRight P.tbits + (tv.2 <<< (P.b - P.tbits))).toInt = y := by
    rw [toInt_add_of _ _ (by omega) (by rw [hu, hvs]; omega) (by rw [hu, hvs]; omega), hu, hvs]
  have hprod : (P.mc * ((top t).sshiftRight P.tbits + (tv.2 <<< (P.b - P.tbits)))).toInt = c * y := by
    rw [toInt_mul_of _ _ (by omega) (by rw [hsumw, ← hc]; omega) (by rw [hsumw, ← hc]; omega), hsumw, ← hc]
  have ha0 := at'_digits ht2d 0
  have hnew : (at' t2 0 + P.mc * ((top t).sshiftRight P.tbits + (tv.2 <<< (P.b - P.tbits)))).toInt = (at' t2 0).toInt + c * y := by
    rw [toInt_add_of _ _ (by omega) (by rw [hprod]; omega) (by rw [hprod]; omega), hprod]
  set t3 := t2.set 0 (at' t2 0 + P.mc * ((top t).sshiftRight P.tbits + (tv.2 <<< (P.b - P.tbits)))) with ht3
  have ht3v : limbsVal P.b t3 = T % 2 ^ P.modbits + c * y := by
    rw [ht3, set_zero_val _ ht2ne, hnew, ht2v]; ring
  have ht3w : LimbsWithin (2 ^ (C - 2)) t3 := by
    intro z hz
    rcases List.mem_or_eq_of_mem_set hz with hz | rfl
    · have := ht2d z hz; omega
    · rw [hnew]; omega
  have ht3l : t3.length = P.n := by rw [ht3, List.length_set, ht2l]
  have ht3ne : t3 ≠ [] := by intro e; rw [e] at ht3l; simp at ht3l; omega
  have hrep := Verif.Big.norm_rep ok t3 ht3ne ht3w
  rw [ht3l, ht3v] at hrep
  have hTm0 := Int.emod_nonneg T hM.ne'
  have hTm1 := Int.emod_lt_of_pos T hM
  have hpv := h.pval
  have hsm := h.small
  rw [← hc] at hpv hsm
  have hF2 : T % 2 ^ P.modbits + c * y < 2 * p := by rw [hpv]; omega
  have h2p : (2 : Int) * p < 2 ^ (P.b * P.n) := by
    have h5 := h.sh5
    have : (2 : Int) ^ 1 * p ≤ 2 ^ P.sh * p := mul_le_mul_of_nonneg_right (pow_le_pow_right₀ (by norm_num) (by omega)) hpz.le
    linarith
  refine ⟨hrep.len, hrep.digits (by omega) (by omega), by rw [hrep.val]; exact hF2, -(H + y), ?_⟩
  rw [hrep.val, mul_one]
  have e3 := Int.emod_add_mul_ediv S (2 ^ P.modbits)
  rw [hyS, hlowS] at e3
  rw [hpv]
  have e4 : S = c * H + L := rfl
  linarith [e3, e4, hWe, show (-(H + y)) * ((2:Int) ^ P.modbits - c) = -(2 ^ P.modbits * H) - 2 ^ P.modbits * y + c * H + c * y by ring]

theorem PMConsts.fieldOk (h : PMConsts P p) : FieldOk P p := { h.toConsts with modulo_ok := modulo_pm h }

end Verif.Fp
