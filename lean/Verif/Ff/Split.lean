import Verif.Ff.Norm
import Verif.Big.Split
import Verif.Big.Mul
import Verif.Big.Sqr

/-! `split` and the one-digit products of ff.rs. -/
namespace Verif.Big
open Spec

variable {C : Nat}

/-- `split` when the quotient may need a few bits more than `b * n`: the top limb is not masked. -/
theorem split_wide {b n k : Nat} (ok : Ok C b) (hn : 2 ≤ n) (hk : k / b = n - 1) (hk0 : 0 < k % b) {w : Limbs C} (hl : w.length = 2 * n)
    (hd : Digits b w) (hv : limbsVal b w < 2 ^ k * (4 * 2 ^ (b * n))) :
    Rep b n (split b n k w).1 (limbsVal b w / 2 ^ k) ∧
    ((split b n k w).2.take n).length = n ∧ Digits b ((split b n k w).2.take n) ∧ limbsVal b ((split b n k w).2.take n) = limbsVal b w % 2 ^ k := by
  have hbC := ok.hC
  have hb := ok.hb
  have hB := two_pow_pos' b
  set m := k % b with hm
  have hmb : m < b := Nat.mod_lt _ (by omega)
  have hke : k = b * (n - 1) + m := by rw [← hk, hm]; exact (Nat.div_add_mod k b).symm
  set top := w.drop (n - 1) with htop
  have htl : top.length = n + 1 := by simp [htop, hl]; omega
  have hdt : Digits b top := fun z hz => hd z (List.mem_of_mem_drop hz)
  -- value of the two parts
  have hsplit : limbsVal b w = limbsVal b (w.take (n - 1)) + 2 ^ (b * (n - 1)) * limbsVal b top := by
    conv => lhs; rw [← List.take_append_drop (n - 1) w]
    rw [val_append, List.length_take, hl, Nat.min_eq_left (by omega)]
  have hlow := (Digits.take hd (n - 1)).bounds
  rw [List.length_take, hl, Nat.min_eq_left (by omega)] at hlow
  have hPn := two_pow_pos' (b * (n - 1))
  have hPm := two_pow_pos' m
  have htopv : limbsVal b top = limbsVal b w / 2 ^ (b * (n - 1)) := by
    rw [hsplit, Int.add_mul_ediv_left _ _ hPn.ne', Int.ediv_eq_zero_of_lt hlow.1 hlow.2, zero_add]
  have htop0 := hdt.bounds.1
  have hlast : (at' top n).toInt < 4 * 2 ^ m := by
    have hval : limbsVal b top < 4 * 2 ^ m * 2 ^ (b * n) := by
      rw [htopv]
      apply Int.ediv_lt_of_lt_mul hPn
      calc limbsVal b w < 2 ^ k * (4 * 2 ^ (b * n)) := hv
        _ = 4 * 2 ^ m * 2 ^ (b * n) * 2 ^ (b * (n - 1)) := by rw [hke, pow_add]; ring
    have hs : limbsVal b top = limbsVal b (top.take n) + 2 ^ (b * n) * (at' top n).toInt := by
      have e : top = top.take n ++ [at' top n] := by
        have hlt : n < top.length := by omega
        conv => lhs; rw [← List.take_append_drop n top]
        congr 1
        rw [List.drop_eq_getElem_cons hlt, List.drop_of_length_le (by omega), at', List.getD_eq_getElem?_getD, List.getElem?_eq_getElem hlt]
        rfl
      conv => lhs; rw [e]
      rw [val_append, List.length_take, htl, Nat.min_eq_left (by omega)]
      simp [limbsVal]
    have h1 := (Digits.take hdt n).bounds.1
    have h2 : 2 ^ (b * n) * (at' top n).toInt < 2 ^ (b * n) * (4 * 2 ^ m) := by linarith
    exact lt_of_mul_lt_mul_left h2 (two_pow_pos' _).le
  have hlast0 := (at'_digits hdt n).1
  have hprev := at'_digits hdt (n - 1)
  have hBm : (2 : Int) ^ b = 2 ^ m * 2 ^ (b - m) := by rw [← pow_add]; congr 1; omega
  have hJ := two_pow_pos' (b - m)
  have h4b : (4 : Int) * 2 ^ b ≤ 2 ^ (C - 1) := by
    calc (4 : Int) * 2 ^ b = 2 ^ (b + 2) := by rw [pow_add]; ring
      _ ≤ 2 ^ (C - 1) := pow_le_pow_right₀ (by norm_num) (by omega)
  set u := at' top (n - 1) with hu
  set v := at' top n with hv'
  have hvs : (v <<< (b - m)).toInt = v.toInt * 2 ^ (b - m) := by
    have h1 : v.toInt * 2 ^ (b - m) < 4 * 2 ^ b := by
      rw [hBm]; calc v.toInt * 2 ^ (b - m) < 4 * 2 ^ m * 2 ^ (b - m) := mul_lt_mul_of_pos_right hlast hJ
        _ = _ := by ring
    have h3 : 0 ≤ v.toInt * 2 ^ (b - m) := by positivity
    exact toInt_shl_of _ _ (by omega) (by omega) (by omega)
  have hus : (u.sshiftRight m).toInt = u.toInt / 2 ^ m := toInt_sshr _ _
  have hu0 : 0 ≤ u.toInt / 2 ^ m := Int.ediv_nonneg hprev.1 hPm.le
  have hu1 : u.toInt / 2 ^ m < 2 ^ (b - m) := by
    apply Int.ediv_lt_of_lt_mul hPm; rw [mul_comm, ← hBm]; have := hprev.2; omega
  have hlim : ((u.sshiftRight m) ||| (v <<< (b - m))).toInt = u.toInt / 2 ^ m + v.toInt * 2 ^ (b - m) := by
    rw [BitVec.or_comm, toInt_shl_or v _ (b - m) (by omega) (by rw [hus]; exact hu0) (by rw [hus]; exact hu1)
      (by have : 0 ≤ v.toInt * 2 ^ (b - m) := by positivity
          omega) ?_, hus]
    · ring
    · rw [hus]
      have h5 : (v.toInt + 1) * 2 ^ (b - m) ≤ 4 * 2 ^ m * 2 ^ (b - m) := mul_le_mul_of_nonneg_right (by omega) hJ.le
      have h6 : 4 * 2 ^ m * 2 ^ (b - m) = 4 * (2 : Int) ^ b := by rw [hBm]; ring
      nlinarith
  obtain ⟨f1, f2⟩ := fshr_spec ok hmb.le top hdt.normal
  have hne : top ≠ [] := by intro e; rw [e] at htl; simp at htl
  have hhi : (split b n k w).1 = (fshr b m top).take (n - 1) ++ [(u.sshiftRight m) ||| (v <<< (b - m))] := by
    apply List.ext_getElem
    · simp [split, fshr_length, htl]; omega
    · intro i h1 h2
      have hi : i < n := by simpa [split] using h1
      simp only [split, List.getElem_map, List.getElem_range]
      by_cases hin : i + 1 = n
      · have hi' : i = n - 1 := by omega
        have hx : at' (List.drop (n - 1) w) i = u := by rw [hu, htop, hi']
        have hy : at' (List.drop (n - 1) w) (i + 1) = v := by rw [hv', htop, hin]
        rw [List.getElem_append_right (by simp [fshr_length, htl]; omega)]
        simp only [hin, if_true]
        rw [← hm, hx]
        rw [hin] at hy
        rw [hy]
        simp
      · have e1 : ((fshr b m top).take (n - 1))[i]'(by simp [fshr_length, htl]; omega) = at' (fshr b m top) i := by
          rw [List.getElem_take, at', List.getD_eq_getElem?_getD, List.getElem?_eq_getElem (by rw [fshr_length]; omega)]; rfl
        rw [List.getElem_append_left (by simp [fshr_length, htl]; omega), e1, fshr_at _ _ (by omega)]
        simp only [hin, if_false]
        rfl
  have hA : (at' (fshr b m top) (n - 1)).toInt = u.toInt / 2 ^ m + v.toInt * 2 ^ (b - m) % 2 ^ b := by
    rw [fshr_at _ _ (by omega), show n - 1 + 1 = n by omega, BitVec.or_comm]
    have hmk : ((v <<< (b - m)) &&& bmask C b).toInt = v.toInt * 2 ^ (b - m) % 2 ^ b := by
      rw [toInt_and_mask _ _ (by omega), hvs]
    have g0 := Int.emod_nonneg (v.toInt * 2 ^ (b - m)) hB.ne'
    have g1 := Int.emod_lt_of_pos (v.toInt * 2 ^ (b - m)) hB
    have hdv : (2 : Int) ^ (b - m) ∣ v.toInt * 2 ^ (b - m) % 2 ^ b :=
      (Int.dvd_iff_emod_eq_zero.2 (by
        rw [hBm, Int.emod_emod_of_dvd _ (Dvd.intro_left _ rfl), Int.mul_emod_left]))
    have hsum : v.toInt * 2 ^ (b - m) % 2 ^ b + u.toInt / 2 ^ m < 2 ^ (C - 1) := by
      have : (2 : Int) ^ (b - m) ≤ 2 ^ b := pow_le_pow_right₀ (by norm_num) (by omega)
      omega
    rw [toInt_or _ _ (b - m) (by rw [hmk]; exact g0) (by rw [hmk]; exact hdv) (by rw [hus]; exact hu0) (by rw [hus]; exact hu1)
      (by rw [hmk, hus]; exact hsum), hmk, hus]
    ring
  have hBv : (at' (fshr b m top) n).toInt = v.toInt / 2 ^ m := by
    have := fshr_at_last (b := b) (k := m) top hne
    rw [htl] at this
    simp only [Nat.add_sub_cancel] at this
    rw [this, toInt_sshr]
  have hfs : fshr b m top = (fshr b m top).take (n - 1) ++ [at' (fshr b m top) (n - 1), at' (fshr b m top) n] := by
    have hlt : n - 1 < (fshr b m top).length := by rw [fshr_length]; omega
    have hlt2 : n < (fshr b m top).length := by rw [fshr_length]; omega
    conv => lhs; rw [← List.take_append_drop (n - 1) (fshr b m top)]
    congr 1
    rw [List.drop_eq_getElem_cons hlt, show n - 1 + 1 = n by omega, List.drop_eq_getElem_cons hlt2, List.drop_of_length_le (by rw [fshr_length]; omega)]
    simp only [at', List.getD_eq_getElem?_getD, List.getElem?_eq_getElem hlt, List.getElem?_eq_getElem hlt2, Option.getD_some]
  have hq : limbsVal b top / 2 ^ m = limbsVal b w / 2 ^ k := by
    rw [htopv, hke, pow_add, ← Int.ediv_ediv_of_nonneg hPn.le]
  have hdv : v.toInt * 2 ^ (b - m) / 2 ^ b = v.toInt / 2 ^ m := by
    rw [hBm]; exact Int.mul_ediv_mul_of_pos_left _ _ hJ
  have hhv : limbsVal b (split b n k w).1 = limbsVal b w / 2 ^ k := by
    rw [hhi, val_append, ← hq, ← f2]
    conv => rhs; rw [hfs]
    rw [val_append]
    congr 2
    simp only [limbsVal, hlim, hA, hBv]
    have := Int.emod_add_mul_ediv (v.toInt * 2 ^ (b - m)) (2 ^ b)
    rw [hdv] at this
    linarith
  have hrep : Rep b n (split b n k w).1 (limbsVal b w / 2 ^ k) := by
    refine ⟨by simp [split], ?_, hhv⟩
    rw [hhi]
    refine normal_append _ _ ?_ trivial
    have hdd : Digits b ((fshr b m top).take (n - 1)) := by
      have hr : Rep b (n + 1) (fshr b m top) (limbsVal b top / 2 ^ m) := ⟨by rw [fshr_length, htl], f1, f2⟩
      have := hr.digits (Int.ediv_nonneg htop0 hPm.le) (by
        have := hdt.bounds.2
        rw [htl] at this
        exact lt_of_le_of_lt (Int.ediv_le_self _ htop0) this)
      exact this.take _
    exact hdd
  -- low part
  have hlowl : (split b n k w).2.take n = w.take (n - 1) ++ [at' w (n - 1) &&& bmask C m] := by
    simp only [split]
    rw [List.take_set]
    have := set_last_split' (w.take n) n (by omega) (by simp [hl]; omega) (at' w (n - 1) &&& bmask C m)
    rw [this, List.take_take, Nat.min_eq_left (by omega)]
  have hat : (at' w (n - 1) &&& bmask C m).toInt = (at' w (n - 1)).toInt % 2 ^ m := toInt_and_mask _ _ (by omega)
  have hat0 := Int.emod_nonneg (at' w (n - 1)).toInt hPm.ne'
  have hat1 := Int.emod_lt_of_pos (at' w (n - 1)).toInt hPm
  have hmb' : (2 : Int) ^ m ≤ 2 ^ b := pow_le_pow_right₀ (by norm_num) hmb.le
  refine ⟨hrep, ?_, ?_, ?_⟩
  · simp [split, hl]; omega
  · rw [hlowl]
    intro z hz
    rcases List.mem_append.1 hz with hz | hz
    · exact hd z (List.mem_of_mem_take hz)
    · have : z = at' w (n - 1) &&& bmask C m := by simpa using hz
      rw [this, hat]; omega
  · rw [hlowl, val_append, List.length_take, hl, Nat.min_eq_left (by omega)]
    simp only [limbsVal, mul_zero, add_zero, hat]
    have hwm : (at' w (n - 1)).toInt % 2 ^ m = limbsVal b top % 2 ^ m := by
      have e : top = at' w (n - 1) :: w.drop n := by
        rw [htop, List.drop_eq_getElem_cons (by omega), at', List.getD_eq_getElem?_getD, List.getElem?_eq_getElem (by omega)]
        simp only [Option.getD_some]
        congr 2; omega
      rw [e]
      exact (val_emod _ _ hmb.le).symm
    rw [hwm, hsplit, hke, pow_add]
    have hr0 := Int.emod_nonneg (limbsVal b top) hPm.ne'
    have hr1 := Int.emod_lt_of_pos (limbsVal b top) hPm
    have e := Int.emod_add_mul_ediv (limbsVal b top) (2 ^ m)
    symm
    conv => lhs; rw [← e]
    rw [show limbsVal b (w.take (n - 1)) + 2 ^ (b * (n - 1)) * (limbsVal b top % 2 ^ m + 2 ^ m * (limbsVal b top / 2 ^ m))
        = (limbsVal b (w.take (n - 1)) + 2 ^ (b * (n - 1)) * (limbsVal b top % 2 ^ m)) + 2 ^ (b * (n - 1)) * 2 ^ m * (limbsVal b top / 2 ^ m) by ring,
      Int.add_mul_emod_self_left, Int.emod_eq_of_lt (add_nonneg hlow.1 (mul_nonneg hPn.le hr0))]
    have hq1 : limbsVal b top % 2 ^ m + 1 ≤ 2 ^ m := hr1
    have hq2 := mul_le_mul_of_nonneg_left hq1 hPn.le
    have hq3 := hlow.2
    rw [mul_add, mul_one] at hq2
    linarith

end Verif.Big

namespace Verif.Ff
open Spec Verif.Big

variable {C b n R : Nat}

theorem Rep.canonD (f : FOk C b n R) {d : Limbs C} {V : Int} (h : Rep b n d V) (h0 : 0 ≤ V) (h1 : V < 2 ^ R) : CanonD b n R d :=
  ⟨h.len, h.low, by rw [h.val]; exact h0, by rw [h.val]; exact h1⟩

theorem CanonD.rep {d : Limbs C} (h : CanonD b n R d) : Rep b n d (limbsVal b d) := ⟨h.len, h.low, rfl⟩

theorem FOk.pow_lt (f : FOk C b n R) : (256 : Int) * 2 ^ R ≤ 2 ^ (b * n) := by
  calc (256 : Int) * 2 ^ R = 2 ^ (R + 8) := by rw [pow_add]; ring
    _ ≤ _ := pow_le_pow_right₀ (by norm_num) f.hf

theorem CanonD.digits (f : FOk C b n R) {d : Limbs C} (h : CanonD b n R d) : Digits b d :=
  h.rep.digits h.nonneg (lt_of_lt_of_le h.lt (by have := f.pow_lt; have := two_pow_pos' R; omega))

/-- the two digits of a product -/
theorem splitDigits_spec (f : FOk C b n R) {d : Limbs C} {V : Int} (hl : d.length = 2 * n) (hd : Digits b d) (hv : limbsVal b d = V)
    (hV : V < 2 ^ R * (4 * 2 ^ (b * n))) :
    FRep b n R 2 (splitDigits b n R d) V := by
  obtain ⟨h1, h2, h3, h4⟩ := split_wide f.ok f.hn f.hR (by have := f.hT; omega) hl hd (by rw [hv]; exact hV)
  rw [hv] at h1 h4
  unfold splitDigits
  refine ⟨rfl, ⟨⟨h2, h3.normal, ?_, ?_⟩, h1.len, h1.low⟩, ?_⟩
  · rw [h4]; exact Int.emod_nonneg _ (two_pow_pos' _).ne'
  · rw [h4]; exact Int.emod_lt_of_pos _ (two_pow_pos' _)
  · simp only [fval, h4, h1.val]
    have := Int.emod_add_mul_ediv V (2 ^ R)
    linarith

end Verif.Ff
