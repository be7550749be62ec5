import Verif.Spec.Ff
import Verif.Ff.Model
import Verif.Big.Arith
import Verif.Big.Small2

/-! Values of digit lists and normalisation. -/
namespace Verif.Ff
open Spec Verif.Big

variable {C b n R : Nat}

/-! ### Limb arrays with wide limbs -/

theorem normGo_wide (ok : Ok C b) (ws : Limbs C) (carry : BitVec C) (hne : ws ≠ [])
    (hs : LimbsWithin (7 * 2 ^ (b - 1)) ws) (hc1 : -4 ≤ carry.toInt) (hc2 : carry.toInt ≤ 4) :
    (normGo b carry ws).length = ws.length ∧ Normal b (normGo b carry ws)
      ∧ limbsVal b (normGo b carry ws) = limbsVal b ws + carry.toInt := by
  have hbC := ok.hC
  have hb := ok.hb
  have hE : (256 : Int) ≤ 2 ^ (b - 1) := by
    calc (256 : Int) = 2 ^ 8 := by norm_num
      _ ≤ 2 ^ (b - 1) := pow_le_pow_right₀ (by norm_num) (by omega)
  have e1 : 8 * 2 ^ (b - 1) ≤ (2 : Int) ^ (C - 1) := by
    calc 8 * 2 ^ (b - 1) = (2 : Int) ^ (b + 2) := by
          rw [show b + 2 = (b - 1) + 3 by omega, pow_add]; ring
      _ ≤ 2 ^ (C - 1) := pow_le_pow_right₀ (by norm_num) (by omega)
  have eb : (2 : Int) ^ b = 2 * 2 ^ (b - 1) := by
    conv => lhs; rw [show b = (b - 1) + 1 by omega, pow_succ]
    ring
  generalize (2 : Int) ^ (b - 1) = E at *
  induction ws generalizing carry with
  | nil => exact absurd rfl hne
  | cons x xs ih =>
    have hx := hs x (by simp)
    have hd : (x + carry).toInt = x.toInt + carry.toInt :=
      toInt_add_of _ _ (by omega) (by omega) (by omega)
    cases xs with
    | nil =>
      refine ⟨rfl, trivial, ?_⟩
      simp only [normGo, limbsVal, hd]; ring
    | cons y r =>
      have hBpos : (0 : Int) < 2 ^ b := by omega
      have hcar : ((x + carry).sshiftRight b).toInt = (x.toInt + carry.toInt) / 2 ^ b := by
        rw [toInt_sshr, hd]
      have hlo : -4 ≤ (x.toInt + carry.toInt) / 2 ^ b := by
        rw [Int.le_ediv_iff_mul_le hBpos]; omega
      have hhi : (x.toInt + carry.toInt) / 2 ^ b ≤ 4 :=
        Int.ediv_le_of_le_mul hBpos (by omega)
      have IH := ih ((x + carry).sshiftRight b) (by simp) (by rw [hcar]; exact hlo) (by rw [hcar]; exact hhi)
        (fun z hz => hs z (by simp only [List.mem_cons] at hz ⊢; tauto))
      obtain ⟨i1, i2, i3⟩ := IH
      have hlow : ((x + carry) &&& bmask C b).toInt = (x.toInt + carry.toInt) % 2 ^ b := by
        rw [toInt_and_mask _ b (by omega), hd]
      show (((x + carry) &&& bmask C b) :: normGo b ((x + carry).sshiftRight b) (y :: r)).length = _ ∧ _
      refine ⟨by simp [i1], ?_, ?_⟩
      · exact Normal.cons (by rw [hlow]; exact Int.emod_nonneg _ hBpos.ne')
          (by rw [hlow]; exact Int.emod_lt_of_pos _ hBpos) i2
      · show limbsVal b (((x + carry) &&& bmask C b) :: normGo b ((x + carry).sshiftRight b) (y :: r)) = _
        simp only [limbsVal] at i3 ⊢
        rw [i3, hlow, hcar]
        have := Int.emod_add_mul_ediv (x.toInt + carry.toInt) (2 ^ b)
        linarith

theorem norm_wide (ok : Ok C b) (ws : Limbs C) (hne : ws ≠ []) (hs : LimbsWithin (7 * 2 ^ (b - 1)) ws) :
    Rep b ws.length (Big.norm b ws) (limbsVal b ws) := by
  have h := normGo_wide ok ws 0 hne hs (by simp) (by simp)
  refine ⟨h.1, h.2.1, ?_⟩
  have := h.2.2
  simpa [Big.norm] using this

theorem within_val (hb : 1 ≤ b) (T : Int) (hT : 0 ≤ T) (w : Limbs C) (hne : w ≠ []) (hw : LimbsWithin T w) :
    |limbsVal b w| ≤ T * (2 * 2 ^ (b * (w.length - 1)) - 1) := by
  have h2 : (2 : Int) ≤ 2 ^ b := by
    calc (2 : Int) = 2 ^ 1 := by norm_num
      _ ≤ 2 ^ b := pow_le_pow_right₀ (by norm_num) hb
  induction w with
  | nil => exact absurd rfl hne
  | cons x xs ih =>
    have hx : |x.toInt| ≤ T := abs_le.2 (hw x (by simp))
    cases xs with
    | nil => simp only [limbsVal]; simpa using by linarith
    | cons y r =>
      have IH := ih (by simp) (fun z hz => hw z (by simp only [List.mem_cons] at hz ⊢; tauto))
      have e : (2 : Int) ^ (b * ((x :: y :: r).length - 1)) = 2 ^ b * 2 ^ (b * ((y :: r).length - 1)) := by
        rw [← pow_add]; congr 1; simp; ring
      rw [e]
      generalize (2 : Int) ^ (b * ((y :: r).length - 1)) = P at *
      have h3 : |limbsVal b (x :: y :: r)| ≤ |x.toInt| + 2 ^ b * |limbsVal b (y :: r)| := by
        show |x.toInt + 2 ^ b * limbsVal b (y :: r)| ≤ _
        refine (abs_add_le _ _).trans ?_
        rw [abs_mul, abs_of_nonneg (show (0 : Int) ≤ 2 ^ b by omega)]
      have h4 : 2 ^ b * |limbsVal b (y :: r)| ≤ 2 ^ b * (T * (2 * P - 1)) := mul_le_mul_of_nonneg_left IH (by omega)
      have h5 : T * 2 ≤ T * 2 ^ b := mul_le_mul_of_nonneg_left h2 hT
      calc _ ≤ T + 2 ^ b * (T * (2 * P - 1)) := by linarith
        _ = T * (2 * (2 ^ b * P)) + T - T * 2 ^ b := by ring
        _ ≤ T * (2 * (2 ^ b * P)) - T := by linarith
        _ = _ := by ring

/-- the bound on the limbs of the operands of `norm` in ff.rs -/
abbrev wideB (b : Nat) : Int := 13 * 2 ^ (b - 2)

/-- digits of `n` limbs, each limb within `T` -/
def Loose (n : Nat) (T : Int) (xs : FF C) : Prop := ∀ d ∈ xs, d.length = n ∧ LimbsWithin T d

theorem addLow_val (ok : Ok C b) (hn : 0 < n) (d : Limbs C) (hd : d.length = n) (hw : LimbsWithin (wideB b) d) (c : BitVec C)
    (hc : |c.toInt| ≤ 2 ^ (b - 2)) :
    (addLow c d).length = n ∧ LimbsWithin (7 * 2 ^ (b - 1)) (addLow c d) ∧ limbsVal b (addLow c d) = limbsVal b d + c.toInt := by
  have hb := ok.hb
  have hC := ok.hC
  have hc' := abs_le.1 hc
  have e1 : 16 * 2 ^ (b - 2) ≤ (2 : Int) ^ (C - 1) := by
    calc 16 * 2 ^ (b - 2) = (2 : Int) ^ (b + 2) := by
          rw [show b + 2 = (b - 2) + 4 by omega, pow_add]; ring
      _ ≤ 2 ^ (C - 1) := pow_le_pow_right₀ (by norm_num) (by omega)
  have e2 : (7 : Int) * 2 ^ (b - 1) = 14 * 2 ^ (b - 2) := by
    rw [show b - 1 = (b - 2) + 1 by omega, pow_succ]; ring
  have hE : (0 : Int) < 2 ^ (b - 2) := two_pow_pos' _
  rw [e2]
  unfold wideB at hw
  generalize (2 : Int) ^ (b - 2) = E at *
  cases d with
  | nil => simp at hd; omega
  | cons x xs =>
    have hx := hw x (by simp)
    have hs : (x + c).toInt = x.toInt + c.toInt := toInt_add_of _ _ (by omega) (by omega) (by omega)
    have e : addLow c (x :: xs) = (x + c) :: xs := by simp [addLow, at']
    rw [e]
    refine ⟨by simpa using hd, ?_, ?_⟩
    · intro z hz
      rcases List.mem_cons.1 hz with h | h
      · rw [h, hs]; omega
      · have := hw z (by simp [h]); omega
    · simp only [limbsVal, hs]; ring

/-- `norm` of a digit after a carry -/
theorem digit_norm (ok : Ok C b) (hn : 0 < n) (d : Limbs C) (hd : d.length = n) (hw : LimbsWithin (wideB b) d) (c : BitVec C)
    (hc : |c.toInt| ≤ 2 ^ (b - 2)) : Rep b n (Big.norm b (addLow c d)) (limbsVal b d + c.toInt) := by
  obtain ⟨h1, h2, h3⟩ := addLow_val ok hn d hd hw c hc
  have := norm_wide ok (addLow c d) (by intro h; rw [h] at h1; simp at h1; omega) h2
  rwa [h1, h3] at this

theorem FOk.pow (f : FOk C b n R) : (2 : Int) ^ R = 2 ^ (b * (n - 1)) * 2 ^ tbits b R := by
  rw [← pow_add]; congr 1; unfold tbits; rw [← f.hR]; exact (Nat.div_add_mod R b).symm

theorem FOk.tlt (f : FOk C b n R) : tbits b R < b := Nat.mod_lt _ (by have := f.ok.hb; omega)

theorem carryOf_val (f : FOk C b n R) {d : Limbs C} {V : Int} (h : Rep b n d V) : (carryOf b R d).toInt = V / 2 ^ R := by
  have hne : d ≠ [] := by intro e; have := h.len; have := f.hn; simp [e] at *; omega
  unfold carryOf
  rw [toInt_sshr, top_eq d hne h.low, h.len, h.val, f.pow, Int.ediv_ediv_of_nonneg (two_pow_pos' _).le]

theorem xor_shift (t : BitVec C) (k : Nat) (hk : k < C) : t ^^^ ((t.sshiftRight k) <<< k) = t &&& bmask C k := by
  ext i hi
  have hm : (bmask C k).getLsbD i = decide (i < k) := by
    rw [BitVec.getLsbD, toNat_bmask k hk, Nat.testBit_two_pow_sub_one]
  rw [BitVec.getLsbD_eq_getElem hi] at hm
  simp only [BitVec.getElem_xor, BitVec.getElem_and, hm, BitVec.getElem_shiftLeft]
  by_cases h : i < k
  · simp [h]
  · have hc : k + (i - k) = i := by omega
    have hlt : i - k < C := by omega
    simp only [h, decide_false, Bool.not_false, Bool.true_and, Bool.and_false]
    rw [BitVec.getElem_sshiftRight]
    simp only [hc, hi, dite_true]
    simp

theorem set_last_val (d : Limbs C) (x : BitVec C) (hne : d ≠ []) :
    limbsVal b (d.set (d.length - 1) x) = limbsVal b d + 2 ^ (b * (d.length - 1)) * (x.toInt - (d.getLastD 0).toInt) := by
  induction d with
  | nil => exact absurd rfl hne
  | cons y ys ih =>
    cases ys with
    | nil => simp [limbsVal]
    | cons z r =>
      have := ih (by simp)
      have e : (y :: z :: r).set ((y :: z :: r).length - 1) x = y :: (z :: r).set ((z :: r).length - 1) x := by simp
      rw [e]
      simp only [limbsVal] at this ⊢
      rw [this]
      have e2 : (2 : Int) ^ (b * ((y :: z :: r).length - 1)) = 2 ^ b * 2 ^ (b * ((z :: r).length - 1)) := by
        rw [← pow_add]; congr 1; simp; ring
      rw [e2]
      have e3 : (y :: z :: r).getLastD 0 = (z :: r).getLastD 0 := by simp [List.getLastD]
      rw [e3]; ring

theorem set_last_normal (d : Limbs C) (x : BitVec C) (h : Normal b d) : Normal b (d.set (d.length - 1) x) := by
  induction d with
  | nil => trivial
  | cons y ys ih =>
    cases ys with
    | nil => trivial
    | cons z r =>
      have e : (y :: z :: r).set ((y :: z :: r).length - 1) x = y :: (z :: r).set ((z :: r).length - 1) x := by simp
      rw [e]
      exact Normal.cons h.1.1 h.1.2 (ih h.2)

/-- clearing the excess of a digit -/
theorem mask_canon (f : FOk C b n R) {d : Limbs C} {V : Int} (h : Rep b n d V) :
    CanonD b n R (xortop d (carryOf b R d <<< tbits b R)) ∧ limbsVal b (xortop d (carryOf b R d <<< tbits b R)) = V % 2 ^ R := by
  have hne : d ≠ [] := by intro e; have := h.len; have := f.hn; simp [e] at *; omega
  have hT := f.tlt
  have hC := f.ok.hC
  have ht : (d.getLastD 0).toInt = V / 2 ^ (b * (n - 1)) := by rw [top_eq d hne h.low, h.len, h.val]
  have hx : (d.getLastD 0 ^^^ (carryOf b R d <<< tbits b R)).toInt = (d.getLastD 0).toInt % 2 ^ tbits b R := by
    unfold carryOf
    rw [xor_shift _ _ (by omega), toInt_and_mask _ _ (by omega)]
  have hv : limbsVal b (xortop d (carryOf b R d <<< tbits b R)) = V % 2 ^ R := by
    unfold xortop
    rw [set_last_val d _ hne, hx, h.len, h.val, ht, f.pow, emod_mul_pos (two_pow_pos' _) (two_pow_pos' _)]
    have h1 := Int.emod_add_mul_ediv V (2 ^ (b * (n - 1)))
    have h2 := Int.emod_add_mul_ediv (V / 2 ^ (b * (n - 1))) (2 ^ tbits b R)
    generalize (2 : Int) ^ (b * (n - 1)) = P at *
    linear_combination -h1
  refine ⟨⟨by simp [xortop, h.len], set_last_normal d _ h.low, ?_, ?_⟩, hv⟩
  · rw [hv]; exact Int.emod_nonneg _ (two_pow_pos' _).ne'
  · rw [hv]; exact Int.emod_lt_of_pos _ (two_pow_pos' _)

/-- the carry out of a loose digit is small -/
theorem carry_bound (f : FOk C b n R) (d : Limbs C) (hd : d.length = n) (hw : LimbsWithin (wideB b) d) (c : Int)
    (hc : |c| ≤ 2 ^ (b - 2)) : |(limbsVal b d + c) / 2 ^ R| ≤ 2 ^ (b - 2) := by
  have hb := f.ok.hb
  have hE : (0 : Int) < 2 ^ (b - 2) := two_pow_pos' _
  have hP := two_pow_pos' (b * (n - 1))
  have hv := within_val (b := b) (by omega) (wideB b) (by unfold wideB; positivity) d
    (by intro e; have := f.hn; simp [e] at hd; omega) hw
  rw [hd] at hv
  have h32 : (32 : Int) ≤ 2 ^ tbits b R := by
    calc (32 : Int) = 2 ^ 5 := by norm_num
      _ ≤ 2 ^ tbits b R := pow_le_pow_right₀ (by norm_num) f.hT
  have hpow := f.pow
  unfold wideB at hv
  generalize (2 : Int) ^ (b - 2) = E at *
  generalize (2 : Int) ^ (b * (n - 1)) = P at *
  generalize (2 : Int) ^ tbits b R = T at *
  have hR : 32 * P ≤ (2 : Int) ^ R := by rw [hpow]; nlinarith
  have hRp : (0 : Int) < 2 ^ R := two_pow_pos' R
  generalize (2 : Int) ^ R = B at *
  have hEB : E * (32 * P) ≤ E * B := mul_le_mul_of_nonneg_left hR hE.le
  have hEP : E ≤ E * P := by nlinarith
  have hvc : |limbsVal b d + c| ≤ E * B := by
    refine (abs_add_le _ _).trans ?_
    have : 13 * E * (2 * P - 1) = 26 * (E * P) - 13 * E := by ring
    have h3 : E * (32 * P) = 32 * (E * P) := by ring
    linarith
  rw [abs_le] at hvc ⊢
  refine ⟨?_, ?_⟩
  · rw [Int.le_ediv_iff_mul_le hRp]; linarith
  · exact Int.ediv_le_of_le_mul hRp (by linarith)

/-! ### Values of digit lists -/

theorem fval_append (xs ys : FF C) : fval b R (xs ++ ys) = fval b R xs + 2 ^ (R * xs.length) * fval b R ys := by
  induction xs with
  | nil => simp [fval]
  | cons x xs ih =>
    simp only [List.cons_append, fval, ih, List.length_cons]
    rw [show R * (xs.length + 1) = R + R * xs.length by ring, pow_add]; ring

theorem Canon.bounds {xs : FF C} (h : Canon b n R xs) : 0 ≤ fval b R xs ∧ fval b R xs < 2 ^ (R * xs.length) := by
  induction xs with
  | nil => simp [fval]
  | cons x xs ih =>
    have h1 := h x (by simp)
    have h2 := ih (fun d hd => h d (by simp [hd]))
    have hB := two_pow_pos' R
    have h3 := h1.nonneg
    have h4 := h1.lt
    simp only [fval, List.length_cons]
    rw [show R * (xs.length + 1) = R + R * xs.length by ring, pow_add]
    generalize (2 : Int) ^ R = B at *
    generalize (2 : Int) ^ (R * xs.length) = P at *
    refine ⟨by nlinarith, ?_⟩
    have : B * (fval b R xs + 1) ≤ B * P := mul_le_mul_of_nonneg_left (by omega) hB.le
    linarith

theorem Canon.append {xs ys : FF C} (h : Canon b n R xs) (h' : Canon b n R ys) : Canon b n R (xs ++ ys) := by
  intro d hd
  rcases List.mem_append.1 hd with h1 | h1
  · exact h d h1
  · exact h' d h1

theorem Canon.fnorm {xs : FF C} (h : Canon b n R xs) : FNorm b n R xs := by
  induction xs with
  | nil => trivial
  | cons x xs ih =>
    cases xs with
    | nil => exact ⟨(h x (by simp)).len, (h x (by simp)).low⟩
    | cons y r => exact ⟨h x (by simp), ih (fun d hd => h d (by simp only [List.mem_cons] at hd ⊢; tauto))⟩

theorem FNorm.append {xs ys : FF C} (h : Canon b n R xs) (h' : FNorm b n R ys) (hne : ys ≠ []) : FNorm b n R (xs ++ ys) := by
  induction xs with
  | nil => exact h'
  | cons x xs ih =>
    have := ih (fun d hd => h d (by simp [hd]))
    cases e : xs ++ ys with
    | nil => simp_all
    | cons z r => rw [List.cons_append, e]; rw [e] at this; exact ⟨h x (by simp), this⟩

theorem FNorm.tail {x : Limbs C} {xs : FF C} (h : FNorm b n R (x :: xs)) : FNorm b n R xs := by
  cases xs with
  | nil => trivial
  | cons y r => exact h.2

theorem FNorm.take {xs : FF C} (h : FNorm b n R xs) (k : Nat) (hk : k < xs.length) : Canon b n R (xs.take k) := by
  induction xs generalizing k with
  | nil => simp at hk
  | cons x xs ih =>
    cases k with
    | zero => intro d hd; simp at hd
    | succ k =>
      cases xs with
      | nil => simp at hk
      | cons y r =>
        intro d hd
        rw [List.take_succ_cons] at hd
        rcases List.mem_cons.1 hd with h1 | h1
        · rw [h1]; exact h.1
        · exact ih h.2 k (by simpa using hk) d h1

theorem FNorm.drop {xs : FF C} (h : FNorm b n R xs) (k : Nat) : FNorm b n R (xs.drop k) := by
  induction k generalizing xs with
  | zero => simpa using h
  | succ k ih =>
    cases xs with
    | nil => simp [FNorm]
    | cons x xs => rw [List.drop_succ_cons]; exact ih h.tail

theorem FNorm.digit {xs : FF C} (h : FNorm b n R xs) : ∀ d ∈ xs, d.length = n ∧ Normal b d := by
  induction xs with
  | nil => simp
  | cons x xs ih =>
    cases xs with
    | nil => intro d hd; simp at hd; rw [hd]; exact h
    | cons y r =>
      intro d hd
      rcases List.mem_cons.1 hd with h1 | h1
      · rw [h1]; exact ⟨h.1.len, h.1.low⟩
      · exact ih h.2 d h1

/-! ### `rnorm` -/

theorem rnormGo_spec (f : FOk C b n R) (xs : FF C) (c : BitVec C) (hne : xs ≠ []) (hs : Loose n (wideB b) xs)
    (hc : |c.toInt| ≤ 2 ^ (b - 2)) : FRep b n R xs.length (rnormGo b R false c xs) (fval b R xs + c.toInt) := by
  induction xs generalizing c with
  | nil => exact absurd rfl hne
  | cons d ds ih =>
    obtain ⟨hd, hw⟩ := hs d (by simp)
    have hr := digit_norm f.ok (by have := f.hn; omega) d hd hw c hc
    cases ds with
    | nil =>
      refine ⟨rfl, ⟨hr.len, hr.low⟩, ?_⟩
      show limbsVal b (Big.norm b (addLow c d)) + 2 ^ R * 0 = _
      rw [hr.val]; simp [fval]
    | cons e r =>
      obtain ⟨hm1, hm2⟩ := mask_canon f hr
      have hcv := carryOf_val f hr
      have IH := ih (carryOf b R (Big.norm b (addLow c d))) (by simp) (fun x hx => hs x (by simp only [List.mem_cons] at hx ⊢; tauto))
        (by rw [hcv]; exact carry_bound f d hd hw _ hc)
      generalize hd' : Big.norm b (addLow c d) = d' at *
      have eq : rnormGo b R false c (d :: e :: r) = xortop d' (carryOf b R d' <<< tbits b R) :: rnormGo b R false (carryOf b R d') (e :: r) := by
        simp only [rnormGo, hd']
      rw [eq]
      have hl := IH.len
      refine ⟨by simp [hl], ?_, ?_⟩
      · have := IH.low
        cases e2 : rnormGo b R false (carryOf b R d') (e :: r) with
        | nil => simp [e2] at hl
        | cons u v => rw [e2] at this; exact ⟨hm1, this⟩
      · simp only [fval] at IH ⊢
        rw [IH.val, hm2, hcv]
        have := Int.emod_add_mul_ediv (limbsVal b d + c.toInt) (2 ^ R)
        linarith

theorem norm_frep (f : FOk C b n R) (xs : FF C) (hne : xs ≠ []) (hs : Loose n (wideB b) xs) :
    FRep b n R xs.length (norm b R xs) (fval b R xs) := by
  have := rnormGo_spec f xs 0 hne hs (by simp)
  simpa [norm] using this

theorem rnormGoT_spec (f : FOk C b n R) (xs : FF C) (c : BitVec C) (hne : xs ≠ []) (hs : Loose n (wideB b) xs)
    (hc : |c.toInt| ≤ 2 ^ (b - 2)) : (rnormGo b R true c xs).length = xs.length ∧ Canon b n R (rnormGo b R true c xs) ∧
      fval b R (rnormGo b R true c xs) = (fval b R xs + c.toInt) % 2 ^ (R * xs.length) := by
  induction xs generalizing c with
  | nil => exact absurd rfl hne
  | cons d ds ih =>
    obtain ⟨hd, hw⟩ := hs d (by simp)
    have hr := digit_norm f.ok (by have := f.hn; omega) d hd hw c hc
    obtain ⟨hm1, hm2⟩ := mask_canon f hr
    cases ds with
    | nil =>
      generalize hd' : Big.norm b (addLow c d) = d' at *
      have eq : rnormGo b R true c [d] = [xortop d' (carryOf b R d' <<< tbits b R)] := by
        simp only [rnormGo, hd', if_true]
      rw [eq]
      refine ⟨rfl, by intro x hx; simp at hx; rw [hx]; exact hm1, ?_⟩
      simp only [fval, hm2]; simp
    | cons e r =>
      have hcv := carryOf_val f hr
      have IH := ih (carryOf b R (Big.norm b (addLow c d))) (by simp) (fun x hx => hs x (by simp only [List.mem_cons] at hx ⊢; tauto))
        (by rw [hcv]; exact carry_bound f d hd hw _ hc)
      generalize hd' : Big.norm b (addLow c d) = d' at *
      have eq : rnormGo b R true c (d :: e :: r) = xortop d' (carryOf b R d' <<< tbits b R) :: rnormGo b R true (carryOf b R d') (e :: r) := by
        simp only [rnormGo, hd']
      rw [eq]
      obtain ⟨i1, i2, i3⟩ := IH
      refine ⟨by simp [i1], ?_, ?_⟩
      · intro x hx
        rcases List.mem_cons.1 hx with h1 | h1
        · rw [h1]; exact hm1
        · exact i2 x h1
      · have eL : fval b R (d :: e :: r) = limbsVal b d + 2 ^ R * fval b R (e :: r) := rfl
        show limbsVal b (xortop d' (carryOf b R d' <<< tbits b R)) + 2 ^ R * fval b R (rnormGo b R true (carryOf b R d') (e :: r)) = _
        rw [i3, hm2, hcv, eL]
        rw [show R * (d :: e :: r).length = R + R * (e :: r).length by simp; ring, pow_add, emod_mul_pos (two_pow_pos' _) (two_pow_pos' _)]
        have e3 : limbsVal b d + 2 ^ R * fval b R (e :: r) + c.toInt = (limbsVal b d + c.toInt) + 2 ^ R * fval b R (e :: r) := by ring
        rw [e3, Int.add_mul_emod_self_left, Int.add_mul_ediv_left _ _ (two_pow_pos' R).ne', add_comm (fval b R (e :: r))]

theorem normT_canon (f : FOk C b n R) (xs : FF C) (hne : xs ≠ []) (hs : Loose n (wideB b) xs) :
    (normT b R xs).length = xs.length ∧ Canon b n R (normT b R xs) ∧
      fval b R (normT b R xs) = fval b R xs % 2 ^ (R * xs.length) := by
  have := rnormGoT_spec f xs 0 hne hs (by simp)
  simpa [normT] using this

end Verif.Ff
