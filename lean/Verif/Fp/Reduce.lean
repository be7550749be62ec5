import Verif.Fp.Basic
import Verif.Fp.Log
/- `FP::quo` and `FP::reduce`. -/
namespace Verif.Fp
open Verif.Big Spec

variable {C : Nat}

theorem sdiv_nonneg_toInt (hC : 1 < C) (x y : BitVec C) (hx : 0 ≤ x.toInt) :
    (x.sdiv y).toInt = x.toInt / y.toInt := by
  rw [BitVec.toInt_sdiv_of_ne_or_ne _ _ (Or.inl (by
    intro e; rw [e, BitVec.toInt_intMin] at hx
    have h1 : (2 ^ (C - 1) : Nat) < 2 ^ C := Nat.pow_lt_pow_right (by norm_num) (by omega)
    rw [Nat.mod_eq_of_lt h1] at hx
    have := Nat.two_pow_pos (C - 1)
    push_cast at hx
    have : (0 : Int) < 2 ^ (C - 1) := by positivity
    omega)), Int.tdiv_eq_ediv_of_nonneg hx]

/-- the quotient estimate from the leading parts of dividend and modulus -/
theorem quo_core (X p : Int) (t s hb : Nat) (h0 : 0 ≤ X) (hp : 0 < p) (hX : X < 2 ^ (s + 1) * p)
    (hden : 2 ^ (hb - 1) ≤ p / 2 ^ t) (hs : s + 2 ≤ hb) :
    0 ≤ (X / 2 ^ t) / (p / 2 ^ t + 1) ∧ (X / 2 ^ t) / (p / 2 ^ t + 1) * p ≤ X ∧ X < ((X / 2 ^ t) / (p / 2 ^ t + 1) + 3) * p := by
  have ht := two_pow_pos' t
  set num := X / 2 ^ t with hnum
  set den := p / 2 ^ t with hdn
  have n0 : 0 ≤ num := Int.ediv_nonneg h0 ht.le
  have hb0 := two_pow_pos' (hb - 1)
  have d0 : 0 < den + 1 := by omega
  set q := num / (den + 1) with hq
  have q0 : 0 ≤ q := Int.ediv_nonneg n0 d0.le
  have e1 : num * 2 ^ t ≤ X := Int.ediv_mul_le _ ht.ne'
  have e2 : X < (num + 1) * 2 ^ t := Int.lt_ediv_add_one_mul_self _ ht
  have e3 : den * 2 ^ t ≤ p := Int.ediv_mul_le _ ht.ne'
  have e4 : p < (den + 1) * 2 ^ t := Int.lt_ediv_add_one_mul_self _ ht
  have e5 : q * (den + 1) ≤ num := Int.ediv_mul_le _ d0.ne'
  have e6 : num < (q + 1) * (den + 1) := Int.lt_ediv_add_one_mul_self _ d0
  have hqp : q * p ≤ X := by
    calc q * p ≤ q * ((den + 1) * 2 ^ t) := mul_le_mul_of_nonneg_left e4.le q0
      _ = q * (den + 1) * 2 ^ t := by ring
      _ ≤ num * 2 ^ t := mul_le_mul_of_nonneg_right e5 ht.le
      _ ≤ X := e1
  refine ⟨q0, hqp, ?_⟩
  have hql : q < 2 ^ (s + 1) := by
    have := lt_of_le_of_lt hqp hX
    exact lt_of_mul_lt_mul_right this hp.le
  have hq1 : (q + 1) * 2 ^ t ≤ p := by
    calc (q + 1) * 2 ^ t ≤ 2 ^ (hb - 1) * 2 ^ t := by
          apply mul_le_mul_of_nonneg_right _ ht.le
          have : (2 : Int) ^ (s + 1) ≤ 2 ^ (hb - 1) := pow_le_pow_right₀ (by norm_num) (by omega)
          omega
      _ ≤ den * 2 ^ t := mul_le_mul_of_nonneg_right hden ht.le
      _ ≤ p := e3
  have : (num + 1) * 2 ^ t ≤ (q + 1) * (den + 1) * 2 ^ t := mul_le_mul_of_nonneg_right (by omega) ht.le
  have e7 : (q + 1) * (den + 1) * 2 ^ t = (q + 1) * (den * 2 ^ t) + (q + 1) * 2 ^ t := by ring
  have e8 : (q + 1) * (den * 2 ^ t) ≤ (q + 1) * p := mul_le_mul_of_nonneg_left e3 (by omega)
  have e9 : (q + 3) * p = (q + 1) * p + 2 * p := by ring
  linarith

section
variable {P : Params C} {p : Nat}

/-- leading `C/2` bits: the two top limbs combined -/
theorem lead_val (h : Consts P p) {w : Limbs C} {X : Int} (hw : Rep P.b P.n w X) (h0 : 0 ≤ X) (hX : X < 2 ^ (P.sh + 1) * 2 ^ P.modbits)
    (htb : P.tbits < C / 2) :
    ((top w <<< (C / 2 - P.tbits)) ||| (at' w (P.n - 2)).sshiftRight (P.b - (C / 2 - P.tbits))).toInt
      = X / 2 ^ (P.b * (P.n - 1) - (C / 2 - P.tbits)) := by
  have hC := h.ok.hC; have h2 := h.ok.h2; have hb := h.ok.hb
  have hn := h.hn
  have hhalf := h.shhalf
  have hcp := h.cpow
  have hbits := h.bits
  have hne := hw.ne_nil (by omega)
  set s := C / 2 - P.tbits with hs
  have hsb : s ≤ P.b := by omega
  have ht := top_eq w hne hw.low
  rw [hw.val, hw.len] at ht
  -- second limb
  have hd1 := drop_val hw.low (P.n - 2) (by rw [hw.len]; omega)
  rw [hw.val] at hd1
  have hdd : w.drop (P.n - 2) = [at' w (P.n - 2), top w] := by
    have hl : (w.drop (P.n - 2)).length = 2 := by rw [List.length_drop, hw.len]; omega
    have ha : (w.drop (P.n - 2))[0]? = some (at' w (P.n - 2)) := by
      rw [List.getElem?_drop]; simp [at', List.getElem?_eq_getElem (show P.n - 2 < w.length by rw [hw.len]; omega)]
    have hb' : (w.drop (P.n - 2)).getLast? = some (top w) := by
      rw [List.getLast?_drop]
      simp [hw.len, show ¬ (P.n ≤ P.n - 2) by omega, top, List.getLastD_eq_getLast?, List.getLast?_eq_some_getLast hne]
    match hm : w.drop (P.n - 2), hl with
    | [u, v], _ =>
      rw [hm] at ha hb'
      simp at ha hb'
      rw [ha, hb']
  rw [hdd] at hd1
  simp only [limbsVal, mul_zero, add_zero] at hd1
  have hlow : 0 ≤ (at' w (P.n - 2)).toInt ∧ (at' w (P.n - 2)).toInt < 2 ^ P.b := by
    have := normal_drop hw.low (P.n - 2)
    rw [hdd] at this
    exact this.1
  have htt : (w.getLastD 0).toInt = (top w).toInt := rfl
  rw [htt] at ht
  have hT0 : 0 ≤ (top w).toInt := by rw [ht]; exact Int.ediv_nonneg h0 (two_pow_pos' _).le
  have hT1 : (top w).toInt < 2 ^ (P.sh + 1 + P.tbits) := by
    rw [ht, Int.ediv_lt_iff_lt_mul (two_pow_pos' _), ← pow_add]
    refine lt_of_lt_of_le hX ?_
    rw [← pow_add]
    exact pow_le_pow_right₀ (by norm_num) (by omega)
  have hTs : (top w).toInt * 2 ^ s + 2 ^ s ≤ 2 ^ (C - 1) := by
    calc (top w).toInt * 2 ^ s + 2 ^ s = ((top w).toInt + 1) * 2 ^ s := by ring
      _ ≤ 2 ^ (P.sh + 1 + P.tbits) * 2 ^ s := mul_le_mul_of_nonneg_right (by omega) (two_pow_pos' s).le
      _ = 2 ^ (P.sh + 1 + P.tbits + s) := by rw [← pow_add]
      _ ≤ 2 ^ (C - 1) := pow_le_pow_right₀ (by norm_num) (by omega)
  have hs0 := two_pow_pos' s
  have hTn : 0 ≤ (top w).toInt * 2 ^ s := mul_nonneg hT0 hs0.le
  have hsh : (top w <<< s).toInt = (top w).toInt * 2 ^ s :=
    toInt_shl_of _ _ (by omega) (by have := two_pow_pos' (C - 1); linarith) (by linarith)
  have hr0 : 0 ≤ ((at' w (P.n - 2)).sshiftRight (P.b - s)).toInt := by
    rw [toInt_sshr]; exact Int.ediv_nonneg hlow.1 (two_pow_pos' _).le
  have hr1 : ((at' w (P.n - 2)).sshiftRight (P.b - s)).toInt < 2 ^ s := by
    rw [toInt_sshr, Int.ediv_lt_iff_lt_mul (two_pow_pos' _), ← pow_add, show s + (P.b - s) = P.b by omega]
    exact hlow.2
  rw [toInt_or _ _ s (by rw [hsh]; exact hTn) (by rw [hsh]; exact Dvd.intro_left _ rfl) hr0 hr1 (by rw [hsh]; linarith), hsh, toInt_sshr]
  have e1 : P.b * (P.n - 1) - s = P.b * (P.n - 2) + (P.b - s) := by
    have : P.b * (P.n - 1) = P.b * (P.n - 2) + P.b := by
      rw [show P.n - 1 = (P.n - 2) + 1 by omega, Nat.mul_add, Nat.mul_one]
    omega
  rw [e1, pow_add, ← Int.ediv_ediv_of_nonneg (two_pow_pos' _).le, ← hd1]
  have e2 : (2 : Int) ^ P.b = 2 ^ (P.b - s) * 2 ^ s := by rw [← pow_add]; congr 1; omega
  have e3 : (at' w (P.n - 2)).toInt + 2 ^ P.b * (top w).toInt = (at' w (P.n - 2)).toInt + 2 ^ (P.b - s) * ((top w).toInt * 2 ^ s) := by
    rw [e2]; ring
  rw [e3, Int.add_mul_ediv_left _ _ (two_pow_pos' _).ne', add_comm]

theorem quo_spec (h : Consts P p) {w : Limbs C} {X : Int} (hw : Rep P.b P.n w X) (h0 : 0 ≤ X) (hX : X < 2 ^ (P.sh + 1) * p) :
    0 ≤ (quo P w P.md).toInt ∧ (quo P w P.md).toInt * p ≤ X ∧ X < ((quo P w P.md).toInt + 3) * p := by
  have hC := h.ok.hC; have h2 := h.ok.h2; have hb := h.ok.hb
  have hn := h.hn
  have hhalf := h.shhalf
  have hcp := h.cpow
  have hbits := h.bits
  have hsh5 := h.sh5
  have hpz : (0 : Int) < p := by exact_mod_cast h.ppos
  have hup : (p : Int) < 2 ^ P.modbits := by exact_mod_cast h.upper
  have hlo : (2 : Int) ^ (P.modbits - 1) ≤ p := by exact_mod_cast h.lower
  have hXm : X < 2 ^ (P.sh + 1) * 2 ^ P.modbits := hX.trans (mul_lt_mul_of_pos_left hup (two_pow_pos' _))
  unfold quo
  simp only
  split_ifs with htb
  · have l1 := lead_val h hw h0 hXm htb
    have l2 := lead_val h h.md_rep (by positivity) (by
      have : (1 : Int) ≤ 2 ^ (P.sh + 1) := by have := two_pow_pos' (P.sh + 1); omega
      nlinarith [two_pow_pos' P.modbits]) htb
    have hbn : P.b * 1 ≤ P.b * (P.n - 1) := Nat.mul_le_mul_left _ (by omega)
    set t := P.b * (P.n - 1) - (C / 2 - P.tbits) with ht
    have hden : (2 : Int) ^ (C / 2 - 1) ≤ p / 2 ^ t := by
      rw [Int.le_ediv_iff_mul_le (two_pow_pos' _), ← pow_add]
      refine le_trans (pow_le_pow_right₀ (by norm_num) ?_) hlo
      omega
    have hdenu : (p : Int) / 2 ^ t < 2 ^ (C / 2) := by
      rw [Int.ediv_lt_iff_lt_mul (two_pow_pos' _), ← pow_add]
      refine lt_of_lt_of_le hup (pow_le_pow_right₀ (by norm_num) ?_)
      omega
    have hq := quo_core X p t P.sh (C / 2) h0 hpz hX hden hhalf
    have h1 : (1#C).toInt = 1 := by
      rw [show (1#C) = BitVec.ofInt C 1 from rfl]
      refine toInt_ofInt_of (by omega) (by have := two_pow_pos' (C - 1); omega) ?_
      calc (1 : Int) < 2 ^ 1 := by norm_num
        _ ≤ 2 ^ (C - 1) := pow_le_pow_right₀ (by norm_num) (by omega)
    have hp2 := two_pow_pos' (C / 2 - 1)
    have hlast : (2 : Int) ^ (C / 2) < 2 ^ (C - 1) := pow_lt_pow_right₀ (by norm_num) (by omega)
    have hden1 : (((top P.md <<< (C / 2 - P.tbits)) ||| (at' P.md (P.n - 2)).sshiftRight (P.b - (C / 2 - P.tbits))) + 1#C).toInt = p / 2 ^ t + 1 := by
      rw [toInt_add_of _ _ (by omega) (by rw [l2, h1]; have := two_pow_pos' (C - 1); omega) (by rw [l2, h1]; omega), l2, h1]
    rw [sdiv_nonneg_toInt (by omega) _ _ (by rw [l1]; exact Int.ediv_nonneg h0 (two_pow_pos' _).le)]
    rw [l1]
    rw [show ((((top P.md <<< (C / 2 - P.tbits)) ||| (at' P.md (P.n - 2)).sshiftRight (P.b - (C / 2 - P.tbits))) + 1).toInt : Int) = p / 2 ^ t + 1 from hden1]
    exact hq
  · have hne := hw.ne_nil (by omega)
    have t1 := top_eq w hne hw.low
    rw [hw.val, hw.len] at t1
    have hne2 := h.md_rep.ne_nil (by omega)
    have t2 := top_eq P.md hne2 h.md_rep.low
    rw [h.mdval, h.mdlen] at t2
    set t := P.b * (P.n - 1) with ht
    have htb' : C / 2 ≤ P.tbits := by omega
    have hden : (2 : Int) ^ (C / 2 - 1) ≤ p / 2 ^ t := by
      rw [Int.le_ediv_iff_mul_le (two_pow_pos' _), ← pow_add]
      refine le_trans (pow_le_pow_right₀ (by norm_num) ?_) hlo
      omega
    have hdenu : (p : Int) / 2 ^ t < 2 ^ P.tbits := by
      rw [Int.ediv_lt_iff_lt_mul (two_pow_pos' _), ← pow_add]
      refine lt_of_lt_of_le hup (pow_le_pow_right₀ (by norm_num) ?_)
      omega
    have hq := quo_core X p t P.sh (C / 2) h0 hpz hX hden hhalf
    have h1 : (1#C).toInt = 1 := by
      rw [show (1#C) = BitVec.ofInt C 1 from rfl]
      refine toInt_ofInt_of (by omega) (by have := two_pow_pos' (C - 1); omega) ?_
      calc (1 : Int) < 2 ^ 1 := by norm_num
        _ ≤ 2 ^ (C - 1) := pow_le_pow_right₀ (by norm_num) (by omega)
    have hp2 := two_pow_pos' (C / 2 - 1)
    have htbb : P.tbits < P.b := Nat.mod_lt _ h.b_pos
    have hlast : (2 : Int) ^ P.tbits < 2 ^ (C - 1) := pow_lt_pow_right₀ (by norm_num) (by omega)
    have l1 : (top w).toInt = X / 2 ^ t := t1
    have l2 : (top P.md).toInt = p / 2 ^ t := t2
    have hden1 : (top P.md + 1#C).toInt = p / 2 ^ t + 1 := by
      rw [toInt_add_of _ _ (by omega) (by rw [l2, h1]; have := two_pow_pos' (C - 1); omega) (by rw [l2, h1]; omega), l2, h1]
    rw [sdiv_nonneg_toInt (by omega) _ _ (by rw [l1]; exact Int.ediv_nonneg h0 (two_pow_pos' _).le)]
    rw [l1, show ((top P.md + 1).toInt : Int) = p / 2 ^ t + 1 from hden1]
    exact hq

theorem normGo_length (b : Nat) (c : BitVec C) (w : Limbs C) : (normGo b c w).length = w.length := by
  induction w generalizing c with
  | nil => rfl
  | cons x xs ih =>
    cases xs with
    | nil => rfl
    | cons y r => simp only [normGo, List.length_cons, ih]

theorem norm_length (b : Nat) (w : Limbs C) : (Big.norm b w).length = w.length := normGo_length b 0 w

theorem cmove_length (x r : Limbs C) (d : Int) (hl : x.length = r.length) : (Big.cmove x r d).length = x.length := by
  simp [Big.cmove, hl]

theorem reduceLoop_eq (b k : Nat) (m x : Limbs C) (hl : x.length = m.length) : reduceLoop b k m x = downLoop b k m x := by
  induction k generalizing m x with
  | zero => rfl
  | succ k ih =>
    simp only [reduceLoop, downLoop]
    rw [ssn_eq b x m hl]
    apply ih
    have h1 : (fshr b 1 m).length = m.length := fshr_length _ _ _
    have h2 : (Big.norm b (Big.sub x (fshr b 1 m))).length = x.length := by
      rw [norm_length]; simp [Big.sub, h1, hl]
    rw [cmove_length _ _ _ h2.symm, h1, hl]

theorem nonneg_sub_within (hC : 0 < C) (T : Int) (hT : T < 2 ^ (C - 1)) (xs ys : Limbs C)
    (hx : ∀ z ∈ xs, 0 ≤ z.toInt ∧ z.toInt ≤ T) (hy : ∀ z ∈ ys, 0 ≤ z.toInt ∧ z.toInt ≤ T) : LimbsWithin T (Big.sub xs ys) := by
  induction xs generalizing ys with
  | nil => intro z hz; simp [Big.sub] at hz
  | cons x xs ih =>
    cases ys with
    | nil => intro z hz; simp [Big.sub] at hz
    | cons y ys =>
      intro z hz
      have h1 := hx x (by simp)
      have h2 := hy y (by simp)
      rcases List.mem_cons.1 hz with rfl | hz
      · rw [toInt_sub_of _ _ hC (by omega) (by omega)]; omega
      · exact ih ys (fun u hu => hx u (by simp [hu])) (fun u hu => hy u (by simp [hu])) z hz

theorem set_last_split (w : Limbs C) (n : Nat) (hn : 0 < n) (hl : w.length = n) (v : BitVec C) :
    w.set (n - 1) v = w.dropLast ++ [v] ∧ w = w.dropLast ++ [at' w (n - 1)] := by
  have hne : w ≠ [] := by rintro rfl; simp at hl; omega
  have e : w = w.dropLast ++ [w.getLast hne] := (List.dropLast_append_getLast hne).symm
  have e2 : at' w (n - 1) = w.getLast hne := by
    rw [List.getLast_eq_getElem]; simp [at', hl, List.getElem?_eq_getElem (show n - 1 < w.length by omega)]
  constructor
  · have hd : w.dropLast.length = n - 1 := by simp [hl]
    conv => lhs; rw [e]
    rw [List.set_append_right _ _ (by omega), hd]; simp
  · rw [e2]; exact e

/-- Normal form and non-negative: all limbs non-negative, the top one bounded -/
theorem rep_nonneg_bound {b n : Nat} {w : Limbs C} {X : Int} (hn : 0 < n) (hw : Rep b n w X) (h0 : 0 ≤ X) (T : Int) (hT : 2 ^ b ≤ T + 1)
    (hX : X < (T + 1) * 2 ^ (b * (n - 1))) : ∀ z ∈ w, 0 ≤ z.toInt ∧ z.toInt ≤ T := by
  have hne := hw.ne_nil hn
  have ht := top_eq w hne hw.low
  rw [hw.val, hw.len] at ht
  have ht0 : 0 ≤ (w.getLastD 0).toInt := by rw [ht]; exact Int.ediv_nonneg h0 (two_pow_pos' _).le
  have ht1 : (w.getLastD 0).toInt < T + 1 := by rw [ht, Int.ediv_lt_iff_lt_mul (two_pow_pos' _)]; exact hX
  have hlow := hw.low
  clear hw ht
  induction w with
  | nil => exact absurd rfl hne
  | cons x xs ih =>
    intro z hz
    by_cases hxs : xs = []
    · subst hxs
      simp at hz; subst hz
      simp at ht0 ht1; omega
    · have el : (x :: xs).getLastD 0 = xs.getLastD 0 := by
        cases xs with
        | nil => exact absurd rfl hxs
        | cons y r => simp [List.getLastD]
      rw [el] at ht0 ht1
      rcases List.mem_cons.1 hz with rfl | hz
      · have := hlow.head hxs; omega
      · exact ih hxs ht0 ht1 hlow.tail z hz

/-- `reduce` computes the canonical residue of the stored integer -/
theorem reduce_rep (h : Consts P p) {k : Nat} {a : Fp C} (hlen : a.x.length = P.n) (hlim : LimbsWithin (k * (2 ^ P.b - 1)) a.x)
    (hk : Room P k) (h0 : 0 ≤ limbsVal P.b a.x) (hlt : limbsVal P.b a.x < a.xes * p) (hfit : a.xes ≤ 16 ∨ a.xes ≤ 2 ^ (P.sh + 1)) (hx1 : 1 ≤ a.xes) :
    Rep P.b P.n (reduce P a).x (limbsVal P.b a.x % p) ∧ (reduce P a).xes = 1 := by
  have hC := h.ok.hC; have h2 := h.ok.h2; have hb := h.ok.hb
  have hn := h.hn
  have hsh5 := h.sh5
  have hpz : (0 : Int) < p := by exact_mod_cast h.ppos
  have hne : a.x ≠ [] := by rintro e; rw [e] at hlen; simp at hlen; omega
  have hr := norm_wide h.ok k (by exact_mod_cast hk) a.x hne hlim
  rw [hlen] at hr
  set X := limbsVal P.b a.x with hX
  have hcg := cap_ge (n := P.n) h.ok (by omega : 0 < P.n)
  have hps := h.p_sh
  unfold reduce
  simp only
  split_ifs with h16
  · have hx2 : a.xes ≤ 2 ^ (P.sh + 1) := by
      rcases hfit with hf | hf
      · omega
      · exact hf
    have hXp : X < 2 ^ (P.sh + 1) * p := lt_of_lt_of_le hlt (mul_le_mul_of_nonneg_right (by exact_mod_cast hx2) hpz.le)
    obtain ⟨q0, q1, q2⟩ := quo_spec h hr h0 hXp
    set q := quo P (Big.norm P.b a.x) P.md with hq
    have hX2 : X < 2 * 2 ^ (P.b * P.n) := by
      calc X < 2 ^ (P.sh + 1) * p := hXp
        _ = 2 * (2 ^ P.sh * p) := by rw [pow_succ]; ring
        _ ≤ 2 * 2 ^ (P.b * P.n) := by omega
    have hqb : q.toInt < 2 ^ P.b := by
      have : q.toInt * p < 2 ^ (P.sh + 1) * p := lt_of_le_of_lt q1 hXp
      have := lt_of_mul_lt_mul_right this hpz.le
      exact lt_of_lt_of_le this (pow_le_pow_right₀ (by norm_num) (by have := h.shhalf; omega))
    have hqq : BitVec.ofInt C q.toInt = q := BitVec.ofInt_toInt
    have hpm := pmulGo_spec h.ok q ⟨q0, hqb⟩ P.md h.mddig 0 (by have := two_pow_pos' P.b; simp)
    simp only [pmul, hqq]
    obtain ⟨m1, m2, m3, m4⟩ := hpm
    rw [h.mdlen] at m1 m4
    rw [h.mdval] at m4
    set rc := pmulGo P.b q 0 P.md with hrc
    have h00 : (0 : BitVec C).toInt = 0 := by simp
    rw [h00, add_zero] at m4
    have hd := m2.bounds
    rw [m1] at hd
    have hcarry : rc.2.toInt ≤ 1 := by
      by_contra hc
      have : (2 : Int) ^ (P.b * P.n) * 2 ≤ 2 ^ (P.b * P.n) * rc.2.toInt :=
        mul_le_mul_of_nonneg_left (by omega) (two_pow_pos' _).le
      linarith
    have hBp := two_pow_pos' P.b
    have hB1 : 4 * (2 : Int) ^ P.b ≤ 2 ^ (C - 1) := by
      calc 4 * (2 : Int) ^ P.b = 2 ^ (P.b + 2) := by rw [pow_add]; ring
        _ ≤ _ := pow_le_pow_right₀ (by norm_num) (by omega)
    have hcs : (rc.2 <<< P.b).toInt = rc.2.toInt * 2 ^ P.b := by
      apply toInt_shl_of _ _ (by omega)
      · have : 0 ≤ rc.2.toInt * 2 ^ P.b := mul_nonneg m3.1 hBp.le
        linarith
      · have : rc.2.toInt * 2 ^ P.b ≤ 1 * 2 ^ P.b := mul_le_mul_of_nonneg_right hcarry hBp.le
        linarith
    have htop := at'_digits m2 (P.n - 1)
    have hcsb : 0 ≤ rc.2.toInt * 2 ^ P.b ∧ rc.2.toInt * 2 ^ P.b ≤ 2 ^ P.b :=
      ⟨mul_nonneg m3.1 hBp.le, by nlinarith⟩
    have hnew : (at' rc.1 (P.n - 1) + (rc.2 <<< P.b)).toInt = (at' rc.1 (P.n - 1)).toInt + rc.2.toInt * 2 ^ P.b := by
      rw [toInt_add_of _ _ (by omega) (by rw [hcs]; linarith) (by rw [hcs]; linarith), hcs]
    obtain ⟨s1, s2⟩ := set_last_split rc.1 P.n (by omega) m1 (at' rc.1 (P.n - 1) + (rc.2 <<< P.b))
    have hdl : rc.1.dropLast.length = P.n - 1 := by simp [m1]
    have hpw : (2 : Int) ^ (P.b * P.n) = 2 ^ (P.b * (P.n - 1)) * 2 ^ P.b := by
      rw [← pow_add]; congr 1
      rw [show P.n = (P.n - 1) + 1 by omega, Nat.mul_add]; simp
    have hrv : limbsVal P.b (rc.1.set (P.n - 1) (at' rc.1 (P.n - 1) + (rc.2 <<< P.b))) = q.toInt * p := by
      rw [s1, val_append, hdl]
      have e := congrArg (limbsVal P.b) s2
      rw [val_append, hdl] at e
      simp only [limbsVal, mul_zero, add_zero] at e ⊢
      rw [hnew, ← m4, e, hpw]; ring
    have hrl : (rc.1.set (P.n - 1) (at' rc.1 (P.n - 1) + (rc.2 <<< P.b))).length = P.n := by simp [m1]
    have hrlim : ∀ z ∈ rc.1.set (P.n - 1) (at' rc.1 (P.n - 1) + (rc.2 <<< P.b)), 0 ≤ z.toInt ∧ z.toInt ≤ 2 * 2 ^ P.b - 1 := by
      rw [s1]
      intro z hz
      rcases List.mem_append.1 hz with hz | hz
      · have := m2 z (List.mem_of_mem_dropLast hz); omega
      · simp at hz; subst hz; rw [hnew]; omega
    have hxlim : ∀ z ∈ Big.norm P.b a.x, 0 ≤ z.toInt ∧ z.toInt ≤ 2 * 2 ^ P.b - 1 := by
      apply rep_nonneg_bound (by omega) hr h0 _ (by omega)
      rw [sub_add_cancel]
      calc X < 2 * 2 ^ (P.b * P.n) := hX2
        _ = 2 * 2 ^ P.b * 2 ^ (P.b * (P.n - 1)) := by rw [hpw]; ring
    have hsl : (Big.sub (Big.norm P.b a.x) (rc.1.set (P.n - 1) (at' rc.1 (P.n - 1) + (rc.2 <<< P.b)))).length = P.n := by
      simp [Big.sub, hr.len, hrl]
    have hsv := sub_val (b := P.b) (by omega : 0 < C) (Big.norm P.b a.x) (rc.1.set (P.n - 1) (at' rc.1 (P.n - 1) + (rc.2 <<< P.b)))
      (by rw [hr.len, hrl]) (2 * 2 ^ P.b - 1) (2 * 2 ^ P.b - 1) (fun z hz => by have := hxlim z hz; omega) (fun z hz => by have := hrlim z hz; omega)
      (by omega)
    have hsw := nonneg_sub_within (by omega : 0 < C) (2 * 2 ^ P.b - 1) (by omega) _ _ hxlim hrlim
    have hsr := norm_wide h.ok 3 (by push_cast; omega) _ (by
        intro e; rw [e] at hsl; simp at hsl; omega)
      (within_mono (by push_cast; have h9 : (2 : Int) ^ 9 ≤ 2 ^ P.b := pow_le_pow_right₀ (by norm_num) hb
                       norm_num at h9; omega) _ hsw)
    rw [hsl, hsv, hr.val, hrv] at hsr
    obtain ⟨f1, f2⟩ := h.md_shift (s := 2) (by omega)
    refine ⟨?_, trivial⟩
    rw [reduceLoop_eq _ _ _ _ (by rw [hsr.len, f1.len])]
    have hlt3 : X - q.toInt * p < 2 ^ 2 * p := by linarith
    have h4p : (2 : Int) ^ 2 * p ≤ cap C P.b P.n := by
      have : (2 : Int) ^ 2 * p ≤ 2 ^ P.sh * p := mul_le_mul_of_nonneg_right (pow_le_pow_right₀ (by norm_num) (by omega)) hpz.le
      linarith
    have := downLoop_spec h.ok (by omega : 0 < P.n) hpz 2 _ _ _ f1 hsr (by linarith) (by linarith) hlt3 h4p
    rw [Int.sub_mul_emod_self_right] at this
    exact this
  · have hx16 : a.xes ≤ 16 := by omega
    obtain ⟨l1, l2⟩ := logXes_spec hx1 (by omega)
    have hsb : logXes a.xes ≤ 4 := l2 4 (by omega)
    obtain ⟨f1, f2⟩ := h.md_shift (s := logXes a.xes) (by omega)
    refine ⟨?_, rfl⟩
    rw [reduceLoop_eq _ _ _ _ (by rw [hr.len, f1.len])]
    have hXl : X < 2 ^ logXes a.xes * p := lt_of_lt_of_le hlt (mul_le_mul_of_nonneg_right (by exact_mod_cast l1) hpz.le)
    have hcp : (2 : Int) ^ logXes a.xes * p ≤ cap C P.b P.n := by
      have : (2 : Int) ^ logXes a.xes * p ≤ 2 ^ P.sh * p := mul_le_mul_of_nonneg_right (pow_le_pow_right₀ (by norm_num) (by omega)) hpz.le
      linarith
    exact downLoop_spec h.ok (by omega : 0 < P.n) hpz _ _ _ _ f1 hr h0 (by linarith) hXl hcp

end
end Verif.Fp
