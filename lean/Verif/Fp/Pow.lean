import Verif.Fp.More
import Mathlib.Data.Nat.Digits.Defs
import Mathlib.Data.List.GetD
import Mathlib.FieldTheory.Finite.Basic
import Mathlib.NumberTheory.LegendreSymbol.Basic
/- `FP::pow` and what is built on it. -/
namespace Verif.Fp
open Verif.Big Spec

variable {C : Nat} {P : Params C} {p : Nat}

/-- the nibble loop yields the base-16 digits of the exponent -/
theorem powDigits_spec {b n : Nat} (ok : Ok C b) (hn : 2 ≤ n) (k : Nat) (t : Limbs C) (T : Nat) (ht : Rep b n t T)
    (hT : (T : Int) < 2 ^ (b * n)) :
    (powDigits b k t).length = k ∧ (∀ d ∈ powDigits b k t, d < 16) ∧ Nat.ofDigits 16 (powDigits b k t) = T % 16 ^ k := by
  have hb := ok.hb
  have hC := ok.hC
  induction k generalizing t T with
  | zero => simp [powDigits, Nat.mod_one]
  | succ k ih =>
    have hne := ht.ne_nil (by omega)
    have hd := ht.digits (by positivity) hT
    have hr := Digits.norm_rep ok hne hd
    rw [ht.len, ht.val] at hr
    have e0 : Big.norm b t = t := normal_unique _ _ (by rw [hr.len, ht.len]) hr.low ht.low (by rw [hr.val, ht.val])
    have hl := lastbits_spec ok (by omega : 4 ≤ b) hr
    have hl16 : (lastbits b t 4).toInt = ((T % 16 : Nat) : Int) := by rw [hl]; push_cast; norm_num
    have hln : (lastbits b t 4).toNat = T % 16 := by
      have h1 := toNat_of_toInt_nonneg (lastbits b t 4) (by rw [hl16]; positivity)
      rw [hl16] at h1
      exact_mod_cast h1
    -- `dec`
    have ht0 := at'_digits hd 0
    have hpw : (2 : Int) ^ b < 2 ^ (C - 2) := pow_lt_pow_right₀ (by norm_num) (by omega)
    have h9 : (2 : Int) ^ 9 ≤ 2 ^ b := pow_le_pow_right₀ (by norm_num) hb
    norm_num at h9
    have hmod : T % 16 < 16 := Nat.mod_lt _ (by norm_num)
    have hlowm : (T % 16 : Nat) ≤ (at' t 0).toInt := by
      have := low_emod (b := b) t (by omega : 4 ≤ b)
      rw [ht.val] at this
      have h2 : ((T % 16 : Nat) : Int) = (at' t 0).toInt % 2 ^ 4 := by rw [this]; push_cast; norm_num
      rw [h2]; norm_num; omega
    have hdec := (inc_val ok (by omega : 0 < n) t hr (T % 16 : Nat) (by rw [abs_lt]; omega) (by rw [e0, abs_lt]; omega)).2
    have hdd : Digits b (dec b t (T % 16 : Nat)) := by
      have hofi : (BitVec.ofInt C ((T % 16 : Nat) : Int)).toInt = (T % 16 : Nat) := by
        have : (2 : Int) ^ (C - 2) ≤ 2 ^ (C - 1) := pow_le_pow_right₀ (by norm_num) (by omega)
        exact toInt_ofInt_of (by omega) (by omega) (by omega)
      unfold dec
      simp only [e0]
      intro z hz
      rcases List.mem_or_eq_of_mem_set hz with hz | rfl
      · exact hd z hz
      · have : (2 : Int) ^ (C - 2) ≤ 2 ^ (C - 1) := pow_le_pow_right₀ (by norm_num) (by omega)
        rw [toInt_sub_of _ _ (by omega) (by rw [hofi]; omega) (by rw [hofi]; omega), hofi]; omega
    have hdl : (dec b t (T % 16 : Nat)).length = n := by unfold dec; simp only [e0]; simp [ht.len]
    have hdne : dec b t (T % 16 : Nat) ≠ [] := by intro e; rw [e] at hdl; simp at hdl; omega
    have hr2 := Digits.norm_rep ok hdne hdd
    rw [hdl, hdec] at hr2
    obtain ⟨f1, f2⟩ := fshr_spec ok (by omega : 4 ≤ b) _ hr2.low
    have hTT : ((T : Int) - (T % 16 : Nat)) / 2 ^ 4 = ((T / 16 : Nat) : Int) := by
      push_cast; norm_num; omega
    have hr3 : Rep b n (fshr b 4 (Big.norm b (dec b t (T % 16 : Nat)))) ((T / 16 : Nat) : Int) :=
      ⟨by rw [fshr_length, hr2.len], f1, by rw [f2, hr2.val, hTT]⟩
    obtain ⟨i1, i2, i3⟩ := ih _ _ hr3 (by
      have : ((T / 16 : Nat) : Int) ≤ T := by exact_mod_cast Nat.div_le_self _ _
      omega)
    have e : powDigits b (k + 1) t = (T % 16) :: powDigits b k (fshr b 4 (Big.norm b (dec b t (T % 16 : Nat)))) := by
      simp only [powDigits, hln, e0]
    rw [e]
    refine ⟨by rw [List.length_cons, i1], ?_, ?_⟩
    · intro d hd'
      rcases List.mem_cons.1 hd' with rfl | hd'
      · exact hmod
      · exact i2 d hd'
    · rw [Nat.ofDigits_cons, i3, pow_succ', Nat.mod_mul]

section
variable [hp : Fact p.Prime]

/-- `FP::one` represents 1 -/
abbrev OneOk (P : Params C) (p : Nat) [Fact p.Prime] : Prop := Normed P p (one P) ∧ residue P p (one P) = 1

/-- Multiplication and squaring are right on normalised operands with counters at most `s`. -/
structure MulOn (P : Params C) (p : Nat) [Fact p.Prime] (s : Nat) : Prop extends Consts P p where
  two : 2 ≤ s
  mul_on : ∀ a c : Fp C, Normed P p a → Normed P p c → a.xes ≤ s → c.xes ≤ s → Normed P p (mul P a c) ∧ residue P p (mul P a c) = residue P p a * residue P p c
  sqr_on : ∀ a : Fp C, Normed P p a → a.xes ≤ s → Normed P p (sqr P a) ∧ residue P p (sqr P a) = residue P p a * residue P p a

theorem FieldOk.mulOn (h : FieldOk P p) (s : Nat) (hs : 2 ≤ s) : MulOn P p s :=
  { h.toConsts with two := hs, mul_on := fun _ _ h1 h2 _ _ => mul_ok h h1 h2, sqr_on := fun _ h1 _ => sqr_ok h h1 }

omit hp in
theorem mul_xes (a c : Fp C) : (mul P a c).xes = 2 := rfl
omit hp in
theorem sqr_xes (a : Fp C) : (sqr P a).xes = 2 := rfl
omit hp in
theorem one_xes : (one P).xes ≤ 2 := by unfold one nres; split <;> simp

theorem powTable_spec {s : Nat} (h : MulOn P p s) (hone : OneOk P p) {a : Fp C} (ha : Normed P p a) (hs : a.xes ≤ s) :
    ∀ i, i < 16 → Normed P p ((powTable P a).getD i (zero P)) ∧ residue P p ((powTable P a).getD i (zero P)) = residue P p a ^ i ∧ ((powTable P a).getD i (zero P)).xes ≤ s := by
  have key : ∀ m, let tb := (List.range m).foldl (fun tb i => tb ++ [mul P (tb.getD (i + 1) (zero P)) a]) [one P, a]
      tb.length = m + 2 ∧ ∀ i, i < m + 2 → Normed P p (tb.getD i (zero P)) ∧ residue P p (tb.getD i (zero P)) = residue P p a ^ i ∧ (tb.getD i (zero P)).xes ≤ s := by
    intro m
    induction m with
    | zero =>
      refine ⟨rfl, ?_⟩
      intro i hi
      match i, hi with
      | 0, _ => simpa using ⟨hone.1, hone.2, one_xes.trans h.two⟩
      | 1, _ => simpa using ⟨ha, hs⟩
    | succ m ih =>
      rw [List.range_succ, List.foldl_append]
      simp only [List.foldl_cons, List.foldl_nil]
      set tb := (List.range m).foldl (fun tb i => tb ++ [mul P (tb.getD (i + 1) (zero P)) a]) [one P, a] with htb
      obtain ⟨l, hall⟩ := ih
      refine ⟨by simp [l], ?_⟩
      intro i hi
      by_cases hlt : i < m + 2
      · have : (tb ++ [mul P (tb.getD (m + 1) (zero P)) a]).getD i (zero P) = tb.getD i (zero P) := by
          rw [List.getD_append _ _ _ _ (by omega)]
        rw [this]; exact hall i hlt
      · have hi' : i = m + 2 := by omega
        have : (tb ++ [mul P (tb.getD (m + 1) (zero P)) a]).getD i (zero P) = mul P (tb.getD (m + 1) (zero P)) a := by
          rw [List.getD_append_right _ _ _ _ (by omega)]; simp [l, hi']
        rw [this, hi']
        obtain ⟨t1, t2, t3⟩ := hall (m + 1) (by omega)
        obtain ⟨m1, m2⟩ := h.mul_on _ _ t1 ha t3 hs
        exact ⟨m1, by rw [m2, t2, ← pow_succ], by rw [mul_xes]; exact h.two⟩
  intro i hi
  exact (key 14).2 i (by omega)

theorem powLoop_spec {s : Nat} (h : MulOn P p s) {a : Fp C} (tb : List (Fp C))
    (htb : ∀ i, i < 16 → Normed P p (tb.getD i (zero P)) ∧ residue P p (tb.getD i (zero P)) = residue P p a ^ i ∧ (tb.getD i (zero P)).xes ≤ s)
    (ds : List Nat) (hds : ∀ d ∈ ds, d < 16) (r : Fp C) (e : Nat) (hr : Normed P p r) (hre : residue P p r = residue P p a ^ e) (hx : r.xes ≤ s) :
    let r' := ds.reverse.foldl (fun r d => mul P (sqr P (sqr P (sqr P (sqr P r)))) (tb.getD d (zero P))) r
    Normed P p r' ∧ residue P p r' = residue P p a ^ (Nat.ofDigits 16 ds + 16 ^ ds.length * e) ∧ r'.xes ≤ s := by
  induction ds with
  | nil => simpa using ⟨hr, hre, hx⟩
  | cons d ds ih =>
    simp only [List.reverse_cons, List.foldl_append, List.foldl_cons, List.foldl_nil]
    obtain ⟨i1, i2, i3⟩ := ih (fun x hx => hds x (by simp [hx]))
    set r1 := ds.reverse.foldl (fun r d => mul P (sqr P (sqr P (sqr P (sqr P r)))) (tb.getD d (zero P))) r with hr1
    obtain ⟨s1, s2⟩ := h.sqr_on _ i1 i3
    obtain ⟨t1, t2⟩ := h.sqr_on _ s1 h.two
    obtain ⟨u1, u2⟩ := h.sqr_on _ t1 h.two
    obtain ⟨v1, v2⟩ := h.sqr_on _ u1 h.two
    obtain ⟨d1, d2, d3⟩ := htb d (hds d (by simp))
    obtain ⟨m1, m2⟩ := h.mul_on _ _ v1 d1 h.two d3
    refine ⟨m1, ?_, h.two⟩
    rw [m2, v2, u2, t2, s2, i2, d2, Nat.ofDigits_cons, List.length_cons]
    push_cast
    simp only [← pow_add]
    congr 1
    rw [pow_succ]; ring

/-- `pow` -/
theorem pow_on {s : Nat} (h : MulOn P p s) (hone : OneOk P p) {k : Nat} {a : Fp C} (ha : Valid P p k a) (hk : Room P k) (hs : a.xes ≤ s) {e : Limbs C} {E : Nat}
    (he : Rep P.b P.n e E) (hE : (E : Int) < 2 ^ (P.b * P.n)) :
    Normed P p (pow P a e) ∧ residue P p (pow P a e) = residue P p a ^ E ∧ (pow P a e).xes = 1 := by
  have hn := h.hn
  obtain ⟨a1, a2⟩ := norm_ok h.toConsts ha hk
  have hd := he.digits (by positivity) hE
  have hr := Digits.norm_rep h.ok (he.ne_nil (by omega)) hd
  rw [he.len, he.val] at hr
  have hr' : Rep P.b P.n (Big.norm P.b (Big.norm P.b e)) E := by
    have hd2 := hr.digits (by positivity) hE
    have := Digits.norm_rep h.ok (hr.ne_nil (by omega)) hd2
    rw [hr.len, hr.val] at this; exact this
  obtain ⟨nb1, _, _⟩ := nbits_spec h.ok (Big.norm P.b e) hr' (by positivity)
  unfold pow
  simp only
  set nb := 1 + (nbits P.b (Big.norm P.b e) + 3) / 4 with hnb
  obtain ⟨d1, d2, d3⟩ := powDigits_spec h.ok hn nb (Big.norm P.b e) E hr hE
  set w := powDigits P.b nb (Big.norm P.b e) with hw
  have hE16 : E < 16 ^ nb := by
    have h1 : E < 2 ^ nbits P.b (Big.norm P.b e) := by exact_mod_cast nb1
    refine lt_of_lt_of_le h1 ?_
    rw [show (16 : Nat) = 2 ^ 4 by norm_num, ← pow_mul]
    exact Nat.pow_le_pow_right (by norm_num) (by omega)
  rw [Nat.mod_eq_of_lt hE16] at d3
  have htb := powTable_spec h hone a1 hs
  have hlast : w.getD (nb - 1) 0 < 16 := by
    have : nb - 1 < w.length := by omega
    rw [List.getD_eq_getElem _ _ this]
    exact d2 _ (List.getElem_mem _)
  obtain ⟨t1, t2, t3⟩ := htb _ hlast
  have hsplit : w = w.take (nb - 1) ++ [w.getD (nb - 1) 0] := by
    have hl : nb - 1 < w.length := by omega
    conv => lhs; rw [← List.take_append_drop (nb - 1) w]
    congr 1
    rw [List.drop_eq_getElem_cons hl, List.drop_of_length_le (by omega), List.getD_eq_getElem _ _ hl]
  obtain ⟨p1, p2, _⟩ := powLoop_spec h (powTable P (norm P a)) htb (w.take (nb - 1)) (fun d hd => d2 d (List.mem_of_mem_take hd)) _ _ t1 t2 t3
  obtain ⟨q1, q2, q3, _⟩ := reduce_ok h.toConsts p1.valid ((room_one h.toConsts).mono (by omega))
  refine ⟨q1, ?_, q3⟩
  rw [q2, p2, a2]
  congr 1
  rw [← d3]
  conv => rhs; rw [hsplit]
  rw [Nat.ofDigits_append, Nat.ofDigits_singleton]

/-- `pow` -/
theorem pow_ok (h : FieldOk P p) (hone : OneOk P p) {k : Nat} {a : Fp C} (ha : Valid P p k a) (hk : Room P k) {e : Limbs C} {E : Nat}
    (he : Rep P.b P.n e E) (hE : (E : Int) < 2 ^ (P.b * P.n)) :
    Normed P p (pow P a e) ∧ residue P p (pow P a e) = residue P p a ^ E ∧ (pow P a e).xes = 1 :=
  pow_on (h.mulOn (a.xes + 2) (by omega)) hone ha hk (by omega) he hE

/-- exponent `p - 2` of `inverse` -/
theorem inv_exp (h : Consts P p) : Rep P.b P.n (Big.norm P.b (dec P.b P.md 2)) ((p - 2 : Nat) : Int) := by
  have hn := h.hn; have hb := h.ok.hb; have hC := h.ok.hC
  have h2 := h.two_lt
  have hr := Digits.norm_rep h.ok (h.md_rep.ne_nil (by omega)) h.mddig
  rw [h.mdlen, h.mdval] at hr
  have e0 : Big.norm P.b P.md = P.md := normal_unique _ _ (by rw [hr.len, h.mdlen]) hr.low h.mddig.normal (by rw [hr.val, h.mdval])
  have ht0 := at'_digits h.mddig 0
  have hpw : (2 : Int) ^ P.b < 2 ^ (C - 2) := pow_lt_pow_right₀ (by norm_num) (by omega)
  have h9 : (2 : Int) ^ 9 ≤ 2 ^ P.b := pow_le_pow_right₀ (by norm_num) hb
  norm_num at h9
  have hdec := (inc_val h.ok (by omega : 0 < P.n) P.md hr 2 (by rw [abs_lt]; omega) (by rw [e0, abs_lt]; omega)).2
  have hdl : (dec P.b P.md 2).length = P.n := by unfold dec; simp only [e0]; simp [h.mdlen]
  have h2i : (BitVec.ofInt C 2).toInt = 2 := by
    have : (2 : Int) ^ (C - 2) ≤ 2 ^ (C - 1) := pow_le_pow_right₀ (by norm_num) (by omega)
    exact toInt_ofInt_of (by omega) (by omega) (by omega)
  have hw : LimbsWithin (2 ^ (C - 2)) (dec P.b P.md 2) := by
    unfold dec; simp only [e0]
    intro z hz
    rcases List.mem_or_eq_of_mem_set hz with hz | rfl
    · have := h.mddig z hz; omega
    · have : (2 : Int) ^ (C - 2) ≤ 2 ^ (C - 1) := pow_le_pow_right₀ (by norm_num) (by omega)
      rw [toInt_sub_of _ _ (by omega) (by rw [h2i]; omega) (by rw [h2i]; omega), h2i]; omega
  have := norm_rep h.ok (dec P.b P.md 2) (by intro e; rw [e] at hdl; simp at hdl; omega) hw
  rw [hdl, hdec] at this
  rw [show ((p - 2 : Nat) : Int) = (p : Int) - 2 by omega]
  exact this

/-- `inverse` -/
theorem inverse_ok (h : FieldOk P p) (hone : OneOk P p) (hpl : P.plain = false) {k : Nat} {a : Fp C} (ha : Valid P p k a) (hk : Room P k) :
    Normed P p (inverse P a) ∧ residue P p (inverse P a) = (residue P p a)⁻¹ := by
  have hpR : (p : Int) < 2 ^ (P.b * P.n) := by simpa using h.toConsts.xes_p (x := 1) Nat.one_le_two_pow
  obtain ⟨r1, r2, _⟩ := pow_ok h hone ha hk (inv_exp h.toConsts) (by omega)
  constructor
  · have e : inverse P a = pow P a (Big.norm P.b (dec P.b P.md 2)) := by simp [inverse, hpl]
    rw [e]; exact r1
  have e : inverse P a = pow P a (Big.norm P.b (dec P.b P.md 2)) := by simp [inverse, hpl]
  rw [e, r2]
  have h2 := h.toConsts.two_lt
  by_cases hz : residue P p a = 0
  · rw [hz, inv_zero, zero_pow (by omega)]
  · apply eq_inv_of_mul_eq_one_left
    rw [← pow_succ, show p - 2 + 1 = p - 1 by omega]
    exact ZMod.pow_card_sub_one_eq_one hz

/-- exponent `(p + 1) / 4` of `sqrt` -/
theorem sqrt_exp (h : Consts P p) : Rep P.b P.n (shr P.b 2 (Big.norm P.b (inc P.b P.md 1))) (((p + 1) / 4 : Nat) : Int) := by
  have hn := h.hn; have hb := h.ok.hb; have hC := h.ok.hC
  have h2 := h.two_lt
  have hr := Digits.norm_rep h.ok (h.md_rep.ne_nil (by omega)) h.mddig
  rw [h.mdlen, h.mdval] at hr
  have e0 : Big.norm P.b P.md = P.md := normal_unique _ _ (by rw [hr.len, h.mdlen]) hr.low h.mddig.normal (by rw [hr.val, h.mdval])
  have ht0 := at'_digits h.mddig 0
  have hpw : (2 : Int) ^ P.b < 2 ^ (C - 2) := pow_lt_pow_right₀ (by norm_num) (by omega)
  have h9 : (2 : Int) ^ 9 ≤ 2 ^ P.b := pow_le_pow_right₀ (by norm_num) hb
  norm_num at h9
  have hinc := (inc_val h.ok (by omega : 0 < P.n) P.md hr 1 (by rw [abs_lt]; omega) (by rw [e0, abs_lt]; omega)).1
  have hdl : (inc P.b P.md 1).length = P.n := by unfold inc; simp only [e0]; simp [h.mdlen]
  have h2i : (BitVec.ofInt C 1).toInt = 1 := by
    have : (2 : Int) ^ (C - 2) ≤ 2 ^ (C - 1) := pow_le_pow_right₀ (by norm_num) (by omega)
    exact toInt_ofInt_of (by omega) (by omega) (by omega)
  have hw : LimbsWithin (2 ^ (C - 2)) (inc P.b P.md 1) := by
    unfold inc; simp only [e0]
    intro z hz
    rcases List.mem_or_eq_of_mem_set hz with hz | rfl
    · have := h.mddig z hz; omega
    · have : (2 : Int) ^ (C - 2) ≤ 2 ^ (C - 1) := pow_le_pow_right₀ (by norm_num) (by omega)
      rw [toInt_add_of _ _ (by omega) (by rw [h2i]; omega) (by rw [h2i]; omega), h2i]; omega
  have hnr := norm_rep h.ok (inc P.b P.md 1) (by intro e; rw [e] at hdl; simp at hdl; omega) hw
  rw [hdl, hinc] at hnr
  have hpR := h.p_sh
  have hpz : (0 : Int) < p := by exact_mod_cast h.ppos
  have h5 := h.sh5
  have h2p : (2 : Int) ^ 1 * p ≤ 2 ^ P.sh * p := mul_le_mul_of_nonneg_right (pow_le_pow_right₀ (by norm_num) (by omega)) hpz.le
  have := shr_rep (k := 2) h.ok hnr (by rw [Nat.div_eq_of_lt (by omega)]; omega) (by omega) (by omega)
  rw [show (((p + 1) / 4 : Nat) : Int) = ((p : Int) + 1) / 2 ^ 2 by push_cast; norm_num]
  exact this

/-- `sqrt` of a square, `p ≡ 3 mod 4` -/
theorem sqrt_ok (h : FieldOk P p) (hone : OneOk P p) (hpl : P.plain = false) {k : Nat} {a : Fp C} (ha : Valid P p k a) (hk : Room P k) (hp4 : p % 4 = 3)
    (hsq : IsSquare (residue P p a)) :
    Normed P p (sqrt P a) ∧ residue P p (sqrt P a) * residue P p (sqrt P a) = residue P p a := by
  have hpR : (p : Int) < 2 ^ (P.b * P.n) := by simpa using h.toConsts.xes_p (x := 1) Nat.one_le_two_pow
  obtain ⟨q1, q2, _, _⟩ := reduce_ok h.toConsts ha hk
  have h2 := h.toConsts.two_lt
  obtain ⟨r1, r2, _⟩ := pow_ok h hone q1.valid ((room_one h.toConsts).mono (by omega)) (sqrt_exp h.toConsts) (by omega)
  have e : sqrt P a = pow P (reduce P a) (shr P.b 2 (Big.norm P.b (inc P.b P.md 1))) := by simp [sqrt, hpl]
  rw [e]
  refine ⟨r1, ?_⟩
  rw [r2, q2]
  obtain ⟨s, hs⟩ := hsq
  rw [hs]
  by_cases hz : s = 0
  · subst hz; rw [mul_zero, zero_pow (by omega)]; ring
  · have e : 2 * ((p + 1) / 4 + (p + 1) / 4) = (p - 1) + 2 := by omega
    rw [← pow_add, ← pow_two s, ← pow_mul, e, pow_add, ZMod.pow_card_sub_one_eq_one hz, one_mul]

end
end Verif.Fp
