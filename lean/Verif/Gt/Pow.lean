import Verif.Gt.Ops
import Verif.Big.Small2
import Verif.Big.Div
import Verif.Ecp.WindowOk
import Mathlib.Algebra.Group.Units.Basic
/- `FP12::pow` on the cyclotomic subgroup. -/
namespace Verif.Gt
open Verif.Big Verif.Fp Verif.Prog Verif.Tower Spec
set_option linter.unusedVariables false
set_option linter.unusedSectionVars false

attribute [local irreducible] Fp12.mul Fp12.usqr Fp12.conj Fp12.frob Fp12.norm Fp12.reduce Fp12.inverse

variable {C : Nat} {P : Params C} {p : Nat} [hp : Fact p.Prime]

/-- the cyclotomic subgroup: the units of order dividing `p^4 - p^2 + 1` -/
def Cyc (p : Nat) [Fact p.Prime] (u : (F12 p)ˣ) : Prop := u ^ (p ^ 4 - p ^ 2 + 1) = 1

theorem Cyc.val {u : (F12 p)ˣ} (h : Cyc p u) : (u : F12 p) ^ (p ^ 4 - p ^ 2 + 1) = 1 := by
  have := congrArg Units.val h
  simpa using this

theorem Cyc.zpow {u : (F12 p)ˣ} (h : Cyc p u) (n : Int) : Cyc p (u ^ n) := by
  unfold Cyc at *
  rw [← zpow_natCast, ← zpow_mul, mul_comm, zpow_mul, zpow_natCast, h, one_zpow]

theorem Cyc.mul {u v : (F12 p)ˣ} (h : Cyc p u) (h' : Cyc p v) : Cyc p (u * v) := by
  unfold Cyc at *; rw [mul_pow, h, h', one_mul]

theorem Cyc.inv {u : (F12 p)ˣ} (h : Cyc p u) : Cyc p u⁻¹ := by
  unfold Cyc at *; rw [inv_pow, h, inv_one]

/-- an element of the cyclotomic subgroup is a unit -/
theorem Cyc.of_val {v : F12 p} (h : v ^ (p ^ 4 - p ^ 2 + 1) = 1) : ∃ u : (F12 p)ˣ, Cyc p u ∧ (u : F12 p) = v := by
  have h1 : v * v ^ (p ^ 4 - p ^ 2) = 1 := by rw [← pow_succ']; exact h
  refine ⟨⟨v, v ^ (p ^ 4 - p ^ 2), h1, by rw [mul_comm]; exact h1⟩, ?_, rfl⟩
  apply Units.ext
  simpa using h

theorem usq_unit (t : TowerPrime p) {u : (F12 p)ˣ} (hu : Cyc p u) : usq (u : F12 p) = ((u ^ 2 : (F12 p)ˣ) : F12 p) := by
  rw [usq_eq t.mod8 t.mod6 t.two (cyc_iff hu.val), Units.val_pow_eq_pow_val]

theorem conj_unit (t : TowerPrime p) {u : (F12 p)ˣ} (hu : Cyc p u) : conj12 (u : F12 p) = ((u⁻¹ : (F12 p)ˣ) : F12 p) := by
  rw [← f12_pow6 t.mod8 t.mod6 t.two, ← Units.val_pow_eq_pow_val]
  congr 1
  rw [eq_inv_iff_mul_eq_one, ← pow_succ]
  have hp0 := hp.out.pos
  have h2 : p ^ 2 ≤ p ^ 4 := Nat.pow_le_pow_right hp0 (by norm_num)
  have : p ^ 6 + 1 = (p ^ 4 - p ^ 2 + 1) * (p ^ 2 + 1) := by
    obtain ⟨k, hk⟩ := Nat.exists_eq_add_of_le h2
    rw [hk, Nat.add_sub_cancel_left]
    have h6 : p ^ 6 = p ^ 2 * (p ^ 2 + k) := by rw [← hk]; ring
    have h4 : p ^ 4 = p ^ 2 * p ^ 2 := by ring
    rw [h4] at hk
    rw [h6]
    generalize p ^ 2 = q at hk
    linear_combination hk
  rw [this, pow_mul]
  unfold Cyc at hu
  rw [hu, one_pow]

variable (h : TowerOk P p) (t : TowerPrime p)
include h t

theorem usqr_u {x : Fp12 C} {u : (F12 p)ˣ} (hu : Cyc p u) (hx : Std12 P p 19184 x u) : Std12 P p 1 (Fp12.usqr P x) (u ^ 2 : (F12 p)ˣ) := by
  rw [← usq_unit t hu]; exact usqr12_gen h hx

omit t in
theorem mul_u {x y : Fp12 C} {u v : (F12 p)ˣ} (hx : Std12 P p 150000 x u) (hy : Std12 P p 32767 y v) : Std12 P p 2800 (Fp12.mul P x y) (u * v : (F12 p)ˣ) := by
  rw [Units.val_mul]; exact mul12_gen h hx hy

theorem conj_u {K L : Nat} {x : Fp12 C} {u : (F12 p)ˣ} (hu : Cyc p u) (hx : Std12 P p K x u) (hL : negE (2 * K) + K ≤ L) : Std12 P p L (Fp12.conj P x) (u⁻¹ : (F12 p)ˣ) := by
  rw [← conj_unit t hu]; exact conj12_gen h hx hL

/-- state of the loop of `FP12::pow` -/
structure PowInv (P : Params C) (p : Nat) [Fact p.Prime] (u : (F12 p)ˣ) (k : Nat) (K : Nat) (n : Int) (s : Fp12 C × Fp12 C) : Prop where
  w : Std12 P p K s.1 (u ^ n : (F12 p)ˣ)
  r : ∃ j, j + 2 * k ≤ 16383 ∧ Sl12 P p j s.2 (u : F12 p)

theorem powStep_ok {u : (F12 p)ˣ} (hu : Cyc p u) {e1 e3 : Limbs C} {k : Nat} {n d : Int} {s : Fp12 C × Fp12 C} (hs : PowInv P p u (k + 1) 19184 n s)
    (hd : bit P.b e3 (k + 1) - bit P.b e1 (k + 1) = d) (hd3 : d = 0 ∨ d = 1 ∨ d = -1) :
    PowInv P p u k 2800 (2 * n + d) (powStep P e1 e3 s (k + 1)) := by
  have hw := (usqr_u h t (hu.zpow n) hs.w).mono h (show 1 ≤ 2800 by norm_num)
  have e2 : ((u ^ n) ^ 2 : (F12 p)ˣ) = u ^ (2 * n) := by rw [mul_comm, zpow_mul]; rfl
  rw [e2] at hw
  obtain ⟨j, hj, hr⟩ := hs.r
  unfold powStep
  simp only [hd]
  rcases hd3 with rfl | rfl | rfl
  · rw [if_neg (by norm_num), if_neg (by norm_num), add_zero]
    exact ⟨hw, j, by omega, hr⟩
  · rw [if_pos rfl, if_neg (by norm_num)]
    refine ⟨?_, j, by omega, hr⟩
    have := mul12_sl h hw hr (by omega)
    rw [zpow_add, zpow_one, Units.val_mul]
    exact this
  · rw [if_pos rfl]
    simp only [show ¬ ((-1 : Int) = 1) by norm_num, if_false]
    have c1 := conj12_sl h hr
    have c2 := conj12_sl h c1
    have hcc : conj12 (conj12 (u : F12 p)) = u := by rw [conj_unit t hu, conj_unit t hu.inv, inv_inv]
    rw [hcc] at c2
    refine ⟨?_, j + 1 + 1, by omega, c2⟩
    have := mul12_sl h hw c1 (by omega)
    rw [conj_unit t hu, ← Units.val_mul, ← zpow_sub_one] at this
    exact this

/-- the loop of `FP12::pow` -/
theorem powLoop_ok {u : (F12 p)ˣ} (hu : Cyc p u) {e1 e3 : Limbs C} (A : Nat → Int) : ∀ (k : Nat) (s : Fp12 C × Fp12 C),
    PowInv P p u k 19184 (A (k + 1)) s →
    (∀ i, 1 ≤ i → i ≤ k → (bit P.b e3 i - bit P.b e1 i = 0 ∨ bit P.b e3 i - bit P.b e1 i = 1 ∨ bit P.b e3 i - bit P.b e1 i = -1) ∧
      A i = 2 * A (i + 1) + (bit P.b e3 i - bit P.b e1 i)) →
    Std12 P p 19184 (powLoop P e1 e3 k s).1 (u ^ A 1 : (F12 p)ˣ) := by
  intro k
  induction k with
  | zero => intro s hs _; exact hs.w
  | succ k ih =>
    intro s hs hA
    obtain ⟨b1, b2⟩ := hA (k + 1) (by omega) le_rfl
    have hstep := powStep_ok h t hu hs rfl b1
    rw [← b2] at hstep
    exact ih _ ⟨hstep.w.mono h (by norm_num), hstep.r⟩ fun i i1 i2 => hA i i1 (by omega)

/-- `FP12::pow` raises an element of the cyclotomic subgroup to a positive power -/
theorem pow_ok (hsz : 2 * (P.b * P.n) ≤ 13000) {x : Fp12 C} {u : (F12 p)ˣ} (hu : Cyc p u) (hx : Std12 P p 2800 x u) {e : Limbs C} {E : Nat}
    (he : Rep P.b P.n e E) (h0 : 0 < E) (hE : 3 * E < 2 ^ (P.b * P.n)) :
    ∃ r, pow P x e = some r ∧ Canon12 P p r (u ^ E : (F12 p)ˣ) := by
  have ok : Ok C P.b := h.arith.ok
  have hn : 2 ≤ P.n := h.arith.hn
  have hC := ok.hC
  have hb := ok.hb
  have hE1' : E < 2 ^ (P.b * P.n) := by omega
  have hE1 : (E : Int) < 2 ^ (P.b * P.n) := by exact_mod_cast hE1'
  have hE3 : ((3 * E : Nat) : Int) < 2 ^ (P.b * P.n) := by exact_mod_cast hE
  have en : Big.norm P.b e = e := Ecp.rep_norm ok (by omega) he (by omega) hE1
  have d1 := he.digits (by omega) hE1
  have h3 : (BitVec.ofInt C 3).toInt = 3 := toInt_ofInt_of (by omega) (by have := two_pow_pos' (C - 1); omega) (by
    have : (2 : Int) ^ 2 ≤ 2 ^ (C - 1) := pow_le_pow_right₀ (by norm_num) (by omega)
    omega)
  have h29 : (2 : Int) ^ 9 ≤ 2 ^ P.b := pow_le_pow_right₀ (by norm_num) hb
  obtain ⟨q1, q2, q3, q4⟩ := pmulGo_spec ok (BitVec.ofInt C 3) (by rw [h3]; constructor <;> omega) e d1 0 (by simp)
  have z0 : (0 : BitVec C).toInt = 0 := by simp
  rw [h3, he.len, he.val, z0, add_zero] at q4
  have hpos : (0 : Int) < 2 ^ (P.b * P.n) := by positivity
  have hnn := (Digits.bounds q2).1
  set c3 := (pmulGo P.b (BitVec.ofInt C 3) 0 e).2.toInt with hc3
  have hc0 : c3 = 0 := by
    by_contra hne
    have : 1 ≤ c3 := by omega
    have : (2 : Int) ^ (P.b * P.n) * 1 ≤ 2 ^ (P.b * P.n) * c3 := Int.mul_le_mul_of_nonneg_left this hpos.le
    push_cast at hE3
    rw [mul_one] at this
    linarith
  rw [hc0] at q4
  have r3 : Rep P.b P.n (Big.pmul P.b e 3).1 ((3 * E : Nat) : Int) := ⟨by rw [← he.len]; exact q1, Digits.normal q2, by
    show limbsVal P.b (pmulGo P.b (BitVec.ofInt C 3) 0 e).1 = _
    rw [mul_zero, add_zero] at q4; push_cast; exact q4⟩
  have en3 : Big.norm P.b (Big.pmul P.b e 3).1 = (Big.pmul P.b e 3).1 := Ecp.rep_norm ok (by omega) r3 (by omega) hE3
  have d3 := r3.digits (by omega) hE3
  obtain ⟨n1, n2, _⟩ := nbits_spec ok (Big.pmul P.b e 3).1 (by rw [en3]; exact r3) (by omega)
  obtain ⟨n3, n4⟩ := n2 (by omega)
  unfold pow
  simp only [en, en3]
  set e3 := (Big.pmul P.b e 3).1 with he3
  set nb := nbits P.b e3 with hnb
  have hnb2 : 2 ≤ nb := by
    by_contra hc
    have : nb = 1 := by omega
    rw [this] at n1; push_cast at n1; omega
  have hnbl : nb ≤ P.b * P.n := by
    by_contra hc
    have : (2 : Int) ^ (P.b * P.n) ≤ 2 ^ (nb - 1) := pow_le_pow_right₀ (by norm_num) (by omega)
    omega
  rw [if_neg (by omega)]
  refine ⟨_, rfl, ?_⟩
  have hx' := norm12_ok h hx
  have n1' : 3 * E < 2 ^ nb := by exact_mod_cast n1
  have n4' : 2 ^ (nb - 1) ≤ 3 * E := by exact_mod_cast n4
  have hbit : ∀ i < P.b * P.n, bit P.b e3 i = ((3 * E / 2 ^ i % 2 : Nat) : Int) ∧ bit P.b e i = ((E / 2 ^ i % 2 : Nat) : Int) := by
    intro i hi
    have hi' : i / P.b < P.n := by rw [Nat.div_lt_iff_lt_mul (by omega), Nat.mul_comm]; exact hi
    constructor
    · rw [bit_spec ok d3 i (by rw [r3.len]; exact hi'), r3.val]; push_cast; rfl
    · rw [bit_spec ok d1 i (by rw [he.len]; exact hi'), he.val]; push_cast; rfl
  have key := powLoop_ok h t hu (e1 := e) (e3 := e3) (fun i => ((3 * E / 2 ^ i : Nat) : Int) - ((E / 2 ^ i : Nat) : Int)) (nb - 2) (Fp12.norm P x, Fp12.norm P x)
    (by
      have e1 : nb - 2 + 1 = nb - 1 := by omega
      have hp2 : 2 ^ nb = 2 * 2 ^ (nb - 1) := by rw [← Nat.pow_succ', Nat.succ_eq_add_one]; congr 1; omega
      have a1 : 3 * E / 2 ^ (nb - 1) = 1 := by
        have hpp : 0 < 2 ^ (nb - 1) := by positivity
        generalize 2 ^ (nb - 1) = q at *
        rw [Nat.div_eq_iff hpp]; constructor <;> omega
      have a2 : E / 2 ^ (nb - 1) = 0 := Nat.div_eq_of_lt (by omega)
      simp only [e1, a1, a2]
      refine ⟨?_, 2800, by omega, Sl12.of h hx' le_rfl⟩
      simp
      exact hx'.mono h (by norm_num))
    (by
      intro i i1 i2
      obtain ⟨b1, b2⟩ := hbit i (by omega)
      rw [b1, b2]
      have m1 := Nat.mod_two_eq_zero_or_one (3 * E / 2 ^ i)
      have m2 := Nat.mod_two_eq_zero_or_one (E / 2 ^ i)
      have s1 : 3 * E / 2 ^ (i + 1) = 3 * E / 2 ^ i / 2 := by rw [pow_succ, Nat.div_div_eq_div_mul]
      have s2 : E / 2 ^ (i + 1) = E / 2 ^ i / 2 := by rw [pow_succ, Nat.div_div_eq_div_mul]
      rw [s1, s2]
      generalize 3 * E / 2 ^ i = a at *
      generalize E / 2 ^ i = b at *
      constructor
      · omega
      · omega)
  have hA1 : ((3 * E / 2 ^ 1 : Nat) : Int) - ((E / 2 ^ 1 : Nat) : Int) = E := by omega
  simp only [hA1, zpow_natCast] at key
  exact canon12_reduce h key

omit t in
/-- the exponent 0 underflows -/
theorem pow_zero_none {x : Fp12 C} {e : Limbs C} (he : Rep P.b P.n e ((0 : Nat) : Int)) : pow P x e = none := by
  have ok : Ok C P.b := h.arith.ok
  have hn : 2 ≤ P.n := h.arith.hn
  have hpos : (0 : Int) < 2 ^ (P.b * P.n) := by positivity
  have en : Big.norm P.b e = e := Ecp.rep_norm ok (by omega) he (by simp) (by simpa using hpos)
  have d1 := he.digits (by simp) (by simpa using hpos)
  have hC := ok.hC
  have hb := ok.hb
  have h3 : (BitVec.ofInt C 3).toInt = 3 := toInt_ofInt_of (by omega) (by have := two_pow_pos' (C - 1); omega) (by
    have : (2 : Int) ^ 2 ≤ 2 ^ (C - 1) := pow_le_pow_right₀ (by norm_num) (by omega)
    omega)
  have h29 : (2 : Int) ^ 9 ≤ 2 ^ P.b := pow_le_pow_right₀ (by norm_num) hb
  obtain ⟨q1, q2, q3, q4⟩ := pmulGo_spec ok (BitVec.ofInt C 3) (by rw [h3]; constructor <;> omega) e d1 0 (by simp)
  have z0 : (0 : BitVec C).toInt = 0 := by simp
  rw [h3, he.len, he.val, z0] at q4
  have hnn := (Digits.bounds q2).1
  have hc : 0 ≤ 2 ^ (P.b * P.n) * (pmulGo P.b (BitVec.ofInt C 3) 0 e).2.toInt := mul_nonneg hpos.le q3.1
  have r3 : Rep P.b P.n (Big.pmul P.b e 3).1 0 := ⟨by rw [← he.len]; exact q1, Digits.normal q2, by
    show limbsVal P.b (pmulGo P.b (BitVec.ofInt C 3) 0 e).1 = _
    push_cast at q4
    linarith⟩
  have en3 : Big.norm P.b (Big.pmul P.b e 3).1 = (Big.pmul P.b e 3).1 := Ecp.rep_norm ok (by omega) r3 le_rfl hpos
  obtain ⟨_, _, n3⟩ := nbits_spec ok (Big.pmul P.b e 3).1 (by rw [en3]; exact r3) le_rfl
  unfold pow
  simp only [en, en3, n3 rfl, if_true]

end Verif.Gt
