import Verif.Gt.Fexp
import Verif.Pair.Facts
import Mathlib.RingTheory.Polynomial.Basic
import Mathlib.Algebra.Polynomial.Roots
import Mathlib.SetTheory.Cardinal.Finite
/- `fexp` and `gtpow` with the constants of the bundled curves. -/
namespace Verif.Gt
open Verif.Big Verif.Fp Verif.Prog Verif.Tower Verif.Pair Verif.Ecp2 Verif.Props Verif.Rom Spec Finset
set_option linter.unusedVariables false
set_option linter.unusedSectionVars false
set_option exponentiation.threshold 10000

attribute [local irreducible] Fp12.mul Fp12.usqr Fp12.conj Fp12.frob Fp12.norm Fp12.reduce Fp12.inverse

/-- the parameter of the family, with its sign -/
def xSigned {C : Nat} (K : GlsRom C) : Int := if K.pair.negx then -limbsVal K.pair.rom.P.b K.pair.bnx else limbsVal K.pair.rom.P.b K.pair.bnx

/-- the multiple of `(p^12 - 1) / r` the final exponentiation raises to -/
def fexpC {C : Nat} (K : GlsRom C) : Nat := if K.bn then 1 else 3

/-- numerical facts `fexp` rests on -/
def fexpB {C : Nat} (K : GlsRom C) : Bool :=
  let P := K.pair.rom.P
  let p := K.pair.rom.p
  let r := rN K.pair
  let X := nv P.b K.pair.bnx
  let xh := fshr P.b 1 K.pair.bnx
  let F := p ^ 4 - p ^ 2 + 1
  decide (2 * (P.b * P.n) ≤ 13000) && repB P p K.pair.bnx && decide (2 ≤ X) && decide (3 * X < 2 ^ (P.b * P.n)) && decide (F % r = 0) &&
  (if K.bn then decide ((nBn p (if !K.pair.negx then -(X : Int) else X) - ((F / r : Nat) : Int)) % F = 0)
   else repB P p xh && decide (nv P.b xh = X / 2) && repB P p (fshl P.b 1 xh) && decide (nv P.b (fshl P.b 1 xh) = 2 * (X / 2)) && decide (X % 2 = 0) &&
    decide ((nBls p (if K.pair.negx then -(X : Int) else X) (if K.pair.negx then -((X / 2 : Nat) : Int) else (X / 2 : Nat)) - ((3 * (F / r) : Nat) : Int)) % F = 0))

theorem fexpB64 : gls64.all (fun K => fexpB K) = true := by decide +kernel
theorem fexpB32 : gls32.all (fun K => fexpB K) = true := by decide +kernel

variable {C : Nat} {K : GlsRom C} [hp : Fact K.pair.rom.p.Prime] [h4 : Fact (K.pair.rom.p % 4 = 3)]

theorem zpow_congr_order {G : Type} [Group G] {g : G} {F : Nat} (hg : g ^ F = 1) {n m : Int} (h : (n - m) % F = 0) : g ^ n = g ^ m := by
  obtain ⟨k, hk⟩ := Int.dvd_of_emod_eq_zero h
  have : n = F * k + m := by linarith
  rw [this, zpow_add, zpow_mul, zpow_natCast, hg, one_zpow, one_mul]

omit hp h4 in
theorem factor12 {p : Nat} (hp : 0 < p) : p ^ 12 - 1 = ((p ^ 6 - 1) * (p ^ 2 + 1)) * (p ^ 4 - p ^ 2 + 1) := by
  have hp6 : 1 ≤ p ^ 6 := Nat.one_le_pow _ _ hp
  have h2 : p ^ 2 ≤ p ^ 4 := Nat.pow_le_pow_right hp (by norm_num)
  have e6 : (p ^ 2 + 1) * (p ^ 4 - p ^ 2 + 1) = p ^ 6 + 1 := by
    obtain ⟨k, hk⟩ := Nat.exists_eq_add_of_le h2
    rw [hk, Nat.add_sub_cancel_left]
    have h6 : p ^ 6 = p ^ 2 * (p ^ 2 + k) := by rw [← hk]; ring
    have h4 : p ^ 4 = p ^ 2 * p ^ 2 := by ring
    rw [h4] at hk
    rw [h6]
    generalize p ^ 2 = q at hk
    linear_combination -hk
  rw [mul_assoc, e6]
  obtain ⟨k, hk⟩ := Nat.exists_eq_add_of_le hp6
  rw [show p ^ 12 = p ^ 6 * p ^ 6 by ring, hk, Nat.add_sub_cancel_left]
  have : (1 + k) * (1 + k) = 1 + k * (1 + k + 1) := by ring
  rw [this, Nat.add_sub_cancel_left]

/-- value of `fexp` -/
theorem fexp_ok (h : TowerOk K.pair.rom.P K.pair.rom.p) (t : TowerPrime K.pair.rom.p) (hf : Std2 K.pair.rom.P K.pair.rom.p 3 (frobF K) (xi K.pair.rom.p ^ ((K.pair.rom.p - 1) / 6)))
    (hb : fexpB K = true) {m : Fp12 C} {u : (F12 K.pair.rom.p)ˣ} (hm : Std12 K.pair.rom.P K.pair.rom.p 32767 m u) :
    ∃ R, fexp K m = some R ∧ Canon12 K.pair.rom.P K.pair.rom.p R (u ^ (fexpC K * ((K.pair.rom.p ^ 12 - 1) / rN K.pair)) : (F12 K.pair.rom.p)ˣ) := by
  unfold fexpB at hb
  simp only [Bool.and_eq_true, decide_eq_true_eq] at hb
  obtain ⟨⟨⟨⟨⟨b1, b2⟩, b3⟩, b4⟩, b5⟩, b6⟩ := hb
  have hX := (repB_sound b2).1
  rw [show (limbsVal K.pair.rom.P.b K.pair.bnx).toNat = nv K.pair.rom.P.b K.pair.bnx from rfl] at hX
  obtain ⟨w0, hc⟩ := easy_ok h t hf hm
  set g := (u ^ (K.pair.rom.p ^ 6) * u⁻¹) ^ (K.pair.rom.p ^ 2) * (u ^ (K.pair.rom.p ^ 6) * u⁻¹) with hgd
  have w1 : Wp K.pair.rom.P K.pair.rom.p 2800 g 1 (easy K.pair.rom.P (frobF K) m) := by unfold Wp; rw [zpow_one]; exact w0
  have hval : ∀ c : Nat, g ^ (((c * ((K.pair.rom.p ^ 4 - K.pair.rom.p ^ 2 + 1) / rN K.pair) : Nat)) : Int) = u ^ (c * ((K.pair.rom.p ^ 12 - 1) / rN K.pair)) := by
    intro c
    have p1 := hp.out.one_lt
    have hp6 : 1 ≤ K.pair.rom.p ^ 6 := Nat.one_le_pow _ _ (by omega)
    have e1 := factor12 hp.out.pos
    have e2 : (K.pair.rom.p ^ 12 - 1) / rN K.pair = ((K.pair.rom.p ^ 6 - 1) * (K.pair.rom.p ^ 2 + 1)) * ((K.pair.rom.p ^ 4 - K.pair.rom.p ^ 2 + 1) / rN K.pair) := by
      rw [e1, Nat.mul_div_assoc _ (Nat.dvd_of_mod_eq_zero b5)]
    have e3 : u ^ (K.pair.rom.p ^ 6) * u⁻¹ = u ^ (K.pair.rom.p ^ 6 - 1) := by
      rw [mul_inv_eq_iff_eq_mul, ← pow_succ, Nat.sub_add_cancel hp6]
    rw [zpow_natCast, hgd, e3, ← pow_succ, ← pow_mul, ← pow_mul, e2]
    congr 1
    ring
  unfold fexp
  simp only
  unfold fexpC
  cases hbn : K.bn
  · simp only [hbn, Bool.false_eq_true, if_false, Bool.and_eq_true, decide_eq_true_eq] at b6 ⊢
    obtain ⟨⟨⟨⟨⟨c1, c2⟩, c3⟩, c4⟩, c5⟩, c6⟩ := b6
    have k1 := (repB_sound c1).1
    have k2 := (repB_sound c3).1
    change Rep _ _ _ ((nv K.pair.rom.P.b (fshr K.pair.rom.P.b 1 K.pair.bnx) : Nat) : Int) at k1
    change Rep _ _ _ ((nv K.pair.rom.P.b (fshl K.pair.rom.P.b 1 (fshr K.pair.rom.P.b 1 K.pair.bnx)) : Nat) : Int) at k2
    rw [c2] at k1
    rw [c4] at k2
    obtain ⟨R, r1, r2⟩ := hardBls_ok h t hc hf b1 (neg := K.pair.negx) hX k1 k2 b3 b4 c5 w1
    refine ⟨R, r1, ?_⟩
    rw [zpow_congr_order hc c6, hval] at r2
    exact r2
  · simp only [hbn, if_true, decide_eq_true_eq] at b6 ⊢
    obtain ⟨R, r1, r2⟩ := hardBn_ok h t hc hf b1 (pos := !K.pair.negx) hX (by omega) b4 w1
    refine ⟨R, r1, ?_⟩
    have h1 := hval 1
    rw [one_mul] at h1
    rw [zpow_congr_order hc b6, h1] at r2
    exact r2

omit hp h4 in
theorem four_pow {p : Nat} [Fact p.Prime] (u : (F12 p)ˣ) (c0 c1 c2 c3 : Bool) (n0 n1 n2 n3 : Int) (V0 V1 V2 V3 : Nat) :
    (u ^ (if c0 = true then -n0 else n0)) ^ V0 * (u ^ (if c1 = true then -n1 else n1)) ^ V1 * (u ^ (if c2 = true then -n2 else n2)) ^ V2 * (u ^ (if c3 = true then -n3 else n3)) ^ V3 =
      u ^ (n0 * sgn c0 V0 + n1 * sgn c1 V1 + n2 * sgn c2 V2 + n3 * sgn c3 V3) := by
  have s : ∀ (c : Bool) (n : Int) (V : Nat), (u ^ (if c = true then -n else n)) ^ V = u ^ (n * sgn c V) := by
    intro c n V
    rw [← zpow_natCast, ← zpow_mul]
    congr 1
    unfold sgn
    split <;> ring
  rw [s, s, s, s, ← zpow_add, ← zpow_add, ← zpow_add]

/-- `gtpow` on the elements of order dividing `r` -/
theorem gtpow_ok {lam : Int} (hg : GlsOk K (rN K.pair) lam K.pair.rom.p) (h : TowerOk K.pair.rom.P K.pair.rom.p) (t : TowerPrime K.pair.rom.p)
    (hf : Std2 K.pair.rom.P K.pair.rom.p 3 (frobF K) (xi K.pair.rom.p ^ ((K.pair.rom.p - 1) / 6)))
    (hb : fexpB K = true) {d : Fp12 C} {u : (F12 K.pair.rom.p)ˣ} (hd : Std12 K.pair.rom.P K.pair.rom.p 63 d u) (hs : d.stype < 2 ^ 64) (hu : u ^ rN K.pair = 1) {e : Limbs C} {E : Nat}
    (he : Rep K.pair.rom.P.b K.pair.rom.P.n e E) (hE : E ≤ rN K.pair) :
    ∃ R, gtpow K d e = some R ∧ Canon12 K.pair.rom.P K.pair.rom.p R (u ^ E : (F12 K.pair.rom.p)ˣ) := by
  unfold fexpB at hb
  simp only [Bool.and_eq_true, decide_eq_true_eq] at hb
  obtain ⟨⟨_, b5⟩, _⟩ := hb
  have hc : Cyc K.pair.rom.p u := by
    obtain ⟨k, hk⟩ := Nat.dvd_of_mod_eq_zero b5
    unfold Cyc
    rw [hk, pow_mul, hu, one_pow]
  have w0 : Wp K.pair.rom.P K.pair.rom.p 63 u 1 d := by unfold Wp; rw [zpow_one]; exact hd
  have w1 := Wp.frob h t hf w0 (L := 128) (by decide +kernel) (by norm_num)
  have w2 := Wp.frob h t hf w1 (L := 512) (by decide +kernel) (by norm_num)
  have w3 := Wp.frob h t hf w2 (L := 2048) (by decide +kernel) (by norm_num)
  have hroom := hg.room
  have hroom' : 16 * ((rN K.pair : Int) + 2) < 2 ^ (K.pair.rom.P.b * K.pair.rom.P.n) := by exact_mod_cast hroom
  have hcap := hg.cap8
  have nrm : ∀ {u : Limbs C} {U : Nat}, Rep K.pair.rom.P.b K.pair.rom.P.n u U → U ≤ rN K.pair → Rep K.pair.rom.P.b K.pair.rom.P.n (Big.norm K.pair.rom.P.b u) U :=
    fun hu hU => hu.norm hg.ok (by have := hg.hn; omega) (by omega) (by omega)
  obtain ⟨l, e1, hl⟩ := gs_spec hg he (by omega) (by omega)
  obtain ⟨m, e2, hm, U, hU, hd'⟩ := shorter_all hg hl
  match m, hm with
  | [x0, x1, x2, x3], _ =>
    obtain ⟨r0, b0⟩ := hU 0 (by omega)
    obtain ⟨r1, b1⟩ := hU 1 (by omega)
    obtain ⟨r2, b2⟩ := hU 2 (by omega)
    obtain ⟨r3, b3⟩ := hU 3 (by omega)
    rw [sum_range_succ, sum_range_succ, sum_range_succ, sum_range_succ, sum_range_zero] at hd'
    simp only [List.getD_cons_zero, List.getD_cons_succ] at hd' r0 b0 r1 b1 r2 b2 r3 b3
    have q : ∀ {K' L : Nat} {n : Int} {x : Fp12 C} (c : Bool), Wp K.pair.rom.P K.pair.rom.p K' u n x → x.stype < 2 ^ 64 → negE (2 * K') + K' ≤ L →
        GtRel K.pair.rom.P K.pair.rom.p L (conjIf K.pair.rom.P c x) (.ofMul (u ^ (if c then -n else n))) := by
      intro K' L n x c hw hs hL
      refine ⟨conjIf_W h t hc c hw hL, hc.zpow _, ?_⟩
      unfold conjIf
      split
      · rw [conj_type]; exact hs
      · exact hs
    have ft : ∀ x : Fp12 C, x.stype < 2 ^ 64 → (Fp12.frob K.pair.rom.P x (frobF K)).stype < 2 ^ 64 := fun x hx => frob_type _ _ _ hx
    obtain ⟨R, hR, hP⟩ := pow4_ok h t (u0 := u ^ (if x0.2 = true then -1 else 1 : Int)) (u1 := u ^ (if x1.2 = true then -((K.pair.rom.p : Int) * 1) else (K.pair.rom.p : Int) * 1))
      (u2 := u ^ (if x2.2 = true then -((K.pair.rom.p : Int) * (K.pair.rom.p * 1)) else (K.pair.rom.p : Int) * (K.pair.rom.p * 1)))
      (u3 := u ^ (if x3.2 = true then -((K.pair.rom.p : Int) * (K.pair.rom.p * (K.pair.rom.p * 1))) else (K.pair.rom.p : Int) * (K.pair.rom.p * (K.pair.rom.p * 1)))) (q x0.2 w0 hs (L := 2800) (by decide +kernel)) (q x1.2 w1 (ft _ hs) (L := 19184) (by decide +kernel)) (q x2.2 w2 (ft _ (ft _ hs)) (L := 19184) (by decide +kernel))
      (q x3.2 w3 (ft _ (ft _ (ft _ hs))) (L := 19184) (by decide +kernel)) (nrm r0 b0) (nrm r1 b1) (nrm r2 b2) (nrm r3 b3) (by omega) (by omega) (by omega) (by omega)
    refine ⟨R, ?_, ?_⟩
    · unfold gtpow
      simp only [e1, e2, Option.bind_some]
      exact hR
    · rw [four_pow u x0.2 x1.2 x2.2 x3.2 1 ((K.pair.rom.p : Int) * 1) ((K.pair.rom.p : Int) * (K.pair.rom.p * 1)) ((K.pair.rom.p : Int) * (K.pair.rom.p * (K.pair.rom.p * 1))) (U 0) (U 1) (U 2) (U 3)] at hP
      rw [← zpow_natCast u E]
      have := zpow_congr_order hu (n := 1 * sgn x0.2 (U 0) + (K.pair.rom.p : Int) * 1 * sgn x1.2 (U 1) + K.pair.rom.p * (K.pair.rom.p * 1) * sgn x2.2 (U 2) +
        K.pair.rom.p * (K.pair.rom.p * (K.pair.rom.p * 1)) * sgn x3.2 (U 3)) (m := (E : Int)) (Int.emod_eq_zero_of_dvd (by
          have ee : 1 * sgn x0.2 (U 0) + (K.pair.rom.p : Int) * 1 * sgn x1.2 (U 1) + K.pair.rom.p * (K.pair.rom.p * 1) * sgn x2.2 (U 2) +
              K.pair.rom.p * (K.pair.rom.p * (K.pair.rom.p * 1)) * sgn x3.2 (U 3) - (E : Int) = 0 + (K.pair.rom.p : Int) ^ 0 * sgn x0.2 (U 0) + (K.pair.rom.p : Int) ^ (0 + 1) * sgn x1.2 (U 1) +
              (K.pair.rom.p : Int) ^ (0 + 1 + 1) * sgn x2.2 (U 2) + (K.pair.rom.p : Int) ^ (0 + 1 + 1 + 1) * sgn x3.2 (U 3) - E := by
            clear * -
            generalize (K.pair.rom.p : Int) = q
            ring
          rw [ee]
          exact hd'))
      rw [this] at hP
      exact hP

/-- number of elements of the extension -/
theorem card12 {p : Nat} [Fact p.Prime] : Nat.card (F12 p) = p ^ 12 := by
  have e : F12 p ≃ F4 p × F4 p × F4 p := ⟨fun v => (v.a, v.b, v.c), fun x => ⟨x.1, x.2.1, x.2.2⟩, fun _ => rfl, fun _ => rfl⟩
  have e4 : F4 p ≃ F2 p × F2 p := ⟨fun v => (v.re, v.im), fun x => ⟨x.1, x.2⟩, fun _ => rfl, fun _ => rfl⟩
  have e2 : F2 p ≃ ZMod p × ZMod p := ⟨fun v => (v.re, v.im), fun x => ⟨x.1, x.2⟩, fun _ => rfl, fun _ => rfl⟩
  rw [Nat.card_congr e, Nat.card_prod, Nat.card_prod, Nat.card_congr e4, Nat.card_prod, Nat.card_congr e2, Nat.card_prod, Nat.card_zmod]
  ring

/-- some nonzero element is not killed by a small exponent -/
theorem exists_pow_ne {p : Nat} [hp : Fact p.Prime] (t : TowerPrime p) {d : Nat} (h0 : 0 < d) (hd : d < p ^ 12 - 1) : ∃ v : F12 p, v ≠ 0 ∧ v ^ d ≠ 1 := by
  by_contra hc
  push Not at hc
  haveI : IsDomain (F12 p) := by
    haveI : NoZeroDivisors (F12 p) := ⟨fun {a b} hab => by
      by_contra hn
      push Not at hn
      obtain ⟨w, hw⟩ := C51_field12 t a hn.1
      apply hn.2
      calc b = (a * w) * b := by rw [hw, one_mul]
        _ = w * (a * b) := by ring
        _ = 0 := by rw [hab, mul_zero]⟩
    exact NoZeroDivisors.to_isDomain _
  haveI : Finite (F12 p) := Nat.finite_of_card_ne_zero (by rw [card12]; exact pow_ne_zero _ hp.out.ne_zero)
  haveI := Fintype.ofFinite (F12 p)
  classical
  have hsub : (Finset.univ.erase (0 : F12 p)) ⊆ (Polynomial.nthRoots d (1 : F12 p)).toFinset := by
    intro v hv
    rw [Multiset.mem_toFinset, Polynomial.mem_nthRoots h0]
    exact hc v (Finset.ne_of_mem_erase hv)
  have hcard := (Finset.card_le_card hsub).trans ((Multiset.toFinset_card_le _).trans (Polynomial.card_nthRoots d 1))
  rw [Finset.card_erase_of_mem (Finset.mem_univ _), Finset.card_univ, Fintype.card_eq_nat_card, card12] at hcard
  omega

theorem gt3 : gls64.all (fun K => decide (3 < rN K.pair)) = true ∧ gls32.all (fun K => decide (3 < rN K.pair)) = true := by
  constructor <;> decide +kernel

end Verif.Gt
