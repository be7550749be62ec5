import Verif.Bilin.Line
import Mathlib.Algebra.BigOperators.Fin
/-
Miller's algorithm on three pairs at once: when the lines of the three are together quotients of values of one function `Φ`, so is the value of the whole loop.
-/
namespace Verif.Ate
set_option linter.unusedSectionVars false
open Verif.Big Verif.Fp Verif.Rom Verif.Curve Verif.Tower Verif.Ecp Verif.Ecp2 Verif.Pair Verif.Gt Spec WeierstrassCurve

variable {C : Nat} {K : GlsRom C} [hp : Fact K.pair.rom.p.Prime] [h4 : Fact (K.pair.rom.p % 4 = 3)]

/-- three pairs whose lines combine -/
structure Trip (K : GlsRom C) [Fact K.pair.rom.p.Prime] [Fact (K.pair.rom.p % 4 = 3)] (t : TowerPrime K.pair.rom.p) (h6 : 6 ∣ K.pair.rom.p - 1) (q : Fin 3 → ZMod K.pair.rom.p × ZMod K.pair.rom.p)
    (S : Fin 3 → (curve2 K.pair).Point) (Φ : Int → (F12 K.pair.rom.p)ˣ) : Prop where
  hq : ∀ i, (q i).2 ≠ 0
  psi : ∀ i, psi h6 (S i) = (K.pair.rom.p : Int) • S i
  tan : ∀ m : Int, m % rN K.pair ≠ 0 → ∏ i, ev K t (tangent K.pair (q i) (m • S i)) = Φ m ^ 2 / Φ (2 * m)
  chd : ∀ a b : Int, a % rN K.pair ≠ 0 → b % rN K.pair ≠ 0 → (a - b) % rN K.pair ≠ 0 → (a + b) % rN K.pair ≠ 0 →
    ∏ i, ev K t (chord K.pair (q i) (a • S i) (b • S i)) = Φ a * Φ b / Φ (a + b)
  neg : ∀ a : Int, a % rN K.pair ≠ 0 → Φ (-a) = (Φ a)⁻¹
  frb : ∀ a : Int, a % rN K.pair ≠ 0 → Φ (K.pair.rom.p * a) = Φ a ^ K.pair.rom.p
  per : ∀ a b : Int, (a - b) % rN K.pair = 0 → Φ a = Φ b
  ord : ∀ a : Int, Φ a ^ rN K.pair = 1

variable {t : TowerPrime K.pair.rom.p} {h6 : 6 ∣ K.pair.rom.p - 1} {q : Fin 3 → ZMod K.pair.rom.p × ZMod K.pair.rom.p} {S : Fin 3 → (curve2 K.pair).Point} {Φ : Int → (F12 K.pair.rom.p)ˣ}

theorem dbl_mod {r : Nat} (hr : r.Prime) (h3 : 3 < r) {m : Int} (h : m % r ≠ 0) : 2 * m % r ≠ 0 := by
  intro e
  have h1 := Int.dvd_of_emod_eq_zero e
  rcases Int.Prime.dvd_mul' hr h1 with h1 | h1
  · have := Int.le_of_dvd (by norm_num) h1
    omega
  · exact h (Int.emod_eq_zero_of_dvd h1)

theorem grp1 {G : Type*} [CommGroup G] (a b c : G) (m : Int) : (a ^ m / b) ^ 2 * (b ^ 2 / c) = a ^ (2 * m) / c := by
  rw [div_pow, ← zpow_natCast (a ^ m) 2, ← zpow_mul, mul_comm m]
  rw [div_mul_div_comm, mul_comm (b ^ 2) c, ← div_mul_div_comm, div_self', mul_one]
  rfl

theorem grp2 {G : Type*} [CommGroup G] (a c d e : G) : a / c * (c * d / e) = a * d / e := by
  rw [div_mul_div_comm, mul_left_comm, ← div_mul_div_comm, div_self', one_mul]

theorem grp3 {G : Type*} [CommGroup G] (a c d e f g : G) : a / c * ((c * d / e) * (e * f / g)) = a * d * f / g := by
  rw [← mul_assoc, grp2, grp2]

theorem chain (hr : (rN K.pair).Prime) (h3 : 3 < rN K.pair) (h : Trip K t h6 q S Φ) (ds : List Int) : ∀ (m : Int) (s : Fin 3 → (curve2 K.pair).Point × F12 K.pair.rom.p), (∀ d ∈ ds, d = 0 ∨ d = 1 ∨ d = -1) →
    loopB (rN K.pair) ds m = true → m % rN K.pair ≠ 0 → (∀ i, (s i).1 = m • S i) → (∀ i, (s i).2 ≠ 0) → ∏ i, ev K t (s i).2 = Φ 1 ^ m / Φ m →
    (ds.foldl (fun a d => 2 * a + d) m) % (rN K.pair : Int) ≠ 0 ∧
    ∏ i, ev K t (millerF K.pair (q i) (S i) ds (s i)).2 = Φ 1 ^ (ds.foldl (fun a d => 2 * a + d) m) / Φ (ds.foldl (fun a d => 2 * a + d) m) := by
  unfold millerF
  induction ds with
  | nil => intro m s _ _ hm _ _ e; exact ⟨hm, e⟩
  | cons d ds ih =>
    intro m s hd hb hm h1 h2 e
    have hd0 := hd d (by simp)
    unfold loopB at hb
    simp only [Bool.and_eq_true, Bool.or_eq_true, beq_iff_eq, decide_eq_true_eq] at hb
    obtain ⟨b1, b2⟩ := hb
    have m2 := dbl_mod hr h3 hm
    have m3 : (2 * m + d) % (rN K.pair : Int) ≠ 0 := by
      rcases b1 with rfl | ⟨⟨⟨c1, c2⟩, c3⟩, c4⟩
      · rw [add_zero]; exact m2
      · exact c4
    have e1 : ∀ i, (s i).1 + (s i).1 = (2 * m) • S i := fun i => by rw [h1, two_mul, add_zsmul]
    simp only [List.foldl_cons]
    refine ih (2 * m + d) (fun i => millerRound K.pair (q i) (S i) (s i) d) (fun d' hd' => hd d' (by simp [hd'])) b2 m3 ?_ ?_ ?_
    · intro i
      unfold millerRound
      dsimp only
      rw [e1, ← add_zsmul]
    · intro i
      unfold millerRound
      refine f12_mul_ne t (f12_pow_ne t (h2 i) 2) (f12_mul_ne t (tangent_ne _ (h.hq i) _) ?_)
      split_ifs
      · exact one_ne_zero
      · exact chord_ne _ (h.hq i) _ _
    · have hT : ∏ i, ev K t (tangent K.pair (q i) (s i).1) = Φ m ^ 2 / Φ (2 * m) := by
        rw [← h.tan m hm]
        exact Finset.prod_congr rfl fun i _ => by rw [h1]
      have hC : ∏ i, ev K t (if d = 0 then 1 else chord K.pair (q i) ((s i).1 + (s i).1) (d • S i)) = Φ (2 * m) * Φ 1 ^ d / Φ (2 * m + d) := by
        by_cases h0 : d = 0
        · subst h0
          simp only [if_true]
          rw [Finset.prod_congr rfl fun i _ => ev_one t, Finset.prod_const_one, zpow_zero, mul_one, add_zero, div_self']
        · rcases b1 with b1 | ⟨⟨⟨c1, c2⟩, c3⟩, c4⟩
          · exact absurd b1 h0
          simp only [if_neg h0]
          have hphi : Φ 1 ^ d = Φ d := by
            rcases hd0 with rfl | rfl | rfl
            · exact absurd rfl h0
            · rw [zpow_one]
            · have o1 : (1 : Int) % rN K.pair ≠ 0 := by
                intro e
                have := Int.le_of_dvd (by norm_num) (Int.dvd_of_emod_eq_zero e)
                omega
              rw [h.neg 1 o1, zpow_neg, zpow_one]
          rw [hphi, ← h.chd _ _ c1 c2 c3 c4]
          exact Finset.prod_congr rfl fun i _ => by rw [e1]
      have hM : ∀ i, ev K t (millerRound K.pair (q i) (S i) (s i) d).2 =
          ev K t (s i).2 ^ 2 * ev K t (tangent K.pair (q i) (s i).1) * ev K t (if d = 0 then 1 else chord K.pair (q i) ((s i).1 + (s i).1) (d • S i)) := by
        intro i
        have n3 : (if d = 0 then 1 else chord K.pair (q i) ((s i).1 + (s i).1) (d • S i)) ≠ 0 := by
          split_ifs
          · exact one_ne_zero
          · exact chord_ne _ (h.hq i) _ _
        unfold millerRound
        dsimp only
        rw [ev_mul t (f12_pow_ne t (h2 i) 2) (f12_mul_ne t (tangent_ne _ (h.hq i) _) n3), ev_mul t (tangent_ne _ (h.hq i) _) n3, ev_pow t (h2 i), mul_assoc]
      rw [Finset.prod_congr rfl fun i _ => hM i, Finset.prod_mul_distrib, Finset.prod_mul_distrib, Finset.prod_pow, e, hT, hC, grp1, grp2, zpow_add]

/-- the check of a ROM file: the loop parameter is congruent to a polynomial in `p` -/
def bilB (K : GlsRom C) : Bool :=
  let r := rN K.pair
  let ds := digs K (lbits K - 2)
  let m := if K.pair.negx then -digitsVal ds else digitsVal ds
  let p : Int := K.pair.rom.p
  if K.bn then decide ((m + p - p * p + p * (p * p)) % r = 0) else decide ((m - p) % r = 0)

theorem zpow_r {G : Type*} [CommGroup G] {r : Nat} {a : G} (h : a ^ r = 1) {m : Int} (hm : m % r = 0) : a ^ m = 1 := by
  obtain ⟨k, rfl⟩ := Int.dvd_of_emod_eq_zero hm
  rw [zpow_mul, zpow_natCast, h, one_zpow]

/-- the three pairings multiply to one -/
theorem trip_one (hdv : rN K.pair ∣ K.pair.rom.p ^ 4 - K.pair.rom.p ^ 2 + 1) (hr : (rN K.pair).Prime) (h3 : 3 < rN K.pair) (hd : ∀ d ∈ digs K (lbits K - 2), d = 0 ∨ d = 1 ∨ d = -1) (hb : optB K = true) (hc : bilB K = true)
    (h : Trip K t h6 q S Φ) : ∏ i, ev K t (ateFn K h6 (digs K (lbits K - 2)) (S i) (q i)) = 1 := by
  have o1 : (1 : Int) % rN K.pair ≠ 0 := by
    intro e
    have := Int.le_of_dvd (by norm_num) (Int.dvd_of_emod_eq_zero e)
    omega
  have hb' := hb
  unfold optB at hb'
  simp only [Bool.and_eq_true] at hb'
  obtain ⟨M0, M1⟩ := chain hr h3 h (digs K (lbits K - 2)) 1 (fun i => (S i, 1)) hd hb'.1 o1 (fun i => (one_zsmul _).symm) (fun i => one_ne_zero) (by
    rw [zpow_one, div_self', Finset.prod_congr rfl fun i _ => ev_one t, Finset.prod_const_one])
  have M2 : ∀ i, (millerF K.pair (q i) (S i) (digs K (lbits K - 2)) (S i, 1)).1 = ((digs K (lbits K - 2)).foldl (fun a d => 2 * a + d) 1) • S i := fun i =>
    miller_fst K.pair (q i) (S i) _ 1 (S i, 1) (one_zsmul _).symm
  have M3 : ∀ i, (millerF K.pair (q i) (S i) (digs K (lbits K - 2)) (S i, 1)).2 ≠ 0 := fun i => miller_ne K.pair t (h.hq i) (S i) _ (S i, 1) one_ne_zero
  unfold bilB digitsVal at hc
  simp only at hc
  have hb2 := hb'.2
  unfold digitsVal at hb2
  unfold ateFn
  dsimp only
  generalize (digs K (lbits K - 2)).foldl (fun a d => 2 * a + d) 1 = M at *
  set T : Int := if K.pair.negx = true then -M else M with hT
  have N1 : ∏ i, ev K t (if K.pair.negx = true then (millerF K.pair (q i) (S i) (digs K (lbits K - 2)) (S i, 1)).2 ^ (K.pair.rom.p ^ 12 - 2)
      else (millerF K.pair (q i) (S i) (digs K (lbits K - 2)) (S i, 1)).2) = Φ 1 ^ T / Φ T := by
    rw [hT]
    cases K.pair.negx
    · simp only [Bool.false_eq_true, if_false]; exact M1
    · simp only [if_true]
      rw [Finset.prod_congr rfl fun i _ => ev_inv t hdv (M3 i), Finset.prod_inv_distrib, M1, h.neg M M0, zpow_neg, inv_div, div_inv_eq_mul, mul_comm, div_eq_mul_inv]
  have N2 : ∀ i, (if K.pair.negx = true then (millerF K.pair (q i) (S i) (digs K (lbits K - 2)) (S i, 1)).2 ^ (K.pair.rom.p ^ 12 - 2)
      else (millerF K.pair (q i) (S i) (digs K (lbits K - 2)) (S i, 1)).2) ≠ 0 := by
    intro i
    split_ifs
    · exact f12_pow_ne t (M3 i) _
    · exact M3 i
  have N3 : ∀ i, (if K.pair.negx = true then -(millerF K.pair (q i) (S i) (digs K (lbits K - 2)) (S i, 1)).1 else (millerF K.pair (q i) (S i) (digs K (lbits K - 2)) (S i, 1)).1) = T • S i := by
    intro i
    rw [M2, neg_if]
  simp only [N3]
  generalize hX : (fun i => if K.pair.negx = true then (millerF K.pair (q i) (S i) (digs K (lbits K - 2)) (S i, 1)).2 ^ (K.pair.rom.p ^ 12 - 2)
      else (millerF K.pair (q i) (S i) (digs K (lbits K - 2)) (S i, 1)).2) = X at *
  have hX' : ∀ i, (if K.pair.negx = true then (millerF K.pair (q i) (S i) (digs K (lbits K - 2)) (S i, 1)).2 ^ (K.pair.rom.p ^ 12 - 2)
      else (millerF K.pair (q i) (S i) (digs K (lbits K - 2)) (S i, 1)).2) = X i := fun i => congrFun hX i
  simp only [hX'] at N1 N2 ⊢
  have hp1 : Φ K.pair.rom.p = Φ 1 ^ (K.pair.rom.p : Int) := by
    have := h.frb 1 o1
    rw [mul_one] at this
    rw [this, zpow_natCast]
  cases hbn : K.bn
  · rw [hbn] at hc
    simp only [Bool.false_eq_true, if_false, decide_eq_true_eq] at hc
    simp only [Bool.false_eq_true, if_false, mul_one]
    rw [N1, h.per T _ hc, hp1, div_eq_mul_inv, ← zpow_sub]
    exact zpow_r (h.ord 1) hc
  · rw [hbn] at hc hb2
    simp only [if_true, decide_eq_true_eq] at hc
    simp only [Bool.and_eq_true, Bool.not_true, Bool.false_or, decide_eq_true_eq] at hb2
    obtain ⟨⟨⟨⟨⟨⟨b1, b2⟩, b3⟩, b4⟩, b5⟩, b6⟩, b7⟩ := hb2
    simp only [if_true]
    have q2 : Φ (-(K.pair.rom.p * K.pair.rom.p : Int)) = Φ 1 ^ (-(K.pair.rom.p * K.pair.rom.p : Int)) := by
      rw [h.neg _ b5, h.frb _ b2, hp1, ← zpow_natCast, ← zpow_mul, zpow_neg]
    have q3 : Φ (T + K.pair.rom.p + -(K.pair.rom.p * K.pair.rom.p : Int)) = Φ 1 ^ (-(K.pair.rom.p * (K.pair.rom.p * K.pair.rom.p) : Int)) := by
      have b8 : ((K.pair.rom.p : Int) * (K.pair.rom.p * K.pair.rom.p)) % rN K.pair ≠ 0 := by
        intro e
        rcases Int.Prime.dvd_mul' hr (Int.dvd_of_emod_eq_zero e) with e | e
        · exact b2 (Int.emod_eq_zero_of_dvd e)
        · exact b5 (Int.emod_eq_zero_of_dvd e)
      rw [h.per (T + K.pair.rom.p + -(K.pair.rom.p * K.pair.rom.p : Int)) (-(K.pair.rom.p * (K.pair.rom.p * K.pair.rom.p) : Int)) (by rw [sub_neg_eq_add, ← sub_eq_add_neg]; exact hc), h.neg _ b8, h.frb _ b5,
        h.frb _ b2, hp1, ← zpow_natCast, ← zpow_natCast, ← zpow_mul, ← zpow_mul, zpow_neg]
    have L1 : ∏ i, ev K t (lastLines K h6 (q i) (S i) (T • S i)) =
        (Φ T * Φ K.pair.rom.p / Φ (T + K.pair.rom.p)) * (Φ (T + K.pair.rom.p) * Φ (-(K.pair.rom.p * K.pair.rom.p : Int)) / Φ (T + K.pair.rom.p + -(K.pair.rom.p * K.pair.rom.p : Int))) := by
      rw [← h.chd T _ b1 b2 b3 b4, ← h.chd (T + K.pair.rom.p) (-(K.pair.rom.p * K.pair.rom.p : Int)) b4 (fun e => b5 (Int.emod_eq_zero_of_dvd ((dvd_neg).1 (Int.dvd_of_emod_eq_zero e))))
        (by rw [sub_neg_eq_add]; exact b6) (by rw [← sub_eq_add_neg]; exact b7), ← Finset.prod_mul_distrib]
      refine Finset.prod_congr rfl fun i _ => ?_
      unfold lastLines
      rw [ev_mul t (chord_ne _ (h.hq i) _ _) (chord_ne _ (h.hq i) _ _), h.psi i, map_zsmul, h.psi i, ← add_zsmul, smul_smul, ← neg_zsmul]
    rw [Finset.prod_congr rfl fun i _ => ev_mul t (N2 i) (last_ne t h6 (h.hq i) _ _), Finset.prod_mul_distrib, N1, L1, grp3, q2, q3, hp1, ← zpow_add, ← zpow_add, div_eq_mul_inv, ← zpow_sub, sub_neg_eq_add]
    exact zpow_r (h.ord 1) (by rw [← sub_eq_add_neg]; exact hc)

end Verif.Ate
