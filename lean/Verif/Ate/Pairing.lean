import Verif.Ate.Opt
import Verif.Gt.Curve
import Verif.Pair.Facts
/-
The value of `ate`, raised to the exponent of the final exponentiation, is the optimal ate pairing of Spec/Ate.lean.
-/
namespace Verif.Ate
set_option linter.unusedSectionVars false
open Verif.Big Verif.Fp Verif.Rom Verif.Curve Verif.Tower Verif.Ecp Verif.Ecp2 Verif.Pair Verif.Gt Spec WeierstrassCurve

section
variable {F : Type} [Field F] [DecidableEq F] {A B : F}

/-- a point with `x = 0` on `y² = x³ + B` has order three -/
theorem three_zero {x y : F} (hA : A = 0) (hh : (short A B).Nonsingular x y) (hx : x = 0) (h2 : NoTwoTorsion A B) (hc : (2 : F) ≠ 0) :
    (3 : Nat) • (Affine.Point.some x y hh : (short A B).Point) = 0 := by
  subst hx hA
  have hy := Curve.y_ne h2 hh.1
  have hn : y ≠ (short 0 B).negY 0 y := by
    rw [short_negY]
    intro e
    have : 2 * y = 0 := by rw [two_mul]; nth_rw 1 [e]; exact neg_add_cancel y
    rcases mul_eq_zero.1 this with h | h
    · exact hc h
    · exact hy h
  have hs : (short 0 B).slope 0 0 y y = 0 := by
    rw [Affine.slope_of_Y_ne rfl hn]
    simp [short]
  have e : (Affine.Point.some 0 y hh : (short 0 B).Point) + Affine.Point.some 0 y hh = -Affine.Point.some 0 y hh := by
    rw [Affine.Point.add_self_of_Y_ne hn, Affine.Point.neg_some]
    simp only [hs, Affine.Point.some.injEq]
    simp [Affine.addX, Affine.addY, Affine.negAddY, Affine.negY, short]
  rw [show (3 : Nat) = 2 + 1 from rfl, add_nsmul, one_nsmul, two_nsmul, e, neg_add_cancel]
end

section
variable {C : Nat} {K : GlsRom C} [hp : Fact K.pair.rom.p.Prime] [h4 : Fact (K.pair.rom.p % 4 = 3)] {lam : Int}

/-- the exponent of the final exponentiation -/
abbrev finN (K : GlsRom C) : Nat := (if K.bn then 1 else 3) * ((K.pair.rom.p ^ 12 - 1) / rN K.pair)

/-- it is a multiple of the easy part -/
theorem finN_eq (hdv : rN K.pair ∣ K.pair.rom.p ^ 4 - K.pair.rom.p ^ 2 + 1) : ∃ k, finN K = eN K.pair.rom.p * k := by
  refine ⟨(if K.bn then 1 else 3) * ((K.pair.rom.p ^ 4 - K.pair.rom.p ^ 2 + 1) / rN K.pair), ?_⟩
  unfold finN eN
  rw [factor12 (p := K.pair.rom.p) hp.out.pos, Nat.mul_div_assoc _ hdv, Nat.mul_left_comm]

theorem two_nz {p : Nat} (t : TowerPrime p) : (2 : ZMod p) ≠ 0 := by
  intro e
  have e' : ((2 : Nat) : ZMod p) = 0 := by exact_mod_cast e
  have h := Nat.le_of_dvd (by norm_num) ((ZMod.natCast_eq_zero_iff 2 p).1 e')
  have := t.mod8
  interval_cases p <;> omega

/-- a point of prime order `r > 3` on the curve has `x ≠ 0` -/
theorem x_ne (hf : PairFacts K lam) (h3 : 3 < rN K.pair) {x y : ZMod K.pair.rom.p} {hh} (hr : rN K.pair • (Affine.Point.some x y hh : (Ecp.curve K.pair.rom).Point) = 0) : x ≠ 0 := by
  intro e
  have hA : (K.pair.rom.a : ZMod K.pair.rom.p) = 0 := by rw [hf.g1.cru.a]; exact Int.cast_zero
  have := three_zero hA hh e hf.g1.wc.noTwo (two_nz hf.pr)
  have hc : Nat.Coprime 3 (rN K.pair) := (Nat.coprime_primes Nat.prime_three hf.prime).2 (by omega)
  have h1 : addOrderOf (Affine.Point.some x y hh : (Ecp.curve K.pair.rom).Point) ∣ Nat.gcd 3 (rN K.pair) :=
    Nat.dvd_gcd (addOrderOf_dvd_of_nsmul_eq_zero this) (addOrderOf_dvd_of_nsmul_eq_zero hr)
  rw [hc] at h1
  have h2 := AddMonoid.addOrderOf_eq_one_iff.1 (Nat.dvd_one.1 h1)
  cases h2

theorem loopOk_pair (hf : PairFacts K lam) (hb : optB K = true) {S : (curve2 K.pair).Point} (hr : rN K.pair • S = 0) {x : ZMod K.pair.rom.p} (hx : S = 0 → x ≠ 0) :
    LoopOk K.pair x S (digs K (lbits K - 2)) S := by
  by_cases h0 : S = 0
  · subst h0
    exact loopOk_zero (hx rfl) _
  · unfold optB at hb
    simp only [Bool.and_eq_true] at hb
    have := loopOk_of (K := K) hf.prime h0 hr x (digs K (lbits K - 2)) 1 hb.1
    rwa [one_zsmul] at this

theorem neg_if {A : Type*} [AddCommGroup A] (c : Bool) (m : Int) (S : A) : (if c = true then -(m • S) else m • S) = (if c = true then -m else m) • S := by
  cases c
  · simp only [Bool.false_eq_true, if_false]
  · simp only [if_true, neg_zsmul]

theorem lastOk_pair (hf : PairFacts K lam) (hb : optB K = true) (hbn : K.bn = true) {S : (curve2 K.pair).Point} (hr : rN K.pair • S = 0)
    (hs : psi hf.fr.six S = (K.pair.rom.p : Int) • S) {q : ZMod K.pair.rom.p × ZMod K.pair.rom.p} (hx : S = 0 → q.1 ≠ 0) :
    LastOk K hf.fr.six q.1 S (if K.pair.negx = true then -(millerF K.pair q S (digs K (lbits K - 2)) (S, 1)).1 else (millerF K.pair q S (digs K (lbits K - 2)) (S, 1)).1) := by
  rw [miller_fst K.pair q S _ 1 (S, 1) (one_zsmul S).symm, neg_if]
  unfold LastOk
  rw [hs, map_zsmul, hs]
  by_cases h0 : S = 0
  · subst h0
    rw [_root_.zsmul_zero, _root_.zsmul_zero, _root_.zsmul_zero, add_zero, neg_zero]
    exact ⟨Or.inl ⟨rfl, rfl, hx rfl⟩, Or.inl ⟨rfl, rfl, hx rfl⟩⟩
  · unfold optB at hb
    rw [hbn] at hb
    simp only [Bool.and_eq_true, Bool.not_true, Bool.false_or, decide_eq_true_eq] at hb
    obtain ⟨_, ⟨⟨⟨⟨⟨b1, b2⟩, b3⟩, b4⟩, b5⟩, b6⟩, b7⟩ := hb
    unfold digitsVal at b1 b3 b4 b6 b7
    refine ⟨addOk_of hf.prime h0 hr b1 b2 b3 b4, ?_⟩
    rw [← add_zsmul, smul_smul, ← neg_zsmul]
    refine addOk_of hf.prime h0 hr b4 ?_ ?_ ?_
    · intro e; exact b5 (by exact Int.emod_eq_zero_of_dvd ((dvd_neg).1 (Int.dvd_of_emod_eq_zero e)))
    · rw [sub_neg_eq_add]; exact b6
    · rw [← sub_eq_add_neg]; exact b7

theorem ateFn_kill (t : TowerPrime K.pair.rom.p) (h6 : 6 ∣ K.pair.rom.p - 1) {q : ZMod K.pair.rom.p × ZMod K.pair.rom.p} (h1 : q.1 = 0) (hq : q.2 ≠ 0) (ds : List Int) (S : (curve2 K.pair).Point) :
    Kill K.pair.rom.p (ateFn K h6 ds S q) := by
  have hm := miller_kill K.pair t h1 hq S ds (S, 1) Kill.one
  unfold ateFn
  dsimp only
  refine Kill.mul t ?_ ?_
  · split_ifs
    · exact hm.pow t _
    · exact hm
  · split_ifs
    · exact last_kill t h6 h1 hq _ _
    · exact last_kill t h6 h1 hq _ _
    · exact Kill.one

/-- the value of `ate` is not zero, and raised to the exponent of the final exponentiation it is the optimal ate pairing -/
theorem opt_ok (hf : PairFacts K lam) (h0 : lbits K ≠ 0) (hb : optB K = true) (h3 : 3 < rN K.pair) (hdv : rN K.pair ∣ K.pair.rom.p ^ 4 - K.pair.rom.p ^ 2 + 1) {P : Pt2 C} {Q : Pt C}
    {S : (curve2 K.pair).Point} {U : (Ecp.curve K.pair.rom).Point} (h : SubPair K hf.fr.six P Q S U) :
    ateV K P Q ≠ 0 ∧ ateV K P Q ^ finN K = optAte K hf.fr.six (digs K (lbits K - 2)) S U := by
  have ha : AteRom K := ⟨hf.tw, hf.g1.wc, hf.fr, h0⟩
  obtain ⟨k, hk⟩ := finN_eq (K := K) hdv
  have key : ∀ q : ZMod K.pair.rom.p × ZMod K.pair.rom.p, (Ecp.coords K.pair.rom (Ecp.affine K.pair.rom Q)).x = q.1 → (Ecp.coords K.pair.rom (Ecp.affine K.pair.rom Q)).y = q.2 →
      q.2 ≠ 0 → (S = 0 → q.1 ≠ 0) → ateV K P Q ≠ 0 ∧ ateV K P Q ^ finN K = ateFn K hf.fr.six (digs K (lbits K - 2)) S q ^ finN K := by
    intro q e1 e2 hq hx
    obtain ⟨n, e⟩ := ateV_text ha hf.pr h.p2 h.p1 e1 e2 hq (loopOk_pair hf hb h.r2 hx) fun hbn => lastOk_pair hf hb hbn h.r2 h.frob hx
    exact ⟨n, by rw [hk, pow_mul _ (eN _) k, pow_mul _ (eN _) k, e]⟩
  obtain ⟨p2, p1, r2, fb, r1, ne⟩ := h
  cases U with
  | zero =>
    have hS : S ≠ 0 := ne.resolve_right fun h => h rfl
    have d := (affine_ok hf.g1.wc p1).1.2
    obtain ⟨d1, d2, d3⟩ := d
    obtain ⟨n, e⟩ := key (0, _) d1 rfl d2 fun h => absurd h hS
    refine ⟨n, ?_⟩
    rw [e, hk, pow_mul, (ateFn_kill hf.pr hf.fr.six rfl d2 _ _).2, one_pow]
    rfl
  | some x y hh =>
    have c := affine_coords hf.g1.wc p1
    exact key (x, y) (by rw [c]) (by rw [c]) (Curve.y_ne hf.g1.wc.noTwo hh.1) fun _ => x_ne hf h3 r1

end

end Verif.Ate
