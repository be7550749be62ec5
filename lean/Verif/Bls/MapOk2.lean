import Verif.Bls.MapOk1
import Verif.Ecp2.Make
/- `map_to_curve_g2`. -/
namespace Verif.Bls
open Verif.Big Verif.Fp Verif.Rom Verif.Ecp Verif.Ecp2 Verif.Curve Verif.Tower Spec.Sswu WeierstrassCurve
open Spec (beBytes beNat)

variable {C : Nat} {K : PairRom C} [hp : Fact K.rom.p.Prime] [h4 : Fact (K.rom.p % 4 = 3)]

/-- what is needed of the ROM file -/
structure MapCurve2 (K : PairRom C) [Fact K.rom.p.Prime] [Fact (K.rom.p % 4 = 3)] : Prop where
  one : MapCurve K.rom
  twist : TCurve K
  facts : Facts2 K.rom.p
  b : Ecp2.Btw K = ⟨4, 4⟩
  m2 : Fp.newInt K.rom.P (-2) = cst K.rom (K.rom.p - 2)
  m1 : Fp.newInt K.rom.P (-1) = cst K.rom (K.rom.p - 1)
  word : (1012 : Int) < 2 ^ K.rom.P.b

variable (M : MapCurve2 K)
include M

theorem cst2_rel {v : Nat × Nat} (h1 : v.1 < K.rom.p) (h2 : v.2 < K.rom.p) : Rel2 K.rom.P K.rom.p ⟨0, 1, 2⟩ (cst2 K.rom v) ⟨(v.1 : ZMod K.rom.p), (v.2 : ZMod K.rom.p)⟩ :=
  std2_iff.1 ⟨cst_std M.one h1, cst_std M.one h2⟩

theorem horner2_ok {x : Fp2 C} {X : F2 K.rom.p} (hx : Rel2 K.rom.P K.rom.p ⟨0, 1, 3⟩ x X) (l : List (Nat × Nat)) (hl : ∀ c ∈ l, c.1 < K.rom.p ∧ c.2 < K.rom.p) (hne : l ≠ []) :
    ∃ a, horner (Fp2.add K.rom.P) (Fp2.mul K.rom.P) x (l.map (cst2 K.rom)) = some a ∧ Rel2 K.rom.P K.rom.p ⟨0, 2, 5⟩ a (poly2 l X) := by
  have t := M.twist.tower
  induction l with
  | nil => exact absurd rfl hne
  | cons c u ih =>
    have hc := cst2_rel M (hl c (by simp)).1 (hl c (by simp)).2
    cases u with
    | nil =>
      refine ⟨cst2 K.rom c, rfl, ?_⟩
      refine Rel2.cg (hc.mono t ⟨le_rfl, by simp, by simp⟩ (by simp) (by simp)) ?_
      unfold poly2
      simp only [List.map_cons, List.map_nil, ev]
      ring
    | cons d u =>
      obtain ⟨a, e1, h1⟩ := ih (fun c hc => hl c (by simp [hc])) (by simp)
      refine ⟨Fp2.add K.rom.P (Fp2.mul K.rom.P a x) (cst2 K.rom c), ?_, ?_⟩
      · rw [List.map_cons, List.map_cons, horner, ← List.map_cons, e1]
        · rfl
        · simp
      · have := add2_ok t (mul2W t M.one.wide h1 hx ⟨by simp, by simp⟩ ⟨by simp, by simp⟩ (by simp)) hc (by simp) (by simp)
        refine Rel2.cg this ?_
        unfold poly2
        rw [List.map_cons (a := c), ev]
        ring

omit hp h4 M in
theorem iso3_lt : ∀ l ∈ [iso3Xnum, iso3Xden, iso3Ynum, iso3Yden], ∀ c ∈ l, c.1 < Pair.p381 ∧ c.2 < Pair.p381 := by decide +kernel

theorem iso3_ok (hP : K.rom.p = Pair.p381) {x y : Fp2 C} {X Y : F2 K.rom.p} {d : Lz} (hx : Rel2 K.rom.P K.rom.p ⟨0, 1, 3⟩ x X) (hy : Rel2 K.rom.P K.rom.p d y Y) (hd : Two d) (hde : d.e ≤ 131071)
    (hY : Y ^ 2 = g (A2 K.rom.p) (B2 K.rom.p) X) :
    ∃ s h, iso3 K.rom x y = some s ∧ IsPoint2 K 3 s (Affine.Point.some (poly2 iso3Xnum X / poly2 iso3Xden X) (Y * poly2 iso3Ynum X / poly2 iso3Yden X) h) := by
  have hlt := iso3_lt
  rw [← hP] at hlt
  have t := M.twist.tower
  have w := M.one.wide
  obtain ⟨xn, e1, h1⟩ := horner2_ok M hx iso3Xnum (hlt _ (by simp)) (by decide)
  obtain ⟨xd, e2, h2⟩ := horner2_ok M hx iso3Xden (hlt _ (by simp)) (by decide)
  obtain ⟨yn, e3, h3⟩ := horner2_ok M hx iso3Ynum (hlt _ (by simp)) (by decide)
  obtain ⟨yd, e4, h4'⟩ := horner2_ok M hx iso3Yden (hlt _ (by simp)) (by decide)
  have k1 := mul2W t w h3 hy ⟨by simp, by simp⟩ hd hde
  have kx := mul2W t w h1 h4' ⟨by simp, by simp⟩ ⟨by simp, by simp⟩ (by simp)
  have ky := mul2W t w k1 h2 ⟨by simp, by simp⟩ ⟨by simp, by simp⟩ (by simp)
  have kz := mul2W t w h2 h4' ⟨by simp, by simp⟩ ⟨by simp, by simp⟩ (by simp)
  have hd : poly2 iso3Xden X ≠ 0 := fun h0 => M.facts.ker X h0 ⟨Y, by rw [← hY, pow_two]⟩
  have hden := M.facts.den X
  have hd' : poly2 iso3Yden X ≠ 0 := by
    intro h0
    rw [h0] at hden
    exact pow_ne_zero 3 hd (by rw [← hden]; ring)
  have hiso := M.facts.iso X
  have hns : (curve2 K).Nonsingular (poly2 iso3Xnum X / poly2 iso3Xden X) (Y * poly2 iso3Ynum X / poly2 iso3Yden X) := by
    apply onCurve2 M.twist
    rw [M.b, div_pow, div_pow, mul_pow, hY, hden, hiso, add_div, mul_div_cancel_right₀ _ (pow_ne_zero 3 hd)]
  refine ⟨⟨Fp2.mul K.rom.P xn yd, Fp2.mul K.rom.P (Fp2.mul K.rom.P yn y) xd, Fp2.mul K.rom.P xd yd⟩, hns, ?_, ?_⟩
  · unfold iso3
    simp only [e1, e2, e3, e4]
    rfl
  · exact isPoint2_of (P := ⟨poly2 iso3Xnum X * poly2 iso3Yden X, poly2 iso3Ynum X * Y * poly2 iso3Xden X, poly2 iso3Xden X * poly2 iso3Yden X⟩) kx ky kz (iso_denotes hd hd' hns)

theorem sswu2_const : Sswu2Ok K.rom.P K.rom.p (sswu2 K.rom) (A2 K.rom.p) (B2 K.rom.p) (Z2 K.rom.p) := by
  have t := M.twist.tower
  have h2 := hp.out.two_le
  have int : ∀ c : Nat, c ≤ 1012 → Std K.rom.P K.rom.p 2 (Fp.newInt K.rom.P c) (c : ZMod K.rom.p) := fun c hc => std_int t (by
    have := M.word
    have : (c : Int) ≤ 1012 := by exact_mod_cast hc
    omega)
  have up : ∀ (a b : Nat) (w : F2 K.rom.p), a ≤ 1012 → b ≤ 1012 → (⟨(a : ZMod K.rom.p), (b : ZMod K.rom.p)⟩ : F2 K.rom.p) = w →
      Rel2 K.rom.P K.rom.p ⟨0, 1, 4⟩ (Fp2.newInts K.rom.P a b) w :=
    fun a b w ha hb e => Rel2.cg (Ecp2.rel_mono t (std2_iff.1 (show Std2 K.rom.P K.rom.p 2 (Fp2.newInts K.rom.P a b) ⟨a, b⟩ from ⟨int a ha, int b hb⟩)) (by norm_num)) e
  refine ⟨up 0 240 _ (by norm_num) (by norm_num) ?_, up 1012 1012 _ (by norm_num) (by norm_num) ?_, ?_, up 1 0 _ (by norm_num) (by norm_num) ?_,
    M.facts.a0, M.facts.nonsq, M.facts.exc⟩
  · unfold A2; ext <;> simp
  · unfold B2; ext <;> simp
  · have e : (sswu2 K.rom).Z = cst2 K.rom (K.rom.p - 2, K.rom.p - 1) := by
      unfold sswu2 cst2 Fp2.newInts
      dsimp only
      rw [M.m2, M.m1]
    rw [e, Z2_cast h2]
    exact Ecp2.rel_mono t (cst2_rel M (by show K.rom.p - 2 < _; omega) (by show K.rom.p - 1 < _; omega)) (by norm_num)
  · ext
    · show ((1 : Nat) : ZMod K.rom.p) = 1; norm_num
    · show ((0 : Nat) : ZMod K.rom.p) = 0; norm_num

/-- no point of the isogenous curve has order two -/
theorem g2_ne (x : F2 K.rom.p) : g (A2 K.rom.p) (B2 K.rom.p) x ≠ 0 := by
  intro h0
  by_cases hd : poly2 iso3Xden x = 0
  · exact M.facts.ker x hd ⟨0, by rw [h0, mul_zero]⟩
  · have hi := M.facts.iso x
    rw [h0, zero_mul] at hi
    apply M.twist.noTwo (poly2 iso3Xnum x / poly2 iso3Xden x)
    rw [M.b, zero_mul, add_zero, div_pow]
    have h3 := pow_ne_zero 3 hd
    rw [eq_comm, ← div_left_inj' h3, add_div, mul_div_cancel_right₀ _ h3, zero_div] at hi
    exact hi

/-- `map_to_curve_g2` -/
theorem map2_ok (hP : K.rom.p = Pair.p381) {u : Fp2 C} {v : F2 K.rom.p} {e : Nat} (hu : Rel2 K.rom.P K.rom.p ⟨0, 1, e⟩ u v) :
    (¬ Detected (g (A2 K.rom.p) (B2 K.rom.p) (absc (A2 K.rom.p) (B2 K.rom.p) (Z2 K.rom.p) v)) → mapToCurveG2 K.rom u = none) ∧
    (Detected (g (A2 K.rom.p) (B2 K.rom.p) (absc (A2 K.rom.p) (B2 K.rom.p) (Z2 K.rom.p) v)) →
      ∃ s, mapToCurveG2 K.rom u = some s ∧ ∃ Q : (curve2 K).Point, IsPoint2 K 3 s Q ∧ Image2 v (Fp2.sgn0 K.rom.P u) Q) := by
  obtain ⟨s1, s2⟩ := sswu2_ok M.twist.tower M.one.wide M.twist.len (sswu2_const M) (g2_ne M) hu
  constructor
  · intro hd
    unfold mapToCurveG2
    rw [s1 hd, Option.bind_none]
  · intro hd
    obtain ⟨x, y, d, Y, e1, k1, k2, k3, k4, k5, k6⟩ := s2 hd
    have k5' : Y ^ 2 = g (A2 K.rom.p) (B2 K.rom.p) (absc (A2 K.rom.p) (B2 K.rom.p) (Z2 K.rom.p) v) := by rw [pow_two, k5]
    obtain ⟨s, hh, e2, hq⟩ := iso3_ok M hP k3 k4 k1 k2 k5'
    refine ⟨s, ?_, _, hq, Y, hh, k5', k6, rfl⟩
    unfold mapToCurveG2
    rw [e1, Option.bind_some]
    dsimp only
    rw [e2]

/-- which squares `FP2::sqrt` misses -/
theorem not_detected (v : F2 K.rom.p) : ¬ Detected (g (A2 K.rom.p) (B2 K.rom.p) (absc (A2 K.rom.p) (B2 K.rom.p) (Z2 K.rom.p) v)) ↔
    (g (A2 K.rom.p) (B2 K.rom.p) (absc (A2 K.rom.p) (B2 K.rom.p) (Z2 K.rom.p) v)).im = 0 ∧ ¬ IsSquare (g (A2 K.rom.p) (B2 K.rom.p) (absc (A2 K.rom.p) (B2 K.rom.p) (Z2 K.rom.p) v)).re := by
  classical
  have hc2 : ringChar (F2 K.rom.p) ≠ 2 := ringChar2 M.twist.tower
  have hs := absc_sq hc2 M.facts.a0 M.facts.nonsq (det_sq M.facts.exc) v
  generalize g (A2 K.rom.p) (B2 K.rom.p) (absc (A2 K.rom.p) (B2 K.rom.p) (Z2 K.rom.p) v) = w at hs ⊢
  unfold Detected
  split_ifs with c
  · exact ⟨fun q => ⟨c, q⟩, fun q => q.2⟩
  · exact ⟨fun q => absurd hs q, fun q => absurd q.1 c⟩

end Verif.Bls
