import Verif.Bls.IsoFacts
import Verif.Bls.Field
/- `map_to_curve_g1` and `hash_to_curve_g1`. -/
namespace Verif.Bls
open Verif.Big Verif.Fp Verif.Rom Verif.Ecp Verif.Curve Verif.Tower Spec.Sswu WeierstrassCurve
open Spec (beBytes beNat)

variable {C : Nat} {K : Rom C} [hp : Fact K.p.Prime]

/-- what is needed of the ROM file -/
structure MapCurve (K : Rom C) [Fact K.p.Prime] : Prop where
  bls : BlsCurve K
  tower : TowerOk K.P K.p
  wide : Wide K.P
  mod4 : K.p % 4 = 3
  facts : Facts1 K.p
  a : K.a = 0
  b : Bcoef K = 4

variable (M : MapCurve K)
include M

theorem cst_rep {v : Nat} (hv : v < K.p) : Rep K.P.b K.P.n (fromBytes (C := C) K.P.b K.P.n K.modbytes (beBytes K.modbytes v)) (v : Int) := by
  have hsp := M.bls.dh.spare
  have hf := M.bls.flags
  have h1 := fromBytes_rep (C := C) M.tower.ok (n := K.P.n) M.tower.hn K.modbytes (by omega) (beBytes K.modbytes v)
  rw [List.take_of_length_le (by rw [Spec.beBytes_length]), Spec.beNat_beBytes, Nat.mod_eq_of_lt (show v < 256 ^ K.modbytes by omega)] at h1
  exact h1

theorem cst_std {v : Nat} (hv : v < K.p) : Std K.P K.p 2 (cst K v) (v : ZMod K.p) := std_newBig M.tower (cst_rep M hv) hv

theorem horner1_ok {x : Fp C} {X : ZMod K.p} (hx : Elem K.P K.p 0 1 x X) (l : List Nat) (hl : ∀ c ∈ l, c < K.p) (hne : l ≠ []) :
    ∃ a, horner (Fp.add K.P) (Fp.mul K.P) x (l.map (cst K)) = some a ∧ Elem K.P K.p 0 2 a (poly1 l X) := by
  induction l with
  | nil => exact absurd rfl hne
  | cons c t ih =>
    have hc := (cst_std M (hl c (by simp))).1
    cases t with
    | nil =>
      refine ⟨cst K c, rfl, ?_⟩
      exact (hc.mono le_rfl (by omega) (rm M.tower (by omega) (by omega))).cg (by simp [poly1, ev])
    | cons d t =>
      obtain ⟨a, e1, h1⟩ := ih (fun c hc => hl c (by simp [hc])) (by simp)
      refine ⟨Fp.add K.P (Fp.mul K.P a x) (cst K c), ?_, ?_⟩
      · rw [List.map_cons, List.map_cons, horner, ← List.map_cons, e1]
        · rfl
        · simp
      · have := (h1.mulW M.tower.arith.toFieldOk M.wide hx ⟨by omega, by omega⟩ ⟨by omega, by omega⟩).add M.tower.toConsts hc (rm M.tower (by omega) (by omega))
        refine this.cg ?_
        unfold poly1
        rw [List.map_cons (a := c), ev]
        ring

omit hp M in
theorem iso11_lt : ∀ l ∈ [iso11Xnum, iso11Xden, iso11Ynum, iso11Yden], ∀ c ∈ l, c < Pair.p381 := by decide +kernel

omit M in
theorem iso_denotes {F : Type} [Field F] {A B xn xd yn yd y : F} (h1 : xd ≠ 0) (h2 : yd ≠ 0) (hh : (short A B).Nonsingular (xn / xd) (y * yn / yd)) :
    Denotes ⟨xn * yd, yn * y * xd, xd * yd⟩ (Affine.Point.some _ _ hh) := by
  refine ⟨mul_ne_zero h1 h2, ?_, ?_⟩
  · show xn * yd = xn / xd * (xd * yd); field_simp
  · show yn * y * xd = y * yn / yd * (xd * yd); field_simp

theorem iso11_ok (hP : K.p = Pair.p381) {x y : Fp C} {X Y : ZMod K.p} {l k : Nat} (hx : Elem K.P K.p 0 1 x X) (hy : Elem K.P K.p l k y Y) (hl : l ≤ 1) (hk : k ≤ 1)
    (hY : Y ^ 2 = g (A1 K.p) (B1 K.p) X) :
    ∃ s, iso11 K x y = some s ∧
      (poly1 iso11Xden X ≠ 0 → ∃ h, IsPoint K s (Affine.Point.some (poly1 iso11Xnum X / poly1 iso11Xden X) (Y * poly1 iso11Ynum X / poly1 iso11Yden X) h)) ∧
      (poly1 iso11Xden X = 0 → Elem K.P K.p 0 1 s.x 0 ∧ Elem K.P K.p 0 1 s.y 0 ∧ Elem K.P K.p 0 1 s.z 0) := by
  have hlt := iso11_lt
  rw [← hP] at hlt
  have f := M.tower.arith.toFieldOk
  obtain ⟨xn, e1, h1⟩ := horner1_ok M hx iso11Xnum (hlt _ (by simp)) (by decide)
  obtain ⟨xd, e2, h2⟩ := horner1_ok M hx iso11Xden (hlt _ (by simp)) (by decide)
  obtain ⟨yn, e3, h3⟩ := horner1_ok M hx iso11Ynum (hlt _ (by simp)) (by decide)
  obtain ⟨yd, e4, h4⟩ := horner1_ok M hx iso11Yden (hlt _ (by simp)) (by decide)
  have k1 := h3.mulW f M.wide hy ⟨by omega, by omega⟩ ⟨by omega, by omega⟩
  have kx := h1.mulW f M.wide h4 ⟨by omega, by omega⟩ ⟨by omega, by omega⟩
  have ky := k1.mulW f M.wide h2 ⟨by omega, by omega⟩ ⟨by omega, by omega⟩
  have kz := h2.mulW f M.wide h4 ⟨by omega, by omega⟩ ⟨by omega, by omega⟩
  refine ⟨⟨Fp.mul K.P xn yd, Fp.mul K.P (Fp.mul K.P yn y) xd, Fp.mul K.P xd yd⟩, ?_, ?_, ?_⟩
  · unfold iso11
    simp only [e1, e2, e3, e4]
    rfl
  · intro hd
    have hden := M.facts.den X
    have hd' : poly1 iso11Yden X ≠ 0 := by
      intro h0
      rw [h0] at hden
      exact pow_ne_zero 3 hd (by rw [← hden]; ring)
    have hiso := M.facts.iso X
    have hns : (curve K).Nonsingular (poly1 iso11Xnum X / poly1 iso11Xden X) (Y * poly1 iso11Ynum X / poly1 iso11Yden X) := by
      apply onCurve M.bls.dh.curve
      rw [M.a, M.b, div_pow, div_pow, mul_pow, hY, hden, hiso]
      push_cast
      field_simp
      ring
    refine ⟨hns, ?_⟩
    exact isPoint_of M.tower.arith (P := ⟨poly1 iso11Xnum X * poly1 iso11Yden X, poly1 iso11Ynum X * Y * poly1 iso11Xden X, poly1 iso11Xden X * poly1 iso11Yden X⟩) kx ky kz (iso_denotes hd hd' hns)
  · intro h0
    have hden := M.facts.den X
    rw [h0] at hden
    have hd' : poly1 iso11Yden X = 0 := by
      rw [zero_pow (by norm_num)] at hden
      exact pow_eq_zero_iff (two_ne_zero) |>.mp hden
    exact ⟨kx.cg (by rw [hd', mul_zero]), ky.cg (by rw [h0, mul_zero]), kz.cg (by rw [hd', mul_zero])⟩

theorem sswu1_const (hP : K.p = Pair.p381) (h11 : (11 : Int) < 2 ^ K.P.b) : Sswu1Ok K.P K.p (sswu1 K) (A1 K.p) (B1 K.p) 11 where
  a := (cst_std M (by rw [hP]; decide +kernel)).1
  b := (cst_std M (by rw [hP]; decide +kernel)).1
  z := (Elem.of_normed M.tower.toConsts (M.tower.arith.newInt_ok 11 h11)).cg (by norm_num)
  a0 := M.facts.a0
  nonsq := M.facts.nonsq
  exc := M.facts.exc

/-- no point of the isogenous curve has order two -/
theorem g1_ne (x : ZMod K.p) : g (A1 K.p) (B1 K.p) x ≠ 0 := by
  intro h0
  by_cases hd : poly1 iso11Xden x = 0
  · obtain ⟨r, hr, rfl⟩ := (M.facts.ker x).mp hd
    exact M.facts.ker0 r hr h0
  · have hi := M.facts.iso x
    rw [h0, zero_mul] at hi
    apply M.bls.dh.curve.noTwo (poly1 iso11Xnum x / poly1 iso11Xden x)
    rw [M.a, M.b, div_pow]
    push_cast
    field_simp
    linear_combination -hi

/-- `map_to_curve_g1` -/
theorem map1_ok (hP : K.p = Pair.p381) (h11 : (11 : Int) < 2 ^ K.P.b) {u : Fp C} {v : ZMod K.p} (hu : Elem K.P K.p 0 1 u v) :
    ∃ s, mapToCurveG1 K u = some s ∧
      ((¬ ∃ r ∈ kernel11, absc (A1 K.p) (B1 K.p) 11 v = (r : ZMod K.p)) → ∃ Q : (curve K).Point, IsPoint K s Q ∧ Image1 v (Fp.sgn0 K.P u) Q) ∧
      ((∃ r ∈ kernel11, absc (A1 K.p) (B1 K.p) 11 v = (r : ZMod K.p)) → coords K s = ⟨0, 0, 0⟩ ∧ ∀ Q : (curve K).Point, ¬ IsPoint K s Q) := by
  obtain ⟨x, y, l, k, Y, e1, hl, hk, hx, hy, hY, hs⟩ := sswu1_ok M.tower M.wide M.mod4 (sswu1_const M hP h11) hu
  have hY2 : Y ^ 2 = g (A1 K.p) (B1 K.p) (absc (A1 K.p) (B1 K.p) 11 v) := by rw [pow_two, hY]
  have hY0 : Y ≠ 0 := by
    rintro rfl
    exact g1_ne M _ (by rw [← hY2]; ring)
  obtain ⟨s, e2, q1, q2⟩ := iso11_ok M hP hx hy hl hk hY2
  rw [← M.facts.ker]
  refine ⟨s, ?_, fun h0 => ?_, fun h0 => ?_⟩
  · unfold mapToCurveG1
    rw [e1, Option.bind_some]
    dsimp only
    rw [e2]
  · obtain ⟨hh, hq⟩ := q1 h0
    exact ⟨_, hq, Y, hh, hY2, hs hY0, rfl⟩
  · obtain ⟨z1, z2, z3⟩ := q2 h0
    have e : coords K s = ⟨0, 0, 0⟩ := by unfold coords; rw [z1.res, z2.res, z3.res]
    refine ⟨e, fun Q hQ => ?_⟩
    have hd := hQ.2
    rw [e] at hd
    cases Q with
    | zero => exact hd.2.1 rfl
    | some x y hh => exact hd.1 rfl
end Verif.Bls
