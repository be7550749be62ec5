import Verif.Ecp2.Law
import Verif.Ecp.Points
import Verif.Tower.Alg
import Verif.Tower.Top
/- Constructors, comparison, conversion to affine coordinates and scalar multiplication of `ecp2.rs`. -/
namespace Verif.Ecp2
open Verif.Big Verif.Fp Verif.Rom Verif.Curve Verif.Tower Verif.Prog Spec WeierstrassCurve

set_option linter.unusedSectionVars false
variable {C : Nat} {K : PairRom C} [hp : Fact K.rom.p.Prime] [h4 : Fact (K.rom.p % 4 = 3)]

theorem int_ex (h : TowerOk K.rom.P K.rom.p) : Ex K.rom.P K.rom.p 0 1 2 (newInt K.rom.P 1) 1 :=
  ⟨Ecp.elem_int1 h.arith, by unfold Fp.newInt nres; split <;> simp⟩

theorem one_ex (h : TowerOk K.rom.P K.rom.p) : Ex K.rom.P K.rom.p 0 1 2 (one K.rom.P) 1 := ⟨Ecp.elem_one h.arith, one_xes⟩

theorem int_rel (h : TowerOk K.rom.P K.rom.p) : Rel2 K.rom.P K.rom.p ⟨0, 1, 2⟩ (Fp2.newInt K.rom.P 1) 1 :=
  ⟨int_ex h, (zero_rel h (by norm_num)).re⟩

theorem one_rel (h : TowerOk K.rom.P K.rom.p) : Rel2 K.rom.P K.rom.p ⟨0, 1, 2⟩ (Fp2.one K.rom.P) 1 :=
  ⟨one_ex h, (zero_rel h (by norm_num)).re⟩

theorem new_ok (h : TowerOk K.rom.P K.rom.p) : IsPoint2 K 2 (new K) 0 :=
  isPoint2_of (P := ⟨0, 1, 0⟩) (zero_rel h (by norm_num)) (int_rel h) (zero_rel h (by norm_num)) ⟨rfl, one_ne_zero, rfl⟩

theorem inf_ok (h : TowerOk K.rom.P K.rom.p) : IsPoint2 K 2 (inf K) 0 :=
  isPoint2_of (P := ⟨0, 1, 0⟩) (zero_rel h (by norm_num)) (one_rel h) (zero_rel h (by norm_num)) ⟨rfl, one_ne_zero, rfl⟩

theorem rel_zil (h : TowerOk K.rom.P K.rom.p) {d : Lz} {x : Fp2 C} {v : F2 K.rom.p} (hx : Rel2 K.rom.P K.rom.p d x v) : Fp2.iszilch K.rom.P x = true ↔ v = 0 := by
  unfold Fp2.iszilch
  rw [Bool.and_eq_true, Ecp.elem_iszilch h.arith hx.re.el, Ecp.elem_iszilch h.arith hx.im.el]
  constructor
  · rintro ⟨a, b⟩; exact QuadraticAlgebra.ext a b
  · rintro rfl; exact ⟨rfl, rfl⟩

theorem rel_equals (h : TowerOk K.rom.P K.rom.p) {d e : Lz} {x y : Fp2 C} {v w : F2 K.rom.p} (hx : Rel2 K.rom.P K.rom.p d x v) (hy : Rel2 K.rom.P K.rom.p e y w) :
    Fp2.equals K.rom.P x y = true ↔ v = w := by
  unfold Fp2.equals
  rw [Bool.and_eq_true, Ecp.elem_equals h.arith hx.re.el hy.re.el, Ecp.elem_equals h.arith hx.im.el hy.im.el]
  constructor
  · rintro ⟨a, b⟩; exact QuadraticAlgebra.ext a b
  · rintro rfl; exact ⟨rfl, rfl⟩

/-- `is_infinity` -/
theorem isInfinity_ok (h : TowerOk K.rom.P K.rom.p) {e : Nat} {s : Pt2 C} {T : (curve2 K).Point} (hs : IsPoint2 K e s T) : isInfinity K s = true ↔ T = 0 := by
  obtain ⟨s1, s2, s3⟩ := hs.1.rels h.toConsts
  unfold isInfinity
  rw [Bool.and_eq_true, rel_zil h s1, rel_zil h s3]
  rcases hs.2.zero_or with ⟨rfl, h1, h2, h3⟩ | ⟨x, y, hh, rfl, h1, h2, h3⟩
  · simp [h1, h3]
  · simp [h1]

theorem rel_mul (h : TowerOk K.rom.P K.rom.p) {e f : Nat} {x y : Fp2 C} {v w : F2 K.rom.p} (hx : Rel2 K.rom.P K.rom.p ⟨0, 1, e⟩ x v) (hy : Rel2 K.rom.P K.rom.p ⟨0, 1, f⟩ y w)
    (hf : f ≤ 131071) : Rel2 K.rom.P K.rom.p ⟨0, 1, 3⟩ (Fp2.mul K.rom.P x y) (v * w) :=
  mul2_ok h hx hy (Nat.zero_le _) le_rfl (Nat.zero_le _) le_rfl hf

/-- `equals` -/
theorem equals_ok (h : TowerOk K.rom.P K.rom.p) {e f : Nat} {s q : Pt2 C} {S T : (curve2 K).Point} (hs : IsPoint2 K e s S) (hq : IsPoint2 K f q T) (he : e ≤ 16384) (hf : f ≤ 16384) :
    equals K s q = true ↔ S = T := by
  obtain ⟨s1, s2, s3⟩ := hs.1.rels h.toConsts
  obtain ⟨q1, q2, q3⟩ := hq.1.rels h.toConsts
  have e1 := rel_equals h (rel_mul h s1 q3 (by omega)) (rel_mul h q1 s3 (by omega))
  have e2 := rel_equals h (rel_mul h s2 q3 (by omega)) (rel_mul h q2 s3 (by omega))
  have e : equals K s q = true ↔ (coords2 K s).x * (coords2 K q).z = (coords2 K q).x * (coords2 K s).z ∧ (coords2 K s).y * (coords2 K q).z = (coords2 K q).y * (coords2 K s).z := by
    rw [← e1, ← e2]
    unfold equals
    cases Fp2.equals K.rom.P (Fp2.mul K.rom.P s.x q.z) (Fp2.mul K.rom.P q.x s.z) <;> cases Fp2.equals K.rom.P (Fp2.mul K.rom.P s.y q.z) (Fp2.mul K.rom.P q.y s.z) <;> simp
  rw [e]
  rcases hs.2.zero_or with ⟨rfl, h1, h2, h3⟩ | ⟨x, y, hh, rfl, h1, h2, h3⟩
  · rcases hq.2.zero_or with ⟨rfl, k1, k2, k3⟩ | ⟨x', y', hh', rfl, k1, k2, k3⟩
    · simp [h1, h3, k1, k3]
    · have : ¬(coords2 K s).y * (coords2 K q).z = 0 := mul_ne_zero h2 k1
      simp only [h1, h3, mul_zero, zero_mul, true_and, this]
      constructor
      · exact False.elim
      · intro hc; cases hc
  · rcases hq.2.zero_or with ⟨rfl, k1, k2, k3⟩ | ⟨x', y', hh', rfl, k1, k2, k3⟩
    · have : ¬0 = (coords2 K q).y * (coords2 K s).z := fun hc => mul_ne_zero k2 h1 hc.symm
      simp only [k1, k3, mul_zero, zero_mul, true_and, this]
      constructor
      · exact False.elim
      · intro hc; cases hc
    · rw [h2, h3, k2, k3]
      constructor
      · rintro ⟨a, b⟩
        have hz : (coords2 K s).z * (coords2 K q).z ≠ 0 := mul_ne_zero h1 k1
        have ex : x = x' := mul_right_cancel₀ hz (by linear_combination a)
        have ey : y = y' := mul_right_cancel₀ hz (by linear_combination b)
        subst ex ey; rfl
      · intro hc
        cases hc
        exact ⟨by ring, by ring⟩

theorem inv2_eq {v : F2 K.rom.p} (hv : v ≠ 0) : inv2 v = v⁻¹ := (inv_eq_of_mul_eq_one_right (mul_inv2 h4.out hv)).symm

/-- `affine`: the same point; a finite one gets third coordinate 1 -/
theorem affine_ok (h : TowerOk K.rom.P K.rom.p) {e : Nat} {s : Pt2 C} {T : (curve2 K).Point} (hs : IsPoint2 K e s T) (he : 2 ≤ e) :
    IsPoint2 K e (affine K s) T ∧ (T ≠ 0 → (coords2 K (affine K s)).z = 1) := by
  obtain ⟨s1, s2, s3⟩ := hs.1.rels h.toConsts
  have hi := isInfinity_ok h hs
  have h1 := int_rel h
  unfold affine
  split_ifs with c1 c2
  · exact ⟨hs, fun hT => absurd (hi.mp c1) hT⟩
  · exact ⟨hs, fun _ => (rel_equals h s3 h1).mp c2⟩
  · have hT : T ≠ 0 := fun hT => c1 (hi.mpr hT)
    rcases hs.2.zero_or with ⟨rfl, _⟩ | ⟨x, y, hh, rfl, k1, k2, k3⟩
    · exact absurd rfl hT
    have hi' := (inverse2_ok h s3).to (inv2_eq k1)
    have mx := reduce2_ok h (rel_mul h s1 hi' (by norm_num))
    have my := reduce2_ok h (rel_mul h s2 hi' (by norm_num))
    refine ⟨isPoint2_of (P := ⟨(coords2 K s).x * (coords2 K s).z⁻¹, (coords2 K s).y * (coords2 K s).z⁻¹, 1⟩) (rel_mono h mx (by omega)) (rel_mono h my (by omega)) (rel_mono h h1 he)
      ⟨one_ne_zero, by simp only [k2]; field_simp, by simp only [k3]; field_simp⟩, fun _ => rel_res2 h1⟩

/-- after `affine` the coordinates of a finite point are its affine coordinates -/
theorem affine_coords (h : TowerOk K.rom.P K.rom.p) {e : Nat} {s : Pt2 C} {x y : F2 K.rom.p} {hh} (hs : IsPoint2 K e s (Affine.Point.some x y hh)) (he : 2 ≤ e) :
    coords2 K (affine K s) = ⟨x, y, 1⟩ := by
  obtain ⟨h1, h2⟩ := affine_ok h hs he
  have hz := h2 (by intro hc; cases hc)
  obtain ⟨k1, k2, k3⟩ := h1.2
  rw [hz, mul_one] at k2 k3
  cases hc : coords2 K (affine K s) with
  | mk a b c => rw [hc] at hz k2 k3; simp only at hz k2 k3; rw [hz, k2, k3]

/-- `ECP2::mul` -/
theorem mul_ok (h : TCurve K) {s : Pt2 C} {T : (curve2 K).Point} (hs : IsPoint2 K 1820 s T) {e : Limbs C} {E : Nat} (he : Ecp.Scalar K.rom e E) :
    ∃ r, mul K s e = some r ∧ IsPoint2 K 1820 r ((E : Int) • T) := by
  unfold mul
  split_ifs with c
  · refine ⟨_, rfl, ?_⟩
    rw [(isInfinity_ok h.tower hs).mp c, show (E : Int) • (0 : (curve2 K).Point) = 0 from zsmul_zero _]
    exact (new_ok h.tower).mono (by norm_num)
  · obtain ⟨r, hr, hrel⟩ := Ecp.mulWin_spec (ptSound h) h.tower.arith.ok h.tower.arith.hn hs he.1 he.2 (Ecp.bn8 h.tower.arith.toConsts)
    exact ⟨affine K r, by rw [hr]; rfl, (affine_ok h.tower hrel (by norm_num)).1⟩

end Verif.Ecp2
