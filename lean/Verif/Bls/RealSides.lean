import Verif.Bls.RealOk
import Verif.Bls.ModelReal
import Verif.Spec.BlsReal381
import Verif.Props.Ecp2
import Verif.Props.Subgroup
/-
The two groups of BLS12-381 as sides of a signature scheme.
-/
namespace Verif.Bls
set_option linter.unusedSectionVars false
open Verif.Big Verif.Fp Verif.Rom Verif.Curve Verif.Ecdh Verif.H2c Verif.Ecp Verif.Ecp2 Verif.Tower Verif.Pair Verif.Props Spec WeierstrassCurve

variable {C : Nat}

section
variable {F : Type} [Field F] [DecidableEq F] {A B : F}
/-- on `y² = x³ + B` the points with `x = 0` are inflection points -/
theorem three_of (ha : A = 0) (h2 : (2 : F) ≠ 0) {y : F} (hy : y ≠ 0) (hh : (short A B).Nonsingular 0 y) :
    (Affine.Point.some 0 y hh) + (Affine.Point.some 0 y hh) = - (Affine.Point.some 0 y hh) := by
  have hne : y ≠ (short A B).negY 0 y := by
    intro e
    have : 2 * y = 0 := by
      have : y = -y := by simpa [Affine.negY, short] using e
      linear_combination this
    rcases mul_eq_zero.mp this with e | e
    · exact h2 e
    · exact hy e
  have hs : (short A B).slope 0 0 y y = 0 := by
    rw [Affine.slope_of_Y_ne rfl hne]
    simp [short, ha]
  rw [Affine.Point.add_self_of_Y_ne hne, Affine.Point.neg_some, Affine.Point.some.injEq, hs]
  simp [Affine.addX, Affine.addY, Affine.negAddY, Affine.negY, short]
end

theorem mem_torsionR {A : Type} [AddCommGroup A] {a : A} : a ∈ torsionR A ↔ r381 • a = 0 := Iff.rfl

section
variable (K : GlsRom C) [hp : Fact K.pair.rom.p.Prime] [h4 : Fact (K.pair.rom.p % 4 = 3)]

/-- what is used of the ROM file -/
structure Real381 : Prop where
  g2 : G2Curve K.pair
  mul : MulOk K
  checks : ChecksOk K
  cof : CofactorOk K
  a : K.pair.rom.a = 0
  order : ordN K.pair.rom = r381
  gen1 : r381 • g2.bls.dh.G = 0
end

section
variable {K : GlsRom C} [hp : Fact K.pair.rom.p.Prime] [h4 : Fact (K.pair.rom.p % 4 = 3)]

/-- points of order dividing the group order have a non-zero abscissa: the others are of order three -/
theorem absc_ne (h : Real381 K) {y : ZMod K.pair.rom.p} {hh : (curve K.pair.rom).Nonsingular 0 y} (ht : r381 • Affine.Point.some 0 y hh = 0) : False := by
  have hy := y_ne h.g2.bls.dh.curve.noTwo hh.1
  have h3 := three_of (by rw [h.a]; simp) (two_ne_zero' h.g2.bls.dh.curve.arith.toConsts) hy hh
  have h3' : 3 • Affine.Point.some 0 y hh = 0 := by
    rw [show (3 : Nat) = 2 + 1 from rfl, add_nsmul, two_nsmul, one_nsmul, h3, neg_add_cancel]
  have : Affine.Point.some 0 y hh = 0 := by
    have : r381 • Affine.Point.some 0 y hh = Affine.Point.some 0 y hh := by
      have e : r381 = 3 * (r381 / 3) + 1 := by decide +kernel
      rw [e, add_nsmul, mul_nsmul, h3', nsmul_zero, zero_add, one_nsmul]
    rw [← this, ht]
  cases this

theorem faithful1 (h : Real381 K) {s : Pt C} {T : (curve K.pair.rom).Point} (hs : IsPoint K.pair.rom s T) (hT : r381 • T = 0) : Faithful K.pair.rom s := by
  intro hx hz
  obtain ⟨_, hd⟩ := hs
  cases T with
  | zero =>
    obtain ⟨_, _, h3⟩ := hd
    exact absurd (hz.symm.trans h3) one_ne_zero
  | some x y hh =>
    obtain ⟨h1, h2, _⟩ := hd
    have : x = 0 := by
      have e : (0 : ZMod K.pair.rom.p) = x * 1 := by rw [← hx, ← hz]; exact h2
      rw [mul_one] at e; exact e.symm
    subst this
    exact (absc_ne h hT).elim

/-- G1 -/
theorem side1 (h : Real381 K) : SideReal K.pair.rom (sideG1 K) (IsPoint K.pair.rom) (torsionR _) Set.univ h.g2.bls.dh.G (encG1 K) where
  gen := h.g2.bls.dh.base
  gmem := h.gen1
  gne := by intro c; cases c
  neg := Ecp.neg_ok h.g2.bls.dh.curve h.g2.bls.dh.base
  add := Ecp.add_ok h.g2.bls.dh.curve
  mul := by
    intro x a k n hx ha hk hn
    have hr : rN K.pair = r381 := h.order
    obtain ⟨R, h1, h2⟩ := h.mul.1 x a hx (by rw [hr]; exact ha) k n hk (le_of_lt hn)
    exact ⟨R, h1, fun _ => (C44_g1_serialize h.g2.bls h2 (faithful1 h h2 ((torsionR _).nsmul_mem ha n))).1⟩
  ser := fun hx ha _ => (C44_g1_serialize h.g2.bls hx (faithful1 h hx ha)).1
  decode := by
    intro a _
    obtain ⟨s, h1, h2, _⟩ := (C44_g1_decode h.g2.bls a).1
    exact ⟨s, h1, h2⟩
  accept := by
    intro bs x hx
    obtain ⟨T, h1, h2⟩ := C44_g1_accept h.g2.bls bs x hx
    refine ⟨T, h1, Or.inl ?_⟩
    rcases h2 with h2 | h2
    · exact Or.inl h2.1
    · exact Or.inr h2.1
  sub := fun hx => h.checks.1 _ _ hx

theorem Ordinary.generic {T : (curve2 K.pair).Point} (h : Ordinary K T) : Generic T := by
  cases T with
  | zero => trivial
  | some x y hh => exact h.2

theorem faithful_ord {d : Nat} {s : Pt2 C} {T : (curve2 K.pair).Point} (hs : IsPoint2 K.pair d s T) (hT : Ordinary K T) : Faithful2 K.pair s := by
  rintro ⟨ha, hb⟩
  have hz : res2 K.pair.rom.P K.pair.rom.p s.z = 1 := by
    apply QuadraticAlgebra.ext
    · exact ha
    · exact hb
  obtain ⟨_, hd⟩ := hs
  cases T with
  | zero =>
    obtain ⟨_, _, h3⟩ := hd
    exact absurd (hz.symm.trans h3) one_ne_zero
  | some x y hh =>
    obtain ⟨h1, h2, h3⟩ := hd
    obtain ⟨⟨q1, q2⟩, q3, q4⟩ := hT
    have ex : res2 K.pair.rom.P K.pair.rom.p s.x = x := by
      have : res2 K.pair.rom.P K.pair.rom.p s.x = x * res2 K.pair.rom.P K.pair.rom.p s.z := h2
      rw [this, hz, mul_one]
    have ey : res2 K.pair.rom.P K.pair.rom.p s.y = y := by
      have : res2 K.pair.rom.P K.pair.rom.p s.y = y * res2 K.pair.rom.P K.pair.rom.p s.z := h3
      rw [this, hz, mul_one]
    have e1 : residue K.pair.rom.P K.pair.rom.p s.x.a = x.re := congrArg QuadraticAlgebra.re ex
    have e2 : residue K.pair.rom.P K.pair.rom.p s.x.b = x.im := congrArg QuadraticAlgebra.im ex
    have e3 : residue K.pair.rom.P K.pair.rom.p s.y.a = y.re := congrArg QuadraticAlgebra.re ey
    have e4 : residue K.pair.rom.P K.pair.rom.p s.y.b = y.im := congrArg QuadraticAlgebra.im ey
    exact ⟨fun e => absurd (e1.symm.trans e) q1, fun e => absurd (e2.symm.trans e) q2, fun e => absurd (e3.symm.trans e) q3, fun e => absurd (e4.symm.trans e) q4⟩

/-- G2 -/
theorem side2 (h : Real381 K) (hr : r381.Prime) : ∃ G : (curve2 K.pair).Point, G ≠ 0 ∧ IsPoint2 K.pair 2 (Ecp2.generator K.pair) G ∧
    SideReal K.pair.rom (sideG2 K) (IsPoint2 K.pair 202) (torsionR _) {T | Ordinary K T} G (encG2 K) := by
  obtain ⟨G, hG, hn, h0, hmul⟩ := h.mul.2
  have hrN : rN K.pair = r381 := h.order
  rw [hrN] at h0
  have : Fact r381.Prime := ⟨hr⟩
  have : Finite (curve2 K.pair).Point := Nat.finite_of_card_ne_zero (by
    rw [h.cof.2.1]; decide +kernel)
  have hcyc : ∀ {P : (curve2 K.pair).Point}, r381 • P = 0 → ∃ k : Int, P = k • G := fun hP =>
    torsion_cyclic (by rw [h.cof.2.1]; decide +kernel) hn h0 hP
  refine ⟨G, hn, hG, ?_⟩
  constructor
  · exact hG.mono (by norm_num)
  · exact h0
  · exact hn
  · exact (Ecp2.neg_ok h.g2.twist hG (by norm_num)).mono (by norm_num)
  · intro x y a b hx hy
    exact (Ecp2.add_ok h.g2.twist hx hy (by norm_num) (by norm_num)).mono (by norm_num)
  · intro x a k n hx ha hk hlt
    obtain ⟨c, rfl⟩ := hcyc ha
    obtain ⟨R, h1, h2⟩ := hmul 202 x c hx (by norm_num) (le_refl _) k n hk (le_of_lt hlt)
    exact ⟨R, h1, fun hN => (C44_g2_serialize h.g2 h2 (by norm_num) (faithful_ord h2 hN)).1 (Ordinary.generic hN)⟩
  · intro x a hx ha hN
    exact (C44_g2_serialize h.g2 hx (by norm_num) (faithful_ord hx hN)).1 (Ordinary.generic hN)
  · intro a hN
    obtain ⟨s, h1, h2, _⟩ := (C44_g2_decode h.g2 a).1 (Ordinary.generic hN)
    exact ⟨s, h1, h2.mono (by norm_num)⟩
  · intro bs x hx
    obtain ⟨T, h1, h2⟩ := C44_g2_accept h.g2 bs x hx
    refine ⟨T, h1.mono (by norm_num), ?_⟩
    rcases h2 with h2 | h2 | ⟨h2 | h2, _⟩
    · exact Or.inl (Or.inl h2.1)
    · exact Or.inl (Or.inr h2.1)
    · exact Or.inl (Or.inl h2)
    · exact Or.inr (Or.inl h2)
  · intro x a hx
    exact h.checks.2 202 x a hx (by norm_num) (le_refl _)

end

end Verif.Bls
