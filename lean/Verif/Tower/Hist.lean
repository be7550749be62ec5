import Verif.Spec.TowerHist
import Verif.Tower.Top
/- Histories of `FP12` calls compute in `F12`. -/
namespace Verif.Tower
open Verif.Big Verif.Fp Spec
set_option linter.unusedVariables false
set_option linter.unusedSectionVars false

attribute [local irreducible] Fp4.norm Fp4.neg Fp4.add Fp4.sub Fp4.dbl Fp4.reduce Fp4.mul Fp4.sqr Fp4.imul Fp4.div2 Fp4.inverse Fp4.conj Fp4.nconj Fp4.timesI Fp4.pmul Fp4.padd Fp4.zero
attribute [local irreducible] Fp2.norm Fp2.neg Fp2.add Fp2.sub Fp2.dbl Fp2.reduce Fp2.mul Fp2.sqr Fp2.imul Fp2.div2 Fp2.inverse Fp2.conj Fp2.timesI Fp2.divIp Fp2.divIp2 Fp2.zero

variable {C : Nat} {P : Params C} {p : Nat} [hp : Fact p.Prime]

theorem TowerPrime.noncube (t : TowerPrime p) : ∀ m : ZMod p, m ^ 3 ≠ 2 := two_noncube (by have := t.mod6; omega) t.two

theorem TowerPrime.ne_zero {v w : F12 p} (h : v * w = 1) : v ≠ 0 := by
  rintro rfl
  rw [zero_mul] at h
  exact zero_ne_one h

theorem cyc_iff {v : F12 p} (hv : v ^ (p ^ 4 - p ^ 2 + 1) = 1) : v ^ (p ^ 4 + 1) = v ^ (p ^ 2) := by
  have hp0 := hp.out.pos
  have : p ^ 4 + 1 = (p ^ 4 - p ^ 2 + 1) + p ^ 2 := by
    have : p ^ 2 ≤ p ^ 4 := Nat.pow_le_pow_right hp0 (by norm_num)
    omega
  rw [this, pow_add, hv, one_mul]

variable (h : TowerOk P p)
include h

theorem reduce12_ok {K : Nat} {x : Fp12 C} {v : F12 p} (hx : Std12 P p K x v) : Std12 P p 1 (Fp12.reduce P x) v :=
  ⟨std4_iff.2 (reduce4_ok h (std4_iff.1 hx.1)), std4_iff.2 (reduce4_ok h (std4_iff.1 hx.2.1)), std4_iff.2 (reduce4_ok h (std4_iff.1 hx.2.2))⟩

omit hp in
theorem usqr_type (x : Fp12 C) : (Fp12.usqr P x).stype = 4 := by unfold Fp12.usqr Fp12.runOn; rfl
omit hp in
theorem inv_type (x : Fp12 C) : (Fp12.inverse P x).stype = 4 := by unfold Fp12.inverse Fp12.runOn; rfl
omit hp in
theorem mul_type (x y : Fp12 C) : (Fp12.mul P x y).stype = 4 := by unfold Fp12.mul Fp12.runOn; rfl
omit hp in
theorem frob_type (x : Fp12 C) (f : Fp2 C) : (Fp12.frob P x f).stype = 4 := by unfold Fp12.frob; rfl

theorem Coef2.std {x : Fp2 C} {v : F2 p} (hx : Coef2 P p x v) : Std2 P p 2 x v := by
  obtain ⟨hx, hX, hy, hY⟩ := hx
  exact std2_newBigs h hx hX hy hY

theorem inverse12_eq (t : TowerPrime p) {x : Fp12 C} {v w : F12 p} (hx : Std12 P p 2800 x v) (hw : v * w = 1) : Std12 P p 41 (Fp12.inverse P x) w := by
  have i := inverse12_ok h hx
  have e : (⟨(adj12 v).a * inv4 (norm12 v), (adj12 v).b * inv4 (norm12 v), (adj12 v).c * inv4 (norm12 v)⟩ : F12 p) = inv12 v := by
    unfold inv12
    ext1 <;> simp
  rw [e] at i
  have m := mul_inv12 t.mod8 t.noncube (TowerPrime.ne_zero hw)
  have : inv12 v = w := by
    calc inv12 v = inv12 v * (v * w) := by rw [hw, mul_one]
      _ = (v * inv12 v) * w := by ring
      _ = w := by rw [m, one_mul]
  rw [← this]
  exact i

theorem hist12_inv (t : TowerPrime p) {mt : Bool} {f : Fp2 C} (hf : Std2 P p 3 f (xi p ^ ((p - 1) / 6))) {K : Nat} {x : Fp12 C} {v : F12 p} (hx : Hist12 P p mt f K x v) :
    Std12 P p K x v ∧ Tagged mt x.stype v := by
  have D : ∀ {n : Nat} {v : F12 p}, n = 4 → Tagged mt n v := fun e => Or.inr (Or.inr (Or.inr (Or.inr e)))
  induction hx with
  | zero => exact ⟨std12_zero h, Or.inl ⟨rfl, rfl⟩⟩
  | one => exact ⟨std12_one h, Or.inr (Or.inl ⟨rfl, rfl⟩)⟩
  | coefs h1 h2 h3 h4 h5 h6 =>
    exact ⟨⟨⟨h1.std h, h2.std h⟩, ⟨h3.std h, h4.std h⟩, ⟨h5.std h, h6.std h⟩⟩, D rfl⟩
  | fp4 h1 h2 =>
    refine ⟨⟨⟨h1.std h, h2.std h⟩, zero4_std h (by norm_num), zero4_std h (by norm_num)⟩, Or.inr (Or.inr (Or.inl ⟨rfl, ?_⟩))⟩
    cases mt <;> simp
  | reduce _ ih => exact ⟨reduce12_ok h ih.1, ih.2⟩
  | mul _ _ hK hL i j => exact ⟨mul12_ok h (i.1.mono h hK) (j.1.mono h hL), D (mul_type h _ _)⟩
  | ssmul _ _ hK hL i j => exact ssmul_ok h (i.1.mono h hK) (j.1.mono h hL) i.2 j.2
  | sqr _ hK i => exact sqr12_ok h (i.1.mono h hK) i.2
  | usqr _ hK hv i =>
    refine ⟨?_, D (usqr_type h _)⟩
    rw [← usq_eq t.mod8 t.mod6 t.two (cyc_iff hv)]
    exact usqr12_ok h (i.1.mono h hK)
  | inverse _ hK hw i => exact ⟨inverse12_eq h t (i.1.mono h hK) hw, D (inv_type h _)⟩
  | conj _ hK i =>
    rw [f12_pow6 t.mod8 t.mod6 t.two]
    exact conj12_ok h (i.1.mono h hK) i.2
  | frob _ hK i =>
    refine ⟨?_, D (frob_type h _ _)⟩
    rw [f12_pow (by have := t.mod8; omega) t.mod6 rfl]
    exact frob12_ok h hK i.1 hf
end Verif.Tower
