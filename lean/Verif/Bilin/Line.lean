import Verif.Bilin.Val
import Verif.Ate.Array
/-
The lines of the pairing as functions on the twist: sums of points in arrays, negation, the Frobenius map.
-/
namespace Verif.Ate
set_option linter.unusedSectionVars false
open Verif.Big Verif.Fp Verif.Rom Verif.Curve Verif.Tower Verif.Ecp Verif.Ecp2 Verif.Pair Verif.Gt Spec WeierstrassCurve

section
variable {F : Type} [Field F] [DecidableEq F] {B : F}

theorem slope0 (x₁ x₂ y₁ y₂ : F) : (short 0 B).slope x₁ x₂ y₁ y₂ = if x₁ = x₂ then if y₁ = -y₂ then 0 else 3 * x₁ ^ 2 / (2 * y₁) else (y₁ - y₂) / (x₁ - x₂) := by
  unfold Affine.slope Affine.negY
  simp only [short, zero_mul, sub_zero, mul_zero, add_zero]
  congr 3
  ring

theorem slope_neg (x₁ x₂ y₁ y₂ : F) : (short 0 B).slope x₁ x₂ (-y₁) (-y₂) = -(short 0 B).slope x₁ x₂ y₁ y₂ := by
  rw [slope0, slope0]
  by_cases hx : x₁ = x₂
  · rw [if_pos hx, if_pos hx]
    by_cases hy : y₁ = -y₂
    · rw [if_pos hy, if_pos (by rw [hy]), neg_zero]
    · rw [if_neg hy, if_neg (fun h => hy (neg_injective h)), mul_neg, div_neg]
  · rw [if_neg hx, if_neg hx, ← neg_div]
    congr 1; ring

theorem slope_frob (σ : F →+* F) {z : F} (hz : z ≠ 0) (x₁ x₂ y₁ y₂ : F) :
    (short 0 B).slope (z ^ 2 * σ x₁) (z ^ 2 * σ x₂) (z ^ 3 * σ y₁) (z ^ 3 * σ y₂) = z * σ ((short 0 B).slope x₁ x₂ y₁ y₂) := by
  rw [slope0, slope0]
  have i2 : z ^ 2 * σ x₁ = z ^ 2 * σ x₂ ↔ x₁ = x₂ := ⟨fun h => σ.injective (mul_left_cancel₀ (pow_ne_zero 2 hz) h), fun h => by rw [h]⟩
  have i3 : z ^ 3 * σ y₁ = -(z ^ 3 * σ y₂) ↔ y₁ = -y₂ := by
    rw [← mul_neg, ← map_neg]
    exact ⟨fun h => σ.injective (mul_left_cancel₀ (pow_ne_zero 3 hz) h), fun h => by rw [h]⟩
  by_cases hx : x₁ = x₂
  · rw [if_pos hx, if_pos (i2.2 hx)]
    by_cases hy : y₁ = -y₂
    · rw [if_pos hy, if_pos (i3.2 hy), map_zero, mul_zero]
    · rw [if_neg hy, if_neg (fun h => hy (i3.1 h)), map_div₀, map_mul, map_mul, map_pow, map_ofNat, map_ofNat]
      by_cases h0 : 2 * σ y₁ = 0
      · rw [h0, div_zero, mul_zero, mul_left_comm, h0, mul_zero, div_zero]
      · rw [mul_left_comm, ← mul_div_assoc, div_eq_div_iff (mul_ne_zero (pow_ne_zero 3 hz) h0) h0]
        ring
  · have hs : σ x₁ - σ x₂ ≠ 0 := fun h => hx (σ.injective (sub_eq_zero.1 h))
    rw [if_neg hx, if_neg (fun h => hx (i2.1 h)), map_div₀, map_sub, map_sub, ← mul_sub, ← mul_sub, ← mul_div_assoc, div_eq_div_iff (mul_ne_zero (pow_ne_zero 2 hz) hs) hs]
    ring
end

section
variable {p : Nat} [hp : Fact p.Prime] [h4 : Fact (p % 4 = 3)]

/-- the inverse of `t` -/
noncomputable def twi (mt : Bool) : F12 p := tw mt ^ 5 * emb2H (if mt then xi p else (xi p)⁻¹)

theorem tw_twi (mt : Bool) : (tw mt : F12 p) * twi mt = 1 := by
  unfold twi
  rw [← mul_assoc, ← pow_succ', tw6, ← map_mul]
  have h : xi p ≠ 0 := xi_nz
  cases mt
  · simp only [Bool.false_eq_true, if_false]; rw [mul_inv_cancel₀ h, map_one]
  · simp only [if_true]; rw [inv_mul_cancel₀ h, map_one]

theorem lineAt_E (mt : Bool) (x y l : F2 p) (q : ZMod p × ZMod p) :
    lineAt mt x y l q = tw mt ^ 3 * (emb1 q.2 * twi mt ^ 3 - (emb2H l * (emb1 q.1 * twi mt ^ 2 - emb2H x) + emb2H y)) := by
  have h := tw_twi (p := p) mt
  unfold lineAt
  rw [← emb2H_apply, ← emb2H_apply, ← emb2H_apply]
  generalize emb2H l = l', emb2H x = x', emb2H y = y', (emb1 q.1 : F12 p) = a, (emb1 q.2 : F12 p) = b, (tw mt : F12 p) = T, (twi mt : F12 p) = T' at *
  linear_combination (-b * (T ^ 2 * T' ^ 2 + T * T' + 1) + l' * a * T * (T * T' + 1)) * h

/-- conjugation of a line -/
theorem lineAt_fr6 (t : TowerPrime p) (mt : Bool) (x y l : F2 p) (q : ZMod p × ZMod p) : fr6 (lineAt mt x y l q) = lineAt mt x (-y) (-l) q := by
  unfold lineAt
  rw [← emb2H_apply, ← emb2H_apply, ← emb2H_apply, ← emb2H_apply, ← emb2H_apply]
  simp only [map_sub, map_mul, map_pow, map_neg, fr6_emb1 t, fr6_emb2 t, fr6_tw t]
  ring

theorem lineAt_negq (t : TowerPrime p) (mt : Bool) (x y l : F2 p) (q : ZMod p × ZMod p) : lineAt mt x y l (q.1, -q.2) = -fr6 (lineAt mt x y l q) := by
  rw [lineAt_fr6 t]
  have e : (emb1 (-q.2) : F12 p) = -emb1 q.2 := by rw [emb1_eq, emb1_eq, map_neg, map_neg]
  unfold lineAt
  rw [← emb2H_apply, ← emb2H_apply, ← emb2H_apply, ← emb2H_apply, ← emb2H_apply, e, map_neg, map_neg]
  ring

end

section
variable {C : Nat} {K : PairRom C} [hp : Fact K.rom.p.Prime] [h4 : Fact (K.rom.p % 4 = 3)]

theorem frobZ_ne : frobZ K ≠ 0 := by
  have hxi : xi K.rom.p ≠ 0 := xi_nz
  have hf : xi K.rom.p ^ ((K.rom.p - 1) / 6) ≠ 0 := pow_ne_zero _ hxi
  unfold frobZ
  split_ifs
  · exact inv_ne_zero hf
  · exact hf

theorem fr_tw (h6 : 6 ∣ K.rom.p - 1) : fr (tw K.mtype : F12 K.rom.p) = emb2H (frobZ K) * tw K.mtype := by
  have e : K.rom.p = 6 * ((K.rom.p - 1) / 6) + 1 := by rw [Nat.mul_div_cancel' h6, Nat.sub_add_cancel hp.out.one_lt.le]
  rw [fr_apply, show (tw K.mtype : F12 K.rom.p) ^ K.rom.p = tw K.mtype ^ (6 * ((K.rom.p - 1) / 6) + 1) from congrArg (fun n => (tw K.mtype : F12 K.rom.p) ^ n) e, pow_succ, pow_mul, tw6, ← map_pow]
  congr 2
  unfold frobZ
  cases K.mtype
  · rfl
  · simp only [if_true]; rw [inv_pow]

theorem lineAt_fr (h6 : 6 ∣ K.rom.p - 1) (x y l : F2 K.rom.p) (q : ZMod K.rom.p × ZMod K.rom.p) :
    fr (lineAt K.mtype x y l q) = lineAt K.mtype (frobZ K ^ 2 * conjH K.rom.p x) (frobZ K ^ 3 * conjH K.rom.p y) (frobZ K * conjH K.rom.p l) q := by
  unfold lineAt
  rw [← emb2H_apply, ← emb2H_apply, ← emb2H_apply, ← emb2H_apply, ← emb2H_apply, ← emb2H_apply]
  simp only [map_sub, map_mul, map_pow, fr_emb1, fr_emb2, fr_tw h6]
  ring

/-- the line through two points of the twist at `q`, with the tangent when they are equal -/
noncomputable def LE (q : ZMod K.rom.p × ZMod K.rom.p) : (curve2 K).Point → (curve2 K).Point → F12 K.rom.p
  | .some x₁ y₁ _, .some x₂ y₂ _ => lineAt K.mtype x₁ y₁ ((curve2 K).slope x₁ x₂ y₁ y₂) q
  | _, _ => 1

theorem LE_ne {q : ZMod K.rom.p × ZMod K.rom.p} (hq : q.2 ≠ 0) (A B : (curve2 K).Point) : LE q A B ≠ 0 := by
  rcases A with _ | ⟨x, y, h⟩
  · exact one_ne_zero
  rcases B with _ | ⟨x', y', h'⟩
  · exact one_ne_zero
  exact lineAt_ne _ _ _ _ hq

theorem LE_neg (t : TowerPrime K.rom.p) (q : ZMod K.rom.p × ZMod K.rom.p) (A B : (curve2 K).Point) : LE q (-A) (-B) = fr6 (LE q A B) := by
  rcases A with _ | ⟨x, y, h⟩
  · exact (map_one _).symm
  rcases B with _ | ⟨x', y', h'⟩
  · exact (map_one _).symm
  rw [Affine.Point.neg_some, Affine.Point.neg_some]
  unfold LE
  dsimp only
  rw [short_negY, short_negY, slope_neg, lineAt_fr6 t]

theorem LE_negq (t : TowerPrime K.rom.p) (q : ZMod K.rom.p × ZMod K.rom.p) {A B : (curve2 K).Point} (hA : A ≠ 0) (hB : B ≠ 0) : LE (q.1, -q.2) A B = -fr6 (LE q A B) := by
  rcases A with _ | ⟨x, y, h⟩
  · exact absurd rfl hA
  rcases B with _ | ⟨x', y', h'⟩
  · exact absurd rfl hB
  exact lineAt_negq t _ _ _ _ _

theorem LE_fr (h6 : 6 ∣ K.rom.p - 1) (q : ZMod K.rom.p × ZMod K.rom.p) (A B : (curve2 K).Point) : LE q (psi h6 A) (psi h6 B) = LE q A B ^ K.rom.p := by
  rw [← fr_apply]
  rcases A with _ | ⟨x, y, h⟩
  · exact (map_one _).symm
  rcases B with _ | ⟨x', y', h'⟩
  · exact (map_one _).symm
  show lineAt K.mtype (frobZ K ^ 2 * conjH K.rom.p x) (frobZ K ^ 3 * conjH K.rom.p y) ((curve2 K).slope _ _ _ _) q = fr (lineAt K.mtype x y ((curve2 K).slope x x' y y') q)
  rw [lineAt_fr h6, slope_frob (conjH K.rom.p) frobZ_ne]

theorem tangent_LE (q : ZMod K.rom.p × ZMod K.rom.p) {T : (curve2 K).Point} (h2 : T + T ≠ 0) : tangent K q T = LE q T T := by
  rcases T with _ | ⟨x, y, h⟩
  · rfl
  unfold tangent LE
  dsimp only
  rw [slope0, if_pos rfl, if_neg]
  intro e
  exact h2 (Affine.Point.add_of_Y_eq rfl (by rw [short_negY]; exact e))

theorem chord_LE (q : ZMod K.rom.p × ZMod K.rom.p) {T S : (curve2 K).Point} (h1 : T ≠ S) (h2 : T ≠ -S) : chord K q T S = LE q T S := by
  rcases T with _ | ⟨x, y, h⟩
  · rfl
  rcases S with _ | ⟨x', y', h'⟩
  · rfl
  have hx : x ≠ x' := by
    intro e
    subst e
    rcases Affine.Y_eq_of_X_eq h.1 h'.1 rfl with e | e
    · subst e; exact h1 rfl
    · rw [short_negY] at e
      subst e
      apply h2
      rw [Affine.Point.neg_some]
      congr 1
      rw [short_negY]
  unfold chord LE
  dsimp only
  rw [slope0, if_neg hx]
  unfold lineAt
  have hs : x - x' ≠ 0 := sub_ne_zero.2 hx
  have e : y = y' + (y - y') / (x - x') * (x - x') := by rw [div_mul_cancel₀ _ hs]; ring
  generalize (y - y') / (x - x') = l at *
  have e' : emb2 y = emb2 y' + emb2 l * (emb2 x - emb2 x') := by
    rw [← emb2H_apply, ← emb2H_apply, ← emb2H_apply, ← emb2H_apply, ← emb2H_apply, e]
    simp only [map_add, map_mul, map_sub]
  rw [e']
  ring
end
end Verif.Ate
