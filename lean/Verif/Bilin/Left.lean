import Verif.Bilin.Chain
/-
Additivity of the pairing in the point of the twist: three points with sum zero.
-/
namespace Verif.Ate
set_option linter.unusedSectionVars false
open Verif.Big Verif.Fp Verif.Rom Verif.Curve Verif.Tower Verif.Ecp Verif.Ecp2 Verif.Pair Verif.Gt Spec WeierstrassCurve

variable {C : Nat} {K : GlsRom C} [hp : Fact K.pair.rom.p.Prime] [h4 : Fact (K.pair.rom.p % 4 = 3)]

/-- the coefficient of the twist -/
theorem btw_eq : emb2H (Btw K.pair) * tw K.pair.mtype ^ 6 = emb1 (Ecp.Bcoef K.pair.rom) := by
  have h : xi K.pair.rom.p ≠ 0 := xi_nz
  rw [tw6, ← map_mul, emb1_eq]
  congr 1
  show _ = (⟨Ecp.Bcoef K.pair.rom, 0⟩ : F2 K.pair.rom.p)
  unfold Ecp2.Btw
  cases K.pair.mtype
  · simp only [Bool.false_eq_true, if_false]; rw [div_mul_cancel₀ _ h]
  · simp only [if_true]; rw [mul_inv_cancel_right₀ h]

/-- the image of a point of the curve on the twist -/
theorem twist_eq {x y : ZMod K.pair.rom.p} (e : y ^ 2 = x ^ 3 + Ecp.Bcoef K.pair.rom) :
    (curve2 K.pair).polynomial.eval₂ (Polynomial.eval₂RingHom emb2H (emb1 x * twi K.pair.mtype ^ 2)) (emb1 y * twi K.pair.mtype ^ 3) = (0 : F12 K.pair.rom.p) := by
  have hb := btw_eq (K := K)
  have ht := tw_twi (p := K.pair.rom.p) K.pair.mtype
  have e' : (emb1 y : F12 K.pair.rom.p) ^ 2 = emb1 x ^ 3 + emb1 (Ecp.Bcoef K.pair.rom) := by
    rw [emb1_eq, emb1_eq, emb1_eq, ← map_pow, ← map_pow, e, map_add, map_pow, map_add, map_pow]
  unfold Affine.polynomial curve2 short
  simp only [Polynomial.eval₂_sub, Polynomial.eval₂_add, Polynomial.eval₂_pow, Polynomial.eval₂_X, Polynomial.eval₂_C, Polynomial.coe_eval₂RingHom, map_zero,
    zero_mul, add_zero]
  rw [mul_pow, e', ← hb]
  have h6 : (tw K.pair.mtype : F12 K.pair.rom.p) ^ 6 * twi K.pair.mtype ^ 6 = 1 := by rw [← mul_pow, ht, one_pow]
  generalize (twi K.pair.mtype : F12 K.pair.rom.p) = i at *
  generalize (tw K.pair.mtype : F12 K.pair.rom.p) = w at *
  generalize (emb2H (Btw K.pair) : F12 K.pair.rom.p) = b at *
  linear_combination b * h6

variable (t : TowerPrime K.pair.rom.p) (hdv : rN K.pair ∣ K.pair.rom.p ^ 4 - K.pair.rom.p ^ 2 + 1)

theorem LE_E (q : ZMod K.pair.rom.p × ZMod K.pair.rom.p) {A B : (curve2 K.pair).Point} (hA : A ≠ 0) (hB : B ≠ 0) :
    LE q A B = tw K.pair.mtype ^ 3 * lineE emb2H (emb1 q.1 * twi K.pair.mtype ^ 2) (emb1 q.2 * twi K.pair.mtype ^ 3) A B := by
  rcases A with _ | ⟨x, y, h⟩
  · exact absurd rfl hA
  rcases B with _ | ⟨x', y', h'⟩
  · exact absurd rfl hB
  unfold LE lineE
  dsimp only
  rw [lineAt_E]

include hdv in
theorem array_ev {q : ZMod K.pair.rom.p × ZMod K.pair.rom.p} (hq : q.2 ≠ 0) (he : q.2 ^ 2 = q.1 ^ 3 + Ecp.Bcoef K.pair.rom) {A₁ A₂ B₁ B₂ C₁ C₂ : (curve2 K.pair).Point} (hr : A₁ + B₁ + C₁ = 0)
    (hs : A₂ + B₂ + C₂ = 0) (a1 : A₁ ≠ 0) (a2 : A₂ ≠ 0) (b1 : B₁ ≠ 0) (b2 : B₂ ≠ 0) (c1 : C₁ ≠ 0) (c2 : C₂ ≠ 0) (a : A₁ + A₂ ≠ 0) (b : B₁ + B₂ ≠ 0) (c : C₁ + C₂ ≠ 0) :
    ev K t (LE q A₁ A₂) * ev K t (LE q B₁ B₂) * ev K t (LE q C₁ C₂) = ev K t (LE q A₁ B₁) * ev K t (LE q A₂ B₂) / ev K t (LE q (A₁ + A₂) (B₁ + B₂)) := by
  obtain ⟨k, hk, e⟩ := arrayE emb2H _ _ (twist_eq he) hr hs a1 a2 b1 b2 c1 c2 a b c
  have e' : LE q A₁ A₂ * LE q B₁ B₂ * LE q C₁ C₂ = emb2 k * (LE q A₁ B₁ * LE q A₂ B₂ * LE q (-(A₁ + A₂)) (-(B₁ + B₂))) := by
    rw [LE_E q a1 a2, LE_E q b1 b2, LE_E q c1 c2, LE_E q a1 b1, LE_E q a2 b2, LE_E q (neg_ne_zero.2 a) (neg_ne_zero.2 b), ← emb2H_apply]
    generalize lineE emb2H (emb1 q.1 * twi K.pair.mtype ^ 2) (emb1 q.2 * twi K.pair.mtype ^ 3) A₁ A₂ = l1 at *
    generalize lineE emb2H (emb1 q.1 * twi K.pair.mtype ^ 2) (emb1 q.2 * twi K.pair.mtype ^ 3) B₁ B₂ = l2 at *
    generalize lineE emb2H (emb1 q.1 * twi K.pair.mtype ^ 2) (emb1 q.2 * twi K.pair.mtype ^ 3) C₁ C₂ = l3 at *
    generalize lineE emb2H (emb1 q.1 * twi K.pair.mtype ^ 2) (emb1 q.2 * twi K.pair.mtype ^ 3) A₁ B₁ = l4 at *
    generalize lineE emb2H (emb1 q.1 * twi K.pair.mtype ^ 2) (emb1 q.2 * twi K.pair.mtype ^ 3) A₂ B₂ = l5 at *
    generalize lineE emb2H (emb1 q.1 * twi K.pair.mtype ^ 2) (emb1 q.2 * twi K.pair.mtype ^ 3) (-(A₁ + A₂)) (-(B₁ + B₂)) = l6 at *
    generalize (tw K.pair.mtype : F12 K.pair.rom.p) = w at *
    linear_combination w ^ 9 * e
  have n := fun A B => LE_ne (K := K.pair) hq A B
  rw [← ev_mul t (n _ _) (n _ _), ← ev_mul t (f12_mul_ne t (n _ _) (n _ _)) (n _ _), e', ev_kill_mul t hdv (kill2 t hk) (f12_mul_ne t (f12_mul_ne t (n _ _) (n _ _)) (n _ _)),
    ev_mul t (f12_mul_ne t (n _ _) (n _ _)) (n _ _), ev_mul t (n _ _) (n _ _), LE_neg t, ev_fr6 t hdv (n _ _), div_eq_mul_inv]

include hdv in
/-- three points of the twist with sum zero -/
theorem left_trip (hr : (rN K.pair).Prime) (h3 : 3 < rN K.pair) (h6 : 6 ∣ K.pair.rom.p - 1) {q : ZMod K.pair.rom.p × ZMod K.pair.rom.p} (hq : q.2 ≠ 0) (he : q.2 ^ 2 = q.1 ^ 3 + Ecp.Bcoef K.pair.rom)
    {S : Fin 3 → (curve2 K.pair).Point} (h0 : ∀ i, S i ≠ 0) (ho : ∀ i, rN K.pair • S i = 0) (hf : ∀ i, psi h6 (S i) = (K.pair.rom.p : Int) • S i) (hs : S 0 + S 1 + S 2 = 0) :
    Trip K t h6 (fun _ => q) S (fun m => ev K t (LE q (m • S 0) (m • S 1))) := by
  have nz : ∀ (m : Int) i, m % rN K.pair ≠ 0 → m • S i ≠ 0 := fun m i hm e => hm ((zsmul_zero hr (h0 i) (ho i) m).1 e)
  have sm : ∀ m : Int, m • S 0 + m • S 1 + m • S 2 = 0 := fun m => by rw [← zsmul_add, ← zsmul_add, hs, _root_.zsmul_zero]
  refine ⟨fun _ => hq, hf, ?_, ?_, ?_, ?_, ?_, fun a => ev_ord t hdv _⟩
  · intro m hm
    have m2 := dbl_mod hr h3 hm
    have d : ∀ i, m • S i + m • S i = (2 * m) • S i := fun i => by rw [two_mul, add_zsmul]
    have n2 : ∀ i, m • S i + m • S i ≠ 0 := fun i => by rw [d]; exact nz _ i m2
    have := array_ev t hdv hq he (sm m) (sm m) (nz m 0 hm) (nz m 0 hm) (nz m 1 hm) (nz m 1 hm) (nz m 2 hm) (nz m 2 hm) (n2 0) (n2 1) (n2 2)
    rw [Fin.prod_univ_three, tangent_LE q (n2 0), tangent_LE q (n2 1), tangent_LE q (n2 2), this, d, d, pow_two]
  · intro a b ha hb hab hab'
    have d : ∀ i, a • S i + b • S i = (a + b) • S i := fun i => by rw [add_zsmul]
    have n2 : ∀ i, a • S i + b • S i ≠ 0 := fun i => by rw [d]; exact nz _ i hab'
    have k1 : ∀ i, a • S i ≠ b • S i := fun i e => nz _ i hab (by rw [sub_zsmul, e]; exact sub_self _)
    have k2 : ∀ i, a • S i ≠ -(b • S i) := fun i e => n2 i (by rw [e]; exact neg_add_cancel _)
    have := array_ev t hdv hq he (sm a) (sm b) (nz a 0 ha) (nz b 0 hb) (nz a 1 ha) (nz b 1 hb) (nz a 2 ha) (nz b 2 hb) (n2 0) (n2 1) (n2 2)
    rw [Fin.prod_univ_three, chord_LE q (k1 0) (k2 0), chord_LE q (k1 1) (k2 1), chord_LE q (k1 2) (k2 2), this, d, d]
  · intro a ha
    rw [neg_zsmul, neg_zsmul, LE_neg t, ev_fr6 t hdv (LE_ne hq _ _)]
  · intro a ha
    have k : ∀ i, ((K.pair.rom.p : Int) * a) • S i = psi h6 (a • S i) := fun i => by rw [map_zsmul, hf, smul_smul, mul_comm]
    rw [k, k, LE_fr h6, ev_pow t (LE_ne hq _ _)]
  · intro a b hab
    have k : ∀ i, a • S i = b • S i := fun i => by
      have := (zsmul_zero hr (h0 i) (ho i) (a - b)).2 hab
      rw [sub_zsmul] at this
      exact sub_eq_zero.1 this
    rw [k, k]

end Verif.Ate
