import Verif.Bilin.Vieta
/-
Additivity of the pairing in the point of the curve: three points of a line.
-/
namespace Verif.Ate
set_option linter.unusedSectionVars false
open Verif.Big Verif.Fp Verif.Rom Verif.Curve Verif.Tower Verif.Ecp Verif.Ecp2 Verif.Pair Verif.Gt Spec WeierstrassCurve

theorem recip_ring {L : Type*} [CommRing L] {b l n m k a₁ a₂ a₃ u₁ u₂ u₃ v₁ v₂ v₃ y₁ y₂ y₃ w : L} (a1 : a₁ * w ^ 2 + a₂ * w ^ 2 + a₃ * w ^ 2 = (l * w) ^ 2)
    (a2 : a₁ * w ^ 2 * (a₂ * w ^ 2) + a₁ * w ^ 2 * (a₃ * w ^ 2) + a₂ * w ^ 2 * (a₃ * w ^ 2) = -((l * w) * (n * w ^ 3) + (l * w) * (n * w ^ 3))) (a3 : a₁ * w ^ 2 * (a₂ * w ^ 2) * (a₃ * w ^ 2) = (n * w ^ 3) ^ 2 - b)
    (u1 : u₁ + u₂ + u₃ = m ^ 2) (u2 : u₁ * u₂ + u₁ * u₃ + u₂ * u₃ = -(m * k + m * k)) (u3 : u₁ * u₂ * u₃ = k ^ 2 - b)
    (k1 : v₁ = m * u₁ + k) (k2 : v₂ = m * u₂ + k) (k3 : v₃ = m * u₃ + k) (j1 : y₁ = l * a₁ + n) (j2 : y₂ = l * a₂ + n) (j3 : y₃ = l * a₃ + n) :
    (v₁ - l * w * u₁ - n * w ^ 3) * (v₂ - l * w * u₂ - n * w ^ 3) * (v₃ - l * w * u₃ - n * w ^ 3) =
      -((y₁ * w ^ 3 - m * (a₁ * w ^ 2) - k) * (y₂ * w ^ 3 - m * (a₂ * w ^ 2) - k) * (y₃ * w ^ 3 - m * (a₃ * w ^ 2) - k)) := by
  have r := recip a1 (a2.trans (by ring)) a3 u1 (u2.trans (by ring)) u3
  subst k1 k2 k3 j1 j2 j3
  linear_combination r

variable {C : Nat} {K : GlsRom C} [hp : Fact K.pair.rom.p.Prime] [h4 : Fact (K.pair.rom.p % 4 = 3)]

/-- the line `y = m x + k` of the curve at the image of a point of the twist -/
noncomputable def gA (m k : ZMod K.pair.rom.p) : (curve2 K.pair).Point → F12 K.pair.rom.p
  | .zero => 1
  | .some x y _ => emb2H y * tw K.pair.mtype ^ 3 - emb1 m * (emb2H x * tw K.pair.mtype ^ 2) - emb1 k

theorem gA_some (m k : ZMod K.pair.rom.p) (x y : F2 K.pair.rom.p) (h) : gA m k (.some x y h : (curve2 K.pair).Point) = emb2H y * tw K.pair.mtype ^ 3 - emb1 m * (emb2H x * tw K.pair.mtype ^ 2) - emb1 k := by
  unfold gA
  dsimp only

theorem LE_some (q : ZMod K.pair.rom.p × ZMod K.pair.rom.p) (x₁ y₁ x₂ y₂ : F2 K.pair.rom.p) (h₁ h₂) :
    LE q (.some x₁ y₁ h₁ : (curve2 K.pair).Point) (.some x₂ y₂ h₂) = lineAt K.pair.mtype x₁ y₁ ((curve2 K.pair).slope x₁ x₂ y₁ y₂) q := by
  unfold LE
  dsimp only

theorem lineAt_form {p : Nat} [Fact p.Prime] [Fact (p % 4 = 3)] (mt : Bool) (x y l : F2 p) (q : ZMod p × ZMod p) :
    lineAt mt x y l q = emb1 q.2 - emb2H l * tw mt * emb1 q.1 - emb2H (y - l * x) * tw mt ^ 3 := by
  unfold lineAt
  rw [← emb2H_apply, ← emb2H_apply, ← emb2H_apply, map_sub, map_mul]
  ring

theorem psi_some (h6 : 6 ∣ K.pair.rom.p - 1) (x y : F2 K.pair.rom.p) (h) :
    ∃ h', psi h6 (.some x y h : (curve2 K.pair).Point) = .some (frobZ K.pair ^ 2 * conjH K.pair.rom.p x) (frobZ K.pair ^ 3 * conjH K.pair.rom.p y) h' := ⟨_, rfl⟩

theorem gA_neg (t : TowerPrime K.pair.rom.p) (m k : ZMod K.pair.rom.p) (X : (curve2 K.pair).Point) : gA m k (-X) = fr6 (gA m k X) := by
  rcases X with _ | ⟨x, y, h⟩
  · exact (map_one _).symm
  rw [Affine.Point.neg_some]
  unfold gA
  dsimp only
  rw [short_negY]
  simp only [map_sub, map_mul, map_pow, map_neg, fr6_emb1 t, fr6_emb2 t, fr6_tw t]
  ring

theorem gA_fr (h6 : 6 ∣ K.pair.rom.p - 1) (m k : ZMod K.pair.rom.p) (X : (curve2 K.pair).Point) : gA m k (psi h6 X) = gA m k X ^ K.pair.rom.p := by
  rw [← fr_apply]
  rcases X with _ | ⟨x, y, h⟩
  · exact (map_one _).symm
  obtain ⟨h', e⟩ := psi_some h6 x y h
  rw [e, gA_some, gA_some]
  simp only [map_sub, map_mul, map_pow, fr_emb1, fr_emb2, fr_tw h6]
  ring

theorem emb2H_inj {c : F2 K.pair.rom.p} (h : emb2H c = 0) : c = 0 := congrArg (fun v : F12 K.pair.rom.p => v.a.re) h

theorem gA_ne (h : TCurve K.pair) (t : TowerPrime K.pair.rom.p) (m k : ZMod K.pair.rom.p) (X : (curve2 K.pair).Point) : gA m k X ≠ 0 := by
  rcases X with _ | ⟨x, y, hh⟩
  · exact one_ne_zero
  intro e
  have e2 := gA_neg t m k (.some x y hh)
  rw [e, map_zero, Affine.Point.neg_some] at e2
  unfold gA at e e2
  dsimp only at e e2
  rw [short_negY, map_neg] at e2
  have e3 : emb2H (2 * y) * tw K.pair.mtype ^ 3 = 0 := by
    rw [map_mul, map_ofNat]
    linear_combination e - e2
  have ht := tw_twi (p := K.pair.rom.p) K.pair.mtype
  have e4 : emb2H (2 * y) = (0 : F12 K.pair.rom.p) := by
    calc emb2H (2 * y) = emb2H (2 * y) * (tw K.pair.mtype * twi K.pair.mtype) ^ 3 := by rw [ht, one_pow, mul_one]
      _ = emb2H (2 * y) * tw K.pair.mtype ^ 3 * twi K.pair.mtype ^ 3 := by ring
      _ = 0 := by rw [e3, zero_mul]
  rcases mul_eq_zero.1 (emb2H_inj e4) with h0 | h0
  · exact two_ne t h0
  · exact y_ne h hh h0

theorem col_emb {l n x₁ x₂ x₃ y₁ y₂ y₃ : F2 K.pair.rom.p} (h : Col 0 (Btw K.pair) l n x₁ x₂ x₃ y₁ y₂ y₃) (w : F12 K.pair.rom.p) :
    (emb2H x₁ * w ^ 2 + emb2H x₂ * w ^ 2 + emb2H x₃ * w ^ 2 = (emb2H l * w) ^ 2) ∧
    (emb2H x₁ * w ^ 2 * (emb2H x₂ * w ^ 2) + emb2H x₁ * w ^ 2 * (emb2H x₃ * w ^ 2) + emb2H x₂ * w ^ 2 * (emb2H x₃ * w ^ 2) = -((emb2H l * w) * (emb2H n * w ^ 3) + (emb2H l * w) * (emb2H n * w ^ 3))) ∧
    (emb2H x₁ * w ^ 2 * (emb2H x₂ * w ^ 2) * (emb2H x₃ * w ^ 2) = (emb2H n * w ^ 3) ^ 2 - emb2H (Btw K.pair) * w ^ 6) := by
  have e1 := congrArg emb2H h.e1
  have e2 := congrArg emb2H h.e2
  have e3 := congrArg emb2H h.e3
  simp only [map_add, map_mul, map_sub, map_pow, map_zero, map_ofNat] at e1 e2 e3
  refine ⟨?_, ?_, ?_⟩
  · linear_combination w ^ 2 * e1
  · linear_combination w ^ 4 * e2
  · linear_combination w ^ 6 * e3

theorem col_emb1 {m k x₁ x₂ x₃ y₁ y₂ y₃ b : ZMod K.pair.rom.p} (h : Col 0 b m k x₁ x₂ x₃ y₁ y₂ y₃) :
    (emb1 x₁ + emb1 x₂ + emb1 x₃ = (emb1 m : F12 K.pair.rom.p) ^ 2) ∧ (emb1 x₁ * emb1 x₂ + emb1 x₁ * emb1 x₃ + emb1 x₂ * emb1 x₃ = -(emb1 m * (emb1 k : F12 K.pair.rom.p) + emb1 m * (emb1 k : F12 K.pair.rom.p))) ∧
    (emb1 x₁ * emb1 x₂ * emb1 x₃ = (emb1 k : F12 K.pair.rom.p) ^ 2 - emb1 b) := by
  have e1 := congrArg (emb2H.comp re2) h.e1
  have e2 := congrArg (emb2H.comp re2) h.e2
  have e3 := congrArg (emb2H.comp re2) h.e3
  simp only [map_add, map_mul, map_sub, map_pow, map_zero, map_ofNat, RingHom.comp_apply, ← emb1_eq] at e1 e2 e3
  refine ⟨e1, ?_, e3⟩
  linear_combination e2

theorem emb1_line {m k u v : ZMod K.pair.rom.p} (h : v = m * u + k) : (emb1 v : F12 K.pair.rom.p) = emb1 m * emb1 u + emb1 k := by
  rw [h]; simp only [emb1_eq, map_add, map_mul]
theorem emb2_line {x y l n : F2 K.pair.rom.p} (h : y = l * x + n) : (emb2H y : F12 K.pair.rom.p) = emb2H l * emb2H x + emb2H n := by rw [h, map_add, map_mul]

theorem ne_some {A : (curve2 K.pair).Point} (h : A ≠ 0) : ∃ x y hh, A = .some x y hh := by
  cases A with
  | zero => exact absurd rfl h
  | some x y hh => exact ⟨x, y, hh, rfl⟩

theorem line_recip' {m k : ZMod K.pair.rom.p} {q₁ q₂ q₃ : ZMod K.pair.rom.p × ZMod K.pair.rom.p} (hu : Col 0 (Ecp.Bcoef K.pair.rom) m k q₁.1 q₂.1 q₃.1 q₁.2 q₂.2 q₃.2)
    {x₁ x₂ x₃ y₁ y₂ y₃ l n : F2 K.pair.rom.p} (hc : Col 0 (Btw K.pair) l n x₁ x₂ x₃ y₁ y₂ y₃) :
    (emb1 q₁.2 - emb2H l * tw K.pair.mtype * emb1 q₁.1 - emb2H n * tw K.pair.mtype ^ 3) * (emb1 q₂.2 - emb2H l * tw K.pair.mtype * emb1 q₂.1 - emb2H n * tw K.pair.mtype ^ 3) *
      (emb1 q₃.2 - emb2H l * tw K.pair.mtype * emb1 q₃.1 - emb2H n * tw K.pair.mtype ^ 3) =
    -((emb2H y₁ * tw K.pair.mtype ^ 3 - emb1 m * (emb2H x₁ * tw K.pair.mtype ^ 2) - emb1 k) * (emb2H y₂ * tw K.pair.mtype ^ 3 - emb1 m * (emb2H x₂ * tw K.pair.mtype ^ 2) - emb1 k) *
      (emb2H y₃ * tw K.pair.mtype ^ 3 - emb1 m * (emb2H x₃ * tw K.pair.mtype ^ 2) - emb1 k) : F12 K.pair.rom.p) := by
  obtain ⟨c1, c2, c3⟩ := col_emb hc (tw K.pair.mtype)
  obtain ⟨d1, d2, d3⟩ := col_emb1 hu
  rw [btw_eq] at c3
  have k1 := emb1_line hu.l1
  have k2 := emb1_line hu.l2
  have k3 := emb1_line hu.l3
  have j1 := emb2_line hc.l1
  have j2 := emb2_line hc.l2
  have j3 := emb2_line hc.l3
  clear hu hc
  generalize (emb2H n : F12 K.pair.rom.p) = n at *
  generalize (emb2H l : F12 K.pair.rom.p) = l at *
  generalize (tw K.pair.mtype : F12 K.pair.rom.p) = w at *
  generalize (emb1 m : F12 K.pair.rom.p) = m at *
  generalize (emb1 k : F12 K.pair.rom.p) = k at *
  generalize (emb1 q₁.1 : F12 K.pair.rom.p) = u1 at *
  generalize (emb1 q₂.1 : F12 K.pair.rom.p) = u2 at *
  generalize (emb1 q₃.1 : F12 K.pair.rom.p) = u3 at *
  generalize (emb1 q₁.2 : F12 K.pair.rom.p) = v1 at *
  generalize (emb1 q₂.2 : F12 K.pair.rom.p) = v2 at *
  generalize (emb1 q₃.2 : F12 K.pair.rom.p) = v3 at *
  generalize (emb2H x₁ : F12 K.pair.rom.p) = a1 at *
  generalize (emb2H x₂ : F12 K.pair.rom.p) = a2 at *
  generalize (emb2H x₃ : F12 K.pair.rom.p) = a3 at *
  generalize (emb2H y₁ : F12 K.pair.rom.p) = y1 at *
  generalize (emb2H y₂ : F12 K.pair.rom.p) = y2 at *
  generalize (emb2H y₃ : F12 K.pair.rom.p) = y3 at *
  generalize (emb1 (Ecp.Bcoef K.pair.rom) : F12 K.pair.rom.p) = b at *
  rw [k1, k2, k3, j1, j2, j3]
  clear k1 k2 k3 j1 j2 j3
  linear_combination (m - l * w) * (k - n * w ^ 3) ^ 2 * d1 + (m - l * w) ^ 2 * (k - n * w ^ 3) * d2 + (m - l * w) ^ 3 * d3 + (l * w - m) * (n * w ^ 3 - k) ^ 2 * c1 +
    (l * w - m) ^ 2 * (n * w ^ 3 - k) * c2 + (l * w - m) ^ 3 * c3

/-- reciprocity -/
theorem line_recip {m k : ZMod K.pair.rom.p} {q₁ q₂ q₃ : ZMod K.pair.rom.p × ZMod K.pair.rom.p} (hu : Col 0 (Ecp.Bcoef K.pair.rom) m k q₁.1 q₂.1 q₃.1 q₁.2 q₂.2 q₃.2)
    {A B : (curve2 K.pair).Point} (hA : A ≠ 0) (hB : B ≠ 0) (hAB : A + B ≠ 0) : LE q₁ A B * LE q₂ A B * LE q₃ A B = -(gA m k A * gA m k B * gA m k (-(A + B))) := by
  obtain ⟨x₃, y₃, h₃, hC⟩ := ne_some (neg_ne_zero.2 hAB)
  rw [hC]
  obtain ⟨x₁, y₁, h₁, rfl⟩ := ne_some hA
  obtain ⟨x₂, y₂, h₂, rfl⟩ := ne_some hB
  have hc := vieta (neg_eq_iff_eq_neg.1 hC)
  rw [LE_some, LE_some, LE_some, gA_some, gA_some, gA_some, lineAt_form, lineAt_form, lineAt_form]
  exact line_recip' hu hc

variable (t : TowerPrime K.pair.rom.p) (hdv : rN K.pair ∣ K.pair.rom.p ^ 4 - K.pair.rom.p ^ 2 + 1)

include hdv in
theorem recip_ev (h : TCurve K.pair) {m k : ZMod K.pair.rom.p} {q₁ q₂ q₃ : ZMod K.pair.rom.p × ZMod K.pair.rom.p} (hu : Col 0 (Ecp.Bcoef K.pair.rom) m k q₁.1 q₂.1 q₃.1 q₁.2 q₂.2 q₃.2) (h1 : q₁.2 ≠ 0) (h2 : q₂.2 ≠ 0) (h3 : q₃.2 ≠ 0)
    {A B : (curve2 K.pair).Point} (hA : A ≠ 0) (hB : B ≠ 0) (hAB : A + B ≠ 0) :
    ev K t (LE q₁ A B) * ev K t (LE q₂ A B) * ev K t (LE q₃ A B) = ev K t (gA m k A) * ev K t (gA m k B) / ev K t (gA m k (A + B)) := by
  have g := gA_ne h t m k
  have n1 := LE_ne (K := K.pair) (q := q₁) h1 A B
  have n2 := LE_ne (K := K.pair) (q := q₂) h2 A B
  have n3 := LE_ne (K := K.pair) (q := q₃) h3 A B
  rw [← ev_mul t n1 n2, ← ev_mul t (f12_mul_ne t n1 n2) n3, line_recip hu hA hB hAB, ev_neg t hdv (f12_mul_ne t (f12_mul_ne t (g _) (g _)) (g _)), ev_mul t (f12_mul_ne t (g _) (g _)) (g _),
    ev_mul t (g _) (g _), gA_neg t, ev_fr6 t hdv (g _), div_eq_mul_inv]

include hdv in
/-- three points of a line of the curve -/
theorem right_trip (hr : (rN K.pair).Prime) (h3 : 3 < rN K.pair) (h : TCurve K.pair) (h6 : 6 ∣ K.pair.rom.p - 1) {m k : ZMod K.pair.rom.p} {q : Fin 3 → ZMod K.pair.rom.p × ZMod K.pair.rom.p}
    (hu : Col 0 (Ecp.Bcoef K.pair.rom) m k (q 0).1 (q 1).1 (q 2).1 (q 0).2 (q 1).2 (q 2).2) (hq : ∀ i, (q i).2 ≠ 0)
    {S : (curve2 K.pair).Point} (h0 : S ≠ 0) (ho : rN K.pair • S = 0) (hf : psi h6 S = (K.pair.rom.p : Int) • S) :
    Trip K t h6 q (fun _ => S) (fun a => ev K t (gA m k (a • S))) := by
  have nz : ∀ a : Int, a % rN K.pair ≠ 0 → a • S ≠ 0 := fun a ha e => ha ((zsmul_zero hr h0 ho a).1 e)
  have g := gA_ne h t m k
  refine ⟨hq, fun _ => hf, ?_, ?_, ?_, ?_, ?_, fun a => ev_ord t hdv _⟩
  · intro a ha
    have a2 := dbl_mod hr h3 ha
    have d : a • S + a • S = (2 * a) • S := by rw [two_mul, add_zsmul]
    have n2 : a • S + a • S ≠ 0 := by rw [d]; exact nz _ a2
    have := recip_ev t hdv h hu (hq 0) (hq 1) (hq 2) (nz a ha) (nz a ha) n2
    rw [Fin.prod_univ_three, tangent_LE (q 0) n2, tangent_LE (q 1) n2, tangent_LE (q 2) n2, this, d, pow_two]
  · intro a b ha hb hab hab'
    have d : a • S + b • S = (a + b) • S := by rw [add_zsmul]
    have n2 : a • S + b • S ≠ 0 := by rw [d]; exact nz _ hab'
    have k1 : a • S ≠ b • S := fun e => nz _ hab (by rw [sub_zsmul, e]; exact sub_self _)
    have k2 : a • S ≠ -(b • S) := fun e => n2 (by rw [e]; exact neg_add_cancel _)
    have := recip_ev t hdv h hu (hq 0) (hq 1) (hq 2) (nz a ha) (nz b hb) n2
    rw [Fin.prod_univ_three, chord_LE (q 0) k1 k2, chord_LE (q 1) k1 k2, chord_LE (q 2) k1 k2, this, d]
  · intro a ha
    rw [neg_zsmul, gA_neg t, ev_fr6 t hdv (g _)]
  · intro a ha
    have e : ((K.pair.rom.p : Int) * a) • S = psi h6 (a • S) := by rw [map_zsmul, hf, smul_smul, mul_comm]
    rw [e, gA_fr h6, ev_pow t (g _)]
  · intro a b hab
    have e : a • S = b • S := by
      have := (zsmul_zero hr h0 ho (a - b)).2 hab
      rw [sub_zsmul] at this
      exact sub_eq_zero.1 this
    rw [e]

end Verif.Ate
