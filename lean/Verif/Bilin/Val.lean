import Verif.Ate.Pairing
import Mathlib.Algebra.CharP.Frobenius
/-
The final exponentiation as a map into the group of units, the Frobenius maps of the extension of degree 12.
-/
namespace Verif.Ate
set_option linter.unusedSectionVars false
open Verif.Big Verif.Fp Verif.Rom Verif.Curve Verif.Tower Verif.Ecp Verif.Ecp2 Verif.Pair Verif.Gt Spec WeierstrassCurve

section
variable {p : Nat} [hp : Fact p.Prime] [h4 : Fact (p % 4 = 3)]

/-- `emb2` is a ring homomorphism -/
def emb2H : F2 p →+* F12 p where
  toFun := emb2
  map_one' := rfl
  map_zero' := rfl
  map_add' a b := by ext <;> simp [emb2]
  map_mul' a b := by ext <;> simp [emb2]

theorem emb2H_apply (c : F2 p) : emb2H c = emb2 c := rfl

/-- `Z/p` in `Z/p[i]` -/
def re2 : ZMod p →+* F2 p where
  toFun c := ⟨c, 0⟩
  map_one' := rfl
  map_zero' := rfl
  map_add' a b := by ext <;> simp
  map_mul' a b := by ext <;> simp

theorem emb1_eq (c : ZMod p) : emb1 c = emb2H (re2 c) := rfl

instance char12 : CharP (F12 p) p := charP_of_injective_ringHom (f := (emb2H.comp re2 : ZMod p →+* F12 p)) (fun a b h => by
  exact congrArg (fun v : F12 p => v.a.re.re) h) p

/-- the Frobenius map -/
noncomputable def fr : F12 p →+* F12 p := frobenius (F12 p) p
theorem fr_apply (v : F12 p) : fr v = v ^ p := rfl

theorem fr_emb2 (c : F2 p) : fr (emb2H c) = emb2H (conjH p c) := by
  rw [fr_apply, ← map_pow, f2_pow h4.out]
  rfl

theorem fr_emb1 (c : ZMod p) : fr (emb1 c) = emb1 c := by
  rw [emb1_eq, fr_emb2]
  congr 1
  show (⟨c, -0⟩ : F2 p) = ⟨c, 0⟩
  rw [neg_zero]

/-- its sixth power -/
noncomputable def fr6 : F12 p →+* F12 p := iterateFrobenius (F12 p) p 6
theorem fr6_apply (v : F12 p) : fr6 v = v ^ p ^ 6 := rfl
theorem fr6_conj (t : TowerPrime p) (v : F12 p) : fr6 v = conj12 v := by rw [fr6_apply, f12_pow6 t.mod8 t.mod6 t.two]

theorem fr6_emb2 (t : TowerPrime p) (c : F2 p) : fr6 (emb2H c) = emb2H c := by
  rw [fr6_conj t]
  show conj12 (emb2 c) = emb2 c
  ext <;> simp [conj12, emb2]

theorem fr6_emb1 (t : TowerPrime p) (c : ZMod p) : fr6 (emb1 c) = emb1 c := by rw [emb1_eq, fr6_emb2 t]

theorem fr6_tw (t : TowerPrime p) (mt : Bool) : fr6 (tw mt : F12 p) = -tw mt := by
  rw [fr6_conj t]
  cases mt
  · show conj12 (gw : F12 p) = -gw
    have h : (1 : F4 p).im = 0 := rfl
    ext <;> simp [conj12, gw, h]
  · rw [twM]
    ext <;> simp [conj12]

theorem gw6 : (gw : F12 p) ^ 6 = emb2H (xi p) := by
  rw [show 6 = 3 * 2 from rfl, pow_mul, gw3]
  show _ = emb2 (xi p)
  ext <;> simp [pow_two, emb2]

theorem xi_nz : xi p ≠ 0 := fun h => one_ne_zero (α := ZMod p) (congrArg QuadraticAlgebra.re h)

/-- `t⁶` -/
theorem tw6 (mt : Bool) : (tw mt : F12 p) ^ 6 = emb2H (if mt then (xi p)⁻¹ else xi p) := by
  cases mt
  · exact gw6
  · show (gw ^ 5 * emb2 (xi p)⁻¹) ^ 6 = emb2H (xi p)⁻¹
    have h : xi p ≠ 0 := xi_nz
    rw [mul_pow, ← pow_mul, show 5 * 6 = 6 * 5 from rfl, pow_mul, gw6, ← emb2H_apply, ← map_pow, ← map_pow, ← map_mul]
    congr 1
    field_simp

theorem kill_tw (t : TowerPrime p) (mt : Bool) : Kill p (tw mt) := by
  cases mt
  · exact kill_gw t
  · exact Kill.mul t ((kill_gw t).pow t 5) (kill2 t (inv_ne_zero xi_nz))

/-- the unit of a nonzero element -/
noncomputable def un (t : TowerPrime p) (v : F12 p) (hv : v ≠ 0) : (F12 p)ˣ :=
  ⟨v, v ^ (p ^ 12 - 2), by
    have h2 : 2 ≤ p ^ 12 := le_trans hp.out.two_le (Nat.le_self_pow (by norm_num) p)
    rw [← pow_succ', show p ^ 12 - 2 + 1 = p ^ 12 - 1 by omega, pow_full t hv], by
    have h2 : 2 ≤ p ^ 12 := le_trans hp.out.two_le (Nat.le_self_pow (by norm_num) p)
    rw [← pow_succ, show p ^ 12 - 2 + 1 = p ^ 12 - 1 by omega, pow_full t hv]⟩
end

section
variable {C : Nat} {K : GlsRom C} [hp : Fact K.pair.rom.p.Prime] [h4 : Fact (K.pair.rom.p % 4 = 3)]
open Classical in
/-- the final exponentiation -/
noncomputable def ev (K : GlsRom C) [Fact K.pair.rom.p.Prime] [Fact (K.pair.rom.p % 4 = 3)] (t : TowerPrime K.pair.rom.p) (v : F12 K.pair.rom.p) : (F12 K.pair.rom.p)ˣ :=
  if hv : v ≠ 0 then un t v hv ^ finN K else 1

variable (t : TowerPrime K.pair.rom.p) (hdv : rN K.pair ∣ K.pair.rom.p ^ 4 - K.pair.rom.p ^ 2 + 1)

theorem ev_val {v : F12 K.pair.rom.p} (hv : v ≠ 0) : (ev K t v : F12 K.pair.rom.p) = v ^ finN K := by
  unfold ev
  rw [dif_pos hv, Units.val_pow_eq_pow_val]
  rfl

theorem ev_mul {v w : F12 K.pair.rom.p} (hv : v ≠ 0) (hw : w ≠ 0) : ev K t (v * w) = ev K t v * ev K t w := by
  apply Units.ext
  rw [Units.val_mul, ev_val t hv, ev_val t hw, ev_val t (f12_mul_ne t hv hw), mul_pow]

theorem ev_one : ev K t 1 = 1 := by
  apply Units.ext
  rw [ev_val t one_ne_zero, one_pow]; rfl

theorem ev_pow {v : F12 K.pair.rom.p} (hv : v ≠ 0) (n : Nat) : ev K t (v ^ n) = ev K t v ^ n := by
  apply Units.ext
  rw [Units.val_pow_eq_pow_val, ev_val t hv, ev_val t (f12_pow_ne t hv n), ← pow_mul, ← pow_mul, Nat.mul_comm]

include hdv in
theorem ev_kill {c : F12 K.pair.rom.p} (hc : Kill K.pair.rom.p c) : ev K t c = 1 := by
  obtain ⟨k, hk⟩ := finN_eq (K := K) hdv
  apply Units.ext
  rw [ev_val t hc.1, hk, pow_mul _ (eN _) k, hc.2, one_pow]; rfl

include hdv in
theorem ev_ord (v : F12 K.pair.rom.p) : ev K t v ^ rN K.pair = 1 := by
  by_cases hv : v ≠ 0
  · apply Units.ext
    have e1 := factor12 (p := K.pair.rom.p) hp.out.pos
    have e3 : (K.pair.rom.p ^ 12 - 1) / rN K.pair * rN K.pair = K.pair.rom.p ^ 12 - 1 := Nat.div_mul_cancel (by rw [e1]; exact Dvd.dvd.mul_left hdv _)
    rw [Units.val_pow_eq_pow_val, ev_val t hv, ← pow_mul, finN, Nat.mul_assoc, e3, Nat.mul_comm, pow_mul, pow_full t hv, one_pow]; rfl
  · unfold ev
    rw [dif_neg hv, one_pow]

include hdv in
theorem ev_inv {v : F12 K.pair.rom.p} (hv : v ≠ 0) : ev K t (v ^ (K.pair.rom.p ^ 12 - 2)) = (ev K t v)⁻¹ := by
  rw [eq_inv_iff_mul_eq_one, ← ev_mul t (f12_pow_ne t hv _) hv]
  have h2 : 2 ≤ K.pair.rom.p ^ 12 := le_trans hp.out.two_le (Nat.le_self_pow (by norm_num) _)
  rw [← pow_succ, show K.pair.rom.p ^ 12 - 2 + 1 = K.pair.rom.p ^ 12 - 1 by omega, pow_full t hv, ev_one]

include hdv in
theorem ev_fr6 {v : F12 K.pair.rom.p} (hv : v ≠ 0) : ev K t (fr6 v) = (ev K t v)⁻¹ := by
  rw [← ev_inv t hdv hv]
  obtain ⟨k, hk⟩ := finN_eq (K := K) hdv
  have h1 : fr6 v ≠ 0 := by rw [fr6_apply]; exact f12_pow_ne t hv _
  apply Units.ext
  rw [ev_val t h1, ev_val t (f12_pow_ne t hv _), hk, pow_mul _ (eN _) k, pow_mul _ (eN _) k, fr6_conj t, conj_inv t hv]

include hdv in
theorem ev_neg {v : F12 K.pair.rom.p} (hv : v ≠ 0) : ev K t (-v) = ev K t v := by
  have h1 : Kill K.pair.rom.p (-1) := by
    have := kill2 t (c := (-1 : F2 K.pair.rom.p)) (neg_ne_zero.2 one_ne_zero)
    rwa [← emb2H_apply, map_neg, map_one] at this
  rw [← neg_one_mul v, ev_mul t h1.1 hv, ev_kill t hdv h1, one_mul]

include hdv in
theorem ev_kill_mul {c v : F12 K.pair.rom.p} (hc : Kill K.pair.rom.p c) (hv : v ≠ 0) : ev K t (c * v) = ev K t v := by
  rw [ev_mul t hc.1 hv, ev_kill t hdv hc, one_mul]
end
end Verif.Ate
