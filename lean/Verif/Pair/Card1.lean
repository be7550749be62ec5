import Verif.Pair.G1
import Verif.Common.Span
/-
The number of points of the curve `y² = x³ + 4` of BLS12-381, and the exponent of its group.
-/
namespace Verif.Pair
open Verif.Big Verif.Fp Verif.Rom Verif.Ecp Verif.Curve Spec WeierstrassCurve

theorem short_ns {F : Type} [Field F] [DecidableEq F] {A B x y : F} (h2 : NoTwoTorsion A B) (hc : (2 : F) ≠ 0) (e : y ^ 2 = x ^ 3 + A * x + B) :
    (short A B).Nonsingular x y := by
  have he : (short A B).Equation x y := short_eq.2 e
  rw [Affine.nonsingular_iff]
  refine ⟨he, Or.inr ?_⟩
  have hy := y_ne h2 he
  intro hn
  apply hy
  simp [short] at hn
  have : 2 * y = 0 := by linear_combination hn
  exact (mul_eq_zero.1 this).resolve_left hc

section
variable {p : Nat} [hp : Fact p.Prime] {A B' : ZMod p}

/-- a point of order dividing `l` -/
def ptB (p B x y l : Nat) : Bool := decide (y * y % p = (x * x * x + B) % p) && zeroB p 0 B x y l

theorem ptB_sound (hA : A = 0) {B x y l : Nat} (hB : (B : ZMod p) = B') (h2 : NoTwoTorsion A B') (hc : (2 : ZMod p) ≠ 0) (h : ptB p B x y l = true) :
    ∃ hh : (short A B').Nonsingular (x : ZMod p) (y : ZMod p), l • Affine.Point.some _ _ hh = 0 := by
  unfold ptB at h
  simp only [Bool.and_eq_true, decide_eq_true_eq] at h
  have e : ((y * y % p : Nat) : ZMod p) = (((x * x * x + B) % p : Nat) : ZMod p) := by rw [h.1]
  rw [ZMod.natCast_mod, ZMod.natCast_mod] at e
  push_cast at e
  have hh : (short A B').Nonsingular (x : ZMod p) (y : ZMod p) := short_ns h2 hc (by rw [hA, ← hB]; linear_combination e)
  refine ⟨hh, ?_⟩
  subst hA
  have hA' : ((0 : Int) : ZMod p) = 0 := Int.cast_zero
  revert h2 hh
  rw [← hA']
  intro h2 hh
  exact zeroB_sound hB rfl rfl h2 hc hh h.2

/-- `k • (x, y)` and `(w x, y)` have different abscissas -/
def neB (p B x y w k : Nat) : Bool :=
  let R := mulN p 0 0 (3 * B % p) (x, y, 1) (k.log2 + 1) k
  w * x * R.2.2 % p != R.1 % p

theorem neB_sound (hA : A = 0) {B x y W k : Nat} (hB : (B : ZMod p) = B') (h2 : NoTwoTorsion A B') (hc : (2 : ZMod p) ≠ 0) {w : ZMod p} (hw : (W : ZMod p) = w)
    (hpr : Preserves (RingHom.id (ZMod p)) w 1 A B') (hh : (short A B').Nonsingular (x : ZMod p) (y : ZMod p)) (h : neB p B x y W k = true) :
    endo hpr (Affine.Point.some _ _ hh) ≠ k • Affine.Point.some _ _ hh := by
  have : NeZero p := ⟨hp.1.ne_zero⟩
  have hP : Denotes (castN (x, y, 1)) (Affine.Point.some _ _ hh) := ⟨by simp [castN], by simp [castN], by simp [castN]⟩
  have hd := mulN_denotes h2 hc (by rw [hA]; simp : ((0 : Nat) : ZMod p) = A) (by rw [hA]; simp : ((0 : Nat) : ZMod p) = -A)
    (by rw [ZMod.natCast_mod, ← hB]; push_cast; rfl : ((3 * B % p : Nat) : ZMod p) = 3 * B') hP (k.log2 + 1) k (Nat.lt_log2_self)
  unfold neB at h
  simp only [bne_iff_ne, ne_eq] at h
  generalize mulN p 0 0 (3 * B % p) (x, y, 1) (k.log2 + 1) k = R at hd h
  intro he
  rw [← he, endo_some] at hd
  obtain ⟨d1, d2, d3⟩ := hd
  apply h
  have d2' : (R.1 : ZMod p) = (w * (x : ZMod p)) * (R.2.2 : ZMod p) := d2
  have : ((w : ZMod p) * x * R.2.2) = R.1 := d2'.symm
  rw [← hw] at this
  have h3 : ((W * x * R.2.2 : Nat) : ZMod p) = ((R.1 : Nat) : ZMod p) := by push_cast; exact this
  exact (ZMod.natCast_eq_natCast_iff _ _ _).1 h3

end

/-- no root of `k² + k + 1` modulo a prime `3 m + 2` -/
theorem noroot {l : Nat} (hl : l.Prime) (h3 : l % 3 = 2) (h2 : l ≠ 2) {k : Nat} (h : l ∣ k ^ 2 + k + 1) : False := by
  have : Fact l.Prime := ⟨hl⟩
  have e : (k : ZMod l) ^ 2 + k + 1 = 0 := by
    have := (ZMod.natCast_eq_zero_iff _ _).2 h
    push_cast at this; exact this
  have hk : (k : ZMod l) ≠ 0 := by
    intro hc
    rw [hc] at e; simp at e
  have e3 : (k : ZMod l) ^ 3 = 1 := by linear_combination (k - 1 : ZMod l) * e
  have hf := ZMod.pow_card_sub_one_eq_one hk
  have : l - 1 = 3 * (l / 3) + 1 := by omega
  rw [this, pow_succ, pow_mul, e3, one_pow, one_mul] at hf
  rw [hf] at e
  have h0 : ((3 : Nat) : ZMod l) = 0 := by push_cast; linear_combination e
  have hd := (ZMod.natCast_eq_zero_iff _ _).1 h0
  have : l ≤ 3 := Nat.le_of_dvd (by norm_num) hd
  have := hl.two_le
  interval_cases l <;> omega

/-- the two roots -/
theorem tworoots {l : Nat} (hl : l.Prime) {k1 k : Nat} (h1 : l ∣ k1 ^ 2 + k1 + 1) (hk1 : k1 < l) (hk : k < l) (h : l ∣ k ^ 2 + k + 1) : k = k1 ∨ k = l - 1 - k1 := by
  have h1' : (l : Int) ∣ (k1 : Int) ^ 2 + k1 + 1 := by exact_mod_cast h1
  have h' : (l : Int) ∣ (k : Int) ^ 2 + k + 1 := by exact_mod_cast h
  have hd : (l : Int) ∣ ((k : Int) - k1) * (k + k1 + 1) := by
    have := dvd_sub h' h1'
    rwa [show (k : Int) ^ 2 + k + 1 - (k1 ^ 2 + k1 + 1) = ((k : Int) - k1) * (k + k1 + 1) by ring] at this
  rcases (Nat.prime_iff_prime_int.1 hl).dvd_or_dvd hd with h | h
  · left
    obtain ⟨c, hc⟩ := h
    have hc0 : c = 0 := by
      by_contra hne
      have hlp : (0 : Int) < l := by exact_mod_cast hl.pos
      rcases lt_or_gt_of_ne hne with h | h
      · have : (l : Int) * c ≤ l * (-1) := Int.mul_le_mul_of_nonneg_left (by omega) hlp.le
        omega
      · have : (l : Int) * 1 ≤ l * c := Int.mul_le_mul_of_nonneg_left (by omega) hlp.le
        omega
    rw [hc0, mul_zero] at hc
    omega
  · right
    obtain ⟨c, hc⟩ := h
    have hlp : (0 : Int) < l := by exact_mod_cast hl.pos
    have hc1 : c = 1 := by
      by_contra hne
      rcases lt_or_gt_of_ne hne with h | h
      · have : (l : Int) * c ≤ l * 0 := Int.mul_le_mul_of_nonneg_left (by omega) hlp.le
        omega
      · have : (l : Int) * 2 ≤ l * c := Int.mul_le_mul_of_nonneg_left (by omega) hlp.le
        omega
    rw [hc1, mul_one] at hc
    omega

end Verif.Pair
