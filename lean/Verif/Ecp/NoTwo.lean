import Verif.Common.Pocklington
import Verif.Spec.Curve
import Verif.Rom.Model
import Mathlib.Data.ZMod.Basic
import Mathlib.Tactic.LinearCombination
/-
Deciding that `x^3 + A x + B` has no root modulo a prime: for `A = 0` by the cubic residue symbol of `-B`, otherwise
by computing `X^p` modulo the cubic and inverting `X^p - X`.
-/
namespace Verif.Ecp
open Verif.Curve

/-- product of `a0 + a1 X + a2 X^2` and `c0 + c1 X + c2 X^2` modulo `p` and `X^3 = nA X + nB` -/
def mulT (p nA nB : Nat) (a c : Nat × Nat × Nat) : Nat × Nat × Nat :=
  let c3 := a.2.1 * c.2.2 + a.2.2 * c.2.1
  let c4 := a.2.2 * c.2.2
  ((a.1 * c.1 + c3 * nB) % p, (a.1 * c.2.1 + a.2.1 * c.1 + c3 * nA + c4 * nB) % p, (a.1 * c.2.2 + a.2.1 * c.2.1 + a.2.2 * c.1 + c4 * nA) % p)

/-- `a ^ e` by squaring, `k` bounds the number of bits of `e` -/
def powT (p nA nB : Nat) : Nat → Nat × Nat × Nat → Nat → Nat × Nat × Nat
  | 0, _, _ => (1, 0, 0)
  | k + 1, a, e => if e = 0 then (1, 0, 0) else
      let h := powT p nA nB k (mulT p nA nB a a) (e / 2)
      if e % 2 = 1 then mulT p nA nB h a else h

variable {p : Nat}

def evalT (r : ZMod p) (a : Nat × Nat × Nat) : ZMod p := a.1 + a.2.1 * r + a.2.2 * r ^ 2

theorem evalT_mul {nA nB : Nat} {r : ZMod p} (hr : r ^ 3 = nA * r + nB) (a c : Nat × Nat × Nat) : evalT r (mulT p nA nB a c) = evalT r a * evalT r c := by
  simp only [evalT, mulT, ZMod.natCast_mod]
  push_cast
  linear_combination (-((a.2.1 : ZMod p) * c.2.2 + a.2.2 * c.2.1) - (a.2.2 : ZMod p) * c.2.2 * r) * hr

theorem evalT_pow {nA nB : Nat} {r : ZMod p} (hr : r ^ 3 = nA * r + nB) (k : Nat) (a : Nat × Nat × Nat) (e : Nat) (he : e < 2 ^ k) :
    evalT r (powT p nA nB k a e) = evalT r a ^ e := by
  induction k generalizing a e with
  | zero => have : e = 0 := by simpa using he
            subst this; simp [powT, evalT]
  | succ k ih =>
    simp only [powT]
    split_ifs with h0 h1
    · subst h0; simp [evalT]
    · rw [evalT_mul hr, ih _ _ (by rw [pow_succ] at he; omega), evalT_mul hr, ← pow_two, ← pow_mul, ← pow_succ]
      congr 1; omega
    · rw [ih _ _ (by rw [pow_succ] at he; omega), evalT_mul hr, ← pow_two, ← pow_mul]
      congr 1; omega

/-- check for `A = 0` -/
def cubeB (p B : Nat) : Bool := p % 3 == 1 && B % p != 0 && powMod p (p.log2 + 1) (p - B % p) ((p - 1) / 3) != 1

/-- check with certificate `u` -/
def cubicB (p : Nat) (A : Int) (B : Nat) (u : Nat × Nat × Nat) : Bool :=
  let nA := (-A % p).toNat
  let nB := p - B % p
  let g := powT p nA nB (p.log2 + 1) (0, 1, 0) p
  mulT p nA nB (g.1, g.2.1 + (p - 1), g.2.2) u == (1, 0, 0)

theorem cubeB_sound [hp : Fact p.Prime] {B : Nat} (h : cubeB p B = true) : NoTwoTorsion (0 : ZMod p) (B : ZMod p) := by
  unfold cubeB at h
  simp only [Bool.and_eq_true, bne_iff_ne, beq_iff_eq] at h
  obtain ⟨⟨h1, h2⟩, h3⟩ := h
  have h2p := hp.out.two_le
  rw [powMod_eq _ _ _ _ (lt_of_le_of_lt (Nat.div_le_self _ _) (lt_of_le_of_lt (Nat.sub_le _ _) Nat.lt_log2_self))] at h3
  intro x hx
  apply h3
  have hB : ((p - B % p : Nat) : ZMod p) = -(B : ZMod p) := by
    rw [Nat.cast_sub (Nat.mod_lt _ hp.out.pos).le]; simp
  have hcube : x ^ 3 = -(B : ZMod p) := by linear_combination hx
  have hx0 : x ≠ 0 := by
    rintro rfl
    have : (B : ZMod p) = 0 := by linear_combination hx
    rw [ZMod.natCast_eq_zero_iff] at this
    exact h2 (Nat.mod_eq_zero_of_dvd this)
  have hpow : ((p - B % p : Nat) : ZMod p) ^ ((p - 1) / 3) = 1 := by
    rw [hB, ← hcube, ← pow_mul, show 3 * ((p - 1) / 3) = p - 1 by omega]
    exact ZMod.pow_card_sub_one_eq_one hx0
  have h1' : (((p - B % p) ^ ((p - 1) / 3) : Nat) : ZMod p) = ((1 : Nat) : ZMod p) := by push_cast; exact_mod_cast hpow
  rw [ZMod.natCast_eq_natCast_iff'] at h1'
  rw [h1', Nat.mod_eq_of_lt (by omega)]

theorem cubicB_sound [hp : Fact p.Prime] {A : Int} {B : Nat} {u : Nat × Nat × Nat} (h : cubicB p A B u = true) : NoTwoTorsion (A : ZMod p) (B : ZMod p) := by
  have h2p := hp.out.two_le
  unfold cubicB at h
  simp only [beq_iff_eq] at h
  intro r hr
  have hA : (((-A % p).toNat : Nat) : ZMod p) = -(A : ZMod p) := by
    have h0 : ((-A % p).toNat : Int) = -A % p := Int.toNat_of_nonneg (Int.emod_nonneg _ (by exact_mod_cast hp.out.ne_zero))
    have : (((-A % p).toNat : Int) : ZMod p) = ((-A % p : Int) : ZMod p) := by rw [h0]
    rw [Int.cast_natCast] at this
    rw [this]; simp
  have hB : ((p - B % p : Nat) : ZMod p) = -(B : ZMod p) := by
    rw [Nat.cast_sub (Nat.mod_lt _ hp.out.pos).le]; simp
  have hr3 : r ^ 3 = ((-A % p).toNat : Nat) * r + (p - B % p : Nat) := by rw [hA, hB]; linear_combination hr
  have hpw := evalT_pow hr3 (p.log2 + 1) (0, 1, 0) p Nat.lt_log2_self
  have hm := congrArg (evalT r) h
  rw [evalT_mul hr3] at hm
  generalize powT p (-A % p).toNat (p - B % p) (p.log2 + 1) (0, 1, 0) p = g at *
  have e1 : evalT r (0, 1, 0) = r := by simp [evalT]
  rw [e1, ZMod.pow_card] at hpw
  have hp1 : ((p - 1 : Nat) : ZMod p) = -1 := by rw [Nat.cast_sub (by omega)]; simp
  have e2 : evalT r (g.1, g.2.1 + (p - 1), g.2.2) = evalT r g - r := by
    simp only [evalT]; push_cast; rw [hp1]; ring
  rw [e2, hpw, sub_self, zero_mul] at hm
  have : evalT r (1, 0, 0) = 1 := by simp [evalT]
  rw [this] at hm
  exact zero_ne_one hm

end Verif.Ecp
