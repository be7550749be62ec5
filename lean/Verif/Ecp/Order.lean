import Verif.Ecp.Weier
import Verif.Common.Pocklington
import Mathlib.Data.ZMod.Basic
import Mathlib.Tactic.LinearCombination
/-
Computing multiples of a point with plain residues, fast enough for the kernel: used to prove that the generator of a ROM file
has the stated order.
-/
namespace Verif.Ecp
open Verif.Curve WeierstrassCurve

/-- evaluate a number before passing it on -/
def force {α : Type} (n : Nat) (k : Nat → α) : α :=
  match n with
  | 0 => k 0
  | m + 1 => k (m + 1)

theorem force_eq {α : Type} (n : Nat) (k : Nat → α) : force n k = k n := by cases n <;> rfl

/-- complete addition on residues; `b3 = 3 B`, `a` and `na` are the residues of `A` and `-A` -/
def addN (p a na b3 : Nat) (P Q : Nat × Nat × Nat) : Nat × Nat × Nat :=
  force P.1 fun x1 => force P.2.1 fun y1 => force P.2.2 fun z1 =>
  force Q.1 fun x2 => force Q.2.1 fun y2 => force Q.2.2 fun z2 =>
  force ((x1 * y2 + x2 * y1) % p) fun m =>
  force ((x1 * z2 + x2 * z1) % p) fun s =>
  force ((y1 * z2 + y2 * z1) % p) fun t =>
  force (z1 * z2 % p) fun z =>
  force (x1 * x2 % p) fun xx =>
  force (y1 * y2 % p) fun yy =>
  force ((a * xx + b3 * s + na * (a * z)) % p) fun u =>
  force ((a * s + b3 * z) % p) fun w =>
  force ((yy + (p - w)) % p) fun d =>
  force ((yy + w) % p) fun e =>
  force ((3 * xx + a * z) % p) fun f =>
  ((m * d + t * (p - u)) % p, (f * u + e * d) % p, (t * e + m * f) % p)

/-- double-and-add, `k` bounds the number of bits of `e` -/
def mulN (p a na b3 : Nat) (P : Nat × Nat × Nat) : Nat → Nat → Nat × Nat × Nat
  | 0, _ => (0, 1, 0)
  | k + 1, e => if e = 0 then (0, 1, 0) else
      let h := mulN p a na b3 P k (e / 2)
      let d := addN p a na b3 h h
      if e % 2 = 1 then addN p a na b3 d P else d

variable {p : Nat}

def castN (P : Nat × Nat × Nat) : Proj (ZMod p) := ⟨P.1, P.2.1, P.2.2⟩

theorem cast_psub [NeZero p] (x : Nat) : ((p - x % p : Nat) : ZMod p) = -(x : ZMod p) := by
  rw [Nat.cast_sub (Nat.mod_lt _ (Nat.pos_of_ne_zero (NeZero.ne p))).le, ZMod.natCast_self, zero_sub, ZMod.natCast_mod]

theorem addN_eq [hp : Fact p.Prime] {A B : ZMod p} {a na b3 : Nat} (ha : (a : ZMod p) = A) (hna : (na : ZMod p) = -A) (hb : (b3 : ZMod p) = 3 * B)
    (P Q : Nat × Nat × Nat) : castN (addN p a na b3 P Q) = rcb A B (castN P) (castN Q) := by
  have : NeZero p := ⟨hp.1.ne_zero⟩
  simp only [addN, force_eq, castN, rcb, ZMod.natCast_mod, Nat.cast_add, Nat.cast_mul, cast_psub, ha, hna, hb, Nat.cast_ofNat, Proj.mk.injEq]
  refine ⟨by ring, by ring, by ring⟩

theorem mulN_denotes [hp : Fact p.Prime] {A B : ZMod p} (h2 : NoTwoTorsion A B) (hc : (2 : ZMod p) ≠ 0) {a na b3 : Nat} (ha : (a : ZMod p) = A)
    (hna : (na : ZMod p) = -A) (hb : (b3 : ZMod p) = 3 * B) {P : Nat × Nat × Nat} {T : (short A B).Point} (hP : Denotes (castN P) T) (k : Nat) :
    ∀ e, e < 2 ^ k → Denotes (castN (mulN p a na b3 P k e)) (e • T) := by
  have h0 : Denotes (castN (0, 1, 0) : Proj (ZMod p)) (0 : (short A B).Point) := by
    refine ⟨by simp [castN], by simp [castN], by simp [castN]⟩
  induction k with
  | zero => intro e he; have : e = 0 := by simpa using he
            subst this; rw [zero_nsmul]; exact h0
  | succ k ih =>
    intro e he
    have h := ih (e / 2) (by rw [pow_succ] at he; omega)
    have hd := rcb_add h2 hc h h
    rw [← addN_eq ha hna hb, ← two_smul ℕ, ← mul_smul] at hd
    simp only [mulN]
    split_ifs with g0 g1
    · rw [g0, zero_nsmul]; exact h0
    · have hs := rcb_add h2 hc hd hP
      rw [← addN_eq ha hna hb] at hs
      have : e • T = (2 * (e / 2)) • T + T := by rw [← succ_nsmul]; congr 1; omega
      rw [this]; exact hs
    · have : e = 2 * (e / 2) := by omega
      rw [this]
      rw [show 2 * (e / 2) / 2 = e / 2 by omega]
      exact hd

/-- the check: `e` times the point is the point at infinity -/
def zeroB (p : Nat) (A : Int) (B gx gy e : Nat) : Bool :=
  let r := mulN p (A % p).toNat (-A % p).toNat (3 * B % p) (gx, gy, 1) (e.log2 + 1) e
  r.1 == 0 && r.2.2 == 0

theorem int_emod_cast [NeZero p] (A : Int) : (((A % p).toNat : Nat) : ZMod p) = (A : ZMod p) := by
  have h : (((A % p).toNat : Nat) : Int) = A % p := Int.toNat_of_nonneg (Int.emod_nonneg _ (by exact_mod_cast NeZero.ne p))
  rw [← Int.cast_natCast, h]
  exact (ZMod.intCast_eq_intCast_iff _ _ _).2 (Int.mod_modEq _ _)

theorem zeroB_sound [hp : Fact p.Prime] {A : Int} {B gx gy e : Nat} {B' x y : ZMod p} (hB : (B : ZMod p) = B') (hx : (gx : ZMod p) = x) (hy : (gy : ZMod p) = y)
    (h2 : NoTwoTorsion (A : ZMod p) B') (hc : (2 : ZMod p) ≠ 0)
    (hh : (short (A : ZMod p) B').Nonsingular x y) (h : zeroB p A B gx gy e = true) : e • Affine.Point.some _ _ hh = 0 := by
  have : NeZero p := ⟨hp.1.ne_zero⟩
  subst hB hx hy
  have hP : Denotes (castN (gx, gy, 1)) (Affine.Point.some _ _ hh) := ⟨by simp [castN], by simp [castN], by simp [castN]⟩
  have hd := mulN_denotes h2 hc (int_emod_cast A) (by rw [int_emod_cast, Int.cast_neg] : (((-A % p).toNat : Nat) : ZMod p) = -(A : ZMod p))
    (by rw [ZMod.natCast_mod]; push_cast; rfl : ((3 * B % p : Nat) : ZMod p) = 3 * (B : ZMod p)) hP (e.log2 + 1) e (Nat.lt_log2_self)
  unfold zeroB at h
  simp only [Bool.and_eq_true, beq_iff_eq] at h
  generalize e • Affine.Point.some _ _ hh = S at hd
  cases S with
  | zero => rfl
  | some x y hxy => exact absurd (by show ((_ : Nat) : ZMod p) = 0; rw [h.2, Nat.cast_zero]) hd.1

end Verif.Ecp
