import Verif.Edwards.Codec
import Verif.Ecp.Order
import Mathlib.NumberTheory.LegendreSymbol.Basic
/- Checks by kernel evaluation for the Edwards ROM files: completeness of the addition law and the order of the generator. -/
namespace Verif.Ecp
open Verif.Big Verif.Fp Verif.Rom Verif.Curve Spec

variable {p : Nat}

/-- Euler's criterion: `d` is not a square modulo `p` -/
def nonsquareB (p d : Nat) : Bool := p % 2 == 1 && d % p != 0 && powMod p (p.log2 + 1) (d % p) (p / 2) != 1

theorem nonsquareB_sound [hp : Fact p.Prime] {d : Nat} (h : nonsquareB p d = true) : ¬ ∃ s : ZMod p, s ^ 2 = (d : ZMod p) := by
  unfold nonsquareB at h
  simp only [Bool.and_eq_true, bne_iff_ne, beq_iff_eq] at h
  obtain ⟨⟨h1, h2⟩, h3⟩ := h
  rw [powMod_eq _ _ _ _ (lt_of_le_of_lt (Nat.div_le_self _ _) Nat.lt_log2_self)] at h3
  rintro ⟨s, hs⟩
  have hd0 : (d : ZMod p) ≠ 0 := by
    intro h0
    rw [ZMod.natCast_eq_zero_iff] at h0
    exact h2 (Nat.mod_eq_zero_of_dvd h0)
  have he := (ZMod.euler_criterion p hd0).mp ⟨s, by rw [← hs, pow_two]⟩
  apply h3
  have h1' : ((((d % p) ^ (p / 2) : Nat)) : ZMod p) = ((1 : Nat) : ZMod p) := by
    push_cast; rw [ZMod.natCast_mod]; exact_mod_cast he
  rw [ZMod.natCast_eq_natCast_iff'] at h1'
  rw [h1', Nat.mod_eq_of_lt hp.out.one_lt]

/-- complete Edwards addition on residues; `a`, `na` are residues of `a` and `-a`, `d` of `d` -/
def addNE (p na d : Nat) (P Q : Nat × Nat × Nat) : Nat × Nat × Nat :=
  force P.1 fun x1 => force P.2.1 fun y1 => force P.2.2 fun z1 =>
  force Q.1 fun x2 => force Q.2.1 fun y2 => force Q.2.2 fun z2 =>
  force (z1 * z2 % p) fun z =>
  force (x1 * x2 % p) fun xx =>
  force (y1 * y2 % p) fun yy =>
  force (z * z % p) fun b =>
  force (xx * yy % p) fun c =>
  force (d * c % p) fun e =>
  force ((b + (p - e)) % p) fun f =>
  force ((b + e) % p) fun g =>
  (z * f % p * (x1 * y2 + x2 * y1) % p, z * g % p * (yy + na * xx) % p, f * g % p)

def mulNE (p na d : Nat) (P : Nat × Nat × Nat) : Nat → Nat → Nat × Nat × Nat
  | 0, _ => (0, 1, 1)
  | k + 1, e => if e = 0 then (0, 1, 1) else
      let h := mulNE p na d P k (e / 2)
      let s := addNE p na d h h
      if e % 2 = 1 then addNE p na d s P else s

theorem addNE_denotes [hp : Fact p.Prime] {a d' : ZMod p} [Fact (Edwards.Complete a d')] {na d : Nat} (hna : (na : ZMod p) = -a) (hd : (d : ZMod p) = d')
    {P Q : Nat × Nat × Nat} {S T : Edwards.Point a d'} (hP : EdDenotes (castN P) S) (hQ : EdDenotes (castN Q) T) :
    EdDenotes (castN (addNE p na d P Q)) (S + T) := by
  have : NeZero p := ⟨hp.1.ne_zero⟩
  have h := edAdd hP hQ
  have e : castN (addNE p na d P Q) = (⟨(castN P : Proj (ZMod p)).z * (castN Q).z * (((castN P).z * (castN Q).z) ^ 2 - d' * ((castN P).x * (castN Q).x) * ((castN P).y * (castN Q).y)) * ((castN P).x * (castN Q).y + (castN Q).x * (castN P).y),
      (castN P).z * (castN Q).z * (((castN P).z * (castN Q).z) ^ 2 + d' * ((castN P).x * (castN Q).x) * ((castN P).y * (castN Q).y)) * ((castN P).y * (castN Q).y - a * ((castN P).x * (castN Q).x)),
      (((castN P).z * (castN Q).z) ^ 2 - d' * ((castN P).x * (castN Q).x) * ((castN P).y * (castN Q).y)) * (((castN P).z * (castN Q).z) ^ 2 + d' * ((castN P).x * (castN Q).x) * ((castN P).y * (castN Q).y))⟩ : Proj (ZMod p)) := by
    simp only [addNE, force_eq, castN, ZMod.natCast_mod, Nat.cast_add, Nat.cast_mul, cast_psub, hna, hd, Proj.mk.injEq]
    refine ⟨by ring, by ring, by ring⟩
  rw [e]
  exact h

theorem mulNE_denotes [hp : Fact p.Prime] {a d' : ZMod p} [Fact (Edwards.Complete a d')] {na d : Nat} (hna : (na : ZMod p) = -a) (hd : (d : ZMod p) = d')
    {P : Nat × Nat × Nat} {T : Edwards.Point a d'} (hP : EdDenotes (castN P) T) (k : Nat) :
    ∀ e, e < 2 ^ k → EdDenotes (castN (mulNE p na d P k e)) (e • T) := by
  have h0 : EdDenotes (castN (0, 1, 1) : Proj (ZMod p)) (0 : Edwards.Point a d') := ⟨by simp [castN], by simp [castN], by simp [castN]⟩
  induction k with
  | zero => intro e he; have : e = 0 := by simpa using he
            subst this; rw [zero_nsmul]; exact h0
  | succ k ih =>
    intro e he
    have h := ih (e / 2) (by rw [pow_succ] at he; omega)
    have hdd := addNE_denotes hna hd h h
    rw [← two_nsmul, ← mul_nsmul'] at hdd
    simp only [mulNE]
    split_ifs with g0 g1
    · rw [g0, zero_nsmul]; exact h0
    · have hs := addNE_denotes hna hd hdd hP
      have : e • T = (2 * (e / 2)) • T + T := by rw [← succ_nsmul]; congr 1; omega
      rw [this]; exact hs
    · have : e = 2 * (e / 2) := by omega
      rw [this]
      rw [show 2 * (e / 2) / 2 = e / 2 by omega]
      exact hdd

/-- the check: `e` times the point is the neutral element -/
def zeroEB (p : Nat) (a : Int) (d gx gy e : Nat) : Bool :=
  let r := mulNE p (-a % p).toNat d (gx, gy, 1) (e.log2 + 1) e
  r.1 == 0 && r.2.1 == r.2.2

theorem zeroEB_sound [hp : Fact p.Prime] {a : Int} {d' : ZMod p} [Fact (Edwards.Complete (a : ZMod p) d')] {d gx gy e : Nat} (hd : (d : ZMod p) = d')
    {T : Edwards.Point (a : ZMod p) d'} (hx : (gx : ZMod p) = T.x) (hy : (gy : ZMod p) = T.y) (h : zeroEB p a d gx gy e = true) : e • T = 0 := by
  have : NeZero p := ⟨hp.1.ne_zero⟩
  have hP : EdDenotes (castN (gx, gy, 1)) T := ⟨by simp [castN], by simp [castN, hx], by simp [castN, hy]⟩
  have hdn := mulNE_denotes (by rw [int_emod_cast, Int.cast_neg] : (((-a % p).toNat : Nat) : ZMod p) = -(a : ZMod p)) hd hP (e.log2 + 1) e (Nat.lt_log2_self)
  unfold zeroEB at h
  simp only [Bool.and_eq_true, beq_iff_eq] at h
  obtain ⟨h1, h2⟩ := h
  obtain ⟨k1, k2, k3⟩ := hdn
  generalize mulNE p (-a % p).toNat d (gx, gy, 1) (e.log2 + 1) e = r at *
  simp only [castN] at k1 k2 k3
  rw [h1, Nat.cast_zero] at k2
  rw [h2] at k3
  refine Edwards.Point.ext ((mul_eq_zero.mp k2.symm).resolve_right k1) ?_
  exact mul_right_cancel₀ k1 (by rw [← k3]; simp)

end Verif.Ecp
