import Verif.Spec.Curve
import Verif.Spec.Tower
import Verif.Spec.TowerHist
import Verif.Ecp2.Model
import Verif.Tower.Field2
import Verif.Spec.CurveRom
import Mathlib.NumberTheory.LegendreSymbol.Basic
/-
The sextic twist of a pairing-friendly curve, over `Z/p[i]`, and which of its points an `ECP2` value denotes.
-/
namespace Verif.Ecp2
open Verif.Big Verif.Fp Verif.Rom Verif.Curve Verif.Tower Spec

variable {C : Nat}

/-- `p ≡ 3 (mod 4)`: `-1` is not a square, so that `Z/p[i]` is a field -/
instance nonsquare {p : Nat} [hp : Fact p.Prime] [h4 : Fact (p % 4 = 3)] : Fact (∀ r : ZMod p, r ^ 2 ≠ -1 + 0 * r) := ⟨by
  intro r hr
  rw [zero_mul, add_zero] at hr
  exact (ZMod.mod_four_ne_three_of_sq_eq_neg_one hr) h4.out⟩

/-- coefficient `B'` of the twist: `B (1+i)` (M-type) or `B / (1+i)` (D-type) -/
def Btw (K : PairRom C) [Fact K.rom.p.Prime] [Fact (K.rom.p % 4 = 3)] : F2 K.rom.p :=
  if K.mtype then ⟨Ecp.Bcoef K.rom, 0⟩ * xi K.rom.p else ⟨Ecp.Bcoef K.rom, 0⟩ / xi K.rom.p

/-- the twisted curve `y² = x³ + B'` -/
abbrev curve2 (K : PairRom C) [Fact K.rom.p.Prime] [Fact (K.rom.p % 4 = 3)] : WeierstrassCurve.Affine (F2 K.rom.p) := short 0 (Btw K)

/-- the element of `Z/p[i]` an `FP2` value stores -/
def res2 (P : Params C) (p : Nat) (x : Fp2 C) : F2 p := ⟨residue P p x.a, residue P p x.b⟩

/-- projective coordinates stored in an `ECP2` value -/
def coords2 (K : PairRom C) (s : Pt2 C) : Proj (F2 K.rom.p) :=
  ⟨res2 K.rom.P K.rom.p s.x, res2 K.rom.P K.rom.p s.y, res2 K.rom.P K.rom.p s.z⟩

/-- a normalised field element with excess counter at most `e` -/
structure Red (P : Params C) (p e : Nat) (a : Fp C) : Prop where
  valid : Normed P p a
  xes : a.xes ≤ e

/-- The coordinates are legal representatives: normalised, with excess counters at most `e`. -/
structure Legal2 (K : PairRom C) (e : Nat) (s : Pt2 C) : Prop where
  xa : Red K.rom.P K.rom.p e s.x.a
  xb : Red K.rom.P K.rom.p e s.x.b
  ya : Red K.rom.P K.rom.p e s.y.a
  yb : Red K.rom.P K.rom.p e s.y.b
  za : Red K.rom.P K.rom.p e s.z.a
  zb : Red K.rom.P K.rom.p e s.z.b

/-- `s` is a legal representative, with excess counters at most `e`, of the point `T` of the twist (`T = 0` is the point at infinity). -/
def IsPoint2 (K : PairRom C) [Fact K.rom.p.Prime] [Fact (K.rom.p % 4 = 3)] (e : Nat) (s : Pt2 C) (T : (curve2 K).Point) : Prop :=
  Legal2 K e s ∧ Denotes (coords2 K s) T

/-- What the theorems assume about the ROM file: the arithmetic of `FP2` works, a number has at least three limbs, the coefficient of the curve is consistent and one
of those that occur, and the twist has no point of order two. -/
structure TCurve (K : PairRom C) [Fact K.rom.p.Prime] [Fact (K.rom.p % 4 = 3)] : Prop where
  tower : TowerOk K.rom.P K.rom.p
  len : 2 < K.rom.P.n
  bv : ∃ B : Nat, Rep K.rom.P.b K.rom.P.n K.rom.bv B ∧ B < K.rom.p
  bI : (K.rom.bI : ZMod K.rom.p) = Ecp.Bcoef K.rom
  small : K.rom.bI ∈ [2, 3, 4, 9, 15]
  noTwo : NoTwoTorsion 0 (Btw K)

end Verif.Ecp2
