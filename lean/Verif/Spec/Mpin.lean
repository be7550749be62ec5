import Verif.Mpin.Model
import Verif.Props.Dh
import Verif.Props.Ecp2Codec
import Verif.Props.Subgroup
/-
Specification of M-Pin (`mpin.rs`), independent of the model: hashing to a byte string, hashing to a point of the first group, encodings of points.
-/
namespace Verif.Mpin
open Spec (Byte beBytes beNat)
open Verif.Big Verif.Fp Verif.Rom Verif.Curve Verif.Tower Verif.Ecp Verif.Ecp2 Verif.Pair Verif.Ecdh Verif.Props WeierstrassCurve

variable {C : Nat}

/-- the hash of an optional number and a string, cut to the length of a field element or padded with zeros on the left -/
def hashBytes (mb sha n : Nat) (id : List Byte) : List Byte :=
  let d := Spec.sha sha ((if n > 0 then beBytes 4 n else []) ++ id)
  if sha > mb then d.take mb else List.replicate (mb - sha) 0 ++ d

/-- `T` is a finite point and is the cofactor times the point with abscissa `v` and even ordinate -/
def Cand (K : Rom C) [Fact K.p.Prime] (v : Nat) (T : (Ecp.curve K).Point) : Prop :=
  T ≠ 0 ∧ ∃ y hh, y.val % 2 = 0 ∧ T = cofN K • Affine.Point.some ((v : Nat) : ZMod K.p) y hh

/-- try the abscissas `v`, `v + 1`, …: `T` comes from the first one, among the first `f`, which gives a finite point -/
def MapsTo (K : Rom C) [Fact K.p.Prime] (f v : Nat) (T : (Ecp.curve K).Point) : Prop :=
  ∃ j < f, Cand K (v + j) T ∧ ∀ i < j, ∀ U, ¬ Cand K (v + i) U

/-- `T` is the point of the first group to which the number `n` and the string `id` are hashed, within `f` trials and before the abscissa wraps around -/
def HashesTo (K : Rom C) [Fact K.p.Prime] (f sha n : Nat) (id : List Byte) (T : (Ecp.curve K).Point) : Prop :=
  beNat (hashBytes K.modbytes sha n id) % K.p + f ≤ K.p ∧ MapsTo K f (beNat (hashBytes K.modbytes sha n id) % K.p) T

/-- `w` is the buffer `buf` with the uncompressed encoding of the finite point `T` of the first group written at its start -/
def Put1 (K : Rom C) [Fact K.p.Prime] (T : (Ecp.curve K).Point) (buf w : List Byte) : Prop :=
  ∃ x y hh, T = Affine.Point.some x y hh ∧ w = sec1U K x y ++ buf.drop (2 * K.modbytes + 1)

/-- the same for an optional buffer -/
def PutOpt (K : Rom C) [Fact K.p.Prime] (T : (Ecp.curve K).Point) : Option (List Byte) → Option (List Byte) → Prop
  | none, w => w = none
  | some b, w => ∃ w', w = some w' ∧ Put1 K T b w'

/-- the optional buffer, if present, is long enough, and the point to write into it is finite -/
def Fits1 (K : Rom C) [Fact K.p.Prime] (T : (Ecp.curve K).Point) (buf : Option (List Byte)) : Prop := ∀ b, buf = some b → T ≠ 0 ∧ 2 * K.modbytes + 1 ≤ b.length

/-- the buffer starts with the encoding of the finite point `T` of the second group -/
def Enc2 (K : PairRom C) [Fact K.rom.p.Prime] [Fact (K.rom.p % 4 = 3)] (w : List Byte) (T : (Ecp2.curve2 K).Point) : Prop :=
  ∃ x y hh, T = Affine.Point.some x y hh ∧ enc22 K.rom.modbytes x y <+: w

/-- `w` is the buffer `buf` with the encoding of the finite point `T` of the second group written at its start -/
def Put2 (K : PairRom C) [Fact K.rom.p.Prime] [Fact (K.rom.p % 4 = 3)] (T : (Ecp2.curve2 K).Point) (buf w : List Byte) : Prop :=
  ∃ x y hh, T = Affine.Point.some x y hh ∧ w = enc22 K.rom.modbytes x y ++ buf.drop (4 * K.rom.modbytes)

/-- no coordinate of the finite point has a zero real or imaginary part -/
def Generic4 {K : PairRom C} [Fact K.rom.p.Prime] [Fact (K.rom.p % 4 = 3)] : (Ecp2.curve2 K).Point → Prop
  | .zero => False
  | .some x y _ => x.re ≠ 0 ∧ x.im ≠ 0 ∧ y.re ≠ 0 ∧ y.im ≠ 0

/-- What is needed of the first curve: C37's conditions, `a = 0`, the order times the cofactor kills every point. -/
structure MpinG1 (K : Rom C) [Fact K.p.Prime] : Prop where
  dh : DhCurve K
  form : K.ctype = .weierstrass
  a0 : K.a = 0
  three : ordN K ≠ 3
  cons : K.Consistent
  cof : CofOk K
  cofRep : K.cof.length = K.P.n ∧ Digits K.P.b K.cof
  sub : ∀ T : (Ecp.curve K).Point, ordN K • cofN K • T = 0

/-- What is needed of the two curves. -/
structure MpinCurve (K : GlsRom C) [Fact K.pair.rom.p.Prime] [Fact (K.pair.rom.p % 4 = 3)] : Prop where
  g1 : MpinG1 K.pair.rom
  tw : TCurve K.pair
  mul : MulOk K
  codec : Codec2Ok K.pair

/-- What is assumed of the pairing computation `fexp(ate2(q, R, s, P)).isunity()` in `server_2`, and not proved: `e(G, A) e(kG, B) = 1` exactly when `A + kB = 0`, for
points `A`, `B` other than 0 of the group of order `r`, `G` the generator of the second group and `k` not divisible by `r`. -/
def AteOk (K : GlsRom C) [Fact K.pair.rom.p.Prime] [Fact (K.pair.rom.p % 4 = 3)] (G : (Ecp2.curve2 K.pair).Point)
    (check : Pt2 C → Pt C → Pt2 C → Pt C → Option Bool) : Prop :=
  ∀ (s : Pt2 C) (M P : Pt C) (A B : (Ecp.curve K.pair.rom).Point) (k : Nat), IsPoint2 K.pair 2 s (k • G) → k • G ≠ 0 → IsPoint K.pair.rom M A → A ≠ 0 → ordN K.pair.rom • A = 0 →
    IsPoint K.pair.rom P B → B ≠ 0 → ordN K.pair.rom • B = 0 → ∃ b, check (Ecp2.generator K.pair) M s P = some b ∧ (b = true ↔ A + k • B = 0)

end Verif.Mpin
