import Verif.Spec.Sswu
import Verif.Spec.Curve2
import Verif.Bls.IsoConst
/-
Specification of the maps of RFC 9380 to the curves of BLS12-381 (8.8.1, 8.8.2, appendix E): simplified SWU to an isogenous curve, then the isogeny.
The coefficients of the isogenies are the lists of iso.rs.
-/
namespace Verif.Bls
open Spec.Sswu Verif.Tower Verif.Curve Verif.Ecp2

/-- the abscissae of the kernel of the 11-isogeny -/
def kernel11 : List Nat := [0x10ef325dd1e98bdf0d97a4c6b7f968ed7f31f2fbff088acb39d5319cfc261ea18773405f325612742f0c5d90634bcf4, 0xd7f2d0d03ae035321eed4c1479d13251abf0e9a96479623eb5380b575e319851fb5e5a8b43b9c1a46880f54bf2b2f7c, 0x105249b4cac630ce5aa18e6c1189a18c82019b4e12e491fbac012c259ca3a67f638560b8bb416af02a4724385ed0fc8e, 0x140d41735b10ce710727cd9356905701a2b866b803baa468948b7f423ddcc560c9a8f1cd5f8ed4297c37464fb8bfe4a7, 0x1665a9c648e78314490a94f654d9b1039ab85847223bfaed9aa54f0f07736d122d1ceca1ac0e9123e753fde16e97c3d7]

/-- `y^2 = x^3 + A x + B` over `Fp` -/
abbrev A1 (p : Nat) : ZMod p := ((sswuA1 : Nat) : ZMod p)
abbrev B1 (p : Nat) : ZMod p := ((sswuB1 : Nat) : ZMod p)
/-- `240 i`, `1012 (1 + i)`, `-(2 + i)` -/
def A2 (p : Nat) : F2 p := ⟨0, 240⟩
def B2 (p : Nat) : F2 p := ⟨1012, 1012⟩
def Z2 (p : Nat) : F2 p := ⟨-2, -1⟩

/-- value of a polynomial of iso.rs -/
def poly1 {p : Nat} [Fact p.Prime] (l : List Nat) (x : ZMod p) : ZMod p := ev x (l.map (Nat.cast : Nat → ZMod p))
def poly2 {p : Nat} [Fact p.Prime] [Fact (p % 4 = 3)] (l : List (Nat × Nat)) (x : F2 p) : F2 p := ev x (l.map fun c => (⟨(c.1 : ZMod p), (c.2 : ZMod p)⟩ : F2 p))

/-- RFC 9380, 4.1, for `m = 2`: the parity of the real part, or of the imaginary part if the real part is zero -/
def odd2 {p : Nat} (v : F2 p) : Prop := (if v.re = 0 then v.im.val else v.re.val) % 2 = 1

/-- `map_to_curve` for G1: `Q` is the image of the point of the isogenous curve with abscissa `absc u` and an ordinate with the sign `s` -/
def Image1 {p : Nat} [Fact p.Prime] (u : ZMod p) (s : Bool) {A B : ZMod p} (Q : (short A B).Point) : Prop :=
  ∃ (y : ZMod p) (h : _),
    y ^ 2 = g (A1 p) (B1 p) (absc (A1 p) (B1 p) 11 u) ∧ (s = true ↔ y.val % 2 = 1) ∧
    Q = .some (poly1 iso11Xnum (absc (A1 p) (B1 p) 11 u) / poly1 iso11Xden (absc (A1 p) (B1 p) 11 u))
      (y * poly1 iso11Ynum (absc (A1 p) (B1 p) 11 u) / poly1 iso11Yden (absc (A1 p) (B1 p) 11 u)) h

/-- the same for G2 -/
def Image2 {p : Nat} [Fact p.Prime] [Fact (p % 4 = 3)] (u : F2 p) (s : Bool) {A B : F2 p} (Q : (short A B).Point) : Prop :=
  ∃ (y : F2 p) (h : _),
    y ^ 2 = g (A2 p) (B2 p) (absc (A2 p) (B2 p) (Z2 p) u) ∧ (s = true ↔ odd2 y) ∧
    Q = .some (poly2 iso3Xnum (absc (A2 p) (B2 p) (Z2 p) u) / poly2 iso3Xden (absc (A2 p) (B2 p) (Z2 p) u))
      (y * poly2 iso3Ynum (absc (A2 p) (B2 p) (Z2 p) u) / poly2 iso3Yden (absc (A2 p) (B2 p) (Z2 p) u)) h

end Verif.Bls
