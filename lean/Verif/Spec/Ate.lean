import Verif.Spec.Curve2
import Verif.Pair.G2
import Verif.Pair.Cert
/-
The optimal ate pairing as the textbooks define it: Miller's algorithm on a signed binary expansion of the loop parameter, the lines being those through the images of
the points of the twist on the curve over the extension of degree 12, then the final exponentiation.  Vertical lines are left out.
-/
namespace Verif.Ate
open Verif.Big Verif.Fp Verif.Rom Verif.Curve Verif.Tower Verif.Ecp2 Verif.Pair Spec WeierstrassCurve

section
variable {p : Nat} [Fact p.Prime] [Fact (p % 4 = 3)]

/-- `Z/p[i]` in the extension of degree 12 -/
def emb2 (c : F2 p) : F12 p := ⟨⟨c, 0⟩, 0, 0⟩
/-- `Z/p` in the extension of degree 12 -/
def emb1 (c : ZMod p) : F12 p := emb2 ⟨c, 0⟩
/-- the generator: its sixth power is `ξ = 1 + i` -/
def gw : F12 p := ⟨0, 1, 0⟩
/-- the element `t` such that `(x, y) ↦ (x t², y t³)` maps the twist into the curve: `t⁶ = ξ` for a D-type twist, `t⁶ = 1 / ξ` for an M-type twist -/
noncomputable def tw (mt : Bool) : F12 p := if mt then gw ^ 5 * emb2 (xi p)⁻¹ else gw

/-- the line through the image of `(x₁, y₁)`, whose slope on the twist is `l`, at the point `q` -/
noncomputable def lineAt (mt : Bool) (x₁ y₁ l : F2 p) (q : ZMod p × ZMod p) : F12 p :=
  (emb1 q.2 - emb2 y₁ * tw mt ^ 3) - emb2 l * tw mt * (emb1 q.1 - emb2 x₁ * tw mt ^ 2)
end

section
variable {C : Nat} (K : PairRom C) [Fact K.rom.p.Prime] [Fact (K.rom.p % 4 = 3)]

/-- the tangent at `T`, at `q` -/
noncomputable def tangent (q : ZMod K.rom.p × ZMod K.rom.p) : (curve2 K).Point → F12 K.rom.p
  | .zero => 1
  | .some x y _ => lineAt K.mtype x y (3 * x ^ 2 / (2 * y)) q

/-- the line through `T` and `S`, at `q` -/
noncomputable def chord (q : ZMod K.rom.p × ZMod K.rom.p) : (curve2 K).Point → (curve2 K).Point → F12 K.rom.p
  | .some x₁ y₁ _, .some x₂ y₂ _ => lineAt K.mtype x₂ y₂ ((y₁ - y₂) / (x₁ - x₂)) q
  | _, _ => 1

/-- one round of Miller's algorithm with digit `d`: the point `T` becomes `2T + dS`, the value `f` becomes `f²` times the lines -/
noncomputable def millerRound (q : ZMod K.rom.p × ZMod K.rom.p) (S : (curve2 K).Point) (s : (curve2 K).Point × F12 K.rom.p) (d : Int) : (curve2 K).Point × F12 K.rom.p :=
  (s.1 + s.1 + d • S, s.2 ^ 2 * (tangent K q s.1 * if d = 0 then 1 else chord K q (s.1 + s.1) (d • S)))

/-- Miller's algorithm: double and add along the digits, from the point `T` and the value `f` -/
noncomputable def millerF (q : ZMod K.rom.p × ZMod K.rom.p) (S : (curve2 K).Point) (ds : List Int) (s : (curve2 K).Point × F12 K.rom.p) : (curve2 K).Point × F12 K.rom.p :=
  ds.foldl (millerRound K q S) s
end

section
variable {C : Nat} (K : GlsRom C) [Fact K.pair.rom.p.Prime] [Fact (K.pair.rom.p % 4 = 3)]

/-- the two further lines of the BN curves: `(±T, ψS)` and `(±T + ψS, -ψ²S)` -/
noncomputable def lastLines (h6 : 6 ∣ K.pair.rom.p - 1) (q : ZMod K.pair.rom.p × ZMod K.pair.rom.p) (S T : (curve2 K.pair).Point) : F12 K.pair.rom.p :=
  chord K.pair q T (psi h6 S) * chord K.pair q (T + psi h6 S) (-(psi h6 (psi h6 S)))

/-- the function of the optimal ate pairing: `ds` are the digits of the loop parameter after the leading one.  When the parameter is negative the value is inverted
(`f^(p^12 - 2) = 1 / f`). -/
noncomputable def ateFn (h6 : 6 ∣ K.pair.rom.p - 1) (ds : List Int) (S : (curve2 K.pair).Point) (q : ZMod K.pair.rom.p × ZMod K.pair.rom.p) : F12 K.pair.rom.p :=
  let s := millerF K.pair q S ds (S, 1)
  (if K.pair.negx then s.2 ^ (K.pair.rom.p ^ 12 - 2) else s.2) * if K.bn then lastLines K h6 q S (if K.pair.negx then -s.1 else s.1) else 1

/-- the optimal ate pairing of `S` on the twist and `U` on the curve; for the BLS curves it is the third power of the textbook one, as in the code -/
noncomputable def optAte (h6 : 6 ∣ K.pair.rom.p - 1) (ds : List Int) (S : (curve2 K.pair).Point) : (Ecp.curve K.pair.rom).Point → F12 K.pair.rom.p
  | .zero => 1
  | .some x y _ => ateFn K h6 ds S (x, y) ^ ((if K.bn then 1 else 3) * ((K.pair.rom.p ^ 12 - 1) / rN K.pair))

/-- the integer a signed binary expansion with leading digit 1 stands for -/
def digitsVal (ds : List Int) : Int := ds.foldl (fun a d => 2 * a + d) 1

/-- the loop parameter, up to its sign: `|u|` for the BLS curves, `|6 u + 2|` for the BN curves -/
def ateParam (K : GlsRom C) : Int :=
  let u := K.pair.rom.val K.pair.bnx
  if K.bn then (if K.pair.negx then 6 * u - 2 else 6 * u + 2) else u

/-- the arguments denote points `S`, `U` of the two subgroups of order `r` (the one on the twist being that on which the Frobenius endomorphism is multiplication by `p`), not both zero -/
structure SubPair (K : GlsRom C) [Fact K.pair.rom.p.Prime] [Fact (K.pair.rom.p % 4 = 3)] (h6 : 6 ∣ K.pair.rom.p - 1) (P : Pt2 C) (Q : Ecp.Pt C) (S : (curve2 K.pair).Point)
    (U : (Ecp.curve K.pair.rom).Point) : Prop where
  p2 : IsPoint2 K.pair 1820 P S
  p1 : Ecp.IsPoint K.pair.rom Q U
  r2 : rN K.pair • S = 0
  frob : psi h6 S = (K.pair.rom.p : Int) • S
  r1 : rN K.pair • U = 0
  ne : S ≠ 0 ∨ U ≠ 0

end

end Verif.Ate
