import Verif.Spec.Tower
/- Which computations with `FP12` values the theorems speak about. -/
namespace Verif.Tower
open Verif.Big Verif.Fp

/-- The arithmetic conditions under which `F2`, `F4`, `F12` are fields: `-1` and `1 + i` are not squares, `w` is not a cube. -/
structure TowerPrime (p : Nat) : Prop where
  mod8 : p % 8 = 3
  mod6 : p % 6 = 1
  two : (2 : ZMod p) ^ ((p - 1) / 3) ≠ 1

/-- an `FP2` built from two integers below the modulus (`FP2::new_bigs`), and its value -/
inductive Coef2 {C : Nat} (P : Params C) (p : Nat) : Fp2 C → F2 p → Prop
  | bigs {x y : Limbs C} {X Y : Nat} (hx : Rep P.b P.n x X) (hX : X < p) (hy : Rep P.b P.n y Y) (hY : Y < p) : Coef2 P p (Fp2.newBigs P x y) ⟨X, Y⟩

/-- `Hist12 P p mt f K x v`: the stored value `x` results from a sequence of `FP12` calls whose counterpart in `F12` gives `v`; the
counters of its components are at most `K`.  `f` is the Frobenius constant of the curve, `mt` tells that its twist is M-type.
`mul` takes every operand with counters up to 32767; the results of `conj` and `frob` must be multiplied or reduced before the
other operations apply to them. -/
inductive Hist12 {C : Nat} (P : Params C) (p : Nat) (mt : Bool) (f : Fp2 C) : Nat → Fp12 C → F12 p → Prop
  | zero : Hist12 P p mt f 1 (Fp12.zero P) 0
  | one : Hist12 P p mt f 2 (Fp12.one P) 1
  | coefs {x1 x2 x3 x4 x5 x6 : Fp2 C} {v1 v2 v3 v4 v5 v6 : F2 p} (h1 : Coef2 P p x1 v1) (h2 : Coef2 P p x2 v2) (h3 : Coef2 P p x3 v3) (h4 : Coef2 P p x4 v4) (h5 : Coef2 P p x5 v5)
      (h6 : Coef2 P p x6 v6) : Hist12 P p mt f 2 (Fp12.newFp4s ⟨x1, x2⟩ ⟨x3, x4⟩ ⟨x5, x6⟩) ⟨⟨v1, v2⟩, ⟨v3, v4⟩, ⟨v5, v6⟩⟩
  | fp4 {x1 x2 : Fp2 C} {v1 v2 : F2 p} (h1 : Coef2 P p x1 v1) (h2 : Coef2 P p x2 v2) : Hist12 P p mt f 2 (Fp12.newFp4 P ⟨x1, x2⟩) ⟨⟨v1, v2⟩, 0, 0⟩
  | reduce {K : Nat} {x : Fp12 C} {v : F12 p} (hx : Hist12 P p mt f K x v) : Hist12 P p mt f 1 (Fp12.reduce P x) v
  | mul {K L : Nat} {x y : Fp12 C} {v w : F12 p} (hx : Hist12 P p mt f K x v) (hy : Hist12 P p mt f L y w) (hK : K ≤ 32767) (hL : L ≤ 32767) :
      Hist12 P p mt f 2800 (Fp12.mul P x y) (v * w)
  | ssmul {K L : Nat} {x y : Fp12 C} {v w : F12 p} (hx : Hist12 P p mt f K x v) (hy : Hist12 P p mt f L y w) (hK : K ≤ 2800) (hL : L ≤ 2800) :
      Hist12 P p mt f 2800 (Fp12.ssmul P mt x y) (v * w)
  | sqr {K : Nat} {x : Fp12 C} {v : F12 p} (hx : Hist12 P p mt f K x v) (hK : K ≤ 8000) : Hist12 P p mt f 8000 (Fp12.sqr P x) (v ^ 2)
  /-- `usqr` is only for elements of the cyclotomic subgroup: `v^(p⁴-p²+1) = 1` -/
  | usqr {K : Nat} {x : Fp12 C} {v : F12 p} (hx : Hist12 P p mt f K x v) (hK : K ≤ 8000) (hv : v ^ (p ^ 4 - p ^ 2 + 1) = 1) :
      Hist12 P p mt f 1 (Fp12.usqr P x) (v ^ 2)
  /-- the inverse of a non-zero element -/
  | inverse {K : Nat} {x : Fp12 C} {v w : F12 p} (hx : Hist12 P p mt f K x v) (hK : K ≤ 2800) (hw : v * w = 1) : Hist12 P p mt f 41 (Fp12.inverse P x) w
  | conj {K : Nat} {x : Fp12 C} {v : F12 p} (hx : Hist12 P p mt f K x v) (hK : K ≤ 2800) : Hist12 P p mt f 32767 (Fp12.conj P x) (v ^ p ^ 6)
  | frob {K : Nat} {x : Fp12 C} {v : F12 p} (hx : Hist12 P p mt f K x v) (hK : K ≤ 2800) : Hist12 P p mt f 16384 (Fp12.frob P x f) (v ^ p)
end Verif.Tower
