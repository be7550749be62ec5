import Verif.Pair.Model
import Verif.Spec.Limbs
import Verif.Spec.Rom
import Mathlib.Algebra.BigOperators.Group.Finset.Basic
/-
What the constants of a pairing-friendly ROM file have to satisfy for `glv` and `gs` to decompose scalars: `lam` and `mu` are the eigenvalues of the two endomorphisms
on the subgroup of prime order `r`.
-/
namespace Verif.Pair
open Verif.Big Verif.Rom Spec

variable {C : Nat}

/-- entry of a table: `NLEN` digits, value at most `r` -/
def EntryOk (b n r : Nat) (t : Limbs C) : Prop := t.length = n ∧ Digits b t ∧ limbsVal b t ≤ r

/-- The tables of the BN branch: `dim` multipliers, and `dim` vectors `(a_0, …, a_{dim-1})` with `a_0 + a_1 c + … ≡ 0 (mod r)`. -/
def TableOk (b n r : Nat) (w : List (Limbs C)) (rows : List (List (Limbs C))) (dim : Nat) (c : Int) : Prop :=
  ∀ j < dim, EntryOk b n r (w.getD j []) ∧ (∀ i < dim, EntryOk b n r ((rows.getD j []).getD i [])) ∧
    (r : Int) ∣ ∑ i ∈ Finset.range dim, c ^ i * limbsVal b ((rows.getD j []).getD i [])

/-- conditions on the constants used by `glv`, with eigenvalue `lam`, and by `gs`, with eigenvalue `mu`; `r` is the order of the subgroup -/
structure GlsOk (K : GlsRom C) (r : Nat) (lam mu : Int) : Prop where
  ok : Ok C K.pair.rom.P.b
  hn : 2 ≤ K.pair.rom.P.n
  fit : Fits C K.pair.rom.P.b K.pair.rom.P.n
  q : Rep K.pair.rom.P.b K.pair.rom.P.n K.pair.rom.order r
  pos : 0 < r
  room : 16 * (r + 2) < 2 ^ (K.pair.rom.P.b * K.pair.rom.P.n)
  bls : K.bn = false → ∃ X : Nat, 0 < X ∧ Rep K.pair.rom.P.b K.pair.rom.P.n K.pair.bnx X ∧ X * X < 2 ^ (K.pair.rom.P.b * K.pair.rom.P.n) ∧
    (r : Int) ∣ lam + X ^ 2 ∧ (r : Int) ∣ mu - (if K.pair.negx then -(X : Int) else X)
  bn : K.bn = true → TableOk K.pair.rom.P.b K.pair.rom.P.n r K.w K.sb 2 lam ∧ TableOk K.pair.rom.P.b K.pair.rom.P.n r K.wb K.bb 4 mu

/-- `CURVE_CRU` is a primitive cube root of unity modulo `p`, and the curve is `y² = x³ + B` -/
structure CruOk (K : PairRom C) : Prop where
  a : K.rom.a = 0
  rep : ∃ W : Nat, Rep K.rom.P.b K.rom.P.n K.cru W ∧ W < K.rom.p
  cube : (K.rom.p : Int) ∣ K.rom.val K.cru ^ 2 + K.rom.val K.cru + 1
  ne : ¬ (K.rom.p : Int) ∣ K.rom.val K.cru - 1

end Verif.Pair
