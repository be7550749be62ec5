import Verif.Spec.Field
/-
Histories of field operations: `History P p l k a v` says that the representative `a` was produced by some
sequence of calls of the `FP` API whose result, computed with ordinary field arithmetic, is `v`, and that
the limb-wise additions and subtractions since the last normalisation leave every limb between `-l` and
`k` times the largest digit.  The operations that multiply (`mul`, `sqr`) take operands whose limbs are
digits up to sign; `imul` and `div2`, and `inverse` in a field without Montgomery form, which does not
normalise its argument, take normalised ones, as every caller in the crate does.  The only restriction
on the number of lazy operations is that the limbs fit in a word (`Room`).
-/
namespace Verif.Fp
open Verif.Big Spec

variable {C : Nat}

/-- Histories whose multiplications satisfy `okm` and whose exponentiations and inversions satisfy `okp`. -/
inductive HistoryOn (P : Params C) (p : Nat) [Fact p.Prime] (okm : Fp C → Fp C → Prop) (okp : Fp C → Prop) : Nat → Nat → Fp C → ZMod p → Prop
  | zero : HistoryOn P p okm okp 0 1 (zero P) 0
  | one : HistoryOn P p okm okp 0 1 (one P) 1
  | newInt (c : Nat) : (c : Int) < 2 ^ P.b → HistoryOn P p okm okp 0 1 (newInt P c) c
  | newBig (x : Limbs C) (X : Nat) : Rep P.b P.n x X → X < p → HistoryOn P p okm okp 0 1 (newBig P x) X
  | norm {l k a v} : HistoryOn P p okm okp l k a v → HistoryOn P p okm okp 0 1 (norm P a) v
  | reduce {l k a v} : HistoryOn P p okm okp l k a v → HistoryOn P p okm okp 0 1 (reduce P a) v
  | add {l k l' k' a c v w} : HistoryOn P p okm okp l k a v → HistoryOn P p okm okp l' k' c w → Room P (max (l + l') (k + k')) →
      HistoryOn P p okm okp (l + l') (k + k') (add P a c) (v + w)
  | dbl {l k a v} : HistoryOn P p okm okp l k a v → Room P (max (l + l) (k + k)) → HistoryOn P p okm okp (l + l) (k + k) (dbl P a) (2 * v)
  | neg {l k a v} : HistoryOn P p okm okp l k a v → Room P (max k (l + 1)) → HistoryOn P p okm okp k (l + 1) (neg P a) (-v)
  | sub {l k l' k' a c v w} : HistoryOn P p okm okp l k a v → HistoryOn P p okm okp l' k' c w → Room P (max (l + k') (k + l' + 1)) →
      HistoryOn P p okm okp (l + k') (k + l' + 1) (sub P a c) (v - w)
  | rsub {l k l' k' a c v w} : HistoryOn P p okm okp l k a v → HistoryOn P p okm okp l' k' c w → Room P (max (k + l') (l + 1 + k')) →
      HistoryOn P p okm okp (k + l') (l + 1 + k') (rsub P a c) (w - v)
  | mul {l k l' k' a c v w} : HistoryOn P p okm okp l k a v → HistoryOn P p okm okp l' k' c w → l ≤ 1 ∧ k ≤ 1 → l' ≤ 1 ∧ k' ≤ 1 →
      (ok : okm a c := by trivial) → HistoryOn P p okm okp 0 1 (mul P a c) (v * w)
  | sqr {l k a v} : HistoryOn P p okm okp l k a v → l ≤ 1 ∧ k ≤ 1 → (ok : okm a a := by trivial) → HistoryOn P p okm okp 0 1 (sqr P a) (v ^ 2)
  | imul {a v} (c : Int) : c ≠ 0 → |c| < 2 ^ P.b → HistoryOn P p okm okp 0 1 a v → HistoryOn P p okm okp 0 1 (imul P a c) (c * v)
  | div2 {a v} : HistoryOn P p okm okp 0 1 a v → HistoryOn P p okm okp 0 1 (div2 P a) (v / 2)
  | pow {l k a v} (e : Limbs C) (E : Nat) : Rep P.b P.n e E → (E : Int) < 2 ^ (P.b * P.n) → HistoryOn P p okm okp l k a v →
      (ok : okp a := by trivial) → HistoryOn P p okm okp 0 1 (pow P a e) (v ^ E)
  | inverse {l k a v} : (P.plain = true → l = 0 ∧ k = 1) → HistoryOn P p okm okp l k a v → (ok : okp a := by trivial) →
      HistoryOn P p okm okp 0 1 (inverse P a) v⁻¹
  | cmove {l k l' k' a c v w} (d : Nat) : d = 0 ∨ d = 1 → HistoryOn P p okm okp l k a v → HistoryOn P p okm okp l' k' c w →
      HistoryOn P p okm okp (max l l') (max k k') (cmove a c d) (if d = 1 then w else v)

/-- Histories without a restriction on the excess counters of factors. -/
abbrev History (P : Params C) (p : Nat) [Fact p.Prime] : Nat → Nat → Fp C → ZMod p → Prop := HistoryOn P p (fun _ _ => True) (fun _ => True)

/-- What bounds the product in a Goldilocks multiplication: after the reduction of the first factor that `mul`
performs when the product of the excess counters exceeds `FEXCESS`, the product of the counters is at most `B`. -/
def MulBound (P : Params C) (B : Nat) (a c : Fp C) : Prop := (if a.xes * c.xes > P.fexcess then c.xes else a.xes * c.xes) ≤ B

/-- Histories whose multiplications satisfy `MulBound`; exponentiations and inversions, which multiply their argument
by itself and by products, take arguments whose counter squares to at most `B`. -/
abbrev HistoryB (P : Params C) (p : Nat) [Fact p.Prime] (B : Nat) : Nat → Nat → Fp C → ZMod p → Prop :=
  HistoryOn P p (MulBound P B) (fun a => a.xes * a.xes ≤ B)

end Verif.Fp
