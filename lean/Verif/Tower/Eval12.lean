import Verif.Prog.Field
import Verif.Tower.Model12
import Mathlib.Tactic.Ring
/- What the programs of `fp12.rs` compute in a commutative ring; `om` is the image of `w`. -/
namespace Verif.Tower
open Verif.Prog
set_option linter.unusedVariables false
set_option linter.unusedSimpArgs false

variable {F : Type} [CommRing F] {om : F} {ex : Nat → F → F} {bn : Nat → F → F → F}

theorem mul12_a (h : ∀ v, ex 0 v = v * om) (s : R12 → F) : run (ringOps F ex bn) Fp12.mulProg s .xa = s .xa * s .ya + om * (s .xb * s .yc + s .xc * s .yb) := by
  change (let xa := s .xa; let xb := s .xb; let xc := s .xc; let ya := s .ya; let yb := s .yb; let yc := s .yc; let z0 := xa; let z2 := xb; let t0 := xa; let t1 := ya; let z0 := z0 * ya; let z2 := z2 * yb; let t0 := t0 + xb; let t1 := t1 + yb; let z1 := t0; let z1 := z1 * t1; let t0 := xb; let t0 := t0 + xc; let t1 := yb; let t1 := t1 + yc; let z3 := t0; let z3 := z3 * t1; let t0 := z0; let t0 := -t0; let t1 := z2; let t1 := -t1; let z1 := z1 + t0; let xb := z1; let xb := xb + t1; let z3 := z3 + t1; let z2 := z2 + t0; let t0 := xa; let t0 := t0 + xc; let t1 := ya; let t1 := t1 + yc; let t0 := t0 * t1; let z2 := z2 + t0; let t0 := xc; let t0 := t0 * yc; let t1 := t0; let t1 := -t1; let xc := z2; let xc := xc + t1; let z3 := z3 + t1; let t0 := ex 0 t0; let xb := xb + t0; let z3 := ex 0 z3; let xa := z0; let xa := xa + z3; xa) = _
  simp only [h]
  try ring

theorem mul12_b (h : ∀ v, ex 0 v = v * om) (s : R12 → F) : run (ringOps F ex bn) Fp12.mulProg s .xb = s .xa * s .yb + s .xb * s .ya + om * (s .xc * s .yc) := by
  change (let xa := s .xa; let xb := s .xb; let xc := s .xc; let ya := s .ya; let yb := s .yb; let yc := s .yc; let z0 := xa; let z2 := xb; let t0 := xa; let t1 := ya; let z0 := z0 * ya; let z2 := z2 * yb; let t0 := t0 + xb; let t1 := t1 + yb; let z1 := t0; let z1 := z1 * t1; let t0 := xb; let t0 := t0 + xc; let t1 := yb; let t1 := t1 + yc; let z3 := t0; let z3 := z3 * t1; let t0 := z0; let t0 := -t0; let t1 := z2; let t1 := -t1; let z1 := z1 + t0; let xb := z1; let xb := xb + t1; let z3 := z3 + t1; let z2 := z2 + t0; let t0 := xa; let t0 := t0 + xc; let t1 := ya; let t1 := t1 + yc; let t0 := t0 * t1; let z2 := z2 + t0; let t0 := xc; let t0 := t0 * yc; let t1 := t0; let t1 := -t1; let xc := z2; let xc := xc + t1; let z3 := z3 + t1; let t0 := ex 0 t0; let xb := xb + t0; let z3 := ex 0 z3; let xa := z0; let xa := xa + z3; xb) = _
  simp only [h]
  try ring

theorem mul12_c (h : ∀ v, ex 0 v = v * om) (s : R12 → F) : run (ringOps F ex bn) Fp12.mulProg s .xc = s .xa * s .yc + s .xb * s .yb + s .xc * s .ya := by
  change (let xa := s .xa; let xb := s .xb; let xc := s .xc; let ya := s .ya; let yb := s .yb; let yc := s .yc; let z0 := xa; let z2 := xb; let t0 := xa; let t1 := ya; let z0 := z0 * ya; let z2 := z2 * yb; let t0 := t0 + xb; let t1 := t1 + yb; let z1 := t0; let z1 := z1 * t1; let t0 := xb; let t0 := t0 + xc; let t1 := yb; let t1 := t1 + yc; let z3 := t0; let z3 := z3 * t1; let t0 := z0; let t0 := -t0; let t1 := z2; let t1 := -t1; let z1 := z1 + t0; let xb := z1; let xb := xb + t1; let z3 := z3 + t1; let z2 := z2 + t0; let t0 := xa; let t0 := t0 + xc; let t1 := ya; let t1 := t1 + yc; let t0 := t0 * t1; let z2 := z2 + t0; let t0 := xc; let t0 := t0 * yc; let t1 := t0; let t1 := -t1; let xc := z2; let xc := xc + t1; let z3 := z3 + t1; let t0 := ex 0 t0; let xb := xb + t0; let z3 := ex 0 z3; let xa := z0; let xa := xa + z3; xc) = _
  simp only [h]
  try ring

theorem sqr12_a (h : ∀ v, ex 0 v = v * om) (s : R12 → F) : run (ringOps F ex bn) Fp12.sqrProg s .xa = s .xa * s .xa + om * (s .xb * s .xc + s .xc * s .xb) := by
  change (let xa := s .xa; let xb := s .xb; let xc := s .xc; let a := xa; let b := xb; let c := xc; let d := xa; let a := a ^ 2; let b := b * xc; let b := b + b; let c := c ^ 2; let d := d * xb; let d := d + d; let xc := xc + xa; let xc := xc + xb; let xc := xc ^ 2; let xa := a; let a := a + b; let a := a + c; let a := a + d; let a := -a; let b := ex 0 b; let c := ex 0 c; let xa := xa + b; let xb := c; let xb := xb + d; let xc := xc + a; xa) = _
  simp only [h]
  try ring

theorem sqr12_b (h : ∀ v, ex 0 v = v * om) (s : R12 → F) : run (ringOps F ex bn) Fp12.sqrProg s .xb = s .xa * s .xb + s .xb * s .xa + om * (s .xc * s .xc) := by
  change (let xa := s .xa; let xb := s .xb; let xc := s .xc; let a := xa; let b := xb; let c := xc; let d := xa; let a := a ^ 2; let b := b * xc; let b := b + b; let c := c ^ 2; let d := d * xb; let d := d + d; let xc := xc + xa; let xc := xc + xb; let xc := xc ^ 2; let xa := a; let a := a + b; let a := a + c; let a := a + d; let a := -a; let b := ex 0 b; let c := ex 0 c; let xa := xa + b; let xb := c; let xb := xb + d; let xc := xc + a; xb) = _
  simp only [h]
  try ring

theorem sqr12_c (h : ∀ v, ex 0 v = v * om) (s : R12 → F) : run (ringOps F ex bn) Fp12.sqrProg s .xc = s .xa * s .xc + s .xb * s .xb + s .xc * s .xa := by
  change (let xa := s .xa; let xb := s .xb; let xc := s .xc; let a := xa; let b := xb; let c := xc; let d := xa; let a := a ^ 2; let b := b * xc; let b := b + b; let c := c ^ 2; let d := d * xb; let d := d + d; let xc := xc + xa; let xc := xc + xb; let xc := xc ^ 2; let xa := a; let a := a + b; let a := a + c; let a := a + d; let a := -a; let b := ex 0 b; let c := ex 0 c; let xa := xa + b; let xb := c; let xb := xb + d; let xc := xc + a; xc) = _
  simp only [h]
  try ring

theorem ssM33_a (h : ∀ v, ex 0 v = v * om) (s : R12 → F) (k : ex 0 (bn 3 (s .xb) (s .yb)) = s .xb * s .yb) : run (ringOps F ex bn) (Fp12.ssDense true 3 3) s .xa = s .xa * s .ya + om * (s .xb * s .yc + s .xc * s .yb) := by
  change (let xa := s .xa; let xb := s .xb; let xc := s .xc; let ya := s .ya; let yb := s .yb; let yc := s .yc; let z0 := xa; let z0 := z0 * ya; let z2 := xb; let z2 := bn 3 z2 yb; let z2 := ex 0 z2; let t0 := xa; let t1 := ya; let t0 := t0 + xb; let t1 := t1 + yb; let z1 := t0; let z1 := z1 * t1; let t0 := xb; let t0 := t0 + xc; let t1 := yb; let t1 := t1 + yc; let z3 := t0; let z3 := z3 * t1; let t0 := z0; let t0 := -t0; let t1 := z2; let t1 := -t1; let z1 := z1 + t0; let xb := z1; let xb := xb + t1; let z3 := z3 + t1; let z2 := z2 + t0; let t0 := xa; let t0 := t0 + xc; let t1 := ya; let t1 := t1 + yc; let t0 := t0 * t1; let z2 := z2 + t0; let t0 := xc; let t0 := t0 * yc; let t1 := t0; let t1 := -t1; let xc := z2; let xc := xc + t1; let z3 := z3 + t1; let t0 := ex 0 t0; let xb := xb + t0; let z3 := ex 0 z3; let xa := z0; let xa := xa + z3; xa) = _
  rw [h] at k
  simp only [h]
  rw [k]
  ring

theorem ssM33_b (h : ∀ v, ex 0 v = v * om) (s : R12 → F) (k : ex 0 (bn 3 (s .xb) (s .yb)) = s .xb * s .yb) : run (ringOps F ex bn) (Fp12.ssDense true 3 3) s .xb = s .xa * s .yb + s .xb * s .ya + om * (s .xc * s .yc) := by
  change (let xa := s .xa; let xb := s .xb; let xc := s .xc; let ya := s .ya; let yb := s .yb; let yc := s .yc; let z0 := xa; let z0 := z0 * ya; let z2 := xb; let z2 := bn 3 z2 yb; let z2 := ex 0 z2; let t0 := xa; let t1 := ya; let t0 := t0 + xb; let t1 := t1 + yb; let z1 := t0; let z1 := z1 * t1; let t0 := xb; let t0 := t0 + xc; let t1 := yb; let t1 := t1 + yc; let z3 := t0; let z3 := z3 * t1; let t0 := z0; let t0 := -t0; let t1 := z2; let t1 := -t1; let z1 := z1 + t0; let xb := z1; let xb := xb + t1; let z3 := z3 + t1; let z2 := z2 + t0; let t0 := xa; let t0 := t0 + xc; let t1 := ya; let t1 := t1 + yc; let t0 := t0 * t1; let z2 := z2 + t0; let t0 := xc; let t0 := t0 * yc; let t1 := t0; let t1 := -t1; let xc := z2; let xc := xc + t1; let z3 := z3 + t1; let t0 := ex 0 t0; let xb := xb + t0; let z3 := ex 0 z3; let xa := z0; let xa := xa + z3; xb) = _
  rw [h] at k
  simp only [h]
  rw [k]
  ring

theorem ssM33_c (h : ∀ v, ex 0 v = v * om) (s : R12 → F) (k : ex 0 (bn 3 (s .xb) (s .yb)) = s .xb * s .yb) : run (ringOps F ex bn) (Fp12.ssDense true 3 3) s .xc = s .xa * s .yc + s .xb * s .yb + s .xc * s .ya := by
  change (let xa := s .xa; let xb := s .xb; let xc := s .xc; let ya := s .ya; let yb := s .yb; let yc := s .yc; let z0 := xa; let z0 := z0 * ya; let z2 := xb; let z2 := bn 3 z2 yb; let z2 := ex 0 z2; let t0 := xa; let t1 := ya; let t0 := t0 + xb; let t1 := t1 + yb; let z1 := t0; let z1 := z1 * t1; let t0 := xb; let t0 := t0 + xc; let t1 := yb; let t1 := t1 + yc; let z3 := t0; let z3 := z3 * t1; let t0 := z0; let t0 := -t0; let t1 := z2; let t1 := -t1; let z1 := z1 + t0; let xb := z1; let xb := xb + t1; let z3 := z3 + t1; let z2 := z2 + t0; let t0 := xa; let t0 := t0 + xc; let t1 := ya; let t1 := t1 + yc; let t0 := t0 * t1; let z2 := z2 + t0; let t0 := xc; let t0 := t0 * yc; let t1 := t0; let t1 := -t1; let xc := z2; let xc := xc + t1; let z3 := z3 + t1; let t0 := ex 0 t0; let xb := xb + t0; let z3 := ex 0 z3; let xa := z0; let xa := xa + z3; xc) = _
  rw [h] at k
  simp only [h]
  rw [k]
  ring

theorem ssM34_a (h : ∀ v, ex 0 v = v * om) (s : R12 → F) (k : ex 0 (bn 4 (s .xb) (s .yb)) = s .xb * s .yb) : run (ringOps F ex bn) (Fp12.ssDense true 3 4) s .xa = s .xa * s .ya + om * (s .xb * s .yc + s .xc * s .yb) := by
  change (let xa := s .xa; let xb := s .xb; let xc := s .xc; let ya := s .ya; let yb := s .yb; let yc := s .yc; let z0 := xa; let z0 := z0 * ya; let z2 := xb; let z2 := bn 4 z2 yb; let z2 := ex 0 z2; let t0 := xa; let t1 := ya; let t0 := t0 + xb; let t1 := t1 + yb; let z1 := t0; let z1 := z1 * t1; let t0 := xb; let t0 := t0 + xc; let t1 := yb; let t1 := t1 + yc; let z3 := t0; let z3 := z3 * t1; let t0 := z0; let t0 := -t0; let t1 := z2; let t1 := -t1; let z1 := z1 + t0; let xb := z1; let xb := xb + t1; let z3 := z3 + t1; let z2 := z2 + t0; let t0 := xa; let t0 := t0 + xc; let t1 := ya; let t1 := t1 + yc; let t0 := t0 * t1; let z2 := z2 + t0; let t0 := xc; let t0 := t0 * yc; let t1 := t0; let t1 := -t1; let xc := z2; let xc := xc + t1; let z3 := z3 + t1; let t0 := ex 0 t0; let xb := xb + t0; let z3 := ex 0 z3; let xa := z0; let xa := xa + z3; xa) = _
  rw [h] at k
  simp only [h]
  rw [k]
  ring

theorem ssM34_b (h : ∀ v, ex 0 v = v * om) (s : R12 → F) (k : ex 0 (bn 4 (s .xb) (s .yb)) = s .xb * s .yb) : run (ringOps F ex bn) (Fp12.ssDense true 3 4) s .xb = s .xa * s .yb + s .xb * s .ya + om * (s .xc * s .yc) := by
  change (let xa := s .xa; let xb := s .xb; let xc := s .xc; let ya := s .ya; let yb := s .yb; let yc := s .yc; let z0 := xa; let z0 := z0 * ya; let z2 := xb; let z2 := bn 4 z2 yb; let z2 := ex 0 z2; let t0 := xa; let t1 := ya; let t0 := t0 + xb; let t1 := t1 + yb; let z1 := t0; let z1 := z1 * t1; let t0 := xb; let t0 := t0 + xc; let t1 := yb; let t1 := t1 + yc; let z3 := t0; let z3 := z3 * t1; let t0 := z0; let t0 := -t0; let t1 := z2; let t1 := -t1; let z1 := z1 + t0; let xb := z1; let xb := xb + t1; let z3 := z3 + t1; let z2 := z2 + t0; let t0 := xa; let t0 := t0 + xc; let t1 := ya; let t1 := t1 + yc; let t0 := t0 * t1; let z2 := z2 + t0; let t0 := xc; let t0 := t0 * yc; let t1 := t0; let t1 := -t1; let xc := z2; let xc := xc + t1; let z3 := z3 + t1; let t0 := ex 0 t0; let xb := xb + t0; let z3 := ex 0 z3; let xa := z0; let xa := xa + z3; xb) = _
  rw [h] at k
  simp only [h]
  rw [k]
  ring

theorem ssM34_c (h : ∀ v, ex 0 v = v * om) (s : R12 → F) (k : ex 0 (bn 4 (s .xb) (s .yb)) = s .xb * s .yb) : run (ringOps F ex bn) (Fp12.ssDense true 3 4) s .xc = s .xa * s .yc + s .xb * s .yb + s .xc * s .ya := by
  change (let xa := s .xa; let xb := s .xb; let xc := s .xc; let ya := s .ya; let yb := s .yb; let yc := s .yc; let z0 := xa; let z0 := z0 * ya; let z2 := xb; let z2 := bn 4 z2 yb; let z2 := ex 0 z2; let t0 := xa; let t1 := ya; let t0 := t0 + xb; let t1 := t1 + yb; let z1 := t0; let z1 := z1 * t1; let t0 := xb; let t0 := t0 + xc; let t1 := yb; let t1 := t1 + yc; let z3 := t0; let z3 := z3 * t1; let t0 := z0; let t0 := -t0; let t1 := z2; let t1 := -t1; let z1 := z1 + t0; let xb := z1; let xb := xb + t1; let z3 := z3 + t1; let z2 := z2 + t0; let t0 := xa; let t0 := t0 + xc; let t1 := ya; let t1 := t1 + yc; let t0 := t0 * t1; let z2 := z2 + t0; let t0 := xc; let t0 := t0 * yc; let t1 := t0; let t1 := -t1; let xc := z2; let xc := xc + t1; let z3 := z3 + t1; let t0 := ex 0 t0; let xb := xb + t0; let z3 := ex 0 z3; let xa := z0; let xa := xa + z3; xc) = _
  rw [h] at k
  simp only [h]
  rw [k]
  ring

theorem ssM43_a (h : ∀ v, ex 0 v = v * om) (s : R12 → F) (k : ex 0 (bn 1 (s .xb) (s .yb)) = s .xb * s .yb) : run (ringOps F ex bn) (Fp12.ssDense true 4 3) s .xa = s .xa * s .ya + om * (s .xb * s .yc + s .xc * s .yb) := by
  change (let xa := s .xa; let xb := s .xb; let xc := s .xc; let ya := s .ya; let yb := s .yb; let yc := s .yc; let z0 := xa; let z0 := z0 * ya; let z2 := xb; let z2 := bn 1 z2 yb; let z2 := ex 0 z2; let t0 := xa; let t1 := ya; let t0 := t0 + xb; let t1 := t1 + yb; let z1 := t0; let z1 := z1 * t1; let t0 := xb; let t0 := t0 + xc; let t1 := yb; let t1 := t1 + yc; let z3 := t0; let z3 := z3 * t1; let t0 := z0; let t0 := -t0; let t1 := z2; let t1 := -t1; let z1 := z1 + t0; let xb := z1; let xb := xb + t1; let z3 := z3 + t1; let z2 := z2 + t0; let t0 := xa; let t0 := t0 + xc; let t1 := ya; let t1 := t1 + yc; let t0 := t0 * t1; let z2 := z2 + t0; let t0 := xc; let t0 := t0 * yc; let t1 := t0; let t1 := -t1; let xc := z2; let xc := xc + t1; let z3 := z3 + t1; let t0 := ex 0 t0; let xb := xb + t0; let z3 := ex 0 z3; let xa := z0; let xa := xa + z3; xa) = _
  rw [h] at k
  simp only [h]
  rw [k]
  ring

theorem ssM43_b (h : ∀ v, ex 0 v = v * om) (s : R12 → F) (k : ex 0 (bn 1 (s .xb) (s .yb)) = s .xb * s .yb) : run (ringOps F ex bn) (Fp12.ssDense true 4 3) s .xb = s .xa * s .yb + s .xb * s .ya + om * (s .xc * s .yc) := by
  change (let xa := s .xa; let xb := s .xb; let xc := s .xc; let ya := s .ya; let yb := s .yb; let yc := s .yc; let z0 := xa; let z0 := z0 * ya; let z2 := xb; let z2 := bn 1 z2 yb; let z2 := ex 0 z2; let t0 := xa; let t1 := ya; let t0 := t0 + xb; let t1 := t1 + yb; let z1 := t0; let z1 := z1 * t1; let t0 := xb; let t0 := t0 + xc; let t1 := yb; let t1 := t1 + yc; let z3 := t0; let z3 := z3 * t1; let t0 := z0; let t0 := -t0; let t1 := z2; let t1 := -t1; let z1 := z1 + t0; let xb := z1; let xb := xb + t1; let z3 := z3 + t1; let z2 := z2 + t0; let t0 := xa; let t0 := t0 + xc; let t1 := ya; let t1 := t1 + yc; let t0 := t0 * t1; let z2 := z2 + t0; let t0 := xc; let t0 := t0 * yc; let t1 := t0; let t1 := -t1; let xc := z2; let xc := xc + t1; let z3 := z3 + t1; let t0 := ex 0 t0; let xb := xb + t0; let z3 := ex 0 z3; let xa := z0; let xa := xa + z3; xb) = _
  rw [h] at k
  simp only [h]
  rw [k]
  ring

theorem ssM43_c (h : ∀ v, ex 0 v = v * om) (s : R12 → F) (k : ex 0 (bn 1 (s .xb) (s .yb)) = s .xb * s .yb) : run (ringOps F ex bn) (Fp12.ssDense true 4 3) s .xc = s .xa * s .yc + s .xb * s .yb + s .xc * s .ya := by
  change (let xa := s .xa; let xb := s .xb; let xc := s .xc; let ya := s .ya; let yb := s .yb; let yc := s .yc; let z0 := xa; let z0 := z0 * ya; let z2 := xb; let z2 := bn 1 z2 yb; let z2 := ex 0 z2; let t0 := xa; let t1 := ya; let t0 := t0 + xb; let t1 := t1 + yb; let z1 := t0; let z1 := z1 * t1; let t0 := xb; let t0 := t0 + xc; let t1 := yb; let t1 := t1 + yc; let z3 := t0; let z3 := z3 * t1; let t0 := z0; let t0 := -t0; let t1 := z2; let t1 := -t1; let z1 := z1 + t0; let xb := z1; let xb := xb + t1; let z3 := z3 + t1; let z2 := z2 + t0; let t0 := xa; let t0 := t0 + xc; let t1 := ya; let t1 := t1 + yc; let t0 := t0 * t1; let z2 := z2 + t0; let t0 := xc; let t0 := t0 * yc; let t1 := t0; let t1 := -t1; let xc := z2; let xc := xc + t1; let z3 := z3 + t1; let t0 := ex 0 t0; let xb := xb + t0; let z3 := ex 0 z3; let xa := z0; let xa := xa + z3; xc) = _
  rw [h] at k
  simp only [h]
  rw [k]
  ring

theorem ssM44_a (h : ∀ v, ex 0 v = v * om) (s : R12 → F) : run (ringOps F ex bn) (Fp12.ssDense true 4 4) s .xa = s .xa * s .ya + om * (s .xb * s .yc + s .xc * s .yb) := by
  change (let xa := s .xa; let xb := s .xb; let xc := s .xc; let ya := s .ya; let yb := s .yb; let yc := s .yc; let z0 := xa; let z0 := z0 * ya; let z2 := xb; let z2 := z2 * yb; let t0 := xa; let t1 := ya; let t0 := t0 + xb; let t1 := t1 + yb; let z1 := t0; let z1 := z1 * t1; let t0 := xb; let t0 := t0 + xc; let t1 := yb; let t1 := t1 + yc; let z3 := t0; let z3 := z3 * t1; let t0 := z0; let t0 := -t0; let t1 := z2; let t1 := -t1; let z1 := z1 + t0; let xb := z1; let xb := xb + t1; let z3 := z3 + t1; let z2 := z2 + t0; let t0 := xa; let t0 := t0 + xc; let t1 := ya; let t1 := t1 + yc; let t0 := t0 * t1; let z2 := z2 + t0; let t0 := xc; let t0 := t0 * yc; let t1 := t0; let t1 := -t1; let xc := z2; let xc := xc + t1; let z3 := z3 + t1; let t0 := ex 0 t0; let xb := xb + t0; let z3 := ex 0 z3; let xa := z0; let xa := xa + z3; xa) = _
  simp only [h]
  try ring

theorem ssM44_b (h : ∀ v, ex 0 v = v * om) (s : R12 → F) : run (ringOps F ex bn) (Fp12.ssDense true 4 4) s .xb = s .xa * s .yb + s .xb * s .ya + om * (s .xc * s .yc) := by
  change (let xa := s .xa; let xb := s .xb; let xc := s .xc; let ya := s .ya; let yb := s .yb; let yc := s .yc; let z0 := xa; let z0 := z0 * ya; let z2 := xb; let z2 := z2 * yb; let t0 := xa; let t1 := ya; let t0 := t0 + xb; let t1 := t1 + yb; let z1 := t0; let z1 := z1 * t1; let t0 := xb; let t0 := t0 + xc; let t1 := yb; let t1 := t1 + yc; let z3 := t0; let z3 := z3 * t1; let t0 := z0; let t0 := -t0; let t1 := z2; let t1 := -t1; let z1 := z1 + t0; let xb := z1; let xb := xb + t1; let z3 := z3 + t1; let z2 := z2 + t0; let t0 := xa; let t0 := t0 + xc; let t1 := ya; let t1 := t1 + yc; let t0 := t0 * t1; let z2 := z2 + t0; let t0 := xc; let t0 := t0 * yc; let t1 := t0; let t1 := -t1; let xc := z2; let xc := xc + t1; let z3 := z3 + t1; let t0 := ex 0 t0; let xb := xb + t0; let z3 := ex 0 z3; let xa := z0; let xa := xa + z3; xb) = _
  simp only [h]
  try ring

theorem ssM44_c (h : ∀ v, ex 0 v = v * om) (s : R12 → F) : run (ringOps F ex bn) (Fp12.ssDense true 4 4) s .xc = s .xa * s .yc + s .xb * s .yb + s .xc * s .ya := by
  change (let xa := s .xa; let xb := s .xb; let xc := s .xc; let ya := s .ya; let yb := s .yb; let yc := s .yc; let z0 := xa; let z0 := z0 * ya; let z2 := xb; let z2 := z2 * yb; let t0 := xa; let t1 := ya; let t0 := t0 + xb; let t1 := t1 + yb; let z1 := t0; let z1 := z1 * t1; let t0 := xb; let t0 := t0 + xc; let t1 := yb; let t1 := t1 + yc; let z3 := t0; let z3 := z3 * t1; let t0 := z0; let t0 := -t0; let t1 := z2; let t1 := -t1; let z1 := z1 + t0; let xb := z1; let xb := xb + t1; let z3 := z3 + t1; let z2 := z2 + t0; let t0 := xa; let t0 := t0 + xc; let t1 := ya; let t1 := t1 + yc; let t0 := t0 * t1; let z2 := z2 + t0; let t0 := xc; let t0 := t0 * yc; let t1 := t0; let t1 := -t1; let xc := z2; let xc := xc + t1; let z3 := z3 + t1; let t0 := ex 0 t0; let xb := xb + t0; let z3 := ex 0 z3; let xa := z0; let xa := xa + z3; xc) = _
  simp only [h]
  try ring

theorem ssD33_a (h : ∀ v, ex 0 v = v * om) (s : R12 → F) (k : bn 5 (s .xc) (s .yc) = s .xc * s .yc) : run (ringOps F ex bn) (Fp12.ssDense false 3 3) s .xa = s .xa * s .ya + om * (s .xb * s .yc + s .xc * s .yb) := by
  change (let xa := s .xa; let xb := s .xb; let xc := s .xc; let ya := s .ya; let yb := s .yb; let yc := s .yc; let z0 := xa; let z0 := z0 * ya; let z2 := xb; let z2 := z2 * yb; let t0 := xa; let t1 := ya; let t0 := t0 + xb; let t1 := t1 + yb; let z1 := t0; let z1 := z1 * t1; let t0 := xb; let t0 := t0 + xc; let t1 := yb; let t1 := t1 + yc; let z3 := t0; let z3 := z3 * t1; let t0 := z0; let t0 := -t0; let t1 := z2; let t1 := -t1; let z1 := z1 + t0; let xb := z1; let xb := xb + t1; let z3 := z3 + t1; let z2 := z2 + t0; let t0 := xa; let t0 := t0 + xc; let t1 := ya; let t1 := t1 + yc; let t0 := t0 * t1; let z2 := z2 + t0; let t0 := xc; let t0 := bn 5 t0 yc; let t1 := t0; let t1 := -t1; let xc := z2; let xc := xc + t1; let z3 := z3 + t1; let t0 := ex 0 t0; let xb := xb + t0; let z3 := ex 0 z3; let xa := z0; let xa := xa + z3; xa) = _
  simp only [k, h]
  ring

theorem ssD33_b (h : ∀ v, ex 0 v = v * om) (s : R12 → F) (k : bn 5 (s .xc) (s .yc) = s .xc * s .yc) : run (ringOps F ex bn) (Fp12.ssDense false 3 3) s .xb = s .xa * s .yb + s .xb * s .ya + om * (s .xc * s .yc) := by
  change (let xa := s .xa; let xb := s .xb; let xc := s .xc; let ya := s .ya; let yb := s .yb; let yc := s .yc; let z0 := xa; let z0 := z0 * ya; let z2 := xb; let z2 := z2 * yb; let t0 := xa; let t1 := ya; let t0 := t0 + xb; let t1 := t1 + yb; let z1 := t0; let z1 := z1 * t1; let t0 := xb; let t0 := t0 + xc; let t1 := yb; let t1 := t1 + yc; let z3 := t0; let z3 := z3 * t1; let t0 := z0; let t0 := -t0; let t1 := z2; let t1 := -t1; let z1 := z1 + t0; let xb := z1; let xb := xb + t1; let z3 := z3 + t1; let z2 := z2 + t0; let t0 := xa; let t0 := t0 + xc; let t1 := ya; let t1 := t1 + yc; let t0 := t0 * t1; let z2 := z2 + t0; let t0 := xc; let t0 := bn 5 t0 yc; let t1 := t0; let t1 := -t1; let xc := z2; let xc := xc + t1; let z3 := z3 + t1; let t0 := ex 0 t0; let xb := xb + t0; let z3 := ex 0 z3; let xa := z0; let xa := xa + z3; xb) = _
  simp only [k, h]
  ring

theorem ssD33_c (h : ∀ v, ex 0 v = v * om) (s : R12 → F) (k : bn 5 (s .xc) (s .yc) = s .xc * s .yc) : run (ringOps F ex bn) (Fp12.ssDense false 3 3) s .xc = s .xa * s .yc + s .xb * s .yb + s .xc * s .ya := by
  change (let xa := s .xa; let xb := s .xb; let xc := s .xc; let ya := s .ya; let yb := s .yb; let yc := s .yc; let z0 := xa; let z0 := z0 * ya; let z2 := xb; let z2 := z2 * yb; let t0 := xa; let t1 := ya; let t0 := t0 + xb; let t1 := t1 + yb; let z1 := t0; let z1 := z1 * t1; let t0 := xb; let t0 := t0 + xc; let t1 := yb; let t1 := t1 + yc; let z3 := t0; let z3 := z3 * t1; let t0 := z0; let t0 := -t0; let t1 := z2; let t1 := -t1; let z1 := z1 + t0; let xb := z1; let xb := xb + t1; let z3 := z3 + t1; let z2 := z2 + t0; let t0 := xa; let t0 := t0 + xc; let t1 := ya; let t1 := t1 + yc; let t0 := t0 * t1; let z2 := z2 + t0; let t0 := xc; let t0 := bn 5 t0 yc; let t1 := t0; let t1 := -t1; let xc := z2; let xc := xc + t1; let z3 := z3 + t1; let t0 := ex 0 t0; let xb := xb + t0; let z3 := ex 0 z3; let xa := z0; let xa := xa + z3; xc) = _
  simp only [k, h]
  ring

theorem ssD34_a (h : ∀ v, ex 0 v = v * om) (s : R12 → F) (k : bn 6 (s .xc) (s .yc) = s .xc * s .yc) : run (ringOps F ex bn) (Fp12.ssDense false 3 4) s .xa = s .xa * s .ya + om * (s .xb * s .yc + s .xc * s .yb) := by
  change (let xa := s .xa; let xb := s .xb; let xc := s .xc; let ya := s .ya; let yb := s .yb; let yc := s .yc; let z0 := xa; let z0 := z0 * ya; let z2 := xb; let z2 := z2 * yb; let t0 := xa; let t1 := ya; let t0 := t0 + xb; let t1 := t1 + yb; let z1 := t0; let z1 := z1 * t1; let t0 := xb; let t0 := t0 + xc; let t1 := yb; let t1 := t1 + yc; let z3 := t0; let z3 := z3 * t1; let t0 := z0; let t0 := -t0; let t1 := z2; let t1 := -t1; let z1 := z1 + t0; let xb := z1; let xb := xb + t1; let z3 := z3 + t1; let z2 := z2 + t0; let t0 := xa; let t0 := t0 + xc; let t1 := ya; let t1 := t1 + yc; let t0 := t0 * t1; let z2 := z2 + t0; let t0 := xc; let t0 := bn 6 t0 yc; let t1 := t0; let t1 := -t1; let xc := z2; let xc := xc + t1; let z3 := z3 + t1; let t0 := ex 0 t0; let xb := xb + t0; let z3 := ex 0 z3; let xa := z0; let xa := xa + z3; xa) = _
  simp only [k, h]
  ring

theorem ssD34_b (h : ∀ v, ex 0 v = v * om) (s : R12 → F) (k : bn 6 (s .xc) (s .yc) = s .xc * s .yc) : run (ringOps F ex bn) (Fp12.ssDense false 3 4) s .xb = s .xa * s .yb + s .xb * s .ya + om * (s .xc * s .yc) := by
  change (let xa := s .xa; let xb := s .xb; let xc := s .xc; let ya := s .ya; let yb := s .yb; let yc := s .yc; let z0 := xa; let z0 := z0 * ya; let z2 := xb; let z2 := z2 * yb; let t0 := xa; let t1 := ya; let t0 := t0 + xb; let t1 := t1 + yb; let z1 := t0; let z1 := z1 * t1; let t0 := xb; let t0 := t0 + xc; let t1 := yb; let t1 := t1 + yc; let z3 := t0; let z3 := z3 * t1; let t0 := z0; let t0 := -t0; let t1 := z2; let t1 := -t1; let z1 := z1 + t0; let xb := z1; let xb := xb + t1; let z3 := z3 + t1; let z2 := z2 + t0; let t0 := xa; let t0 := t0 + xc; let t1 := ya; let t1 := t1 + yc; let t0 := t0 * t1; let z2 := z2 + t0; let t0 := xc; let t0 := bn 6 t0 yc; let t1 := t0; let t1 := -t1; let xc := z2; let xc := xc + t1; let z3 := z3 + t1; let t0 := ex 0 t0; let xb := xb + t0; let z3 := ex 0 z3; let xa := z0; let xa := xa + z3; xb) = _
  simp only [k, h]
  ring

theorem ssD34_c (h : ∀ v, ex 0 v = v * om) (s : R12 → F) (k : bn 6 (s .xc) (s .yc) = s .xc * s .yc) : run (ringOps F ex bn) (Fp12.ssDense false 3 4) s .xc = s .xa * s .yc + s .xb * s .yb + s .xc * s .ya := by
  change (let xa := s .xa; let xb := s .xb; let xc := s .xc; let ya := s .ya; let yb := s .yb; let yc := s .yc; let z0 := xa; let z0 := z0 * ya; let z2 := xb; let z2 := z2 * yb; let t0 := xa; let t1 := ya; let t0 := t0 + xb; let t1 := t1 + yb; let z1 := t0; let z1 := z1 * t1; let t0 := xb; let t0 := t0 + xc; let t1 := yb; let t1 := t1 + yc; let z3 := t0; let z3 := z3 * t1; let t0 := z0; let t0 := -t0; let t1 := z2; let t1 := -t1; let z1 := z1 + t0; let xb := z1; let xb := xb + t1; let z3 := z3 + t1; let z2 := z2 + t0; let t0 := xa; let t0 := t0 + xc; let t1 := ya; let t1 := t1 + yc; let t0 := t0 * t1; let z2 := z2 + t0; let t0 := xc; let t0 := bn 6 t0 yc; let t1 := t0; let t1 := -t1; let xc := z2; let xc := xc + t1; let z3 := z3 + t1; let t0 := ex 0 t0; let xb := xb + t0; let z3 := ex 0 z3; let xa := z0; let xa := xa + z3; xc) = _
  simp only [k, h]
  ring

theorem ssD43_a (h : ∀ v, ex 0 v = v * om) (s : R12 → F) (k : bn 0 (s .xc) (s .yc) = s .xc * s .yc) : run (ringOps F ex bn) (Fp12.ssDense false 4 3) s .xa = s .xa * s .ya + om * (s .xb * s .yc + s .xc * s .yb) := by
  change (let xa := s .xa; let xb := s .xb; let xc := s .xc; let ya := s .ya; let yb := s .yb; let yc := s .yc; let z0 := xa; let z0 := z0 * ya; let z2 := xb; let z2 := z2 * yb; let t0 := xa; let t1 := ya; let t0 := t0 + xb; let t1 := t1 + yb; let z1 := t0; let z1 := z1 * t1; let t0 := xb; let t0 := t0 + xc; let t1 := yb; let t1 := t1 + yc; let z3 := t0; let z3 := z3 * t1; let t0 := z0; let t0 := -t0; let t1 := z2; let t1 := -t1; let z1 := z1 + t0; let xb := z1; let xb := xb + t1; let z3 := z3 + t1; let z2 := z2 + t0; let t0 := xa; let t0 := t0 + xc; let t1 := ya; let t1 := t1 + yc; let t0 := t0 * t1; let z2 := z2 + t0; let t0 := xc; let t0 := bn 0 t0 yc; let t1 := t0; let t1 := -t1; let xc := z2; let xc := xc + t1; let z3 := z3 + t1; let t0 := ex 0 t0; let xb := xb + t0; let z3 := ex 0 z3; let xa := z0; let xa := xa + z3; xa) = _
  simp only [k, h]
  ring

theorem ssD43_b (h : ∀ v, ex 0 v = v * om) (s : R12 → F) (k : bn 0 (s .xc) (s .yc) = s .xc * s .yc) : run (ringOps F ex bn) (Fp12.ssDense false 4 3) s .xb = s .xa * s .yb + s .xb * s .ya + om * (s .xc * s .yc) := by
  change (let xa := s .xa; let xb := s .xb; let xc := s .xc; let ya := s .ya; let yb := s .yb; let yc := s .yc; let z0 := xa; let z0 := z0 * ya; let z2 := xb; let z2 := z2 * yb; let t0 := xa; let t1 := ya; let t0 := t0 + xb; let t1 := t1 + yb; let z1 := t0; let z1 := z1 * t1; let t0 := xb; let t0 := t0 + xc; let t1 := yb; let t1 := t1 + yc; let z3 := t0; let z3 := z3 * t1; let t0 := z0; let t0 := -t0; let t1 := z2; let t1 := -t1; let z1 := z1 + t0; let xb := z1; let xb := xb + t1; let z3 := z3 + t1; let z2 := z2 + t0; let t0 := xa; let t0 := t0 + xc; let t1 := ya; let t1 := t1 + yc; let t0 := t0 * t1; let z2 := z2 + t0; let t0 := xc; let t0 := bn 0 t0 yc; let t1 := t0; let t1 := -t1; let xc := z2; let xc := xc + t1; let z3 := z3 + t1; let t0 := ex 0 t0; let xb := xb + t0; let z3 := ex 0 z3; let xa := z0; let xa := xa + z3; xb) = _
  simp only [k, h]
  ring

theorem ssD43_c (h : ∀ v, ex 0 v = v * om) (s : R12 → F) (k : bn 0 (s .xc) (s .yc) = s .xc * s .yc) : run (ringOps F ex bn) (Fp12.ssDense false 4 3) s .xc = s .xa * s .yc + s .xb * s .yb + s .xc * s .ya := by
  change (let xa := s .xa; let xb := s .xb; let xc := s .xc; let ya := s .ya; let yb := s .yb; let yc := s .yc; let z0 := xa; let z0 := z0 * ya; let z2 := xb; let z2 := z2 * yb; let t0 := xa; let t1 := ya; let t0 := t0 + xb; let t1 := t1 + yb; let z1 := t0; let z1 := z1 * t1; let t0 := xb; let t0 := t0 + xc; let t1 := yb; let t1 := t1 + yc; let z3 := t0; let z3 := z3 * t1; let t0 := z0; let t0 := -t0; let t1 := z2; let t1 := -t1; let z1 := z1 + t0; let xb := z1; let xb := xb + t1; let z3 := z3 + t1; let z2 := z2 + t0; let t0 := xa; let t0 := t0 + xc; let t1 := ya; let t1 := t1 + yc; let t0 := t0 * t1; let z2 := z2 + t0; let t0 := xc; let t0 := bn 0 t0 yc; let t1 := t0; let t1 := -t1; let xc := z2; let xc := xc + t1; let z3 := z3 + t1; let t0 := ex 0 t0; let xb := xb + t0; let z3 := ex 0 z3; let xa := z0; let xa := xa + z3; xc) = _
  simp only [k, h]
  ring

theorem ssD44_a (h : ∀ v, ex 0 v = v * om) (s : R12 → F) : run (ringOps F ex bn) (Fp12.ssDense false 4 4) s .xa = s .xa * s .ya + om * (s .xb * s .yc + s .xc * s .yb) := by
  change (let xa := s .xa; let xb := s .xb; let xc := s .xc; let ya := s .ya; let yb := s .yb; let yc := s .yc; let z0 := xa; let z0 := z0 * ya; let z2 := xb; let z2 := z2 * yb; let t0 := xa; let t1 := ya; let t0 := t0 + xb; let t1 := t1 + yb; let z1 := t0; let z1 := z1 * t1; let t0 := xb; let t0 := t0 + xc; let t1 := yb; let t1 := t1 + yc; let z3 := t0; let z3 := z3 * t1; let t0 := z0; let t0 := -t0; let t1 := z2; let t1 := -t1; let z1 := z1 + t0; let xb := z1; let xb := xb + t1; let z3 := z3 + t1; let z2 := z2 + t0; let t0 := xa; let t0 := t0 + xc; let t1 := ya; let t1 := t1 + yc; let t0 := t0 * t1; let z2 := z2 + t0; let t0 := xc; let t0 := t0 * yc; let t1 := t0; let t1 := -t1; let xc := z2; let xc := xc + t1; let z3 := z3 + t1; let t0 := ex 0 t0; let xb := xb + t0; let z3 := ex 0 z3; let xa := z0; let xa := xa + z3; xa) = _
  simp only [h]
  try ring

theorem ssD44_b (h : ∀ v, ex 0 v = v * om) (s : R12 → F) : run (ringOps F ex bn) (Fp12.ssDense false 4 4) s .xb = s .xa * s .yb + s .xb * s .ya + om * (s .xc * s .yc) := by
  change (let xa := s .xa; let xb := s .xb; let xc := s .xc; let ya := s .ya; let yb := s .yb; let yc := s .yc; let z0 := xa; let z0 := z0 * ya; let z2 := xb; let z2 := z2 * yb; let t0 := xa; let t1 := ya; let t0 := t0 + xb; let t1 := t1 + yb; let z1 := t0; let z1 := z1 * t1; let t0 := xb; let t0 := t0 + xc; let t1 := yb; let t1 := t1 + yc; let z3 := t0; let z3 := z3 * t1; let t0 := z0; let t0 := -t0; let t1 := z2; let t1 := -t1; let z1 := z1 + t0; let xb := z1; let xb := xb + t1; let z3 := z3 + t1; let z2 := z2 + t0; let t0 := xa; let t0 := t0 + xc; let t1 := ya; let t1 := t1 + yc; let t0 := t0 * t1; let z2 := z2 + t0; let t0 := xc; let t0 := t0 * yc; let t1 := t0; let t1 := -t1; let xc := z2; let xc := xc + t1; let z3 := z3 + t1; let t0 := ex 0 t0; let xb := xb + t0; let z3 := ex 0 z3; let xa := z0; let xa := xa + z3; xb) = _
  simp only [h]
  try ring

theorem ssD44_c (h : ∀ v, ex 0 v = v * om) (s : R12 → F) : run (ringOps F ex bn) (Fp12.ssDense false 4 4) s .xc = s .xa * s .yc + s .xb * s .yb + s .xc * s .ya := by
  change (let xa := s .xa; let xb := s .xb; let xc := s .xc; let ya := s .ya; let yb := s .yb; let yc := s .yc; let z0 := xa; let z0 := z0 * ya; let z2 := xb; let z2 := z2 * yb; let t0 := xa; let t1 := ya; let t0 := t0 + xb; let t1 := t1 + yb; let z1 := t0; let z1 := z1 * t1; let t0 := xb; let t0 := t0 + xc; let t1 := yb; let t1 := t1 + yc; let z3 := t0; let z3 := z3 * t1; let t0 := z0; let t0 := -t0; let t1 := z2; let t1 := -t1; let z1 := z1 + t0; let xb := z1; let xb := xb + t1; let z3 := z3 + t1; let z2 := z2 + t0; let t0 := xa; let t0 := t0 + xc; let t1 := ya; let t1 := t1 + yc; let t0 := t0 * t1; let z2 := z2 + t0; let t0 := xc; let t0 := t0 * yc; let t1 := t0; let t1 := -t1; let xc := z2; let xc := xc + t1; let z3 := z3 + t1; let t0 := ex 0 t0; let xb := xb + t0; let z3 := ex 0 z3; let xa := z0; let xa := xa + z3; xc) = _
  simp only [h]
  try ring

theorem ssM2_a (h : ∀ v, ex 0 v = v * om) (s : R12 → F) {q : F} (hb : s .yb = 0) (hc : s .yc = q * om) (k : ∀ v, bn 1 v (s .yc) = v * q) : run (ringOps F ex bn) Fp12.ssM s .xa = s .xa * s .ya + om * (s .xb * s .yc + s .xc * s .yb) := by
  change (let xa := s .xa; let xb := s .xb; let xc := s .xc; let ya := s .ya; let yc := s .yc; let z0 := xa; let t0 := xa; let z0 := z0 * ya; let t0 := t0 + xb; let z1 := t0; let z1 := z1 * ya; let t0 := xb; let t0 := t0 + xc; let z3 := t0; let z3 := bn 1 z3 yc; let z3 := ex 0 z3; let t0 := z0; let t0 := -t0; let z1 := z1 + t0; let xb := z1; let z2 := t0; let t0 := xa; let t0 := t0 + xc; let t1 := ya; let t1 := t1 + yc; let t0 := t0 * t1; let z2 := z2 + t0; let t0 := xc; let t0 := bn 1 t0 yc; let t0 := ex 0 t0; let t1 := t0; let t1 := -t1; let xc := z2; let xc := xc + t1; let z3 := z3 + t1; let t0 := ex 0 t0; let xb := xb + t0; let z3 := ex 0 z3; let xa := z0; let xa := xa + z3; xa) = _
  simp only [h, k]
  rw [hb, hc]
  ring

theorem ssM2_b (h : ∀ v, ex 0 v = v * om) (s : R12 → F) {q : F} (hb : s .yb = 0) (hc : s .yc = q * om) (k : ∀ v, bn 1 v (s .yc) = v * q) : run (ringOps F ex bn) Fp12.ssM s .xb = s .xa * s .yb + s .xb * s .ya + om * (s .xc * s .yc) := by
  change (let xa := s .xa; let xb := s .xb; let xc := s .xc; let ya := s .ya; let yc := s .yc; let z0 := xa; let t0 := xa; let z0 := z0 * ya; let t0 := t0 + xb; let z1 := t0; let z1 := z1 * ya; let t0 := xb; let t0 := t0 + xc; let z3 := t0; let z3 := bn 1 z3 yc; let z3 := ex 0 z3; let t0 := z0; let t0 := -t0; let z1 := z1 + t0; let xb := z1; let z2 := t0; let t0 := xa; let t0 := t0 + xc; let t1 := ya; let t1 := t1 + yc; let t0 := t0 * t1; let z2 := z2 + t0; let t0 := xc; let t0 := bn 1 t0 yc; let t0 := ex 0 t0; let t1 := t0; let t1 := -t1; let xc := z2; let xc := xc + t1; let z3 := z3 + t1; let t0 := ex 0 t0; let xb := xb + t0; let z3 := ex 0 z3; let xa := z0; let xa := xa + z3; xb) = _
  simp only [h, k]
  rw [hb, hc]
  ring

theorem ssM2_c (h : ∀ v, ex 0 v = v * om) (s : R12 → F) {q : F} (hb : s .yb = 0) (hc : s .yc = q * om) (k : ∀ v, bn 1 v (s .yc) = v * q) : run (ringOps F ex bn) Fp12.ssM s .xc = s .xa * s .yc + s .xb * s .yb + s .xc * s .ya := by
  change (let xa := s .xa; let xb := s .xb; let xc := s .xc; let ya := s .ya; let yc := s .yc; let z0 := xa; let t0 := xa; let z0 := z0 * ya; let t0 := t0 + xb; let z1 := t0; let z1 := z1 * ya; let t0 := xb; let t0 := t0 + xc; let z3 := t0; let z3 := bn 1 z3 yc; let z3 := ex 0 z3; let t0 := z0; let t0 := -t0; let z1 := z1 + t0; let xb := z1; let z2 := t0; let t0 := xa; let t0 := t0 + xc; let t1 := ya; let t1 := t1 + yc; let t0 := t0 * t1; let z2 := z2 + t0; let t0 := xc; let t0 := bn 1 t0 yc; let t0 := ex 0 t0; let t1 := t0; let t1 := -t1; let xc := z2; let xc := xc + t1; let z3 := z3 + t1; let t0 := ex 0 t0; let xb := xb + t0; let z3 := ex 0 z3; let xa := z0; let xa := xa + z3; xc) = _
  simp only [h, k]
  rw [hb, hc]
  ring

theorem ssD2_a (h : ∀ v, ex 0 v = v * om) (s : R12 → F) (hc : s .yc = 0) (k : ∀ v, bn 0 v (s .yb) = v * s .yb) (k2 : ∀ v, bn 2 v (s .yb) = v + s .yb) : run (ringOps F ex bn) Fp12.ssD s .xa = s .xa * s .ya + om * (s .xb * s .yc + s .xc * s .yb) := by
  change (let xa := s .xa; let xb := s .xb; let xc := s .xc; let ya := s .ya; let yb := s .yb; let z0 := xa; let z2 := xb; let z3 := xb; let t1 := ya; let z0 := z0 * ya; let z2 := bn 0 z2 yb; let xb := xb + xa; let t1 := bn 2 t1 yb; let xb := xb * t1; let z3 := z3 + xc; let z3 := bn 0 z3 yb; let t0 := z0; let t0 := -t0; let t1 := z2; let t1 := -t1; let xb := xb + t0; let xb := xb + t1; let z3 := z3 + t1; let z2 := z2 + t0; let t0 := xa; let t0 := t0 + xc; let t0 := t0 * ya; let xc := z2; let xc := xc + t0; let z3 := ex 0 z3; let xa := z0; let xa := xa + z3; xa) = _
  simp only [h, k, k2]
  rw [hc]
  ring

theorem ssD2_b (h : ∀ v, ex 0 v = v * om) (s : R12 → F) (hc : s .yc = 0) (k : ∀ v, bn 0 v (s .yb) = v * s .yb) (k2 : ∀ v, bn 2 v (s .yb) = v + s .yb) : run (ringOps F ex bn) Fp12.ssD s .xb = s .xa * s .yb + s .xb * s .ya + om * (s .xc * s .yc) := by
  change (let xa := s .xa; let xb := s .xb; let xc := s .xc; let ya := s .ya; let yb := s .yb; let z0 := xa; let z2 := xb; let z3 := xb; let t1 := ya; let z0 := z0 * ya; let z2 := bn 0 z2 yb; let xb := xb + xa; let t1 := bn 2 t1 yb; let xb := xb * t1; let z3 := z3 + xc; let z3 := bn 0 z3 yb; let t0 := z0; let t0 := -t0; let t1 := z2; let t1 := -t1; let xb := xb + t0; let xb := xb + t1; let z3 := z3 + t1; let z2 := z2 + t0; let t0 := xa; let t0 := t0 + xc; let t0 := t0 * ya; let xc := z2; let xc := xc + t0; let z3 := ex 0 z3; let xa := z0; let xa := xa + z3; xb) = _
  simp only [h, k, k2]
  rw [hc]
  ring

theorem ssD2_c (h : ∀ v, ex 0 v = v * om) (s : R12 → F) (hc : s .yc = 0) (k : ∀ v, bn 0 v (s .yb) = v * s .yb) (k2 : ∀ v, bn 2 v (s .yb) = v + s .yb) : run (ringOps F ex bn) Fp12.ssD s .xc = s .xa * s .yc + s .xb * s .yb + s .xc * s .ya := by
  change (let xa := s .xa; let xb := s .xb; let xc := s .xc; let ya := s .ya; let yb := s .yb; let z0 := xa; let z2 := xb; let z3 := xb; let t1 := ya; let z0 := z0 * ya; let z2 := bn 0 z2 yb; let xb := xb + xa; let t1 := bn 2 t1 yb; let xb := xb * t1; let z3 := z3 + xc; let z3 := bn 0 z3 yb; let t0 := z0; let t0 := -t0; let t1 := z2; let t1 := -t1; let xb := xb + t0; let xb := xb + t1; let z3 := z3 + t1; let z2 := z2 + t0; let t0 := xa; let t0 := t0 + xc; let t0 := t0 * ya; let xc := z2; let xc := xc + t0; let z3 := ex 0 z3; let xa := z0; let xa := xa + z3; xc) = _
  simp only [h, k, k2]
  rw [hc]
  ring

theorem inv12_a (h : ∀ v, ex 0 v = v * om) (s : R12 → F) : run (ringOps F ex bn) Fp12.invProg s .xa = (s .xa ^ 2 - om * (s .xb * s .xc)) * ex 4 (s .xa * (s .xa ^ 2 - om * (s .xb * s .xc)) + om * (s .xc * (om * s .xc ^ 2 - s .xa * s .xb) + s .xb * (s .xb ^ 2 - s .xa * s .xc))) := by
  have k : (let xa := s .xa; let xb := s .xb; let xc := s .xc; let f0 := xa; let f1 := xb; let f2 := xa; let f0 := f0 ^ 2; let f1 := f1 * xc; let f1 := ex 0 f1; let f0 := f0 - f1; let f1 := xc; let f1 := f1 ^ 2; let f1 := ex 0 f1; let f2 := f2 * xb; let f1 := f1 - f2; let f2 := xb; let f2 := f2 ^ 2; let f3 := xa; let f3 := f3 * xc; let f2 := f2 - f3; let f3 := xb; let f3 := f3 * f2; let f3 := ex 0 f3; let xa := xa * f0; let f3 := f3 + xa; let xc := xc * f1; let xc := ex 0 xc; let f3 := f3 + xc; f3) = (s .xa * (s .xa ^ 2 - om * (s .xb * s .xc)) + om * (s .xc * (om * s .xc ^ 2 - s .xa * s .xb) + s .xb * (s .xb ^ 2 - s .xa * s .xc))) := by simp only [h]; ring
  change (let xa := s .xa; let xb := s .xb; let xc := s .xc; let f0 := xa; let f1 := xb; let f2 := xa; let f0 := f0 ^ 2; let f1 := f1 * xc; let f1 := ex 0 f1; let f0 := f0 - f1; let f1 := xc; let f1 := f1 ^ 2; let f1 := ex 0 f1; let f2 := f2 * xb; let f1 := f1 - f2; let f2 := xb; let f2 := f2 ^ 2; let f3 := xa; let f3 := f3 * xc; let f2 := f2 - f3; let f3 := xb; let f3 := f3 * f2; let f3 := ex 0 f3; let xa := xa * f0; let f3 := f3 + xa; let xc := xc * f1; let xc := ex 0 xc; let f3 := f3 + xc; let f3 := ex 4 f3; let xa := f0; let xa := xa * f3; let xb := f1; let xb := xb * f3; let xc := f2; let xc := xc * f3; xa) = _
  dsimp only at k ⊢
  rw [k]
  try simp only [h]
  try ring

theorem inv12_b (h : ∀ v, ex 0 v = v * om) (s : R12 → F) : run (ringOps F ex bn) Fp12.invProg s .xb = (om * s .xc ^ 2 - s .xa * s .xb) * ex 4 (s .xa * (s .xa ^ 2 - om * (s .xb * s .xc)) + om * (s .xc * (om * s .xc ^ 2 - s .xa * s .xb) + s .xb * (s .xb ^ 2 - s .xa * s .xc))) := by
  have k : (let xa := s .xa; let xb := s .xb; let xc := s .xc; let f0 := xa; let f1 := xb; let f2 := xa; let f0 := f0 ^ 2; let f1 := f1 * xc; let f1 := ex 0 f1; let f0 := f0 - f1; let f1 := xc; let f1 := f1 ^ 2; let f1 := ex 0 f1; let f2 := f2 * xb; let f1 := f1 - f2; let f2 := xb; let f2 := f2 ^ 2; let f3 := xa; let f3 := f3 * xc; let f2 := f2 - f3; let f3 := xb; let f3 := f3 * f2; let f3 := ex 0 f3; let xa := xa * f0; let f3 := f3 + xa; let xc := xc * f1; let xc := ex 0 xc; let f3 := f3 + xc; f3) = (s .xa * (s .xa ^ 2 - om * (s .xb * s .xc)) + om * (s .xc * (om * s .xc ^ 2 - s .xa * s .xb) + s .xb * (s .xb ^ 2 - s .xa * s .xc))) := by simp only [h]; ring
  change (let xa := s .xa; let xb := s .xb; let xc := s .xc; let f0 := xa; let f1 := xb; let f2 := xa; let f0 := f0 ^ 2; let f1 := f1 * xc; let f1 := ex 0 f1; let f0 := f0 - f1; let f1 := xc; let f1 := f1 ^ 2; let f1 := ex 0 f1; let f2 := f2 * xb; let f1 := f1 - f2; let f2 := xb; let f2 := f2 ^ 2; let f3 := xa; let f3 := f3 * xc; let f2 := f2 - f3; let f3 := xb; let f3 := f3 * f2; let f3 := ex 0 f3; let xa := xa * f0; let f3 := f3 + xa; let xc := xc * f1; let xc := ex 0 xc; let f3 := f3 + xc; let f3 := ex 4 f3; let xa := f0; let xa := xa * f3; let xb := f1; let xb := xb * f3; let xc := f2; let xc := xc * f3; xb) = _
  dsimp only at k ⊢
  rw [k]
  try simp only [h]
  try ring

theorem inv12_c (h : ∀ v, ex 0 v = v * om) (s : R12 → F) : run (ringOps F ex bn) Fp12.invProg s .xc = (s .xb ^ 2 - s .xa * s .xc) * ex 4 (s .xa * (s .xa ^ 2 - om * (s .xb * s .xc)) + om * (s .xc * (om * s .xc ^ 2 - s .xa * s .xb) + s .xb * (s .xb ^ 2 - s .xa * s .xc))) := by
  have k : (let xa := s .xa; let xb := s .xb; let xc := s .xc; let f0 := xa; let f1 := xb; let f2 := xa; let f0 := f0 ^ 2; let f1 := f1 * xc; let f1 := ex 0 f1; let f0 := f0 - f1; let f1 := xc; let f1 := f1 ^ 2; let f1 := ex 0 f1; let f2 := f2 * xb; let f1 := f1 - f2; let f2 := xb; let f2 := f2 ^ 2; let f3 := xa; let f3 := f3 * xc; let f2 := f2 - f3; let f3 := xb; let f3 := f3 * f2; let f3 := ex 0 f3; let xa := xa * f0; let f3 := f3 + xa; let xc := xc * f1; let xc := ex 0 xc; let f3 := f3 + xc; f3) = (s .xa * (s .xa ^ 2 - om * (s .xb * s .xc)) + om * (s .xc * (om * s .xc ^ 2 - s .xa * s .xb) + s .xb * (s .xb ^ 2 - s .xa * s .xc))) := by simp only [h]; ring
  change (let xa := s .xa; let xb := s .xb; let xc := s .xc; let f0 := xa; let f1 := xb; let f2 := xa; let f0 := f0 ^ 2; let f1 := f1 * xc; let f1 := ex 0 f1; let f0 := f0 - f1; let f1 := xc; let f1 := f1 ^ 2; let f1 := ex 0 f1; let f2 := f2 * xb; let f1 := f1 - f2; let f2 := xb; let f2 := f2 ^ 2; let f3 := xa; let f3 := f3 * xc; let f2 := f2 - f3; let f3 := xb; let f3 := f3 * f2; let f3 := ex 0 f3; let xa := xa * f0; let f3 := f3 + xa; let xc := xc * f1; let xc := ex 0 xc; let f3 := f3 + xc; let f3 := ex 4 f3; let xa := f0; let xa := xa * f3; let xb := f1; let xb := xb * f3; let xc := f2; let xc := xc * f3; xc) = _
  dsimp only at k ⊢
  rw [k]
  try simp only [h]
  try ring

theorem usqr12_a (h : ∀ v, ex 0 v = v * om) (s : R12 → F) (h3 : ∀ v, ex 3 v = v) : run (ringOps F ex bn) Fp12.usqrProg s .xa = 3 * s .xa ^ 2 + 2 * ex 2 (s .xa) := by
  change (let xa := s .xa; let xb := s .xb; let xc := s .xc; let a := xa; let b := xc; let c := xb; let xa := xa ^ 2; let d := xa; let d := d + xa; let xa := xa + d; let a := ex 2 a; let a := a + a; let xa := xa + a; let b := b ^ 2; let b := ex 0 b; let d := b; let d := d + b; let b := b + d; let c := c ^ 2; let d := c; let d := d + c; let c := c + d; let xb := ex 1 xb; let xb := xb + xb; let xc := ex 2 xc; let xc := xc + xc; let xb := xb + b; let xc := xc + c; let xa := ex 3 xa; let xb := ex 3 xb; let xc := ex 3 xc; xa) = _
  simp only [h, h3]
  try ring

theorem usqr12_b (h : ∀ v, ex 0 v = v * om) (s : R12 → F) (h3 : ∀ v, ex 3 v = v) : run (ringOps F ex bn) Fp12.usqrProg s .xb = 3 * (om * s .xc ^ 2) + 2 * ex 1 (s .xb) := by
  change (let xa := s .xa; let xb := s .xb; let xc := s .xc; let a := xa; let b := xc; let c := xb; let xa := xa ^ 2; let d := xa; let d := d + xa; let xa := xa + d; let a := ex 2 a; let a := a + a; let xa := xa + a; let b := b ^ 2; let b := ex 0 b; let d := b; let d := d + b; let b := b + d; let c := c ^ 2; let d := c; let d := d + c; let c := c + d; let xb := ex 1 xb; let xb := xb + xb; let xc := ex 2 xc; let xc := xc + xc; let xb := xb + b; let xc := xc + c; let xa := ex 3 xa; let xb := ex 3 xb; let xc := ex 3 xc; xb) = _
  simp only [h, h3]
  try ring

theorem usqr12_c (h : ∀ v, ex 0 v = v * om) (s : R12 → F) (h3 : ∀ v, ex 3 v = v) : run (ringOps F ex bn) Fp12.usqrProg s .xc = 3 * s .xb ^ 2 + 2 * ex 2 (s .xc) := by
  change (let xa := s .xa; let xb := s .xb; let xc := s .xc; let a := xa; let b := xc; let c := xb; let xa := xa ^ 2; let d := xa; let d := d + xa; let xa := xa + d; let a := ex 2 a; let a := a + a; let xa := xa + a; let b := b ^ 2; let b := ex 0 b; let d := b; let d := d + b; let b := b + d; let c := c ^ 2; let d := c; let d := d + c; let c := c + d; let xb := ex 1 xb; let xb := xb + xb; let xc := ex 2 xc; let xc := xc + xc; let xb := xb + b; let xc := xc + c; let xa := ex 3 xa; let xb := ex 3 xb; let xc := ex 3 xc; xc) = _
  simp only [h, h3]
  try ring

theorem smM_w1 (h : ∀ v, ex 0 v = v * om) (s : S12 → F) : run (ringOps F ex bn) Fp12.smM s .w1 = s .xaa * s .yaa + s .xab * s .yab * om := by
  change (let xaa := s .xaa; let xab := s .xab; let xbc := s .xbc; let yaa := s .yaa; let yab := s .yab; let ybc := s .ybc; let w1 := xaa; let w2 := xab; let w3 := xbc; let w1 := w1 * yaa; let w2 := w2 * yab; let w3 := w3 * ybc; let ta := xaa; let tb := yaa; let ta := ta + xab; let tb := tb + yab; let tc := ta; let tc := tc * tb; let t := w1; let t := t + w2; let t := -t; let tc := tc + t; let ta := xaa; let ta := ta + xbc; let tb := yaa; let tb := tb + ybc; let td := ta; let td := td * tb; let t := w1; let t := t + w3; let t := -t; let td := td + t; let ta := xab; let ta := ta + xbc; let tb := yab; let tb := tb + ybc; let te := ta; let te := te * tb; let t := w2; let t := t + w3; let t := -t; let te := te + t; let w2 := ex 0 w2; let w1 := w1 + w2; let w3 := ex 0 w3; let te := ex 0 te; w1) = _
  simp only [h]
  try ring

theorem smM_tc (h : ∀ v, ex 0 v = v * om) (s : S12 → F) : run (ringOps F ex bn) Fp12.smM s .tc = s .xaa * s .yab + s .xab * s .yaa := by
  change (let xaa := s .xaa; let xab := s .xab; let xbc := s .xbc; let yaa := s .yaa; let yab := s .yab; let ybc := s .ybc; let w1 := xaa; let w2 := xab; let w3 := xbc; let w1 := w1 * yaa; let w2 := w2 * yab; let w3 := w3 * ybc; let ta := xaa; let tb := yaa; let ta := ta + xab; let tb := tb + yab; let tc := ta; let tc := tc * tb; let t := w1; let t := t + w2; let t := -t; let tc := tc + t; let ta := xaa; let ta := ta + xbc; let tb := yaa; let tb := tb + ybc; let td := ta; let td := td * tb; let t := w1; let t := t + w3; let t := -t; let td := td + t; let ta := xab; let ta := ta + xbc; let tb := yab; let tb := tb + ybc; let te := ta; let te := te * tb; let t := w2; let t := t + w3; let t := -t; let te := te + t; let w2 := ex 0 w2; let w1 := w1 + w2; let w3 := ex 0 w3; let te := ex 0 te; tc) = _
  simp only [h]
  try ring

theorem smM_w3 (h : ∀ v, ex 0 v = v * om) (s : S12 → F) : run (ringOps F ex bn) Fp12.smM s .w3 = s .xbc * s .ybc * om := by
  change (let xaa := s .xaa; let xab := s .xab; let xbc := s .xbc; let yaa := s .yaa; let yab := s .yab; let ybc := s .ybc; let w1 := xaa; let w2 := xab; let w3 := xbc; let w1 := w1 * yaa; let w2 := w2 * yab; let w3 := w3 * ybc; let ta := xaa; let tb := yaa; let ta := ta + xab; let tb := tb + yab; let tc := ta; let tc := tc * tb; let t := w1; let t := t + w2; let t := -t; let tc := tc + t; let ta := xaa; let ta := ta + xbc; let tb := yaa; let tb := tb + ybc; let td := ta; let td := td * tb; let t := w1; let t := t + w3; let t := -t; let td := td + t; let ta := xab; let ta := ta + xbc; let tb := yab; let tb := tb + ybc; let te := ta; let te := te * tb; let t := w2; let t := t + w3; let t := -t; let te := te + t; let w2 := ex 0 w2; let w1 := w1 + w2; let w3 := ex 0 w3; let te := ex 0 te; w3) = _
  simp only [h]
  try ring

theorem smM_td (h : ∀ v, ex 0 v = v * om) (s : S12 → F) : run (ringOps F ex bn) Fp12.smM s .td = s .xaa * s .ybc + s .xbc * s .yaa := by
  change (let xaa := s .xaa; let xab := s .xab; let xbc := s .xbc; let yaa := s .yaa; let yab := s .yab; let ybc := s .ybc; let w1 := xaa; let w2 := xab; let w3 := xbc; let w1 := w1 * yaa; let w2 := w2 * yab; let w3 := w3 * ybc; let ta := xaa; let tb := yaa; let ta := ta + xab; let tb := tb + yab; let tc := ta; let tc := tc * tb; let t := w1; let t := t + w2; let t := -t; let tc := tc + t; let ta := xaa; let ta := ta + xbc; let tb := yaa; let tb := tb + ybc; let td := ta; let td := td * tb; let t := w1; let t := t + w3; let t := -t; let td := td + t; let ta := xab; let ta := ta + xbc; let tb := yab; let tb := tb + ybc; let te := ta; let te := te * tb; let t := w2; let t := t + w3; let t := -t; let te := te + t; let w2 := ex 0 w2; let w1 := w1 + w2; let w3 := ex 0 w3; let te := ex 0 te; td) = _
  simp only [h]
  try ring

theorem smM_te (h : ∀ v, ex 0 v = v * om) (s : S12 → F) : run (ringOps F ex bn) Fp12.smM s .te = (s .xab * s .ybc + s .xbc * s .yab) * om := by
  change (let xaa := s .xaa; let xab := s .xab; let xbc := s .xbc; let yaa := s .yaa; let yab := s .yab; let ybc := s .ybc; let w1 := xaa; let w2 := xab; let w3 := xbc; let w1 := w1 * yaa; let w2 := w2 * yab; let w3 := w3 * ybc; let ta := xaa; let tb := yaa; let ta := ta + xab; let tb := tb + yab; let tc := ta; let tc := tc * tb; let t := w1; let t := t + w2; let t := -t; let tc := tc + t; let ta := xaa; let ta := ta + xbc; let tb := yaa; let tb := tb + ybc; let td := ta; let td := td * tb; let t := w1; let t := t + w3; let t := -t; let td := td + t; let ta := xab; let ta := ta + xbc; let tb := yab; let tb := tb + ybc; let te := ta; let te := te * tb; let t := w2; let t := t + w3; let t := -t; let te := te + t; let w2 := ex 0 w2; let w1 := w1 + w2; let w3 := ex 0 w3; let te := ex 0 te; te) = _
  simp only [h]
  try ring

theorem smD_w1 (h : ∀ v, ex 0 v = v * om) (s : S12 → F) : run (ringOps F ex bn) Fp12.smD s .w1 = s .xaa * s .yaa + s .xab * s .yab * om := by
  change (let xaa := s .xaa; let xab := s .xab; let xbc := s .xbc; let yaa := s .yaa; let yab := s .yab; let ybc := s .ybc; let w1 := xaa; let w2 := xab; let w3 := xbc; let w1 := w1 * yaa; let w2 := w2 * yab; let w3 := w3 * ybc; let ta := xaa; let tb := yaa; let ta := ta + xab; let tb := tb + yab; let tc := ta; let tc := tc * tb; let t := w1; let t := t + w2; let t := -t; let tc := tc + t; let ta := xaa; let ta := ta + xbc; let tb := yaa; let tb := tb + ybc; let td := ta; let td := td * tb; let t := w1; let t := t + w3; let t := -t; let td := td + t; let ta := xab; let ta := ta + xbc; let tb := yab; let tb := tb + ybc; let te := ta; let te := te * tb; let t := w2; let t := t + w3; let t := -t; let te := te + t; let w2 := ex 0 w2; let w1 := w1 + w2; w1) = _
  simp only [h]
  try ring

theorem smD_tc (h : ∀ v, ex 0 v = v * om) (s : S12 → F) : run (ringOps F ex bn) Fp12.smD s .tc = s .xaa * s .yab + s .xab * s .yaa := by
  change (let xaa := s .xaa; let xab := s .xab; let xbc := s .xbc; let yaa := s .yaa; let yab := s .yab; let ybc := s .ybc; let w1 := xaa; let w2 := xab; let w3 := xbc; let w1 := w1 * yaa; let w2 := w2 * yab; let w3 := w3 * ybc; let ta := xaa; let tb := yaa; let ta := ta + xab; let tb := tb + yab; let tc := ta; let tc := tc * tb; let t := w1; let t := t + w2; let t := -t; let tc := tc + t; let ta := xaa; let ta := ta + xbc; let tb := yaa; let tb := tb + ybc; let td := ta; let td := td * tb; let t := w1; let t := t + w3; let t := -t; let td := td + t; let ta := xab; let ta := ta + xbc; let tb := yab; let tb := tb + ybc; let te := ta; let te := te * tb; let t := w2; let t := t + w3; let t := -t; let te := te + t; let w2 := ex 0 w2; let w1 := w1 + w2; tc) = _
  simp only [h]
  try ring

theorem smD_w3 (h : ∀ v, ex 0 v = v * om) (s : S12 → F) : run (ringOps F ex bn) Fp12.smD s .w3 = s .xbc * s .ybc := by
  change (let xaa := s .xaa; let xab := s .xab; let xbc := s .xbc; let yaa := s .yaa; let yab := s .yab; let ybc := s .ybc; let w1 := xaa; let w2 := xab; let w3 := xbc; let w1 := w1 * yaa; let w2 := w2 * yab; let w3 := w3 * ybc; let ta := xaa; let tb := yaa; let ta := ta + xab; let tb := tb + yab; let tc := ta; let tc := tc * tb; let t := w1; let t := t + w2; let t := -t; let tc := tc + t; let ta := xaa; let ta := ta + xbc; let tb := yaa; let tb := tb + ybc; let td := ta; let td := td * tb; let t := w1; let t := t + w3; let t := -t; let td := td + t; let ta := xab; let ta := ta + xbc; let tb := yab; let tb := tb + ybc; let te := ta; let te := te * tb; let t := w2; let t := t + w3; let t := -t; let te := te + t; let w2 := ex 0 w2; let w1 := w1 + w2; w3) = _
  simp only [h]
  try ring

theorem smD_td (h : ∀ v, ex 0 v = v * om) (s : S12 → F) : run (ringOps F ex bn) Fp12.smD s .td = s .xaa * s .ybc + s .xbc * s .yaa := by
  change (let xaa := s .xaa; let xab := s .xab; let xbc := s .xbc; let yaa := s .yaa; let yab := s .yab; let ybc := s .ybc; let w1 := xaa; let w2 := xab; let w3 := xbc; let w1 := w1 * yaa; let w2 := w2 * yab; let w3 := w3 * ybc; let ta := xaa; let tb := yaa; let ta := ta + xab; let tb := tb + yab; let tc := ta; let tc := tc * tb; let t := w1; let t := t + w2; let t := -t; let tc := tc + t; let ta := xaa; let ta := ta + xbc; let tb := yaa; let tb := tb + ybc; let td := ta; let td := td * tb; let t := w1; let t := t + w3; let t := -t; let td := td + t; let ta := xab; let ta := ta + xbc; let tb := yab; let tb := tb + ybc; let te := ta; let te := te * tb; let t := w2; let t := t + w3; let t := -t; let te := te + t; let w2 := ex 0 w2; let w1 := w1 + w2; td) = _
  simp only [h]
  try ring

theorem smD_te (h : ∀ v, ex 0 v = v * om) (s : S12 → F) : run (ringOps F ex bn) Fp12.smD s .te = s .xab * s .ybc + s .xbc * s .yab := by
  change (let xaa := s .xaa; let xab := s .xab; let xbc := s .xbc; let yaa := s .yaa; let yab := s .yab; let ybc := s .ybc; let w1 := xaa; let w2 := xab; let w3 := xbc; let w1 := w1 * yaa; let w2 := w2 * yab; let w3 := w3 * ybc; let ta := xaa; let tb := yaa; let ta := ta + xab; let tb := tb + yab; let tc := ta; let tc := tc * tb; let t := w1; let t := t + w2; let t := -t; let tc := tc + t; let ta := xaa; let ta := ta + xbc; let tb := yaa; let tb := tb + ybc; let td := ta; let td := td * tb; let t := w1; let t := t + w3; let t := -t; let td := td + t; let ta := xab; let ta := ta + xbc; let tb := yab; let tb := tb + ybc; let te := ta; let te := te * tb; let t := w2; let t := t + w3; let t := -t; let te := te + t; let w2 := ex 0 w2; let w1 := w1 + w2; te) = _
  simp only [h]
  try ring

end Verif.Tower
