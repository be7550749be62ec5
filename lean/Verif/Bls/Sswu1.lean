import Verif.Bls.ModelH2c
import Verif.Bls.SswuTheory
import Verif.Fp.Wide
import Verif.Props.Tower2
/- `simplified_swu_fp` computes the map of the RFC. -/
namespace Verif.Bls
open Verif.Big Verif.Fp Verif.Tower Spec.Sswu

variable {C : Nat} {P : Params C} {p : Nat} [hp : Fact p.Prime]

theorem _root_.Verif.Fp.Elem.cg {l k : Nat} {a : Fp C} {v w : ZMod p} (h : Elem P p l k a v) (e : v = w) : Elem P p l k a w := e ▸ h

/-- the constants of a map over `Fp` -/
structure Sswu1Ok (P : Params C) (p : Nat) [Fact p.Prime] (S : Sswu1 C) (A B Z : ZMod p) : Prop where
  a : Elem P p 0 1 S.A A
  b : Elem P p 0 1 S.B B
  z : Elem P p 0 1 S.Z Z
  a0 : A ≠ 0
  nonsq : ¬ IsSquare Z
  exc : IsSquare (g A B (B / (Z * A)))

variable (h : TowerOk P p) (hw : Wide P) (hp4 : p % 4 = 3)
include h
theorem rm {l k : Nat} (hl : l ≤ 4) (hk : k ≤ 4) : Room P (max l k) := (room_one h.toConsts).mono (by omega)

theorem inv_ok {l k : Nat} {a : Fp C} {v : ZMod p} (ha : Elem P p l k a v) : Elem P p 0 1 (Fp.inverse P a) v⁻¹ := by
  have hpl : P.plain = false := h.plain
  have := h.arith.inverse_ok _ a ha.valid ha.room (fun e => by rw [hpl] at e; cases e)
  rw [ha.res] at this
  exact Elem.of_normed h.toConsts this

include hw in
theorem gx1_ok {S : Sswu1 C} {A B Z : ZMod p} (hS : Sswu1Ok P p S A B Z) {x : Fp C} {v : ZMod p} (hx : Elem P p 0 1 x v) :
    Elem P p 0 2 (gxFp P S x) (g A B v) := by
  have f := h.arith.toFieldOk
  have h1 := (hx.sqr f ⟨by omega, le_rfl⟩).add h.toConsts hS.a (rm h (by omega) (by omega))
  have h2 := (h1.mulW f hw hx ⟨by omega, by omega⟩ ⟨by omega, by omega⟩).add h.toConsts hS.b (rm h (by omega) (by omega))
  exact h2.cg (by unfold g; ring)

include hw in
theorem x1_ok {S : Sswu1 C} {A B Z : ZMod p} (hS : Sswu1Ok P p S A B Z) {t : Fp C} {u : ZMod p} (ht : Elem P p 0 1 t (Z * u ^ 2)) :
    Elem P p 0 1 (x1Fp P S t) (x1 A B Z u) := by
  have f := h.arith.toFieldOk
  have hc := h.toConsts
  have h1 := inv_ok h ((ht.sqr f ⟨by omega, le_rfl⟩).add hc ht (rm h (by omega) (by omega)))
  have ho : Elem P p 0 1 (Fp.newInt P 1) 1 := by
    have := h.arith.newInt_ok 1 (by have := h.ok.hb; exact_mod_cast Nat.one_lt_two_pow (by omega))
    exact (Elem.of_normed hc this).cg (by simp)
  have ha := inv_ok h hS.a
  have h2 := ((h1.add hc ho (rm h (by omega) (by omega))).mulW f hw hS.b ⟨by omega, by omega⟩ ⟨by omega, by omega⟩).neg hc h.hC (rm h (by omega) (by omega))
  have h3 := h2.mulW f hw ha ⟨by omega, by omega⟩ ⟨by omega, by omega⟩
  have h4 := ((inv_ok h hS.z).mulW f hw hS.b ⟨by omega, by omega⟩ ⟨by omega, by omega⟩).mulW f hw ha ⟨by omega, by omega⟩ ⟨by omega, by omega⟩
  have hz := iszilch_ok hc h1.valid h1.room
  rw [h1.res, inv_eq_zero] at hz
  have e : Z * u ^ 2 * (Z * u ^ 2) + Z * u ^ 2 = (Z * u ^ 2) ^ 2 + Z * u ^ 2 := by ring
  rw [e] at hz h3
  unfold x1Fp x1
  dsimp only
  by_cases c : (Z * u ^ 2) ^ 2 + Z * u ^ 2 = 0
  · rw [if_pos c, if_pos (hz.mpr c)]
    exact h4.cg (by rw [mul_comm Z A, div_mul_eq_div_div, div_eq_mul_inv, div_eq_mul_inv]; ring)
  · rw [if_neg c, if_neg (fun q => c (hz.mp q))]
    exact h3.cg (by rw [div_eq_mul_inv, one_div]; ring)

include hp4 in
theorem sqrt1_ok {l k : Nat} {a : Fp C} {v : ZMod p} (ha : Elem P p l k a v) :
    ∃ r, Elem P p 0 1 (Fp.sqrt P a) r ∧ (IsSquare v → r * r = v) := by
  have hpl : P.plain = false := h.plain
  have f := h.arith.toFieldOk
  have hpR : (p : Int) < 2 ^ (P.b * P.n) := by simpa using h.toConsts.xes_p (x := 1) Nat.one_le_two_pow
  by_cases hsq : IsSquare v
  · have := sqrt_ok f h.arith.one_ok hpl ha.valid ha.room hp4 (by rw [ha.res]; exact hsq)
    exact ⟨_, Elem.of_normed h.toConsts ⟨this.1, rfl⟩, fun _ => by rw [this.2, ha.res]⟩
  · have e : sqrt P a = pow P (reduce P a) (shr P.b 2 (Big.norm P.b (inc P.b P.md 1))) := by simp [sqrt, hpl]
    have q := ha.reduce h.toConsts
    have h2 := h.toConsts.two_lt
    obtain ⟨r1, r2, _⟩ := pow_ok f h.arith.one_ok q.valid q.room (sqrt_exp h.toConsts) (by omega)
    rw [← e] at r1 r2
    exact ⟨_, Elem.of_normed h.toConsts ⟨r1, rfl⟩, fun hh => absurd hh hsq⟩

/-- the final adjustment of the sign -/
theorem fin1_ok {u x y : Fp C} {Y : ZMod p} (hy : Elem P p 0 1 y Y) :
    ∃ l k Y', l ≤ 1 ∧ k ≤ 1 ∧ Elem P p l k (finFp P u x y).2 Y' ∧ (finFp P u x y).1 = x ∧ Y' * Y' = Y * Y ∧ (Y' ≠ 0 → (Fp.sgn0 P u = true ↔ Y'.val % 2 = 1)) := by
  unfold finFp
  dsimp only
  by_cases c : Fp.sgn0 P u ≠ Fp.sgn0 P y
  · rw [if_pos c]
    refine ⟨1, 1, -Y, le_rfl, le_rfl, hy.neg h.toConsts h.hC (rm h (by omega) (by omega)), rfl, by ring, fun h0 => ?_⟩
    have h0' : Y ≠ 0 := fun e => h0 (by rw [e, neg_zero])
    rw [Props.sgn0_ex h hy h0'] at c
    have : NeZero Y := ⟨h0'⟩
    have hlt := ZMod.val_lt Y
    have hodd := odd_of_prime h.toConsts
    have hy0 : Y.val ≠ 0 := fun e => h0' ((ZMod.val_eq_zero Y).mp e)
    rw [ZMod.val_neg_of_ne_zero]
    by_cases c1 : Y.val % 2 = 1
    · rw [decide_eq_true c1] at c
      constructor
      · intro q; exact absurd q c
      · intro q; omega
    · rw [decide_eq_false c1, ne_eq, Bool.not_eq_false] at c
      refine ⟨fun _ => by omega, fun _ => c⟩
  · rw [if_neg c]
    refine ⟨0, 1, Y, by omega, le_rfl, hy, rfl, rfl, fun h0 => ?_⟩
    rw [not_not.mp c, Props.sgn0_ex h hy h0, decide_eq_true_iff]

include hw hp4 in
/-- `simplified_swu_fp` never panics and returns the point of the RFC; the ordinate has the sign of `u` -/
theorem sswu1_ok {S : Sswu1 C} {A B Z : ZMod p} (hS : Sswu1Ok P p S A B Z) {u : Fp C} {v : ZMod p} (hu : Elem P p 0 1 u v) :
    ∃ x y l k Y, sswuFp P S u = some (x, y) ∧ l ≤ 1 ∧ k ≤ 1 ∧ Elem P p 0 1 x (absc A B Z v) ∧ Elem P p l k y Y ∧ Y * Y = g A B (absc A B Z v) ∧
      (Y ≠ 0 → (Fp.sgn0 P u = true ↔ Y.val % 2 = 1)) := by
  have f := h.arith.toFieldOk
  have hc := h.toConsts
  have ht : Elem P p 0 1 (Fp.mul P (Fp.sqr P u) S.Z) (Z * v ^ 2) :=
    ((hu.sqr f ⟨by omega, le_rfl⟩).mulW f hw hS.z ⟨by omega, by omega⟩ ⟨by omega, by omega⟩).cg (by ring)
  have hx := x1_ok h hw hS ht
  have hg := gx1_ok h hw hS hx
  obtain ⟨r, hr, hr2⟩ := sqrt1_ok h hp4 hg
  have hq := hr.sqr f ⟨by omega, le_rfl⟩
  have he := equals_ok hc hg.valid hq.valid hg.room hq.room
  rw [hg.res, hq.res] at he
  have hx2 : Elem P p 0 1 (Fp.mul P (x1Fp P S (Fp.mul P (Fp.sqr P u) S.Z)) (Fp.mul P (Fp.sqr P u) S.Z)) (Z * v ^ 2 * x1 A B Z v) :=
    (hx.mulW f hw ht ⟨by omega, by omega⟩ ⟨by omega, by omega⟩).cg (by ring)
  have hg2 := gx1_ok h hw hS hx2
  obtain ⟨s, hs, hs2⟩ := sqrt1_ok h hp4 hg2
  have hq2 := hs.sqr f ⟨by omega, le_rfl⟩
  have hd2 := hg2.reduce hc
  have he2 := equals_ok hc hd2.valid hq2.valid hd2.room hq2.room
  rw [hd2.res, hq2.res] at he2
  have h2 : ringChar (ZMod p) ≠ 2 := by
    rw [ZMod.ringChar_zmod_n]
    have := odd_of_prime hc
    omega
  have hsq := absc_sq h2 hS.a0 hS.nonsq hS.exc v
  unfold sswuFp
  dsimp only
  unfold absc at hsq ⊢
  by_cases c : IsSquare (g A B (x1 A B Z v))
  · rw [if_pos c] at hsq ⊢
    rw [if_pos (he.mpr (hr2 c).symm)]
    obtain ⟨l, k, Y, k1, k2, k3, k4, k5, k6⟩ := fin1_ok h (u := u) (x := x1Fp P S (Fp.mul P (Fp.sqr P u) S.Z)) hr
    exact ⟨_, _, l, k, Y, rfl, k1, k2, k4 ▸ hx, k3, by rw [k5, hr2 c], k6⟩
  · rw [if_neg c] at hsq ⊢
    rw [if_neg (fun q => c ⟨r, he.mp q⟩), if_pos (he2.mpr (hs2 hsq).symm)]
    obtain ⟨l, k, Y, k1, k2, k3, k4, k5, k6⟩ := fin1_ok h (u := u) (x := Fp.mul P (x1Fp P S (Fp.mul P (Fp.sqr P u) S.Z)) (Fp.mul P (Fp.sqr P u) S.Z)) hs
    exact ⟨_, _, l, k, Y, rfl, k1, k2, k4 ▸ hx2, k3, by rw [k5, hs2 hsq], k6⟩

end Verif.Bls
