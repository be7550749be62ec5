import Verif.Bls.Flags
import Verif.Bls.Keys
import Verif.Ecp.Codec
/- The encodings of G1 points. -/
namespace Verif.Bls
open Verif.Big Verif.Fp Verif.Rom Verif.Curve Verif.Ecp Verif.Ecdh Verif.H2c Spec WeierstrassCurve

set_option linter.unusedSectionVars false
variable {C : Nat} {K : Rom C} [hp : Fact K.p.Prime]

/-- the ordinate printed by `gety` -/
theorem gety_ok (h : DhCurve K) {s : Pt C} {x y : ZMod K.p} {hh} (hs : IsPoint K s (Affine.Point.some x y hh)) :
    Rep K.P.b K.P.n (gety K s) ((y.val : Nat) : Int) := by
  by_cases c : residue K.P K.p s.x = 0
  · -- replace the abscissa by a canonical zero: `gety` does not look at it
    have hc := h.consts
    obtain ⟨s1, s2, s3⟩ := hs.1.elems
    have hd : (coords K s).z ≠ 0 ∧ (coords K s).x = x * (coords K s).z ∧ (coords K s).y = y * (coords K s).z := hs.2
    have hz0 := elem_zero h.curve.arith
    have hs' : IsPoint K { s with x := zero K.P } (Affine.Point.some x y hh) := by
      refine ⟨⟨⟨_, hz0⟩, ⟨_, s2⟩, ⟨_, s3⟩⟩, ?_⟩
      have e : coords K { s with x := zero K.P } = coords K s := by
        have e1 : residue K.P K.p (zero K.P) = 0 := hz0.res
        simp only [coords, e1, c]
      rw [e]; exact hs.2
    have key := (mont_redc h.curve h.mont hs' (fun _ _ => by
      have : (zero K.P).x = Big.zero C K.P.n := rfl
      show limbsVal K.P.b (zero K.P).x = 0
      rw [this]; exact (zero_rep (C := C) K.P.b K.P.n).val)).2
    have hi : ¬ isInfinity K s = true := fun hc => (some_ne_zero' hh) ((isInfinity_ok h.curve hs).mp hc).symm
    have hi' : ¬ isInfinity K { s with x := zero K.P } = true := fun hc => (some_ne_zero' hh) ((isInfinity_ok h.curve hs').mp hc).symm
    have e : (affine K { s with x := zero K.P }).y = (affine K s).y := by
      simp only [affine, hi, hi', h.curve.type]
      split_ifs <;> rfl
    unfold gety
    rwa [e] at key
  · refine (mont_redc h.curve h.mont hs (fun e hz => absurd ?_ c)).2
    have hd : (coords K s).x = x * (coords K s).z := hs.2.2.1
    show (coords K s).x = 0
    rw [hd, e, zero_mul]

/-- the abscissa printed by `getx` -/
theorem getx_faithful (h : DhCurve K) {s : Pt C} {x y : ZMod K.p} {hh} (hs : IsPoint K s (Affine.Point.some x y hh)) (hf : Faithful K s) :
    Rep K.P.b K.P.n (getx K s) ((x.val : Nat) : Int) := by
  refine (mont_redc h.curve h.mont hs (fun e hz => hf ?_ hz)).1
  have hd : (coords K s).x = x * (coords K s).z := hs.2.2.1
  show (coords K s).x = 0
  rw [hd, e, zero_mul]

theorem neg_point {x y : ZMod K.p} (hh : (curve K).Nonsingular x y) : ∃ hh', -(Affine.Point.some x y hh) = (Affine.Point.some x (-y) hh' : (curve K).Point) := by
  rw [Affine.Point.neg_some]
  have : (curve K).negY x y = -y := by simp [Affine.negY, curve, short]
  have hh' : (curve K).Nonsingular x (-y) := by
    rw [← this]; exact (Affine.nonsingular_neg _ _).mpr hh
  refine ⟨hh', ?_⟩
  simp only [this]

/-- the comparison `y > -y` -/
theorem larger_ok (h : DhCurve K) {s t : Pt C} {x y : ZMod K.p} {hh} (hs : IsPoint K s (Affine.Point.some x y hh))
    (ht : IsPoint K t (-(Affine.Point.some x y hh))) : Big.comp (gety K s) (gety K t) > 0 ↔ larger y := by
  obtain ⟨hh', e⟩ := neg_point hh
  rw [e] at ht
  rw [Rep.comp_gt (gety_ok h hs) (gety_ok h ht)]
  unfold larger
  exact_mod_cast Iff.rfl

/-- `serialize_g1` -/
theorem serialize_ok (h : BlsCurve K) {s : Pt C} {T : (curve K).Point} (hs : IsPoint K s T) (hf : Faithful K s) : serializeG1 K s = enc1C T := by
  obtain ⟨m, hm⟩ : ∃ m, K.modbytes = m + 1 := ⟨47, by have := h.size; omega⟩
  have hN : 0 < 256 ^ m := by positivity
  have hfl := h.flags
  have hi := isInfinity_ok h.dh.curve hs
  unfold serializeG1
  match T, hs with
  | .zero, hs =>
    rw [if_pos (hi.mpr rfl)]
    simp only [enc1C]
    rw [hm, pow_flag m 1 (by omega), pow_flag m 2 (by omega), List.replicate_succ, List.set_cons_zero,
      show 2 ^ (8 - 1) * 256 ^ m + 2 ^ (8 - 2) * 256 ^ m = 192 * 256 ^ m + 0 by ring,
      flag_iff (by norm_num) (by norm_num) (by omega) _ _ (by simp)]
    refine ⟨by decide, ?_⟩
    rw [zpad_eq, beNat_beBytes]; simp
  | .some x y hh, hs =>
    rw [if_neg (fun c => (some_ne_zero' hh) (hi.mp c).symm)]
    dsimp only
    rw [toBytes_eq h.dh (getx_faithful h.dh hs hf) (p_lt h.dh x)]
    have ha := (affine_ok h.dh.curve hs).1
    have hl := larger_ok h.dh ha (neg_ok h.dh.curve ha)
    simp only [enc1C]
    have hx : x.val < 32 * 256 ^ m := by
      have := ZMod.val_lt x
      rw [hm, pow_succ] at hfl
      omega
    rw [hm, pow_flag m 1 (by omega), pow_flag m 3 (by omega)]
    by_cases c : larger y
    · rw [if_pos (hl.mpr c), if_pos c]
      have e1 := addFirst_eq (m := m) (f := 32) (v := x.val) (by norm_num) (by norm_num) hx
      have e2 := addFirst_eq (m := m) (f := 160) (v := x.val) (by norm_num) (by norm_num) hx
      rw [show 2 ^ (8 - 1) * 256 ^ m + 2 ^ (8 - 3) * 256 ^ m + x.val = 160 * 256 ^ m + x.val by ring, ← e2]
      unfold addFirst
      cases beBytes (m + 1) x.val with
      | nil => rfl
      | cons b t =>
        simp only [List.headD_cons, List.set_cons_zero, List.cons.injEq, and_true]
        rw [BitVec.add_assoc]; rfl
    · rw [if_neg (fun e => c (hl.mp e)), if_neg c, show 2 ^ (8 - 1) * 256 ^ m + 0 + x.val = 128 * 256 ^ m + x.val by ring]
      exact addFirst_eq (m := m) (f := 128) (v := x.val) (by norm_num) (by norm_num) hx

/-- `serialize_uncompressed_g1` -/
theorem serializeU_ok (h : BlsCurve K) {s : Pt C} {T : (curve K).Point} (hs : IsPoint K s T) (hf : Faithful K s) : serializeUncompressedG1 K s = enc1U T := by
  have hi := isInfinity_ok h.dh.curve hs
  unfold serializeUncompressedG1
  match T, hs with
  | .zero, hs =>
    obtain ⟨m, hm⟩ : ∃ m, 2 * K.modbytes = m + 1 := ⟨95, by have := h.size; omega⟩
    have hN : 0 < 256 ^ m := by positivity
    rw [if_pos (hi.mpr rfl)]
    simp only [enc1U]
    rw [show 16 * K.modbytes = 8 * (2 * K.modbytes) by ring, hm, pow_flag m 2 (by omega), List.replicate_succ, List.set_cons_zero,
      show 2 ^ (8 - 2) * 256 ^ m = 64 * 256 ^ m + 0 by ring, flag_iff (by norm_num) (by norm_num) (by omega) _ _ (by simp)]
    refine ⟨by decide, ?_⟩
    rw [zpad_eq, beNat_beBytes]; simp
  | .some x y hh, hs =>
    rw [if_neg (fun c => (some_ne_zero' hh) (hi.mp c).symm), toBytes_eq h.dh (getx_faithful h.dh hs hf) (p_lt h.dh x),
      toBytes_eq h.dh (gety_ok h.dh hs) (p_lt h.dh y)]
    rfl

end Verif.Bls
