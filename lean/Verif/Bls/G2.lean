import Verif.Spec.Bls2
import Verif.Ecp2.Make
import Verif.Bls.G1Dec
/- The encodings of G2 points. -/
namespace Verif.Bls
open Verif.Big Verif.Fp Verif.Rom Verif.Curve Verif.Ecdh Verif.H2c Verif.Tower Verif.Ecp2 Spec WeierstrassCurve

set_option linter.unusedSectionVars false
variable {C : Nat} {K : PairRom C} [hp : Fact K.rom.p.Prime] [h4 : Fact (K.rom.p % 4 = 3)]

/-- the number printed for a normalised component -/
theorem redc_clean (h : TowerOk K.rom.P K.rom.p) {l k : Nat} (hl : l < K.rom.P.n) (hk : k < K.rom.P.n) {a : Fp C} {v : ZMod K.rom.p} (ha : Elem K.rom.P K.rom.p l k a v)
    (hv : v ≠ 0 ∨ Clean K.rom.P K.rom.p a) : Rep K.rom.P.b K.rom.P.n (redc K.rom.P a) ((v.val : Nat) : Int) := by
  have := redc_ex h hl hk ha
  rwa [if_neg] at this
  rintro ⟨h1, h2⟩
  rcases hv with hv | hv
  · exact hv h1
  · exact h2 (hv (by rw [ha.res, h1]))

/-- a reduced element is clean -/
theorem clean_lt (h : TowerOk K.rom.P K.rom.p) {a : Fp C} (h0 : 0 ≤ limbsVal K.rom.P.b a.x) (hlt : limbsVal K.rom.P.b a.x < K.rom.p) : Clean K.rom.P K.rom.p a := by
  intro hr
  rw [residue_eq_iff h.toConsts, zero_mul] at hr
  exact Int.eq_zero_of_dvd_of_nonneg_of_lt h0 hlt ((ZMod.intCast_zmod_eq_zero_iff_dvd _ _).mp hr)

theorem clean_reduce (h : TowerOk K.rom.P K.rom.p) {l k : Nat} {a : Fp C} {v : ZMod K.rom.p} (ha : Elem K.rom.P K.rom.p l k a v) : Clean K.rom.P K.rom.p (Fp.reduce K.rom.P a) := by
  obtain ⟨_, _, _, r4⟩ := reduce_ok h.toConsts ha.valid ha.room
  have hpz : (0 : Int) < K.rom.p := by exact_mod_cast h.ppos
  refine clean_lt h ?_ ?_ <;> rw [r4]
  · exact Int.emod_nonneg _ hpz.ne'
  · exact Int.emod_lt_of_pos _ hpz

theorem clean_norm (h : TowerOk K.rom.P K.rom.p) {l k : Nat} {a : Fp C} {v : ZMod K.rom.p} (ha : Elem K.rom.P K.rom.p l k a v) (hc : Clean K.rom.P K.rom.p a) :
    Clean K.rom.P K.rom.p (Fp.norm K.rom.P a) := by
  intro hr
  have e : residue K.rom.P K.rom.p a = 0 := by rw [ha.res, ← (ha.norm h.toConsts).res]; exact hr
  obtain ⟨_, n2, _⟩ := norm_normed h.toConsts ha.valid ha.room
  rw [n2]; exact hc e

/-- `FP::new_big` of a number below the modulus is clean -/
theorem clean_newBig (h : TowerOk K.rom.P K.rom.p) {ix : Limbs C} {X : Nat} (hx : Rep K.rom.P.b K.rom.P.n ix X) (hX : X < K.rom.p) : Clean K.rom.P K.rom.p (newBig K.rom.P ix) := by
  intro h0
  have hres : (X : ZMod K.rom.p) = 0 := by rw [← (std_newBig h hx hX).1.res]; exact h0
  have hX0 : X = 0 := by
    have := congrArg ZMod.val hres
    rwa [ZMod.val_natCast_of_lt hX, ZMod.val_zero] at this
  subst hX0
  exact newBig_zeroM h.toMontConsts hx

/-- all components clean -/
structure Clean4 (K : PairRom C) (s : Pt2 C) : Prop where
  xa : Clean K.rom.P K.rom.p s.x.a
  xb : Clean K.rom.P K.rom.p s.x.b
  ya : Clean K.rom.P K.rom.p s.y.a
  yb : Clean K.rom.P K.rom.p s.y.b

/-- `affine` of a finite point prints its coordinates -/
theorem affine_clean (h : TCurve K) {e : Nat} {s : Pt2 C} {x y : F2 K.rom.p} {hh} (hs : IsPoint2 K e s (Affine.Point.some x y hh)) (hf : Faithful2 K s) :
    Clean4 K (affine K s) := by
  obtain ⟨s1, s2, s3⟩ := hs.1.rels h.tower.toConsts
  have hi := isInfinity_ok h.tower hs
  unfold affine
  split_ifs with c1 c2
  · exact absurd (hi.mp c1).symm (Ecp.some_ne_zero' hh)
  · have e1 := (rel_equals h.tower s3 (int_rel h.tower)).mp c2
    have e2 : res2 K.rom.P K.rom.p s.z = 1 := e1
    obtain ⟨a, b, c, d⟩ := hf ⟨congrArg QuadraticAlgebra.re e2, congrArg QuadraticAlgebra.im e2⟩
    exact ⟨a, b, c, d⟩
  · have hi' := inverse2_ok h.tower s3
    have mx := rel_mul h.tower s1 hi' (by norm_num)
    have my := rel_mul h.tower s2 hi' (by norm_num)
    exact ⟨clean_reduce h.tower mx.re.el, clean_reduce h.tower mx.im.el, clean_reduce h.tower my.re.el, clean_reduce h.tower my.im.el⟩

theorem affine_rels (h : TCurve K) {e : Nat} {s : Pt2 C} {x y : F2 K.rom.p} {hh} (hs : IsPoint2 K e s (Affine.Point.some x y hh)) (he : 2 ≤ e) :
    Rel2 K.rom.P K.rom.p ⟨0, 1, e⟩ (affine K s).x x ∧ Rel2 K.rom.P K.rom.p ⟨0, 1, e⟩ (affine K s).y y := by
  obtain ⟨a1, a2, _⟩ := (affine_ok h.tower hs he).1.1.rels h.tower.toConsts
  have := affine_coords h.tower hs he
  rw [this] at a1 a2
  exact ⟨a1, a2⟩

/-- the bytes of a component -/
theorem bytes_clean (h : G2Curve K) {l k : Nat} (hl : l < K.rom.P.n) (hk : k < K.rom.P.n) {a : Fp C} {v : ZMod K.rom.p} (ha : Elem K.rom.P K.rom.p l k a v) (hc : Clean K.rom.P K.rom.p a) :
    toBytes K.rom.P.b K.rom.modbytes (redc K.rom.P a) = beBytes K.rom.modbytes v.val :=
  toBytes_eq h.bls.dh (redc_clean h.twist.tower hl hk ha (Or.inr hc)) (p_lt h.bls.dh v)

/-- `zcash_cmp_fp2(y, -y) > 0` for `y` with a non-zero imaginary part -/
theorem cmp_gen (h : G2Curve K) {d : Lz} {e : Nat} (hd : d.l < K.rom.P.n ∧ d.k < K.rom.P.n) {y z : Fp2 C} {v : F2 K.rom.p} (hy : Rel2 K.rom.P K.rom.p ⟨0, 1, e⟩ y v)
    (hz : Rel2 K.rom.P K.rom.p d z (-v)) (hv : v.im ≠ 0) : zcashCmpFp2 K.rom.P y z > 0 ↔ larger2 v := by
  have hn := h.twist.len
  have r1 := redc_clean h.twist.tower (by simp; omega) (by simp; omega) hy.im.el (Or.inl hv)
  have r2 := redc_clean h.twist.tower hd.1 hd.2 hz.im.el (Or.inl (by rw [QuadraticAlgebra.im_neg]; exact neg_ne_zero.mpr hv))
  have hne : ¬ Big.comp (Fp2.getb K.rom.P y) (Fp2.getb K.rom.P z) = 0 := by
    unfold Fp2.getb
    rw [Rep.comp_eq r1 r2, QuadraticAlgebra.im_neg]
    intro e
    have := Ecp.neg_parity (K := K.rom) (odd_of_prime h.twist.tower.toConsts) hv
    have e2 : v.im.val = (-v.im).val := by exact_mod_cast e
    omega
  unfold zcashCmpFp2
  dsimp only
  rw [if_neg hne]
  unfold Fp2.getb
  rw [gt_iff_lt, ← gt_iff_lt, Rep.comp_gt r1 r2, QuadraticAlgebra.im_neg]
  unfold larger2 larger
  constructor
  · intro e; exact Or.inl (by exact_mod_cast e)
  · rintro (e | e)
    · exact_mod_cast e
    · exact absurd e.1 hv

theorem flags_add (bs : List Byte) (f g : Byte) : addFirst (addFirst bs f) g = addFirst bs (f + g) := by
  unfold addFirst
  cases bs with
  | nil => rfl
  | cons b t => simp only [List.headD_cons, List.set_cons_zero, BitVec.add_assoc]

theorem addFirst_append {a : List Byte} (ha : a ≠ []) (b : List Byte) (f : Byte) : addFirst (a ++ b) f = addFirst a f ++ b := by
  unfold addFirst
  cases a with
  | nil => exact absurd rfl ha
  | cons x t => simp

theorem val_lt_flags2 (h : G2Curve K) {m : Nat} (hm : K.rom.modbytes = m + 1) (x : ZMod K.rom.p) : x.val < 32 * 256 ^ m := val_lt_flags h.bls hm x

/-- the flag bits are added to the first byte -/
theorem enc2F_eq (h : G2Curve K) (x : F2 K.rom.p) (f : Prop) [Decidable f] :
    enc2F K.rom.modbytes x f = addFirst (part2 K.rom.modbytes x) (if f then 160 else 128) := by
  obtain ⟨m, hm⟩ : ∃ m, K.rom.modbytes = m + 1 := ⟨47, by have := h.bls.size; omega⟩
  have hx := val_lt_flags2 h hm x.im
  unfold enc2F part2
  rw [hm, pow_flag m 1 (by omega), pow_flag m 3 (by omega), addFirst_append (by
    intro hc; have := congrArg List.length hc; rw [beBytes_length] at this; simp at this)]
  congr 1
  by_cases c : f
  · rw [if_pos c, if_pos c, show 2 ^ (8 - 1) * 256 ^ m + 2 ^ (8 - 3) * 256 ^ m + x.im.val = 160 * 256 ^ m + x.im.val by ring]
    exact (addFirst_eq (m := m) (f := 160) (v := x.im.val) (by norm_num) (by norm_num) hx).symm
  · rw [if_neg c, if_neg c, show 2 ^ (8 - 1) * 256 ^ m + 0 + x.im.val = 128 * 256 ^ m + x.im.val by ring]
    exact (addFirst_eq (m := m) (f := 128) (v := x.im.val) (by norm_num) (by norm_num) hx).symm

/-- `serialize_g2` of a finite point -/
theorem serialize2_some (h : G2Curve K) {e : Nat} {s : Pt2 C} {x y : F2 K.rom.p} {hh} (hs : IsPoint2 K e s (Affine.Point.some x y hh)) (he : 2 ≤ e) (hf : Faithful2 K s) (f : Prop) [Decidable f]
    (hcmp : zcashCmpFp2 K.rom.P (affine K s).y (Fp2.neg K.rom.P (affine K s).y) > 0 ↔ f) : serializeG2 K s = enc2F K.rom.modbytes x f := by
  have hn := h.twist.len
  obtain ⟨rx, ry⟩ := affine_rels h.twist hs he
  have hc := affine_clean h.twist hs hf
  have hi : ¬ Ecp2.isInfinity K s = true := fun c => (Ecp.some_ne_zero' hh) ((isInfinity_ok h.twist.tower hs).mp c).symm
  unfold serializeG2
  dsimp only
  rw [if_neg hi, enc2F_eq h]
  unfold getx gety Fp2.getb Fp2.geta
  rw [bytes_clean h (by simp; omega) (by simp; omega) rx.im.el hc.xb, bytes_clean h (by simp; omega) (by simp; omega) rx.re.el hc.xa]
  by_cases c : f
  · rw [if_pos (hcmp.mpr c), if_pos c, flags_add]; rfl
  · rw [if_neg (fun q => c (hcmp.mp q)), if_neg c]; rfl

/-- `serialize_g2`, when the ordinate is not a real number -/
theorem serialize2_ok (h : G2Curve K) {e : Nat} {s : Pt2 C} {T : (curve2 K).Point} (hs : IsPoint2 K e s T) (he : 2 ≤ e) (hf : Faithful2 K s)
    (hg : ∀ x y hh, T = Affine.Point.some x y hh → y.im ≠ 0) : serializeG2 K s = enc2C T := by
  have hi := isInfinity_ok h.twist.tower hs
  have hn := h.twist.len
  match T, hs with
  | .zero, hs =>
    obtain ⟨m, hm⟩ : ∃ m, 2 * K.rom.modbytes = m + 1 := ⟨95, by have := h.bls.size; omega⟩
    have hN : 0 < 256 ^ m := by positivity
    unfold serializeG2
    dsimp only
    rw [if_pos (hi.mpr rfl)]
    simp only [enc2C]
    rw [show 16 * K.rom.modbytes = 8 * (2 * K.rom.modbytes) by ring, hm, pow_flag m 1 (by omega), pow_flag m 2 (by omega), List.replicate_succ, List.set_cons_zero,
      show 2 ^ (8 - 1) * 256 ^ m + 2 ^ (8 - 2) * 256 ^ m = 192 * 256 ^ m + 0 by ring,
      flag_iff (by norm_num) (by norm_num) (by omega) _ _ (by simp)]
    refine ⟨by decide, ?_⟩
    rw [zpad_eq, beNat_beBytes]; simp
  | .some x y hh, hs =>
    obtain ⟨rx, ry⟩ := affine_rels h.twist hs he
    have hneg := neg2_ok h.twist.tower ry (by simp [negLz]) (by simp [negLz])
    exact serialize2_some h hs he hf (larger2 y) (cmp_gen h ⟨by simp [negLz]; omega, by simp [negLz]; omega⟩ ry hneg (hg x y hh rfl))

/-- `serialize_uncompressed_g2` -/
theorem serializeU2_ok (h : G2Curve K) {e : Nat} {s : Pt2 C} {T : (curve2 K).Point} (hs : IsPoint2 K e s T) (he : 2 ≤ e) (hf : Faithful2 K s) :
    serializeUncompressedG2 K s = enc2U T := by
  have hi := isInfinity_ok h.twist.tower hs
  have hn := h.twist.len
  unfold serializeUncompressedG2
  dsimp only
  match T, hs with
  | .zero, hs =>
    obtain ⟨m, hm⟩ : ∃ m, 4 * K.rom.modbytes = m + 1 := ⟨191, by have := h.bls.size; omega⟩
    have hN : 0 < 256 ^ m := by positivity
    rw [if_pos (hi.mpr rfl)]
    simp only [enc2U]
    rw [show 32 * K.rom.modbytes = 8 * (4 * K.rom.modbytes) by ring, hm, pow_flag m 2 (by omega), List.replicate_succ, List.set_cons_zero,
      show 2 ^ (8 - 2) * 256 ^ m = 64 * 256 ^ m + 0 by ring, flag_iff (by norm_num) (by norm_num) (by omega) _ _ (by simp)]
    refine ⟨by decide, ?_⟩
    rw [zpad_eq, beNat_beBytes]; simp
  | .some x y hh, hs =>
    obtain ⟨rx, ry⟩ := affine_rels h.twist hs he
    have hc := affine_clean h.twist hs hf
    rw [if_neg (fun c => (Ecp.some_ne_zero' hh) (hi.mp c).symm)]
    unfold getx gety Fp2.getb Fp2.geta
    rw [bytes_clean h (by simp; omega) (by simp; omega) rx.im.el hc.xb, bytes_clean h (by simp; omega) (by simp; omega) rx.re.el hc.xa,
      bytes_clean h (by simp; omega) (by simp; omega) ry.im.el hc.yb, bytes_clean h (by simp; omega) (by simp; omega) ry.re.el hc.ya]
    rfl

end Verif.Bls
