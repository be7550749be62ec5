import Verif.Bls.G1
/- Decoding of G1 points. -/
namespace Verif.Bls
open Verif.Big Verif.Fp Verif.Rom Verif.Curve Verif.Ecp Verif.Ecdh Verif.H2c Spec WeierstrassCurve

set_option linter.unusedSectionVars false
variable {C : Nat} {K : Rom C} [hp : Fact K.p.Prime]

/-- the error code of a verdict -/
def Bad.err1 : Bad → Err
  | .size => .invalidG1Size
  | .yflag => .invalidYFlag
  | .point => .invalidPoint

/-- the string encodes the point -/
def Enc1 (bs : List Byte) (T : (curve K).Point) : Prop := bs = enc1C T ∨ bs = enc1U T

theorem enc1C_length (T : (curve K).Point) : (enc1C T).length = K.modbytes := by cases T <;> simp [enc1C]

theorem enc1U_length (T : (curve K).Point) : (enc1U T).length = 2 * K.modbytes := by
  cases T <;> simp [enc1U]; omega

/-- `FP::new_big(0)` holds zero itself -/
theorem newBig_zeroM {P : Params C} {p : Nat} [hp : Fact p.Prime] (hm : MontConsts P p) {ix : Limbs C} (hx : Rep P.b P.n ix ((0 : Nat) : Int)) : limbsVal P.b (newBig P ix).x = 0 := by
  have hpl : P.plain = false := by simp [Params.plain, hm.type]
  have hn := hm.hn
  have hpz : (0 : Int) < p := by exact_mod_cast hm.ppos
  have hR := two_pow_pos' (P.b * P.n)
  have hpR : (p : Int) < 2 ^ (P.b * P.n) := by
    have := hm.p_sh
    have h1 : (1 : Int) * p ≤ 2 ^ P.sh * p := mul_le_mul_of_nonneg_right (by have := two_pow_pos' P.sh; omega) hpz.le
    linarith
  have hd := hx.digits (by simp) (by simp)
  obtain ⟨m1, m2, m3⟩ := mul_spec hm.ok hd hm.r2dig (by rw [hx.len, hm.r2len]) (by rw [hx.len]; omega) (by rw [hx.len]; exact hm.fits)
  rw [hx.val] at m3
  rw [hx.len] at m1
  obtain ⟨_, _, v, t, v0, v1, e1, e2⟩ := monty_spec hm.ok hm.hn hm.mddig m2 P.mc hm.mc hm.mdlen m1 hm.fits
  rw [hm.mdval, m3, Nat.cast_zero, zero_mul, zero_add] at e1
  have e : (newBig P ix).x = monty P.b P.md P.mc (Big.mul P.b ix P.r2) := by simp [newBig, nres, hpl, modulo, hm.type]
  rw [e, e2]
  have ht0 : 0 ≤ t := by
    by_contra hc
    have : (2 : Int) ^ (P.b * P.n) * t < 0 := mul_neg_of_pos_of_neg hR (by omega)
    have := mul_nonneg v0 hpz.le
    linarith
  have htp : t < p := by
    have : (2 : Int) ^ (P.b * P.n) * t < 2 ^ (P.b * P.n) * p := by
      rw [e1]; exact mul_lt_mul_of_pos_right v1 hpz
    exact lt_of_mul_lt_mul_left this hR.le
  have hdv : (p : Int) ∣ 2 ^ (P.b * P.n) * t := ⟨v, by rw [e1]; ring⟩
  have hodd := odd_of_prime hm.toConsts
  have hcop : IsCoprime (p : Int) (2 ^ (P.b * P.n)) := by
    apply IsCoprime.pow_right
    rw [Int.isCoprime_iff_gcd_eq_one]
    have := Nat.coprime_of_lt_prime (n := 2) (p := p) (by norm_num) (by have := hm.two_lt; omega) hp.out
    exact this
  have := Int.eq_zero_of_dvd_of_nonneg_of_lt ht0 htp (hcop.dvd_of_dvd_mul_left hdv)
  rw [this]; simp

theorem newBig_zero (h : DhCurve K) {ix : Limbs C} (hx : Rep K.P.b K.P.n ix ((0 : Nat) : Int)) : limbsVal K.P.b (newBig K.P ix).x = 0 :=
  newBig_zeroM h.mont hx

/-- a fresh `FP::new_big(x)` followed by `norm` is zero only if the number is -/
theorem faithful_new (h : DhCurve K) {ix : Limbs C} {X : Nat} (hx : Rep K.P.b K.P.n ix X) (hX : X < K.p) (y z : Fp C) :
    Faithful K ⟨Fp.norm K.P (newBig K.P ix), y, z⟩ := by
  intro h0 _
  have ex := Elem.norm h.consts (elem_newBig h.curve.arith hx hX)
  have hres : (X : ZMod K.p) = 0 := by rw [← ex.res]; exact h0
  have hX0 : X = 0 := by
    have := zcast_val (K := K) hX
    rw [hres, ZMod.val_zero] at this
    omega
  subst hX0
  show limbsVal K.P.b (Big.norm K.P.b (newBig K.P ix).x) = 0
  have hz := newBig_zero h hx
  have hd : Digits K.P.b (newBig K.P ix).x := by
    have := (elem_newBig h.curve.arith hx hX).normed.digits
    exact this
  have := (Digits.norm_rep h.consts.ok (by
    have := (elem_newBig h.curve.arith hx hX).normed.valid.len
    have hn := h.consts.hn
    intro e; rw [e] at this; simp at this; omega) hd).val
  rw [this, hz]

theorem encC_zero {m : Nat} (hm : K.modbytes = m + 1) (b : Byte) (t : List Byte) (ht : t.length = m) :
    b :: t = enc1C (0 : (curve K).Point) ↔ b.toNat = 192 ∧ beNat t = 0 := by
  have hN : 0 < 256 ^ m := by positivity
  show b :: t = beBytes K.modbytes (2 ^ (8 * K.modbytes - 1) + 2 ^ (8 * K.modbytes - 2)) ↔ _
  rw [hm, pow_flag m 1 (by omega), pow_flag m 2 (by omega), show 2 ^ (8 - 1) * 256 ^ m + 2 ^ (8 - 2) * 256 ^ m = 192 * 256 ^ m + 0 by ring,
    flag_iff (by norm_num) (by norm_num) (by omega) b t ht]
  constructor
  · rintro ⟨h1, h2⟩
    have h3 : b.toNat % 32 * 256 ^ m = 0 := by omega
    rcases Nat.mul_eq_zero.mp h3 with h | h
    · exact ⟨by omega, by omega⟩
    · omega
  · rintro ⟨h1, h2⟩; rw [h1, h2]; exact ⟨rfl, by simp⟩

theorem encU_zero {m : Nat} (hm : 2 * K.modbytes = m + 1) (b : Byte) (t : List Byte) (ht : t.length = m) :
    b :: t = enc1U (0 : (curve K).Point) ↔ b.toNat = 64 ∧ beNat t = 0 := by
  have hN : 0 < 256 ^ m := by positivity
  show b :: t = beBytes (2 * K.modbytes) (2 ^ (16 * K.modbytes - 2)) ↔ _
  rw [show 16 * K.modbytes = 8 * (2 * K.modbytes) by ring, hm, pow_flag m 2 (by omega), show 2 ^ (8 - 2) * 256 ^ m = 64 * 256 ^ m + 0 by ring,
    flag_iff (by norm_num) (by norm_num) (by omega) b t ht]
  constructor
  · rintro ⟨h1, h2⟩
    have h3 : b.toNat % 32 * 256 ^ m = 0 := by omega
    rcases Nat.mul_eq_zero.mp h3 with h | h
    · exact ⟨by omega, by omega⟩
    · omega
  · rintro ⟨h1, h2⟩; rw [h1, h2]; exact ⟨rfl, by simp⟩

theorem val_lt_flags (h : BlsCurve K) {m : Nat} (hm : K.modbytes = m + 1) (x : ZMod K.p) : x.val < 32 * 256 ^ m := by
  have := ZMod.val_lt x
  have hfl := h.flags
  rw [hm, pow_succ] at hfl
  omega

theorem encC_some (h : BlsCurve K) {m : Nat} (hm : K.modbytes = m + 1) (b : Byte) (t : List Byte) (ht : t.length = m) {x y : ZMod K.p} (hh) :
    b :: t = enc1C (Affine.Point.some x y hh : (curve K).Point) ↔
      b.toNat / 64 = 2 ∧ (b.toNat / 32 % 2 = 1 ↔ larger y) ∧ b.toNat % 32 * 256 ^ m + beNat t = x.val := by
  have hx := val_lt_flags h hm x
  simp only [enc1C]
  rw [hm, pow_flag m 1 (by omega), pow_flag m 3 (by omega)]
  by_cases c : larger y
  · rw [if_pos c, show 2 ^ (8 - 1) * 256 ^ m + 2 ^ (8 - 3) * 256 ^ m + x.val = 160 * 256 ^ m + x.val by ring,
      flag_iff (by norm_num) (by norm_num) hx b t ht]
    simp only [c, iff_true]
    constructor
    · rintro ⟨h1, h2⟩; exact ⟨by omega, by omega, h2⟩
    · rintro ⟨h1, h2, h3⟩; exact ⟨by omega, h3⟩
  · rw [if_neg c, show 2 ^ (8 - 1) * 256 ^ m + 0 + x.val = 128 * 256 ^ m + x.val by ring,
      flag_iff (by norm_num) (by norm_num) hx b t ht]
    simp only [c, iff_false]
    constructor
    · rintro ⟨h1, h2⟩; exact ⟨by omega, by omega, h2⟩
    · rintro ⟨h1, h2, h3⟩; exact ⟨by omega, h3⟩

theorem encU_some (h : BlsCurve K) {bs : List Byte} (hl : bs.length = 2 * K.modbytes) {x y : ZMod K.p} (hh) :
    bs = enc1U (Affine.Point.some x y hh : (curve K).Point) ↔ beNat (bs.take K.modbytes) = x.val ∧ beNat (bs.drop K.modbytes) = y.val := by
  have hb := h.dh.bytes.fits
  have h1 := eq_beBytes (n := K.modbytes) (bs := bs.take K.modbytes) (v := x.val) (by simp; omega) (lt_trans (ZMod.val_lt x) hb)
  have h2 := eq_beBytes (n := K.modbytes) (bs := bs.drop K.modbytes) (v := y.val) (by simp; omega) (lt_trans (ZMod.val_lt y) hb)
  rw [← h1, ← h2]
  simp only [enc1U]
  constructor
  · rintro rfl
    exact ⟨List.take_left' (beBytes_length _ _), List.drop_left' (beBytes_length _ _)⟩
  · rintro ⟨e1, e2⟩
    rw [← e1, ← e2, List.take_append_drop]

/-- the roots of one abscissa differ by which is larger -/
theorem larger_neg {y : ZMod K.p} (hodd : K.p % 2 = 1) (hy : y ≠ 0) : larger (-y) ↔ ¬ larger y := by
  unfold larger
  rw [neg_neg]
  have h1 := neg_parity hodd hy
  have : (-y).val ≠ y.val := by
    intro e; rw [e] at h1; omega
  omega

/-- What a decoder must deliver on `bs`: the one point it encodes, or the error code of its verdict. -/
def Decoded (K : Rom C) [Fact K.p.Prime] (bs : List Byte) (r : Except Err (Pt C)) : Prop :=
  (∃ s T, r = .ok s ∧ IsPoint K s T ∧ Faithful K s ∧ ∀ T', Enc1 bs T' ↔ T' = T) ∨
  ((∀ T, ¬ Enc1 (K := K) bs T) ∧ r = .error (verdict K.modbytes bs).err1)

/-- `new_big`: some point with the given abscissa, or infinity when there is none -/
theorem newBigX_ok (h : DhCurve K) {ix : Limbs C} {X : Nat} (hx : Rep K.P.b K.P.n ix X) (hX : X < K.p) :
    (¬ IsSquare ((X : ZMod K.p) ^ 3 + K.a * X + Bcoef K) ∧ IsPoint K (newBigX K ix) 0) ∨
    ∃ (R : ZMod K.p) (hh : (curve K).Nonsingular (X : ZMod K.p) R), IsPoint K (newBigX K ix) (Affine.Point.some _ _ hh) ∧ Faithful K (newBigX K ix) := by
  have hc := h.consts
  have hty : ¬ K.ctype = .montgomery := by rw [h.curve.type]; decide
  have ex := Elem.norm hc (elem_newBig h.curve.arith hx hX)
  obtain ⟨er, hlt⟩ := rhs_ok h.curve ex
  have hv := h.curve.noTwo (X : ZMod K.p)
  have hq := isSquare_ok h.curve.arith er hlt hv
  unfold newBigX
  dsimp only
  by_cases c : isSquare K (rhs K (Fp.norm K.P (newBig K.P ix))) = true
  · right
    simp only [if_pos c, if_neg hty]
    have hsq := hq.mp c
    obtain ⟨n1, n2⟩ := h.sqrt 1 _ er.normed.valid ((room_one hc).mono (by omega)) (by rw [er.res]; exact hsq)
    have en : Elem K.P K.p 0 1 (Fp.sqrt K.P (rhs K (Fp.norm K.P (newBig K.P ix)))) (residue K.P K.p (Fp.sqrt K.P (rhs K (Fp.norm K.P (newBig K.P ix))))) :=
      .of_normed hc ⟨n1, rfl⟩
    rw [er.res] at n2
    have hh := onCurve h.curve (x := (X : ZMod K.p)) (y := residue K.P K.p (Fp.sqrt K.P (rhs K (Fp.norm K.P (newBig K.P ix))))) (by rw [pow_two]; exact n2)
    exact ⟨_, hh, isPoint_finite h.curve ex (elem11 h.curve.arith en) (elem_one h.curve.arith) hh, faithful_new h hx hX _ _⟩
  · simp only [if_neg c]
    exact Or.inl ⟨fun hh => c (hq.mpr hh), inf_ok h.curve _⟩

theorem faithful_inf (h : DhCurve K) : Faithful K (Ecp.new K) := by
  intro _ hz
  have h0 : IsPoint K (Ecp.new K) 0 := new_ok h.curve
  have : (coords K (Ecp.new K)).z = 0 := by
    rcases h0.2.zero_or with ⟨_, _, _, e⟩ | ⟨x, y, hh, e, _⟩
    · exact e
    · exact absurd e (some_ne_zero' hh)
  have h1 : residue K.P K.p (Ecp.new K).z = 0 := this
  rw [h1] at hz
  exact absurd hz zero_ne_one

/-- the infinity branch: the flag byte and all-zero remainder -/
theorem infinity_ok (K : Rom C) (b : Byte) (t : List Byte) :
    (b.toNat % 64 = 0 ∧ beNat t = 0 ∧ infinityBytes K (b :: t) = .ok (Ecp.new K)) ∨
    (¬ (b.toNat % 64 = 0 ∧ beNat t = 0) ∧ infinityBytes K (b :: t) = .error .invalidPoint) := by
  unfold infinityBytes
  rw [List.headD_cons, List.drop_succ_cons, List.drop_zero]
  by_cases c : b.toNat % 64 = 0
  · rw [if_neg (fun e => (b3f b).mp e c)]
    by_cases c2 : beNat t = 0
    · rw [if_neg (by rw [(any_zero t).mpr c2]; decide)]
      exact Or.inl ⟨c, c2, rfl⟩
    · rw [if_pos (by by_contra hc; exact c2 ((any_zero t).mp (by simpa using hc)))]
      exact Or.inr ⟨fun e => c2 e.2, rfl⟩
  · rw [if_pos ((b3f b).mpr c)]
    exact Or.inr ⟨fun e => c e.1, rfl⟩

theorem deserC_cons (K : Rom C) (b : Byte) (t : List Byte) : deserializeCompressedG1 K (b :: t) =
    if (b :: t).length ≠ K.modbytes then .error .invalidG1Size
    else if b &&& 0x40 ≠ 0 then infinityBytes K (b :: t)
    else if Big.comp (fromBytes K.P.b K.P.n K.modbytes ((b &&& 0x1f) :: t)) K.P.md ≥ 0 then .error .invalidPoint
    else if isInfinity K (newBigX K (fromBytes K.P.b K.P.n K.modbytes ((b &&& 0x1f) :: t))) then .error .invalidPoint
    else if decide (Big.comp (gety K (newBigX K (fromBytes K.P.b K.P.n K.modbytes ((b &&& 0x1f) :: t))))
        (gety K (Ecp.neg K (newBigX K (fromBytes K.P.b K.P.n K.modbytes ((b &&& 0x1f) :: t))))) > 0) ≠ decide (b &&& 0x20 > 0)
      then .ok (Ecp.neg K (newBigX K (fromBytes K.P.b K.P.n K.modbytes ((b &&& 0x1f) :: t))))
      else .ok (newBigX K (fromBytes K.P.b K.P.n K.modbytes ((b &&& 0x1f) :: t))) := rfl

theorem deserU_cons (K : Rom C) (b : Byte) (t : List Byte) : deserializeUncompressedG1 K (b :: t) =
    if (b :: t).length ≠ 2 * K.modbytes then .error .invalidG1Size
    else if b &&& 0x40 ≠ 0 then infinityBytes K (b :: t)
    else if b &&& 0x20 > 0 then .error .invalidYFlag
    else if Big.comp (fromBytes K.P.b K.P.n K.modbytes (((b &&& 0x1f) :: t).take K.modbytes)) K.P.md ≥ 0 ∨
        Big.comp (fromBytes K.P.b K.P.n K.modbytes (((b &&& 0x1f) :: t).drop K.modbytes)) K.P.md ≥ 0 then .error .invalidPoint
    else if isInfinity K (newBigs K (fromBytes K.P.b K.P.n K.modbytes (((b &&& 0x1f) :: t).take K.modbytes))
        (fromBytes K.P.b K.P.n K.modbytes (((b &&& 0x1f) :: t).drop K.modbytes))) then .error .invalidPoint
    else .ok (newBigs K (fromBytes K.P.b K.P.n K.modbytes (((b &&& 0x1f) :: t).take K.modbytes))
        (fromBytes K.P.b K.P.n K.modbytes (((b &&& 0x1f) :: t).drop K.modbytes))) := rfl

/-- compressed decoder, on strings with the top bit set -/
theorem deserC_ok (h : BlsCurve K) (b : Byte) (t : List Byte) (h7 : 128 ≤ b.toNat) : Decoded K (b :: t) (deserializeCompressedG1 K (b :: t)) := by
  have hsz := h.size
  obtain ⟨m, hm⟩ : ∃ m, K.modbytes = m + 1 := ⟨47, by omega⟩
  have hv7 : b.getLsbD 7 = true := (bit7 b).mpr h7
  have noU : ∀ T : (curve K).Point, b :: t ≠ enc1U T := by
    intro T e
    have hl : (b :: t).length = 2 * K.modbytes := by rw [e, enc1U_length]
    cases T with
    | zero =>
      have := (encU_zero (m := 2 * m + 1) (by omega) b t (by simp at hl; omega)).mp e
      omega
    | some x y hh =>
      have := ((encU_some h hl hh).mp e).1
      rw [hm, List.take_succ_cons, beNat_cons] at this
      have hx := val_lt_flags h hm x
      have hl2 : (t.take m).length = m := by simp at hl ⊢; omega
      rw [hl2] at this
      have : 128 * 256 ^ m ≤ b.toNat * 256 ^ m := Nat.mul_le_mul_right _ h7
      have hN : 0 < 256 ^ m := by positivity
      omega
  have hEnc : ∀ T : (curve K).Point, Enc1 (b :: t) T ↔ b :: t = enc1C T := fun T => ⟨fun e => e.resolve_right (noU T), Or.inl⟩
  rw [deserC_cons]
  by_cases hl : (b :: t).length = K.modbytes
  swap
  · rw [if_pos hl]
    right
    refine ⟨fun T e => hl ?_, ?_⟩
    · rw [(hEnc T).mp e, enc1C_length]
    · simp only [verdict, hv7, if_true, if_neg hl]; rfl
  rw [if_neg (by simpa using hl)]
  have ht : t.length = m := by simp at hl; omega
  have hver : (verdict K.modbytes (b :: t)).err1 = Err.invalidPoint := by simp only [verdict, hv7, if_true, if_pos hl]; rfl
  by_cases h6 : b.toNat / 64 % 2 = 1
  · rw [if_pos ((b40 b).mpr h6)]
    have hno : ∀ x y hh, ¬ b :: t = enc1C (Affine.Point.some x y hh : (curve K).Point) := by
      intro x y hh e
      have := (encC_some h hm b t ht hh).mp e
      omega
    rcases infinity_ok K b t with ⟨c1, c2, e⟩ | ⟨c, e⟩
    · left
      refine ⟨_, 0, e, new_ok h.dh.curve, faithful_inf h.dh, fun T => ?_⟩
      rw [hEnc]
      constructor
      · intro e
        cases T with
        | zero => rfl
        | some x y hh => exact absurd e (hno x y hh)
      · rintro rfl
        exact (encC_zero hm b t ht).mpr ⟨by have := b.isLt; omega, c2⟩
    · right
      refine ⟨fun T e => ?_, by rw [e, hver]⟩
      rw [hEnc] at e
      cases T with
      | zero =>
        have := (encC_zero hm b t ht).mp e
        exact c ⟨by omega, this.2⟩
      | some x y hh => exact hno x y hh e
  rw [if_neg (fun e => h6 ((b40 b).mp e))]
  have hno0 : ¬ b :: t = enc1C (0 : (curve K).Point) := by
    intro e
    have := (encC_zero hm b t ht).mp e
    omega
  have hxr : Rep K.P.b K.P.n (fromBytes (C := C) K.P.b K.P.n K.modbytes ((b &&& 0x1f) :: t)) ((b.toNat % 32 * 256 ^ m + beNat t : Nat) : Int) := by
    have := fromBytes_ok h.dh ((b &&& 0x1f) :: t)
    rwa [num, List.take_of_length_le (by rw [hm]; simp [ht]), beNat_cons, b1f, ht] at this
  have hcmp := Rep.comp_ge hxr h.dh.consts.md_rep
  have henc := fun x y hh => encC_some h hm b t ht (x := x) (y := y) hh
  generalize fromBytes (C := C) K.P.b K.P.n K.modbytes ((b &&& 0x1f) :: t) = ix at *
  generalize hXe : b.toNat % 32 * 256 ^ m + beNat t = X at *
  by_cases c1 : Big.comp ix K.P.md ≥ 0
  · rw [if_pos c1]
    right
    refine ⟨fun T e => ?_, by rw [hver]⟩
    rw [hEnc] at e
    cases T with
    | zero => exact hno0 e
    | some x y hh =>
      have h1 := hcmp.mp c1
      have h2 := ((henc x y hh).mp e).2.2
      have h3 := ZMod.val_lt x
      have : K.p ≤ X := by exact_mod_cast h1
      omega
  rw [if_neg c1]
  have hX : X < K.p := by
    by_contra hcon
    exact c1 (hcmp.mpr (by exact_mod_cast not_lt.mp hcon))
  have hodd := odd_of_prime h.dh.consts
  rcases newBigX_ok h.dh hxr hX with ⟨hns, h0⟩ | ⟨R, hh, hpt, hfa⟩
  · rw [if_pos ((isInfinity_ok h.dh.curve h0).mpr rfl)]
    right
    refine ⟨fun T e => ?_, by rw [hver]⟩
    rw [hEnc] at e
    cases T with
    | zero => exact hno0 e
    | some x y hh =>
      have h2 := ((henc x y hh).mp e).2.2
      have hx : x = (X : ZMod K.p) := by rw [h2]; exact (ZMod.natCast_zmod_val x).symm
      subst hx
      exact hns ⟨y, by have := short_eq.mp hh.1; linear_combination -this⟩
  · rw [if_neg (fun c => (some_ne_zero' hh) ((isInfinity_ok h.dh.curve hpt).mp c).symm)]
    have hng := neg_ok h.dh.curve hpt
    have hlg := larger_ok h.dh hpt hng
    obtain ⟨hh', eneg⟩ := neg_point hh
    have hR0 : R ≠ 0 := y_ne h.dh.curve.noTwo hh.1
    -- the point with the requested root is the only one
    have uniq : ∀ (Y : ZMod K.p) (hY : (curve K).Nonsingular (X : ZMod K.p) Y), (b.toNat / 32 % 2 = 1 ↔ larger Y) →
        ∀ T : (curve K).Point, Enc1 (b :: t) T ↔ T = Affine.Point.some _ _ hY := by
      intro Y hY hl T
      rw [hEnc]
      constructor
      · intro e
        cases T with
        | zero => exact absurd e hno0
        | some x y hxy =>
          obtain ⟨_, h1, h2⟩ := (henc x y hxy).mp e
          have hx : x = (X : ZMod K.p) := by rw [h2]; exact (ZMod.natCast_zmod_val x).symm
          subst hx
          have hy2 : y ^ 2 = Y ^ 2 := by rw [short_eq.mp hxy.1, short_eq.mp hY.1]
          rcases sq_eq_sq_iff_eq_or_eq_neg.mp hy2 with e | e
          · subst e; rfl
          · exfalso
            have hY0 : Y ≠ 0 := y_ne h.dh.curve.noTwo hY.1
            have := larger_neg hodd hY0
            rw [← e] at this
            tauto
      · rintro rfl
        refine (henc _ _ hY).mpr ⟨by have := b.isLt; omega, hl, ?_⟩
        rw [zcast_val hX]
    left
    by_cases c2 : decide (Big.comp (gety K (newBigX K ix)) (gety K (Ecp.neg K (newBigX K ix))) > 0) ≠ decide (b &&& 0x20 > 0)
    · rw [if_pos c2]
      rw [eneg] at hng
      refine ⟨_, _, rfl, hng, ?_, uniq _ hh' ?_⟩
      · intro e1 e2
        have e : Ecp.neg K (newBigX K ix) = { newBigX K ix with y := Fp.norm K.P (Fp.neg K.P (newBigX K ix).y) } := by
          simp [Ecp.neg, h.dh.curve.type]
        rw [e] at e1 e2 ⊢
        exact hfa e1 e2
      · rw [larger_neg hodd hR0, ← hlg, ← b20]
        rw [ne_eq, decide_eq_decide] at c2
        tauto
    · rw [if_neg c2]
      refine ⟨_, _, rfl, hpt, hfa, uniq _ hh ?_⟩
      rw [← hlg, ← b20]
      rw [ne_eq, decide_eq_decide, not_not] at c2
      exact c2.symm

/-- uncompressed decoder, on strings with the top bit clear -/
theorem deserU_ok (h : BlsCurve K) (b : Byte) (t : List Byte) (h7 : b.toNat < 128) : Decoded K (b :: t) (deserializeUncompressedG1 K (b :: t)) := by
  have hsz := h.size
  obtain ⟨m, hm⟩ : ∃ m, K.modbytes = m + 1 := ⟨47, by omega⟩
  have hv7 : ¬ b.getLsbD 7 = true := fun e => by have := (bit7 b).mp e; omega
  have noC : ∀ T : (curve K).Point, b :: t ≠ enc1C T := by
    intro T e
    have hl : (b :: t).length = K.modbytes := by rw [e, enc1C_length]
    have ht : t.length = m := by simp at hl; omega
    cases T with
    | zero =>
      have := (encC_zero hm b t ht).mp e
      omega
    | some x y hh =>
      have := (encC_some h hm b t ht hh).mp e
      omega
  have hEnc : ∀ T : (curve K).Point, Enc1 (b :: t) T ↔ b :: t = enc1U T := fun T => ⟨fun e => e.resolve_left (noC T), Or.inr⟩
  rw [deserU_cons]
  by_cases hl : (b :: t).length = 2 * K.modbytes
  swap
  · rw [if_pos hl]
    right
    refine ⟨fun T e => hl ?_, ?_⟩
    · rw [(hEnc T).mp e, enc1U_length]
    · simp only [verdict, if_neg hv7, ne_eq, hl, not_false_eq_true, if_true]; rfl
  rw [if_neg (by simpa using hl)]
  have hver : verdict K.modbytes (b :: t) = if b.getLsbD 6 then .point else if b.getLsbD 5 then .yflag else .point := by
    simp only [verdict, if_neg hv7, ne_eq, hl, not_true_eq_false, if_false]
  have hb1 : b.toNat / 64 % 2 = 1 ∨ b.toNat / 32 % 2 = 1 → ∀ x y hh, ¬ b :: t = enc1U (Affine.Point.some x y hh : (curve K).Point) := by
    intro hb x y hh e
    have := ((encU_some h hl hh).mp e).1
    rw [hm, List.take_succ_cons, beNat_cons] at this
    have hx := val_lt_flags h hm x
    have hl2 : (t.take m).length = m := by simp at hl ⊢; omega
    rw [hl2] at this
    have : 32 * 256 ^ m ≤ b.toNat * 256 ^ m := Nat.mul_le_mul_right _ (by omega)
    omega
  by_cases h6 : b.toNat / 64 % 2 = 1
  · rw [if_pos ((b40 b).mpr h6)]
    rw [if_pos ((bit6 b).mpr h6)] at hver
    have hz := encU_zero (K := K) (m := 2 * m + 1) (by omega) b t (by simp at hl; omega)
    have hno := hb1 (Or.inl h6)
    rcases infinity_ok K b t with ⟨c1, c2, e⟩ | ⟨c, e⟩
    · left
      refine ⟨_, 0, e, new_ok h.dh.curve, faithful_inf h.dh, fun T => ?_⟩
      rw [hEnc]
      constructor
      · intro e
        cases T with
        | zero => rfl
        | some x y hh => exact absurd e (hno x y hh)
      · rintro rfl
        exact hz.mpr ⟨by have := b.isLt; omega, c2⟩
    · right
      refine ⟨fun T e => ?_, by rw [e, hver]; rfl⟩
      rw [hEnc] at e
      cases T with
      | zero =>
        have := hz.mp e
        exact c ⟨by omega, this.2⟩
      | some x y hh => exact hno x y hh e
  rw [if_neg (fun e => h6 ((b40 b).mp e))]
  rw [if_neg (fun e => h6 ((bit6 b).mp e))] at hver
  have hno0 : ¬ b :: t = enc1U (0 : (curve K).Point) := by
    intro e
    have := (encU_zero (K := K) (m := 2 * m + 1) (by omega) b t (by simp at hl; omega)).mp e
    omega
  by_cases h5 : b.toNat / 32 % 2 = 1
  · rw [if_pos ((b20 b).mpr h5)]
    rw [if_pos ((bit5 b).mpr h5)] at hver
    right
    refine ⟨fun T e => ?_, by rw [hver]; rfl⟩
    rw [hEnc] at e
    cases T with
    | zero => exact hno0 e
    | some x y hh => exact hb1 (Or.inr h5) x y hh e
  rw [if_neg (fun e => h5 ((b20 b).mp e))]
  rw [if_neg (fun e => h5 ((bit5 b).mp e))] at hver
  have hb3 : b &&& 0x1f = b := BitVec.eq_of_toNat_eq (by rw [b1f]; omega)
  rw [hb3]
  have hxr := fromBytes_ok h.dh ((b :: t).take K.modbytes)
  have hyr := fromBytes_ok h.dh ((b :: t).drop K.modbytes)
  rw [num, List.take_take, min_self] at hxr
  rw [num, List.take_of_length_le (by rw [List.length_drop]; omega)] at hyr
  have hcx := Rep.comp_ge hxr h.dh.consts.md_rep
  have hcy := Rep.comp_ge hyr h.dh.consts.md_rep
  have henc := fun x y hh => encU_some h hl (x := x) (y := y) hh
  generalize fromBytes (C := C) K.P.b K.P.n K.modbytes ((b :: t).take K.modbytes) = ix at *
  generalize fromBytes (C := C) K.P.b K.P.n K.modbytes ((b :: t).drop K.modbytes) = iy at *
  generalize beNat ((b :: t).take K.modbytes) = X at *
  generalize beNat ((b :: t).drop K.modbytes) = Y at *
  by_cases c1 : Big.comp ix K.P.md ≥ 0 ∨ Big.comp iy K.P.md ≥ 0
  · rw [if_pos c1]
    right
    refine ⟨fun T e => ?_, by rw [hver]; rfl⟩
    rw [hEnc] at e
    cases T with
    | zero => exact hno0 e
    | some x y hh =>
      obtain ⟨h2, h3⟩ := (henc x y hh).mp e
      have h4 := ZMod.val_lt x
      have h5 := ZMod.val_lt y
      rcases c1 with c | c
      · have : K.p ≤ X := by exact_mod_cast hcx.mp c
        omega
      · have : K.p ≤ Y := by exact_mod_cast hcy.mp c
        omega
  rw [if_neg c1]
  push Not at c1
  have hX : X < K.p := by
    by_contra hcon
    exact absurd (hcx.mpr (by exact_mod_cast not_lt.mp hcon)) (not_le.mpr c1.1)
  have hY : Y < K.p := by
    by_contra hcon
    exact absurd (hcy.mpr (by exact_mod_cast not_lt.mp hcon)) (not_le.mpr c1.2)
  obtain ⟨T, hT, hall⟩ := newBigs_ok h.dh.curve hxr hX hyr hY
  have hinf := isInfinity_ok h.dh.curve hT
  by_cases c2 : isInfinity K (newBigs K ix iy) = true
  · rw [if_pos c2]
    right
    refine ⟨fun T' e => ?_, by rw [hver]; rfl⟩
    rw [hEnc] at e
    cases T' with
    | zero => exact hno0 e
    | some x y hh =>
      obtain ⟨h2, h3⟩ := (henc x y hh).mp e
      have := (hall x y hh).mpr ⟨(eq_cast_iff hX x).mpr h2, (eq_cast_iff hY y).mpr h3⟩
      rw [hinf.mp c2] at this
      exact some_ne_zero' hh this
  · rw [if_neg c2]
    left
    refine ⟨_, T, rfl, hT, ?_, fun T' => ?_⟩
    · have hty : ¬ K.ctype = .montgomery := by rw [h.dh.curve.type]; decide
      by_cases c3 : Fp.equals K.P (Fp.sqr K.P (newBig K.P iy)) (rhs K (Fp.norm K.P (newBig K.P ix))) = true
      · have e : newBigs K ix iy = ⟨Fp.norm K.P (newBig K.P ix), newBig K.P iy, one K.P⟩ := by
          simp [newBigs, hty, c3]
        rw [e]
        exact faithful_new h.dh hxr hX _ _
      · exfalso
        have e : newBigs K ix iy = inf K ⟨Fp.norm K.P (newBig K.P ix), newBig K.P iy, one K.P⟩ := by
          simp [newBigs, hty, c3]
        rw [e] at c2
        exact c2 ((isInfinity_ok h.dh.curve (inf_ok h.dh.curve _)).mpr rfl)
    · rw [hEnc]
      cases T' with
      | zero =>
        refine ⟨fun e => absurd e hno0, fun e => ?_⟩
        exact absurd (hinf.mpr e.symm) c2
      | some x y hh =>
        rw [henc x y hh, eq_comm (a := Affine.Point.some x y hh), hall x y hh, eq_cast_iff hX, eq_cast_iff hY]

/-- `deserialize_g1` on every byte string -/
theorem deser_ok (h : BlsCurve K) (bs : List Byte) : Decoded K bs (deserializeG1 K bs) := by
  have hsz := h.size
  cases bs with
  | nil =>
    right
    refine ⟨fun T e => ?_, rfl⟩
    rcases e with e | e
    · have := enc1C_length T
      rw [← e] at this
      simp at this; omega
    · have := enc1U_length T
      rw [← e] at this
      simp at this; omega
  | cons b t =>
    unfold deserializeG1
    rw [if_neg (by simp), List.headD_cons]
    by_cases c : b.toNat < 128
    · rw [if_pos ((b80 b).mpr c)]; exact deserU_ok h b t c
    · rw [if_neg (fun e => c ((b80 b).mp e))]; exact deserC_ok h b t (by omega)

end Verif.Bls
