import Verif.Bls.G2
/- Decoding of G2 points. -/
namespace Verif.Bls
open Verif.Big Verif.Fp Verif.Rom Verif.Curve Verif.Ecdh Verif.H2c Verif.Tower Verif.Ecp2 Spec WeierstrassCurve

set_option linter.unusedSectionVars false
variable {C : Nat} {K : PairRom C} [hp : Fact K.rom.p.Prime] [h4 : Fact (K.rom.p % 4 = 3)]

theorem enc2F_length (n : Nat) {p : Nat} (x : F2 p) (f : Prop) [Decidable f] : (enc2F n x f).length = 2 * n := by
  unfold enc2F; rw [List.length_append, beBytes_length, beBytes_length]; omega

theorem part2_length (n : Nat) {p : Nat} (x : F2 p) : (part2 n x).length = 2 * n := by
  unfold part2; rw [List.length_append, beBytes_length, beBytes_length]; omega

theorem enc2C_length (T : (curve2 K).Point) : (enc2C T).length = 2 * K.rom.modbytes := by
  cases T with
  | zero => simp only [enc2C]; exact beBytes_length _ _
  | some x y hh => exact enc2F_length _ _ _

theorem enc2U_length (T : (curve2 K).Point) : (enc2U T).length = 4 * K.rom.modbytes := by
  cases T with
  | zero => simp only [enc2U]; exact beBytes_length _ _
  | some x y hh => simp only [enc2U]; rw [List.length_append, part2_length, part2_length]; omega

theorem encC2_zero {m : Nat} (hm : 2 * K.rom.modbytes = m + 1) (b : Byte) (t : List Byte) (ht : t.length = m) :
    b :: t = enc2C (0 : (curve2 K).Point) ↔ b.toNat = 192 ∧ beNat t = 0 := by
  have hN : 0 < 256 ^ m := by positivity
  show b :: t = beBytes (2 * K.rom.modbytes) (2 ^ (16 * K.rom.modbytes - 1) + 2 ^ (16 * K.rom.modbytes - 2)) ↔ _
  rw [show 16 * K.rom.modbytes = 8 * (2 * K.rom.modbytes) by ring, hm, pow_flag m 1 (by omega), pow_flag m 2 (by omega),
    show 2 ^ (8 - 1) * 256 ^ m + 2 ^ (8 - 2) * 256 ^ m = 192 * 256 ^ m + 0 by ring, flag_iff (by norm_num) (by norm_num) (by omega) b t ht]
  constructor
  · rintro ⟨h1, h2⟩
    have h3 : b.toNat % 32 * 256 ^ m = 0 := by omega
    rcases Nat.mul_eq_zero.mp h3 with h | h
    · exact ⟨by omega, by omega⟩
    · omega
  · rintro ⟨h1, h2⟩; rw [h1, h2]; exact ⟨rfl, by simp⟩

theorem encU2_zero {m : Nat} (hm : 4 * K.rom.modbytes = m + 1) (b : Byte) (t : List Byte) (ht : t.length = m) :
    b :: t = enc2U (0 : (curve2 K).Point) ↔ b.toNat = 64 ∧ beNat t = 0 := by
  have hN : 0 < 256 ^ m := by positivity
  show b :: t = beBytes (4 * K.rom.modbytes) (2 ^ (32 * K.rom.modbytes - 2)) ↔ _
  rw [show 32 * K.rom.modbytes = 8 * (4 * K.rom.modbytes) by ring, hm, pow_flag m 2 (by omega),
    show 2 ^ (8 - 2) * 256 ^ m = 64 * 256 ^ m + 0 by ring, flag_iff (by norm_num) (by norm_num) (by omega) b t ht]
  constructor
  · rintro ⟨h1, h2⟩
    have h3 : b.toNat % 32 * 256 ^ m = 0 := by omega
    rcases Nat.mul_eq_zero.mp h3 with h | h
    · exact ⟨by omega, by omega⟩
    · omega
  · rintro ⟨h1, h2⟩; rw [h1, h2]; exact ⟨rfl, by simp⟩

theorem append_iff {α : Type} {n : Nat} {bs A B : List α} (hA : A.length = n) (hl : n ≤ bs.length) : bs = A ++ B ↔ bs.take n = A ∧ bs.drop n = B := by
  constructor
  · rintro rfl
    exact ⟨List.take_left' hA, List.drop_left' hA⟩
  · rintro ⟨e1, e2⟩
    rw [← e1, ← e2, List.take_append_drop]

/-- reading a compressed finite point -/
theorem encF_iff (h : G2Curve K) {m : Nat} (hm : K.rom.modbytes = m + 1) (b : Byte) (t : List Byte) (ht : (b :: t).length = 2 * K.rom.modbytes) (x : F2 K.rom.p) (f : Prop) [Decidable f] :
    b :: t = enc2F K.rom.modbytes x f ↔ b.toNat / 64 = 2 ∧ (b.toNat / 32 % 2 = 1 ↔ f) ∧ b.toNat % 32 * 256 ^ m + beNat (t.take m) = x.im.val ∧
      beNat ((b :: t).drop K.rom.modbytes) = x.re.val := by
  have hx := val_lt_flags2 h hm x.im
  have hb := h.bls.dh.bytes.fits
  have ht2 : (t.take m).length = m := by simp at ht ⊢; omega
  have hre := eq_beBytes (n := K.rom.modbytes) (bs := (b :: t).drop K.rom.modbytes) (v := x.re.val) (by rw [List.length_drop]; omega) (lt_trans (ZMod.val_lt x.re) hb)
  unfold enc2F
  rw [append_iff (beBytes_length _ _) (by omega), hre]
  have e1 : (b :: t).take K.rom.modbytes = b :: t.take m := by rw [hm, List.take_succ_cons]
  rw [e1]
  have key : b :: t.take m = beBytes K.rom.modbytes (2 ^ (8 * K.rom.modbytes - 1) + (if f then 2 ^ (8 * K.rom.modbytes - 3) else 0) + x.im.val) ↔
      b.toNat / 64 = 2 ∧ (b.toNat / 32 % 2 = 1 ↔ f) ∧ b.toNat % 32 * 256 ^ m + beNat (t.take m) = x.im.val := by
    rw [hm, pow_flag m 1 (by omega), pow_flag m 3 (by omega)]
    by_cases c : f
    · rw [if_pos c, show 2 ^ (8 - 1) * 256 ^ m + 2 ^ (8 - 3) * 256 ^ m + x.im.val = 160 * 256 ^ m + x.im.val by ring,
        flag_iff (by norm_num) (by norm_num) hx b _ ht2]
      simp only [c, iff_true]
      constructor
      · rintro ⟨h1, h2⟩; exact ⟨by omega, by omega, h2⟩
      · rintro ⟨h1, h2, h3⟩; exact ⟨by omega, h3⟩
    · rw [if_neg c, show 2 ^ (8 - 1) * 256 ^ m + 0 + x.im.val = 128 * 256 ^ m + x.im.val by ring,
        flag_iff (by norm_num) (by norm_num) hx b _ ht2]
      simp only [c, iff_false]
      constructor
      · rintro ⟨h1, h2⟩; exact ⟨by omega, by omega, h2⟩
      · rintro ⟨h1, h2, h3⟩; exact ⟨by omega, h3⟩
  rw [key]
  tauto

theorem part_iff (h : G2Curve K) {bs : List Byte} (hl : bs.length = 2 * K.rom.modbytes) (x : F2 K.rom.p) :
    bs = part2 K.rom.modbytes x ↔ beNat (bs.take K.rom.modbytes) = x.im.val ∧ beNat (bs.drop K.rom.modbytes) = x.re.val := by
  have hb := h.bls.dh.bytes.fits
  have h1 := eq_beBytes (n := K.rom.modbytes) (bs := bs.take K.rom.modbytes) (v := x.im.val) (by rw [List.length_take]; omega) (lt_trans (ZMod.val_lt x.im) hb)
  have h2 := eq_beBytes (n := K.rom.modbytes) (bs := bs.drop K.rom.modbytes) (v := x.re.val) (by rw [List.length_drop]; omega) (lt_trans (ZMod.val_lt x.re) hb)
  rw [← h1, ← h2, part2, append_iff (beBytes_length _ _) (by omega)]

theorem encU2_some (h : G2Curve K) {bs : List Byte} (hl : bs.length = 4 * K.rom.modbytes) {x y : F2 K.rom.p} (hh) :
    bs = enc2U (Affine.Point.some x y hh : (curve2 K).Point) ↔
      (beNat (bs.take K.rom.modbytes) = x.im.val ∧ beNat ((bs.drop K.rom.modbytes).take K.rom.modbytes) = x.re.val) ∧
      beNat ((bs.drop (2 * K.rom.modbytes)).take K.rom.modbytes) = y.im.val ∧ beNat (bs.drop (3 * K.rom.modbytes)) = y.re.val := by
  simp only [enc2U]
  rw [append_iff (part2_length _ _) (by omega), part_iff h (by rw [List.length_take]; omega), part_iff h (by rw [List.length_drop]; omega),
    List.take_take, min_eq_left (by omega), List.drop_take, List.drop_drop,
    show 2 * K.rom.modbytes - K.rom.modbytes = K.rom.modbytes by omega, show 2 * K.rom.modbytes + K.rom.modbytes = 3 * K.rom.modbytes by ring]

theorem f2_cast {X Y : Nat} (hX : X < K.rom.p) (hY : Y < K.rom.p) (x : F2 K.rom.p) : x = ⟨(X : ZMod K.rom.p), (Y : ZMod K.rom.p)⟩ ↔ Y = x.im.val ∧ X = x.re.val := by
  rw [QuadraticAlgebra.ext_iff]
  simp only
  rw [Ecp.eq_cast_iff hX, Ecp.eq_cast_iff hY]
  tauto

theorem infinity2_ok (K : PairRom C) (b : Byte) (t : List Byte) :
    (b.toNat % 64 = 0 ∧ beNat t = 0 ∧ infinityBytes2 K (b :: t) = .ok (Ecp2.new K)) ∨
    (¬ (b.toNat % 64 = 0 ∧ beNat t = 0) ∧ infinityBytes2 K (b :: t) = .error .invalidPoint) := by
  unfold infinityBytes2
  rw [List.headD_cons, List.drop_succ_cons, List.drop_zero]
  by_cases c : b.toNat % 64 = 0
  · rw [if_neg (fun e => (b3f b).mp e c)]
    by_cases c2 : beNat t = 0
    · rw [if_neg (by rw [(any_zero t).mpr c2]; decide)]
      exact Or.inl ⟨c, c2, rfl⟩
    · rw [if_pos (by by_contra hc; exact c2 ((any_zero t).mp (by simpa using hc)))]
      exact Or.inr ⟨fun e => c2 e.2, rfl⟩
  · rw [if_pos ((b3f b).mpr c)]
    exact Or.inr ⟨fun e => c e.1, rfl⟩

theorem faithful2_inf (h : TCurve K) : Faithful2 K (Ecp2.new K) := by
  intro hz
  have e : residue K.rom.P K.rom.p (Fp.zero K.rom.P) = 0 := (zero_ex h.tower.toConsts).el.res
  exact absurd (e.symm.trans hz.1) zero_ne_one

theorem neg_point2 {x y : F2 K.rom.p} (hh : (curve2 K).Nonsingular x y) : ∃ hh', -(Affine.Point.some x y hh) = (Affine.Point.some x (-y) hh' : (curve2 K).Point) := by
  rw [Affine.Point.neg_some]
  have : (curve2 K).negY x y = -y := short_negY x y
  have hh' : (curve2 K).Nonsingular x (-y) := by
    rw [← this]; exact (Affine.nonsingular_neg _ _).mpr hh
  refine ⟨hh', ?_⟩
  simp only [this]

/-- exactly one of two opposite ordinates is the larger one -/
theorem larger2_neg (hodd : K.rom.p % 2 = 1) {y : F2 K.rom.p} (hy : y ≠ 0) : larger2 (-y) ↔ ¬ larger2 y := by
  unfold larger2
  rw [QuadraticAlgebra.im_neg, QuadraticAlgebra.re_neg, neg_eq_zero]
  by_cases c : y.im = 0
  · have hr : y.re ≠ 0 := fun hr => hy (QuadraticAlgebra.ext hr c)
    have hno : ¬ larger (0 : ZMod K.rom.p) := by unfold larger; simp
    rw [c, neg_zero, larger_neg (K := K.rom) hodd hr]
    tauto
  · rw [larger_neg (K := K.rom) hodd c]
    tauto

/-- What the decoder delivers. -/
def Decoded2 (K : PairRom C) [Fact K.rom.p.Prime] [Fact (K.rom.p % 4 = 3)] (bs : List Byte) (r : Except Err (Pt2 C)) : Prop :=
  (∃ s T, r = .ok s ∧ IsPoint2 K 18 s T ∧ Faithful2 K s ∧ (∀ T', Enc2 bs T' ↔ T' = T) ∧ (bs = enc2C T → Generic T)) ∨
  (∃ s T, r = .ok s ∧ IsPoint2 K 18 s T ∧ (bs = enc2C T ∨ bs = enc2C (-T)) ∧ ∃ x y hh, T = Affine.Point.some x y hh ∧ y.im = 0) ∨
  (r = .error (verdict (2 * K.rom.modbytes) bs).err2 ∧ ∀ T, Enc2 (K := K) bs T → bs = enc2C T ∧ ∃ x y hh, T = Affine.Point.some x y hh ∧ y.re = 0)

theorem deserC2_cons (K : PairRom C) (b : Byte) (t : List Byte) : deserializeCompressedG2 K (b :: t) =
    if (b :: t).length ≠ 2 * K.rom.modbytes then .error .invalidG2Size
    else if b &&& 0x40 ≠ 0 then infinityBytes2 K (b :: t)
    else if Big.comp (fromBytes K.rom.P.b K.rom.P.n K.rom.modbytes (((b &&& 0x1f) :: t).take K.rom.modbytes)) K.rom.P.md ≥ 0 ∨
        Big.comp (fromBytes K.rom.P.b K.rom.P.n K.rom.modbytes (((b &&& 0x1f) :: t).drop K.rom.modbytes)) K.rom.P.md ≥ 0 then .error .invalidPoint
    else
      let point := newFp2 K (Fp2.newBigs K.rom.P (fromBytes K.rom.P.b K.rom.P.n K.rom.modbytes (((b &&& 0x1f) :: t).drop K.rom.modbytes))
        (fromBytes K.rom.P.b K.rom.P.n K.rom.modbytes (((b &&& 0x1f) :: t).take K.rom.modbytes)))
      if Ecp2.isInfinity K point then .error .invalidPoint
      else if decide (zcashCmpFp2 K.rom.P (Ecp2.gety K point) (Ecp2.gety K (Ecp2.neg K point)) > 0) ≠ decide (b &&& 0x20 > 0) then .ok (Ecp2.neg K point) else .ok point := rfl

theorem deserU2_cons (K : PairRom C) (b : Byte) (t : List Byte) : deserializeUncompressedG2 K (b :: t) =
    if (b :: t).length ≠ 4 * K.rom.modbytes then .error .invalidG2Size
    else if b &&& 0x40 ≠ 0 then infinityBytes2 K (b :: t)
    else if b &&& 0x20 > 0 then .error .invalidYFlag
    else if Big.comp (fromBytes K.rom.P.b K.rom.P.n K.rom.modbytes (((b &&& 0x1f) :: t).take K.rom.modbytes)) K.rom.P.md ≥ 0 ∨
        Big.comp (fromBytes K.rom.P.b K.rom.P.n K.rom.modbytes ((((b &&& 0x1f) :: t).drop K.rom.modbytes).take K.rom.modbytes)) K.rom.P.md ≥ 0 ∨
        Big.comp (fromBytes K.rom.P.b K.rom.P.n K.rom.modbytes ((((b &&& 0x1f) :: t).drop (2 * K.rom.modbytes)).take K.rom.modbytes)) K.rom.P.md ≥ 0 ∨
        Big.comp (fromBytes K.rom.P.b K.rom.P.n K.rom.modbytes (((b &&& 0x1f) :: t).drop (3 * K.rom.modbytes))) K.rom.P.md ≥ 0 then .error .invalidPoint
    else
      let point := newFp2s K (Fp2.newBigs K.rom.P (fromBytes K.rom.P.b K.rom.P.n K.rom.modbytes ((((b &&& 0x1f) :: t).drop K.rom.modbytes).take K.rom.modbytes))
          (fromBytes K.rom.P.b K.rom.P.n K.rom.modbytes (((b &&& 0x1f) :: t).take K.rom.modbytes)))
        (Fp2.newBigs K.rom.P (fromBytes K.rom.P.b K.rom.P.n K.rom.modbytes (((b &&& 0x1f) :: t).drop (3 * K.rom.modbytes)))
          (fromBytes K.rom.P.b K.rom.P.n K.rom.modbytes ((((b &&& 0x1f) :: t).drop (2 * K.rom.modbytes)).take K.rom.modbytes)))
      if Ecp2.isInfinity K point then .error .invalidPoint else .ok point := rfl

/-- a real part of the root found by `FP2::sqrt` is not zero -/
theorem root_re {v r : F2 K.rom.p} (hd : Detected v) (hr : r * r = v) (hv : v ≠ 0) : r.re ≠ 0 := by
  intro h0
  have e1 : v.re = -(r.im * r.im) := by rw [← hr]; simp [h0]
  have e2 : v.im = 0 := by rw [← hr]; simp [h0]
  unfold Detected at hd
  rw [if_pos e2] at hd
  obtain ⟨u, hu⟩ := hd
  have hri : r.im ≠ 0 := by
    intro hi
    apply hv
    rw [← hr, show r = 0 from QuadraticAlgebra.ext h0 hi, mul_zero]
  refine ZMod.mod_four_ne_three_of_sq_eq_neg_one (y := u / r.im) ?_ h4.out
  rw [div_pow, div_eq_iff (pow_ne_zero 2 hri), pow_two u, ← hu, e1]; ring

/-- an undetected square has a purely imaginary root -/
theorem undetected {v r : F2 K.rom.p} (hd : ¬ Detected v) (hr : r * r = v) : r.re = 0 := by
  unfold Detected at hd
  split_ifs at hd with hi
  · rw [← hr] at hi hd
    simp at hi hd
    have h2 : r.re * r.im + r.im * r.re = 2 * (r.re * r.im) := by ring
    by_contra h0
    have him : r.im = 0 := by
      rcases mul_eq_zero.mp (h2 ▸ hi : (2 : ZMod K.rom.p) * (r.re * r.im) = 0) with q | q
      · exfalso
        have : (2 : Nat) ∣ 1 := by
          have h2p : ((2 : Nat) : ZMod K.rom.p) = 0 := by exact_mod_cast q
          rw [ZMod.natCast_eq_zero_iff] at h2p
          have := Nat.le_of_dvd (by norm_num) h2p
          have := hp.out.two_le
          have h43 := h4.out
          have : K.rom.p = 2 := by omega
          omega
        omega
      · rcases mul_eq_zero.mp q with q | q
        · exact absurd q h0
        · exact q
    apply hd
    exact ⟨r.re, by rw [him]; ring⟩
  · exact absurd ⟨r, hr.symm⟩ hd

private theorem iff_not_of {a b : Prop} (h : ¬ (a ↔ b)) : a ↔ ¬ b := by tauto

set_option maxHeartbeats 400000 in
/-- compressed decoder, on strings with the top bit set -/
theorem deserC2_ok (h : G2Curve K) (b : Byte) (t : List Byte) (h7 : 128 ≤ b.toNat) : Decoded2 K (b :: t) (deserializeCompressedG2 K (b :: t)) := by
  have hsz := h.bls.size
  obtain ⟨m, hm⟩ : ∃ m, K.rom.modbytes = m + 1 := ⟨47, by omega⟩
  have hv7 : b.getLsbD 7 = true := (bit7 b).mpr h7
  have noU : ∀ T : (curve2 K).Point, b :: t ≠ enc2U T := by
    intro T e
    have hl : (b :: t).length = 4 * K.rom.modbytes := by rw [e, enc2U_length]
    cases T with
    | zero =>
      have := (encU2_zero (m := 4 * m + 3) (by omega) b t (by simp at hl; omega)).mp e
      omega
    | some x y hh =>
      have := ((encU2_some h hl hh).mp e).1.1
      rw [hm, List.take_succ_cons, beNat_cons] at this
      have hx := val_lt_flags2 h hm x.im
      have hl2 : (t.take m).length = m := by simp at hl ⊢; omega
      rw [hl2] at this
      have : 128 * 256 ^ m ≤ b.toNat * 256 ^ m := Nat.mul_le_mul_right _ h7
      have hN : 0 < 256 ^ m := by positivity
      omega
  have hEnc : ∀ T : (curve2 K).Point, Enc2 (b :: t) T ↔ b :: t = enc2C T := fun T => ⟨fun e => e.resolve_right (noU T), Or.inl⟩
  rw [deserC2_cons]
  by_cases hl : (b :: t).length = 2 * K.rom.modbytes
  swap
  · rw [if_pos hl]
    right; right
    refine ⟨?_, fun T e => absurd ?_ hl⟩
    · simp only [verdict, hv7, if_true, if_neg hl]; rfl
    · rw [(hEnc T).mp e, enc2C_length]
  rw [if_neg (by simpa using hl)]
  have hver : (verdict (2 * K.rom.modbytes) (b :: t)).err2 = Err.invalidPoint := by simp only [verdict, hv7, if_true, if_pos hl]; rfl
  have htl : t.length = 2 * m + 1 := by simp at hl; omega
  by_cases h6 : b.toNat / 64 % 2 = 1
  · rw [if_pos ((b40 b).mpr h6)]
    have hz := encC2_zero (K := K) (m := 2 * m + 1) (by omega) b t htl
    have hno : ∀ x y hh, ¬ b :: t = enc2C (Affine.Point.some x y hh : (curve2 K).Point) := by
      intro x y hh e
      have := (encF_iff h hm b t hl x (larger2 y)).mp e
      omega
    rcases infinity2_ok K b t with ⟨c1, c2, e⟩ | ⟨c, e⟩
    · left
      refine ⟨_, 0, e, (new_ok h.twist.tower).mono (by norm_num), faithful2_inf h.twist, fun T => ?_, fun _ => trivial⟩
      rw [hEnc]
      constructor
      · intro e
        cases T with
        | zero => rfl
        | some x y hh => exact absurd e (hno x y hh)
      · rintro rfl
        exact hz.mpr ⟨by have := b.isLt; omega, c2⟩
    · right; right
      refine ⟨by rw [e, hver], fun T e => ?_⟩
      exfalso
      rw [hEnc] at e
      cases T with
      | zero =>
        have := hz.mp e
        exact c ⟨by omega, this.2⟩
      | some x y hh => exact hno x y hh e
  rw [if_neg (fun e => h6 ((b40 b).mp e))]
  have hno0 : ¬ b :: t = enc2C (0 : (curve2 K).Point) := by
    intro e
    have := (encC2_zero (K := K) (m := 2 * m + 1) (by omega) b t htl).mp e
    omega
  have ht2 : (t.take m).length = m := by rw [List.length_take]; omega
  have hir : Rep K.rom.P.b K.rom.P.n (fromBytes (C := C) K.rom.P.b K.rom.P.n K.rom.modbytes (((b &&& 0x1f) :: t).take K.rom.modbytes)) ((b.toNat % 32 * 256 ^ m + beNat (t.take m) : Nat) : Int) := by
    have e : ((b &&& 0x1f) :: t).take K.rom.modbytes = (b &&& 0x1f) :: t.take m := by rw [hm, List.take_succ_cons]
    have := fromBytes_ok h.bls.dh ((b &&& 0x1f) :: t.take m)
    have e2 : ((b &&& 0x1f) :: t.take m).take K.rom.modbytes = (b &&& 0x1f) :: t.take m := List.take_of_length_le (by rw [List.length_cons]; omega)
    rw [num, e2, beNat_cons, b1f, ht2] at this
    rw [e]
    exact this
  have hxr : Rep K.rom.P.b K.rom.P.n (fromBytes (C := C) K.rom.P.b K.rom.P.n K.rom.modbytes (((b &&& 0x1f) :: t).drop K.rom.modbytes)) ((beNat ((b :: t).drop K.rom.modbytes) : Nat) : Int) := by
    have := fromBytes_ok h.bls.dh (((b &&& 0x1f) :: t).drop K.rom.modbytes)
    have e : ((b &&& 0x1f) :: t).drop K.rom.modbytes = (b :: t).drop K.rom.modbytes := by rw [hm, List.drop_succ_cons, List.drop_succ_cons]
    rw [num, List.take_of_length_le (by rw [List.length_drop, List.length_cons]; omega)] at this
    rw [e] at this ⊢
    exact this
  have hci := Rep.comp_ge hir h.bls.dh.consts.md_rep
  have hcx := Rep.comp_ge hxr h.bls.dh.consts.md_rep
  have henc := fun (x : F2 K.rom.p) (f : Prop) [Decidable f] => encF_iff h hm b t hl x f
  generalize fromBytes (C := C) K.rom.P.b K.rom.P.n K.rom.modbytes (((b &&& 0x1f) :: t).take K.rom.modbytes) = ii at *
  generalize fromBytes (C := C) K.rom.P.b K.rom.P.n K.rom.modbytes (((b &&& 0x1f) :: t).drop K.rom.modbytes) = ir at *
  generalize b.toNat % 32 * 256 ^ m + beNat (t.take m) = Y at *
  generalize beNat ((b :: t).drop K.rom.modbytes) = X at *
  by_cases c1 : Big.comp ii K.rom.P.md ≥ 0 ∨ Big.comp ir K.rom.P.md ≥ 0
  · rw [if_pos c1]
    right; right
    refine ⟨by rw [hver], fun T e => ?_⟩
    exfalso
    rw [hEnc] at e
    cases T with
    | zero => exact hno0 e
    | some x y hh =>
      obtain ⟨_, _, h2, h3⟩ := (henc x (larger2 y)).mp e
      have := ZMod.val_lt x.im
      have := ZMod.val_lt x.re
      rcases c1 with c | c
      · have : K.rom.p ≤ Y := by exact_mod_cast hci.mp c
        omega
      · have : K.rom.p ≤ X := by exact_mod_cast hcx.mp c
        omega
  rw [if_neg c1]
  push Not at c1
  have hY : Y < K.rom.p := by
    by_contra hcon
    exact absurd (hci.mpr (by exact_mod_cast not_lt.mp hcon)) (not_le.mpr c1.1)
  have hX : X < K.rom.p := by
    by_contra hcon
    exact absurd (hcx.mpr (by exact_mod_cast not_lt.mp hcon)) (not_le.mpr c1.2)
  have hodd := odd_of_prime h.bls.dh.consts
  have hnew : Rel2 K.rom.P K.rom.p ⟨0, 1, 2⟩ (Fp2.newBigs K.rom.P ir ii) ⟨(X : ZMod K.rom.p), (Y : ZMod K.rom.p)⟩ := std2_iff.1 (std2_newBigs h.twist.tower hxr hX hir hY)
  have hclx := clean_norm h.twist.tower hnew.re.el (clean_newBig h.twist.tower hxr hX)
  have hcly := clean_norm h.twist.tower hnew.im.el (clean_newBig h.twist.tower hir hY)
  obtain ⟨p1, p2⟩ := newFp2_ok h.twist hnew le_rfl le_rfl (by norm_num)
  have hxx : (newFp2 K (Fp2.newBigs K.rom.P ir ii)).z = Fp2.one K.rom.P → (newFp2 K (Fp2.newBigs K.rom.P ir ii)).x = Fp2.norm K.rom.P (Fp2.newBigs K.rom.P ir ii) := by
    unfold newFp2
    dsimp only
    split_ifs
    · intro _; rfl
    · intro hz
      exfalso
      have e1 := congrArg (fun q : Fp2 C => residue K.rom.P K.rom.p q.a) hz
      have e2 := rel_res2 (one_rel h.twist.tower)
      have e3 : residue K.rom.P K.rom.p (Fp.zero K.rom.P) = 0 := (zero_ex h.twist.tower.toConsts).el.res
      have e4 : residue K.rom.P K.rom.p (Fp2.one K.rom.P).a = 1 := congrArg QuadraticAlgebra.re e2
      exact zero_ne_one (e3.symm.trans (e1.trans e4))
  dsimp only
  set v : F2 K.rom.p := ⟨(X : ZMod K.rom.p), (Y : ZMod K.rom.p)⟩ with hv
  have hxv : ∀ x : F2 K.rom.p, x = v ↔ Y = x.im.val ∧ X = x.re.val := f2_cast hX hY
  have hrhs0 : v ^ 3 + Btw K ≠ 0 := by
    have := h.twist.noTwo v
    intro hc; exact this (by linear_combination hc)
  generalize newFp2 K (Fp2.newBigs K.rom.P ir ii) = pt at *
  by_cases hd : Detected (v ^ 3 + Btw K)
  swap
  · have h0 := p2 hd
    rw [if_pos ((isInfinity_ok h.twist.tower h0).mpr rfl)]
    right; right
    refine ⟨by rw [hver], fun T e => ?_⟩
    rw [hEnc] at e
    cases T with
    | zero => exact absurd e hno0
    | some x y hh =>
      refine ⟨e, x, y, hh, rfl, ?_⟩
      obtain ⟨_, _, h2, h3⟩ := (henc x (larger2 y)).mp e
      have hx : x = v := (hxv x).mpr ⟨h2, h3⟩
      subst hx
      exact undetected hd (by rw [← pow_two]; exact eqn_of hh)
  obtain ⟨R, hh, hpt, hRy, hRx, hRz⟩ := p1 hd
  have hx' := hxx hRz
  rw [if_neg (fun c => (Ecp.some_ne_zero' hh) ((isInfinity_ok h.twist.tower hpt).mp c).symm)]
  have hng := Ecp2.neg_ok h.twist hpt (by norm_num)
  obtain ⟨hh', eneg⟩ := neg_point2 hh
  have hRe : R.re ≠ 0 := root_re hd (by rw [← pow_two]; exact eqn_of hh) hrhs0
  have hR0 : R ≠ 0 := fun hc => hRe (by rw [hc]; rfl)
  have hpt' : IsPoint2 K 18 pt (Affine.Point.some v R hh) := hpt.mono (by norm_num)
  have hng' : IsPoint2 K 18 (Ecp2.neg K pt) (Affine.Point.some v (-R) hh') := by rw [eneg] at hng; exact hng.mono (by norm_num)
  have encv : ∀ (f : Prop) [Decidable f], (b.toNat / 32 % 2 = 1 ↔ f) → b :: t = enc2F K.rom.modbytes v f := by
    intro f _ hf
    exact (henc v f).mpr ⟨by have := b.isLt; omega, hf, (hxv v).mp rfl⟩
  by_cases him : R.im = 0
  · -- real ordinate: one of the two points
    right; left
    have both : b :: t = enc2C (Affine.Point.some v R hh : (curve2 K).Point) ∨ b :: t = enc2C (Affine.Point.some v (-R) hh' : (curve2 K).Point) := by
      by_cases hf : b.toNat / 32 % 2 = 1 ↔ larger2 R
      · exact Or.inl (encv _ hf)
      · refine Or.inr (encv _ ?_)
        rw [larger2_neg hodd hR0]
        exact iff_not_of hf
    split_ifs
    · refine ⟨_, _, rfl, hng', ?_, v, -R, hh', rfl, by rw [QuadraticAlgebra.im_neg, him, neg_zero]⟩
      have e2 : -(Affine.Point.some v (-R) hh') = (Affine.Point.some v R hh : (curve2 K).Point) := by rw [← eneg, neg_neg]
      rw [e2]
      exact both.symm
    · refine ⟨_, _, rfl, hpt', ?_, v, R, hh, rfl, him⟩
      rw [eneg]; exact both
  left
  have hlg : zcashCmpFp2 K.rom.P (Ecp2.gety K pt) (Ecp2.gety K (Ecp2.neg K pt)) > 0 ↔ larger2 R :=
    cmp_gen h ⟨by have := h.twist.len; simp; omega, by have := h.twist.len; simp; omega⟩ (affine_rels h.twist hpt' (by norm_num)).2 (affine_rels h.twist hng' (by norm_num)).2 him
  have uniq : ∀ (Q : F2 K.rom.p) (hQ : (curve2 K).Nonsingular v Q), Q ≠ 0 → (b.toNat / 32 % 2 = 1 ↔ larger2 Q) →
      ∀ T : (curve2 K).Point, Enc2 (b :: t) T ↔ T = Affine.Point.some _ _ hQ := by
    intro Q hQ hQ0 hlQ T
    rw [hEnc]
    constructor
    · intro e
      cases T with
      | zero => exact absurd e hno0
      | some x y hxy =>
        obtain ⟨_, h1, h2⟩ := (henc x (larger2 y)).mp e
        have hx : x = v := (hxv x).mpr h2
        subst hx
        have hy2 : y ^ 2 = Q ^ 2 := by rw [eqn_of hxy, eqn_of hQ]
        rcases sq_eq_sq_iff_eq_or_eq_neg.mp hy2 with e | e
        · subst e; rfl
        · exfalso
          have := larger2_neg hodd hQ0
          rw [← e] at this
          exact iff_not_self (hlQ.symm.trans (h1.trans this))
    · rintro rfl
      exact encv _ hlQ
  have cleanR : ∀ {a : Fp C} {w : ZMod K.rom.p} {e : Nat}, Ex K.rom.P K.rom.p 0 1 e a w → w ≠ 0 → Clean K.rom.P K.rom.p a := by
    intro a w e ha hw hr
    exact absurd (ha.el.res.symm.trans hr) hw
  have hfx : Clean K.rom.P K.rom.p pt.x.a ∧ Clean K.rom.P K.rom.p pt.x.b := by
    rw [hx']; exact ⟨hclx, hcly⟩
  by_cases c2 : decide (zcashCmpFp2 K.rom.P (Ecp2.gety K pt) (Ecp2.gety K (Ecp2.neg K pt)) > 0) ≠ decide (b &&& 0x20 > 0)
  · rw [if_pos c2]
    refine ⟨_, _, rfl, hng', ?_, uniq _ hh' (neg_ne_zero.mpr hR0) ?_, fun _ => ?_⟩
    · intro _
      have hny := (hng'.1.rels h.twist.tower.toConsts).2.1
      have hc := hng'.2
      have : (coords2 K (Ecp2.neg K pt)).y = -R := by
        have hz : (coords2 K (Ecp2.neg K pt)).z = 1 := by
          have ez : (Ecp2.neg K pt).z = pt.z := by rw [Ecp2.neg]
          rw [coords2, ez, hRz]; exact rel_res2 (one_rel h.twist.tower)
        rw [hc.2.2, hz, mul_one]
      rw [this] at hny
      exact ⟨hfx.1, hfx.2, cleanR hny.re (by rw [QuadraticAlgebra.re_neg]; exact neg_ne_zero.mpr hRe), cleanR hny.im (by rw [QuadraticAlgebra.im_neg]; exact neg_ne_zero.mpr him)⟩
    · rw [larger2_neg hodd hR0, ← hlg, ← b20]
      rw [ne_eq, decide_eq_decide] at c2
      exact iff_not_of (fun e => c2 e.symm)
    · exact ⟨by rw [QuadraticAlgebra.re_neg]; exact neg_ne_zero.mpr hRe, by rw [QuadraticAlgebra.im_neg]; exact neg_ne_zero.mpr him⟩
  · rw [if_neg c2]
    refine ⟨_, _, rfl, hpt', ?_, uniq _ hh hR0 ?_, fun _ => ⟨hRe, him⟩⟩
    · intro _
      exact ⟨hfx.1, hfx.2, cleanR hRy.re hRe, cleanR hRy.im him⟩
    · rw [← hlg, ← b20]
      rw [ne_eq, decide_eq_decide, not_not] at c2
      exact c2.symm

/-- uncompressed decoder, on strings with the top bit clear -/
theorem deserU2_ok (h : G2Curve K) (b : Byte) (t : List Byte) (h7 : b.toNat < 128) : Decoded2 K (b :: t) (deserializeUncompressedG2 K (b :: t)) := by
  have hsz := h.bls.size
  obtain ⟨m, hm⟩ : ∃ m, K.rom.modbytes = m + 1 := ⟨47, by omega⟩
  have hv7 : ¬ b.getLsbD 7 = true := fun e => by have := (bit7 b).mp e; omega
  have noC : ∀ T : (curve2 K).Point, b :: t ≠ enc2C T := by
    intro T e
    have hl : (b :: t).length = 2 * K.rom.modbytes := by rw [e, enc2C_length]
    cases T with
    | zero =>
      have := (encC2_zero (m := 2 * m + 1) (by omega) b t (by simp at hl; omega)).mp e
      omega
    | some x y hh =>
      have := (encF_iff h hm b t hl x (larger2 y)).mp e
      omega
  have hEnc : ∀ T : (curve2 K).Point, Enc2 (b :: t) T ↔ b :: t = enc2U T := fun T => ⟨fun e => e.resolve_left (noC T), Or.inr⟩
  have h44 : 2 * (2 * K.rom.modbytes) = 4 * K.rom.modbytes := by ring
  rw [deserU2_cons]
  by_cases hl : (b :: t).length = 4 * K.rom.modbytes
  swap
  · rw [if_pos hl]
    right; right
    refine ⟨?_, fun T e => absurd ?_ hl⟩
    · simp only [verdict, if_neg hv7, ne_eq, h44, hl, not_false_eq_true, if_true]; rfl
    · rw [(hEnc T).mp e, enc2U_length]
  rw [if_neg (by simpa using hl)]
  have hver : verdict (2 * K.rom.modbytes) (b :: t) = if b.getLsbD 6 then .point else if b.getLsbD 5 then .yflag else .point := by
    simp only [verdict, if_neg hv7, ne_eq, h44, hl, not_true_eq_false, if_false]
  have hb1 : b.toNat / 64 % 2 = 1 ∨ b.toNat / 32 % 2 = 1 → ∀ x y hh, ¬ b :: t = enc2U (Affine.Point.some x y hh : (curve2 K).Point) := by
    intro hb x y hh e
    have := ((encU2_some h hl hh).mp e).1.1
    rw [hm, List.take_succ_cons, beNat_cons] at this
    have hx := val_lt_flags2 h hm x.im
    have hl2 : (t.take m).length = m := by simp at hl ⊢; omega
    rw [hl2] at this
    have : 32 * 256 ^ m ≤ b.toNat * 256 ^ m := Nat.mul_le_mul_right _ (by omega)
    omega
  have htl : t.length = 4 * m + 3 := by simp at hl; omega
  have hz := encU2_zero (K := K) (m := 4 * m + 3) (by omega) b t htl
  by_cases h6 : b.toNat / 64 % 2 = 1
  · rw [if_pos ((b40 b).mpr h6)]
    rw [if_pos ((bit6 b).mpr h6)] at hver
    have hno := hb1 (Or.inl h6)
    rcases infinity2_ok K b t with ⟨c1, c2, e⟩ | ⟨c, e⟩
    · left
      refine ⟨_, 0, e, (new_ok h.twist.tower).mono (by norm_num), faithful2_inf h.twist, fun T => ?_, fun _ => trivial⟩
      rw [hEnc]
      constructor
      · intro e
        cases T with
        | zero => rfl
        | some x y hh => exact absurd e (hno x y hh)
      · rintro rfl
        exact hz.mpr ⟨by have := b.isLt; omega, c2⟩
    · right; right
      refine ⟨by rw [e, hver]; rfl, fun T e => ?_⟩
      exfalso
      rw [hEnc] at e
      cases T with
      | zero =>
        have := hz.mp e
        exact c ⟨by omega, this.2⟩
      | some x y hh => exact hno x y hh e
  rw [if_neg (fun e => h6 ((b40 b).mp e))]
  rw [if_neg (fun e => h6 ((bit6 b).mp e))] at hver
  have hno0 : ¬ b :: t = enc2U (0 : (curve2 K).Point) := by
    intro e
    have := hz.mp e
    omega
  by_cases h5 : b.toNat / 32 % 2 = 1
  · rw [if_pos ((b20 b).mpr h5)]
    rw [if_pos ((bit5 b).mpr h5)] at hver
    right; right
    refine ⟨by rw [hver]; rfl, fun T e => ?_⟩
    exfalso
    rw [hEnc] at e
    cases T with
    | zero => exact hno0 e
    | some x y hh => exact hb1 (Or.inr h5) x y hh e
  rw [if_neg (fun e => h5 ((b20 b).mp e))]
  rw [if_neg (fun e => h5 ((bit5 b).mp e))] at hver
  have hb3 : b &&& 0x1f = b := BitVec.eq_of_toNat_eq (by rw [b1f]; omega)
  rw [hb3]
  have r1 := fromBytes_ok h.bls.dh ((b :: t).take K.rom.modbytes)
  have r2 := fromBytes_ok h.bls.dh (((b :: t).drop K.rom.modbytes).take K.rom.modbytes)
  have r3 := fromBytes_ok h.bls.dh (((b :: t).drop (2 * K.rom.modbytes)).take K.rom.modbytes)
  have r4 := fromBytes_ok h.bls.dh ((b :: t).drop (3 * K.rom.modbytes))
  rw [num, List.take_take, min_self] at r1 r2 r3
  rw [num, List.take_of_length_le (by rw [List.length_drop]; omega)] at r4
  have k1 := Rep.comp_ge r1 h.bls.dh.consts.md_rep
  have k2 := Rep.comp_ge r2 h.bls.dh.consts.md_rep
  have k3 := Rep.comp_ge r3 h.bls.dh.consts.md_rep
  have k4 := Rep.comp_ge r4 h.bls.dh.consts.md_rep
  have henc := fun x y hh => encU2_some h hl (x := x) (y := y) hh
  generalize fromBytes (C := C) K.rom.P.b K.rom.P.n K.rom.modbytes ((b :: t).take K.rom.modbytes) = i1 at *
  generalize fromBytes (C := C) K.rom.P.b K.rom.P.n K.rom.modbytes (((b :: t).drop K.rom.modbytes).take K.rom.modbytes) = i2 at *
  generalize fromBytes (C := C) K.rom.P.b K.rom.P.n K.rom.modbytes (((b :: t).drop (2 * K.rom.modbytes)).take K.rom.modbytes) = i3 at *
  generalize fromBytes (C := C) K.rom.P.b K.rom.P.n K.rom.modbytes ((b :: t).drop (3 * K.rom.modbytes)) = i4 at *
  generalize beNat ((b :: t).take K.rom.modbytes) = X1 at *
  generalize beNat (((b :: t).drop K.rom.modbytes).take K.rom.modbytes) = X2 at *
  generalize beNat (((b :: t).drop (2 * K.rom.modbytes)).take K.rom.modbytes) = X3 at *
  generalize beNat ((b :: t).drop (3 * K.rom.modbytes)) = X4 at *
  by_cases c1 : Big.comp i1 K.rom.P.md ≥ 0 ∨ Big.comp i2 K.rom.P.md ≥ 0 ∨ Big.comp i3 K.rom.P.md ≥ 0 ∨ Big.comp i4 K.rom.P.md ≥ 0
  · rw [if_pos c1]
    right; right
    refine ⟨by rw [hver]; rfl, fun T e => ?_⟩
    exfalso
    rw [hEnc] at e
    cases T with
    | zero => exact hno0 e
    | some x y hh =>
      obtain ⟨⟨h2, h3⟩, h4', h5'⟩ := (henc x y hh).mp e
      have q1 := ZMod.val_lt x.im
      have q2 := ZMod.val_lt x.re
      have q3 := ZMod.val_lt y.im
      have q4 := ZMod.val_lt y.re
      rcases c1 with c | c | c | c
      · have : K.rom.p ≤ X1 := by exact_mod_cast k1.mp c
        omega
      · have : K.rom.p ≤ X2 := by exact_mod_cast k2.mp c
        omega
      · have : K.rom.p ≤ X3 := by exact_mod_cast k3.mp c
        omega
      · have : K.rom.p ≤ X4 := by exact_mod_cast k4.mp c
        omega
  rw [if_neg c1]
  push Not at c1
  have lt_of : ∀ {i : Limbs C} {X : Nat}, (Big.comp i K.rom.P.md ≥ 0 ↔ (K.rom.p : Int) ≤ (X : Int)) → Big.comp i K.rom.P.md < 0 → X < K.rom.p := by
    intro i X hk hc
    by_contra hcon
    exact absurd (hk.mpr (by exact_mod_cast not_lt.mp hcon)) (not_le.mpr hc)
  have l1 := lt_of k1 c1.1
  have l2 := lt_of k2 c1.2.1
  have l3 := lt_of k3 c1.2.2.1
  have l4 := lt_of k4 c1.2.2.2
  have nx : Rel2 K.rom.P K.rom.p ⟨0, 1, 2⟩ (Fp2.newBigs K.rom.P i2 i1) ⟨(X2 : ZMod K.rom.p), (X1 : ZMod K.rom.p)⟩ := std2_iff.1 (std2_newBigs h.twist.tower r2 l2 r1 l1)
  have ny : Rel2 K.rom.P K.rom.p ⟨0, 1, 2⟩ (Fp2.newBigs K.rom.P i4 i3) ⟨(X4 : ZMod K.rom.p), (X3 : ZMod K.rom.p)⟩ := std2_iff.1 (std2_newBigs h.twist.tower r4 l4 r3 l3)
  obtain ⟨n1, n2⟩ := newFp2s_ok h.twist nx le_rfl ny le_rfl (by norm_num)
  have fx := f2_cast (K := K) l2 l1
  have fy := f2_cast (K := K) l4 l3
  have hfa : Faithful2 K (newFp2s K (Fp2.newBigs K.rom.P i2 i1) (Fp2.newBigs K.rom.P i4 i3)) := by
    unfold newFp2s
    dsimp only
    split_ifs
    · intro _
      exact ⟨clean_norm h.twist.tower nx.re.el (clean_newBig h.twist.tower r2 l2), clean_norm h.twist.tower nx.im.el (clean_newBig h.twist.tower r1 l1),
        clean_newBig h.twist.tower r4 l4, clean_newBig h.twist.tower r3 l3⟩
    · intro hz
      have e : residue K.rom.P K.rom.p (Fp.zero K.rom.P) = 0 := (zero_ex h.twist.tower.toConsts).el.res
      exact absurd (e.symm.trans hz.1) zero_ne_one
  dsimp only
  generalize newFp2s K (Fp2.newBigs K.rom.P i2 i1) (Fp2.newBigs K.rom.P i4 i3) = pt at *
  by_cases hq : (⟨(X4 : ZMod K.rom.p), (X3 : ZMod K.rom.p)⟩ : F2 K.rom.p) ^ 2 = ⟨(X2 : ZMod K.rom.p), (X1 : ZMod K.rom.p)⟩ ^ 3 + Btw K
  · obtain ⟨hh, hpt⟩ := n1 hq
    rw [if_neg (fun c => (Ecp.some_ne_zero' hh) ((isInfinity_ok h.twist.tower hpt).mp c).symm)]
    left
    refine ⟨_, _, rfl, hpt.mono (by norm_num), hfa, fun T' => ?_, fun e => absurd e (noC _)⟩
    rw [hEnc]
    cases T' with
    | zero =>
      refine ⟨fun e => absurd e hno0, fun e => ?_⟩
      exact absurd e (Ecp.some_ne_zero' hh)
    | some x y hxy =>
      rw [henc x y hxy, Affine.Point.some.injEq, fx, fy]
  · rw [if_pos ((isInfinity_ok h.twist.tower (n2 hq)).mpr rfl)]
    right; right
    refine ⟨by rw [hver]; rfl, fun T' e => ?_⟩
    exfalso
    rw [hEnc] at e
    cases T' with
    | zero => exact hno0 e
    | some x y hxy =>
      obtain ⟨e1, e2⟩ := (henc x y hxy).mp e
      have hx := (fx x).mpr e1
      have hy := (fy y).mpr e2
      subst hx hy
      exact hq (eqn_of hxy)

/-- `deserialize_g2` on every byte string -/
theorem deser2_ok (h : G2Curve K) (bs : List Byte) : Decoded2 K bs (deserializeG2 K bs) := by
  have hsz := h.bls.size
  cases bs with
  | nil =>
    right; right
    refine ⟨rfl, fun T e => ?_⟩
    exfalso
    rcases e with e | e
    · have := enc2C_length T
      rw [← e] at this
      simp at this; omega
    · have := enc2U_length T
      rw [← e] at this
      simp at this; omega
  | cons b t =>
    unfold deserializeG2
    rw [if_neg (by simp), List.headD_cons]
    by_cases c : b.toNat < 128
    · rw [if_pos ((b80 b).mpr c)]; exact deserU2_ok h b t c
    · rw [if_neg (fun e => c ((b80 b).mp e))]; exact deserC2_ok h b t (by omega)

end Verif.Bls
