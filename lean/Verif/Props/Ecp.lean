import Verif.Ecp.Order
import Verif.Ecp.Codec
import Verif.Ecp.NoTwoCert
/-
C48–C50: points of Weierstrass curves (`src/ecp.rs`).  The vocabulary is in `Verif/Spec/Curve.lean` and
`Verif/Spec/CurveRom.lean`: `curve K` is Mathlib's elliptic curve `y^2 = x^3 + A x + B` over `Z/p` with Mathlib's group
law, and `IsPoint K s T` says that the `ECP` value `s` is a legal representative of the point `T`.
-/
namespace Verif.Props
open Verif.Big Verif.Fp Verif.Rom Verif.Curve Verif.Ecp Spec WeierstrassCurve

/-! ### the hypotheses hold for the ROM files -/

/-- the conditions of `WCurve` that are checked by evaluation -/
def wB {C : Nat} (r : Rom C) : Bool :=
  decide ((r.a = 0 ∧ r.bI ≠ 0 ∨ r.a = -3) ∧ |3 * r.bI| < 2 ^ r.P.b ∧ r.bv.length = r.P.n) &&
    (if r.a = 0 then cubeB r.p (r.val r.bv).toNat
     else cubicB r.p r.a (r.val r.bv).toNat ((cubicCerts.lookup r.p).getD (0, 0, 0)))

theorem wB_sound {C : Nat} {r : Rom C} [hp : Fact r.p.Prime] (hC : C ≤ 64) (hc : r.Consistent) (ha : Arith r.P r.p) (ht : r.ctype = .weierstrass) (h : wB r = true) :
    WCurve r := by
  unfold wB at h
  rw [Bool.and_eq_true] at h
  obtain ⟨h1, h2⟩ := h
  obtain ⟨a1, a2, a3⟩ := of_decide_eq_true h1
  obtain ⟨d1, _, _, _⟩ := hc.digits
  obtain ⟨r1, r2, _⟩ := hc.ranges
  have hv : ((r.val r.bv).toNat : Int) = r.val r.bv := Int.toNat_of_nonneg r1
  have hrep : Rep r.P.b r.P.n r.bv ((r.val r.bv).toNat : Int) := ⟨a3, d1.normal, hv.symm⟩
  have hB : Bcoef r = ((r.val r.bv).toNat : ZMod r.p) := by
    rw [Bcoef, show limbsVal r.P.b r.bv = r.val r.bv from rfl, ← hv]; simp
  refine { arith := ha, word := hC, type := ht, a := a1, bv := ⟨_, hrep, by omega⟩, bI := ?_, bIs := a2, noTwo := ?_ }
  · intro h0
    have := hc.curveB h0
    have h3 : ((r.bI % r.p : Int) : ZMod r.p) = ((r.val r.bv : Int) : ZMod r.p) := by rw [this]
    rw [cast_emod] at h3
    exact h3
  · rw [hB]
    split_ifs at h2 with h0
    · rw [h0]; simpa using cubeB_sound h2
    · exact cubicB_sound h2

/-- C48, hypothesis: every bundled 64-bit Weierstrass curve (if its modulus is prime) satisfies `WCurve`: its field arithmetic is
correct, its coefficients are consistent and it has no point of order two. -/
theorem C48_rom64 (r : Rom 64) (hr : r ∈ all64) (ht : r.ctype = .weierstrass) [hp : Fact r.p.Prime] : WCurve r := by
  have hA : Arith r.P r.p := by
    cases hm : r.P.modtype with
    | NotSpecial => exact (C16_rom64 r hr hm).arith (by norm_num)
    | PseudoMersenne => exact (C16_pm64 r hr hm).1.arith (C16_pm64 r hr hm).2 (by norm_num)
    | MontgomeryFriendly =>
      have : all64.all (fun r => !(decide (r.P.modtype = .MontgomeryFriendly))) = true := by decide +kernel
      have := List.all_eq_true.1 this r hr
      simp [hm] at this
    | GeneralisedMersenne =>
      have : all64.all (fun r => !(decide (r.P.modtype = .GeneralisedMersenne ∧ r.ctype = .weierstrass))) = true := by decide +kernel
      have := List.all_eq_true.1 this r hr
      simp [hm, ht] at this
  refine wB_sound (by norm_num) (C55_rom64 r hr) hA ht ?_
  have : all64.all (fun r => !(decide (r.ctype = .weierstrass)) || wB r) = true := by decide +kernel
  have := List.all_eq_true.1 this r hr
  simpa [ht] using this

/-- C48, hypothesis, 32-bit; the curve over `2^384 - 317` is excluded because its field arithmetic overflows (C16). -/
theorem C48_rom32 (r : Rom 32) (hr : r ∈ all32) (ht : r.ctype = .weierstrass) (h384 : r.p ≠ 2 ^ 384 - 317) [hp : Fact r.p.Prime] : WCurve r := by
  have hA : Arith r.P r.p := by
    cases hm : r.P.modtype with
    | NotSpecial => exact (C16_rom32 r hr hm).arith (by norm_num)
    | PseudoMersenne => exact (C16_pm32 r hr hm h384).1.arith (C16_pm32 r hr hm h384).2 (by norm_num)
    | MontgomeryFriendly =>
      have : all32.all (fun r => !(decide (r.P.modtype = .MontgomeryFriendly))) = true := by decide +kernel
      have := List.all_eq_true.1 this r hr
      simp [hm] at this
    | GeneralisedMersenne =>
      have : all32.all (fun r => !(decide (r.P.modtype = .GeneralisedMersenne ∧ r.ctype = .weierstrass))) = true := by decide +kernel
      have := List.all_eq_true.1 this r hr
      simp [hm, ht] at this
  refine wB_sound (by norm_num) (C55_rom32 r hr) hA ht ?_
  have : all32.all (fun r => !(decide (r.ctype = .weierstrass)) || wB r) = true := by decide +kernel
  have := List.all_eq_true.1 this r hr
  simpa [ht] using this

example : (all64.filter (fun r => r.ctype = .weierstrass)).length = 18 ∧ (all32.filter (fun r => r.ctype = .weierstrass)).length = 17 := by decide

theorem bls381_curve : WCurve bls381_64 := C48_rom64 _ (by simp [all64]) rfl
theorem bls381_curve32 : WCurve bls381_32 := C48_rom32 _ (by simp [all32]) rfl (by decide +kernel)

section
variable {C : Nat} {K : Rom C} [hp : Fact K.p.Prime]

/-! ### C48 group law -/

/-- C48. `add` computes the group-law sum of every two points: different, equal, opposite or infinite. -/
theorem C48_add (h : WCurve K) {s q : Pt C} {S T : (curve K).Point} (hs : IsPoint K s S) (hq : IsPoint K q T) : IsPoint K (Ecp.add K s q) (S + T) :=
  Ecp.add_ok h hs hq

/-- C48. `dbl` doubles every point. -/
theorem C48_dbl (h : WCurve K) {s : Pt C} {T : (curve K).Point} (hs : IsPoint K s T) : IsPoint K (Ecp.dbl K s) (T + T) := Ecp.dbl_ok h hs

/-- C48. `neg` negates every point. -/
theorem C48_neg (h : WCurve K) {s : Pt C} {T : (curve K).Point} (hs : IsPoint K s T) : IsPoint K (Ecp.neg K s) (-T) := Ecp.neg_ok h hs

/-- C48. `sub` subtracts. -/
theorem C48_sub (h : WCurve K) {s q : Pt C} {S T : (curve K).Point} (hs : IsPoint K s S) (hq : IsPoint K q T) : IsPoint K (Ecp.sub K s q) (S - T) := by
  rw [sub_eq_add_neg]
  exact Ecp.add_ok h hs (Ecp.neg_ok h hq)

/-- C48. `new` and `inf` give the neutral element. -/
theorem C48_zero (h : WCurve K) (s : Pt C) : IsPoint K (Ecp.new K) 0 ∧ IsPoint K (inf K s) 0 := ⟨new_ok h, inf_ok h s⟩

/-- C48. `is_infinity` recognises the neutral element and `equals` decides equality of points, whatever the projective
representatives. -/
theorem C48_equals (h : WCurve K) {s q : Pt C} {S T : (curve K).Point} (hs : IsPoint K s S) (hq : IsPoint K q T) :
    (isInfinity K s = true ↔ S = 0) ∧ (Ecp.equals K s q = true ↔ S = T) := ⟨isInfinity_ok h hs, Ecp.equals_ok h hs hq⟩

/-- C48. `affine` does not change the point, and leaves a finite point with coordinates `(x : y : 1)`. -/
theorem C48_affine (h : WCurve K) {s : Pt C} {T : (curve K).Point} (hs : IsPoint K s T) :
    IsPoint K (affine K s) T ∧ ∀ x y hh, T = Affine.Point.some x y hh → coords K (affine K s) = ⟨x, y, 1⟩ :=
  ⟨(affine_ok h hs).1, fun _ _ _ e => affine_coords h (e ▸ hs)⟩

/-- C48. An `ECP` value represents at most one point. -/
theorem C48_unique {s : Pt C} {S T : (curve K).Point} (hs : IsPoint K s S) (ht : IsPoint K s T) : S = T := by
  rcases hs.2.zero_or with ⟨rfl, h1, h2, h3⟩ | ⟨x, y, hh, rfl, h1, h2, h3⟩
  · rcases ht.2.zero_or with ⟨rfl, k1, k2, k3⟩ | ⟨x', y', hh', rfl, k1, k2, k3⟩
    · rfl
    · exact absurd h3 k1
  · rcases ht.2.zero_or with ⟨rfl, k1, k2, k3⟩ | ⟨x', y', hh', rfl, k1, k2, k3⟩
    · exact absurd k3 h1
    · have ex : x = x' := mul_right_cancel₀ h1 (h2.symm.trans k2)
      have ey : y = y' := mul_right_cancel₀ h1 (h3.symm.trans k3)
      subst ex ey; rfl

/-! ### C49 scalar multiplication -/

/-- C49. `mul` computes `e P` for every point and every scalar with at least four bits to spare in a `Big`, zero included, and does not
panic. -/
theorem C49_mul (h : WCurve K) {s : Pt C} {T : (curve K).Point} (hs : IsPoint K s T) {e : Limbs C} {E : Nat} (he : Rep K.P.b K.P.n e E)
    (hE : E + 2 < 2 ^ (K.P.b * K.P.n - 4)) : ∃ r, Ecp.mul K s e = some r ∧ IsPoint K r (E • T) := by
  obtain ⟨r, h1, h2⟩ := Ecp.mul_ok h hs ⟨he, hE⟩
  exact ⟨r, h1, by rwa [natCast_zsmul] at h2⟩

/-- C49. `mul2` computes `e P + f Q`. -/
theorem C49_mul2 (h : WCurve K) {s q : Pt C} {S T : (curve K).Point} (hs : IsPoint K s S) (hq : IsPoint K q T) {e f : Limbs C} {E F : Nat}
    (he : Rep K.P.b K.P.n e E) (hE : E + 2 < 2 ^ (K.P.b * K.P.n - 4)) (hf : Rep K.P.b K.P.n f F) (hF : F + 2 < 2 ^ (K.P.b * K.P.n - 4)) :
    ∃ r, mul2 K s e q f = some r ∧ IsPoint K r (E • S + F • T) := by
  obtain ⟨r, h1, h2⟩ := mul2_ok h hs hq ⟨he, hE⟩ ⟨hf, hF⟩
  exact ⟨r, h1, by rwa [natCast_zsmul, natCast_zsmul] at h2⟩

/-- C49. `pinmul` multiplies by the low `bts` bits of `e`. -/
theorem C49_pinmul (h : WCurve K) {s : Pt C} {T : (curve K).Point} (hs : IsPoint K s T) (e : BitVec 32) (bts : Nat) (hb : bts ≤ 32) :
    ∃ r, pinmul K s e bts = some r ∧ IsPoint K r ((e.toNat % 2 ^ bts) • T) := by
  obtain ⟨r, h1, h2⟩ := pinmul_ok h hs e bts hb
  exact ⟨r, h1, by rwa [natCast_zsmul] at h2⟩

/-- C49. `pinmul` agrees with `mul` on the same small scalar: the results are equal points. -/
theorem C49_pinmul_mul (h : WCurve K) {s : Pt C} {T : (curve K).Point} (hs : IsPoint K s T) (e : BitVec 32) (bts : Nat) (hb : bts ≤ 32) (he : e.toNat < 2 ^ bts)
    {w : Limbs C} (hw : Rep K.P.b K.P.n w (e.toNat : Nat)) (hE : e.toNat + 2 < 2 ^ (K.P.b * K.P.n - 4)) :
    ∃ r r', pinmul K s e bts = some r ∧ Ecp.mul K s w = some r' ∧ Ecp.equals K r r' = true := by
  obtain ⟨r, h1, h2⟩ := C49_pinmul h hs e bts hb
  obtain ⟨r', h3, h4⟩ := C49_mul h hs hw hE
  rw [Nat.mod_eq_of_lt he] at h2
  exact ⟨r, r', h1, h3, (Ecp.equals_ok h h2 h4).mpr rfl⟩

/-- C49, the limit: a scalar with the top bit of a `Big` set makes `mul` of a finite point panic (digit array too short). -/
theorem C49_mul_panics (h : WCurve K) {s : Pt C} {T : (curve K).Point} (hs : IsPoint K s T) (hT : T ≠ 0) {e : Limbs C} {E : Nat} (he : Rep K.P.b K.P.n e E)
    (hE : (E : Int) + 2 < 2 ^ (K.P.b * K.P.n)) (hL : 2 ^ (K.P.b * K.P.n - 1) ≤ E) : Ecp.mul K s e = none := by
  have hi : ¬ isInfinity K s = true := fun hc => hT ((isInfinity_ok h hs).mp hc)
  have h0 : ¬ Big.iszilch e = true := fun hc => by
    have : (E : Int) = 0 := (he.iszilch).mp hc
    have := Nat.two_pow_pos (K.P.b * K.P.n - 1)
    omega
  simp [Ecp.mul, hi, h0, h.type, mulWin_panics (ptOps K) h.arith.ok h.arith.hn s he hE hL]

/-! ### C50 encoding -/

/-- C50. Decoding: with a Montgomery modulus `frombytes` returns the point `(x, y)` exactly for strings that begin with
the uncompressed or compressed SEC 1 encoding of `(x, y)`, and the point at infinity for every other string (wrong tag,
coordinate not below `p`, not on the curve, no square root).  It panics on no string of the full length. -/
theorem C50_frombytes (h : WCurve K) (hm : MontConsts K.P K.p) (hs : SqrtOk K.P K.p) (hb : BytesOk K) (bs : List (BitVec 8)) (hl : K.modbytes + 1 ≤ bs.length)
    (hl4 : bs.headD 0 = 0x04#8 → 2 * K.modbytes + 1 ≤ bs.length) :
    ∃ r T, frombytes K bs = some r ∧ IsPoint K r T ∧ ∀ x y hh, T = Affine.Point.some x y hh ↔ (sec1U K x y <+: bs ∨ sec1C K x y <+: bs) :=
  frombytes_gen h hb bs hl hl4 fun _ _ s hx hX hs2 _ => newBigint_ok h hm hs hx hX s hs2

/-- C50. The same for every modulus (pseudo-Mersenne too) on strings without a compressed tag. -/
theorem C50_frombytes_uncompressed (h : WCurve K) (hb : BytesOk K) (bs : List (BitVec 8)) (hl : K.modbytes + 1 ≤ bs.length)
    (hl4 : bs.headD 0 = 0x04#8 → 2 * K.modbytes + 1 ≤ bs.length) (htag : ¬ (bs.headD 0 = 2 ∨ bs.headD 0 = 3)) :
    ∃ r T, frombytes K bs = some r ∧ IsPoint K r T ∧ ∀ x y hh, T = Affine.Point.some x y hh ↔ sec1U K x y <+: bs := by
  obtain ⟨r, T, h1, h2, h3⟩ := frombytes_gen h hb bs hl hl4 fun _ _ s _ _ _ ht => absurd ht htag
  refine ⟨r, T, h1, h2, fun x y hh => (h3 x y hh).trans ⟨?_, Or.inl⟩⟩
  rintro (a | a)
  · exact a
  · exfalso
    cases bs with
    | nil => simp at hl
    | cons t bs =>
      have := sec1C_head a
      apply htag
      rw [List.headD_cons, this]
      split_ifs
      · exact Or.inr rfl
      · exact Or.inl rfl

/-- C50. A string that is too short makes `frombytes` panic (index out of range) instead of returning infinity; `frombytes` panics on
no other string. -/
theorem C50_frombytes_short (K : Rom C) (bs : List (BitVec 8)) :
    (bs.length < K.modbytes + 1 → frombytes K bs = none) ∧
    (K.modbytes + 1 ≤ bs.length → (bs.headD 0 = 0x04#8 → 2 * K.modbytes + 1 ≤ bs.length) → frombytes K bs ≠ none) := by
  constructor
  · intro h; simp [frombytes, h]
  · intro h1 h2
    have e0 : ¬ bs.length < K.modbytes + 1 := by omega
    simp only [frombytes, e0, if_false]
    split_ifs with c1 c2 c3 c4 <;> simp
    exact absurd (h2 c3) (by omega)

/-- C50. Encoding of a finite point, Montgomery modulus: exactly the SEC 1 strings, for every projective representative.
The single exception is `x = 0` held as a non-zero multiple of `p` with `z = 1` (excluded by `hx0`). -/
theorem C50_tobytes (h : WCurve K) (hm : MontConsts K.P K.p) {s : Pt C} {x y : ZMod K.p} {hh} (hs : IsPoint K s (Affine.Point.some x y hh))
    (hx0 : x = 0 → (coords K s).z = 1 → limbsVal K.P.b s.x.x = 0) (buf : List (BitVec 8)) :
    (2 * K.modbytes + 1 ≤ buf.length → tobytes K s buf false = some (sec1U K x y ++ buf.drop (2 * K.modbytes + 1))) ∧
    (K.modbytes + 1 ≤ buf.length → tobytes K s buf true = some (sec1C K x y ++ buf.drop (K.modbytes + 1))) :=
  tobytes_gen h (mont_redc h hm hs hx0).1 (mont_redc h hm hs hx0).2 buf

/-- C50. Encoding of a finite point whose `z` is not already 1 (so that `affine` reduces the coordinates), any modulus. -/
theorem C50_tobytes_projective (h : WCurve K) {s : Pt C} {x y : ZMod K.p} {hh} (hs : IsPoint K s (Affine.Point.some x y hh))
    (hz : (coords K s).z ≠ 1) (buf : List (BitVec 8)) :
    (2 * K.modbytes + 1 ≤ buf.length → tobytes K s buf false = some (sec1U K x y ++ buf.drop (2 * K.modbytes + 1))) ∧
    (K.modbytes + 1 ≤ buf.length → tobytes K s buf true = some (sec1C K x y ++ buf.drop (K.modbytes + 1))) := by
  obtain ⟨a, b⟩ := affine_redc h hs (fun e => absurd e hz) (fun e => absurd e hz)
  exact tobytes_gen h a b buf

/-- C50. Round trip: decoding the encoding of a finite point gives the point back, compressed or not. -/
theorem C50_roundtrip (h : WCurve K) (hm : MontConsts K.P K.p) (hsq : SqrtOk K.P K.p) (hb : BytesOk K) {s : Pt C} {T : (curve K).Point} (hT : T ≠ 0) (hs : IsPoint K s T)
    (hx0 : (coords K s).x = 0 → (coords K s).z = 1 → limbsVal K.P.b s.x.x = 0) (compress : Bool) (buf : List (BitVec 8)) (hbuf : 2 * K.modbytes + 1 ≤ buf.length) :
    ∃ enc r, tobytes K s buf compress = some enc ∧ frombytes K enc = some r ∧ IsPoint K r T ∧ Ecp.equals K r s = true := by
  cases T with
  | zero => exact absurd rfl hT
  | some x y hh =>
    have hx0' : x = 0 → (coords K s).z = 1 → limbsVal K.P.b s.x.x = 0 := by
      intro e1 e2
      refine hx0 ?_ e2
      have hd : (coords K s).z ≠ 0 ∧ (coords K s).x = x * (coords K s).z ∧ (coords K s).y = y * (coords K s).z := hs.2
      rw [hd.2.1, e1, zero_mul]
    obtain ⟨u, c⟩ := C50_tobytes h hm hs hx0' buf
    have fin : ∀ enc, K.modbytes + 1 ≤ enc.length → (enc.headD 0 = 0x04#8 → 2 * K.modbytes + 1 ≤ enc.length) → (sec1U K x y <+: enc ∨ sec1C K x y <+: enc) →
        ∃ r, frombytes K enc = some r ∧ IsPoint K r (Affine.Point.some x y hh) ∧ Ecp.equals K r s = true := by
      intro enc l1 l2 hpre
      obtain ⟨r, T', h1, h2, h3⟩ := C50_frombytes h hm hsq hb enc l1 l2
      have := (h3 x y hh).mpr hpre
      subst this
      exact ⟨r, h1, h2, (Ecp.equals_ok h h2 hs).mpr rfl⟩
    cases compress with
    | false =>
      obtain ⟨r, h1⟩ := fin (sec1U K x y ++ buf.drop (2 * K.modbytes + 1)) (by simp [sec1U] <;> omega) (fun _ => by simp [sec1U] <;> omega) (Or.inl (List.prefix_append _ _))
      exact ⟨_, r, u hbuf, h1⟩
    | true =>
      obtain ⟨r, h1⟩ := fin (sec1C K x y ++ buf.drop (K.modbytes + 1)) (by simp [sec1C]) (fun _ => by simp [sec1C]; omega) (Or.inr (List.prefix_append _ _))
      exact ⟨_, r, c (by omega), h1⟩

/-- Square roots are right for a Montgomery modulus `p ≡ 3 mod 4`. -/
theorem sqrtOk_mont (hm : MontConsts K.P K.p) (hC : C ≤ 64) (hp4 : K.p % 4 = 3) : SqrtOk K.P K.p := by
  intro k a ha hk hsq
  have hpl : K.P.plain = false := by simp [Params.plain, hm.type]
  exact Fp.sqrt_ok hm.fieldOk (hm.arith hC).one_ok hpl ha hk hp4 hsq

end

/-- The hypotheses of C50 hold for every bundled Weierstrass curve in Montgomery form. -/
theorem C50_rom64 (r : Rom 64) (hr : r ∈ all64) (ht : r.P.modtype = .NotSpecial) [hp : Fact r.p.Prime] : BytesOk r ∧ SqrtOk r.P r.p := by
  have : all64.all (fun r => decide (8 * r.modbytes ≤ r.P.b * r.P.n ∧ r.p < 256 ^ r.modbytes) &&
    (!(decide (r.P.modtype = .NotSpecial)) || decide (r.p % 4 = 3))) = true := by decide +kernel
  have := List.all_eq_true.1 this r hr
  simp only [Bool.and_eq_true, decide_eq_true_eq, ht, decide_true, Bool.not_true, Bool.false_or] at this
  exact ⟨⟨this.1.1, this.1.2⟩, sqrtOk_mont (C16_rom64 r hr ht) (by norm_num) this.2⟩

theorem C50_rom32 (r : Rom 32) (hr : r ∈ all32) (ht : r.P.modtype = .NotSpecial) [hp : Fact r.p.Prime] : BytesOk r ∧ SqrtOk r.P r.p := by
  have : all32.all (fun r => decide (8 * r.modbytes ≤ r.P.b * r.P.n ∧ r.p < 256 ^ r.modbytes) &&
    (!(decide (r.P.modtype = .NotSpecial)) || decide (r.p % 4 = 3))) = true := by decide +kernel
  have := List.all_eq_true.1 this r hr
  simp only [Bool.and_eq_true, decide_eq_true_eq, ht, decide_true, Bool.not_true, Bool.false_or] at this
  exact ⟨⟨this.1.1, this.1.2⟩, sqrtOk_mont (C16_rom32 r hr ht) (by norm_num) this.2⟩

/-- C49, hypothesis: scalars below the group order are in range for every bundled Weierstrass curve. -/
theorem C49_range64 (r : Rom 64) (hr : r ∈ all64) : r.val r.order + 2 < 2 ^ (r.P.b * r.P.n - 4) := by
  have : all64.all (fun r => decide (r.val r.order + 2 < 2 ^ (r.P.b * r.P.n - 4))) = true := by decide +kernel
  exact of_decide_eq_true (List.all_eq_true.1 this r hr)

theorem C49_range32 (r : Rom 32) (hr : r ∈ all32) (ht : r.ctype = .weierstrass) : r.val r.order + 2 < 2 ^ (r.P.b * r.P.n - 4) := by
  have : all32.all (fun r => !(decide (r.ctype = .weierstrass)) || decide (r.val r.order + 2 < 2 ^ (r.P.b * r.P.n - 4))) = true := by decide +kernel
  have := List.all_eq_true.1 this r hr
  simpa [ht] using this

/-! ### the generators, as instances -/

/-- The generator of every bundled Weierstrass curve is a finite point with the coordinates of the ROM file. -/
theorem C48_generator {C : Nat} {K : Rom C} [hp : Fact K.p.Prime] (h : WCurve K) (hc : K.Consistent) (hl : K.gx.length = K.P.n ∧ K.gy.length = K.P.n) :
    ∃ hh, IsPoint K (generator K) (Affine.Point.some (K.val K.gx : ZMod K.p) (K.val K.gy : ZMod K.p) hh) := by
  obtain ⟨_, _, r1, r2, r3, r4⟩ := hc.ranges
  obtain ⟨_, d1, d2, _⟩ := hc.digits
  have ex : ((K.val K.gx).toNat : Int) = K.val K.gx := Int.toNat_of_nonneg r1
  have ey : ((K.val K.gy).toNat : Int) = K.val K.gy := Int.toNat_of_nonneg r3
  have cx : ((K.val K.gx : Int) : ZMod K.p) = ((K.val K.gx).toNat : ZMod K.p) := by rw [← ex]; simp
  have cy : ((K.val K.gy : Int) : ZMod K.p) = ((K.val K.gy).toNat : ZMod K.p) := by rw [← ey]; simp
  obtain ⟨T, hT, hall⟩ := newBigs_ok h (ix := K.gx) (iy := K.gy) (X := (K.val K.gx).toNat) (Y := (K.val K.gy).toNat)
    ⟨hl.1, d1.normal, ex.symm⟩ (by omega) ⟨hl.2, d2.normal, ey.symm⟩ (by omega)
  have hg := hc.generator
  unfold Rom.generatorOk at hg
  rw [h.type] at hg
  have hg' := congrArg (Int.cast : Int → ZMod K.p) hg
  rw [cast_emod, cast_emod] at hg'
  push_cast at hg'
  have hh := onCurve h (x := (K.val K.gx : ZMod K.p)) (y := (K.val K.gy : ZMod K.p)) (by rw [hg']; rfl)
  refine ⟨hh, ?_⟩
  have := (hall _ _ hh).mpr ⟨cx, cy⟩
  rw [← this]
  have e : generator K = newBigs K K.gx K.gy := by simp [generator, h.type]
  rw [e]; exact hT

/-- the generator of BLS12-381, its double computed by `dbl` and by `add`, its negative: all hypotheses above are met -/
example : ∃ T : (curve bls381_64).Point, T ≠ 0 ∧ IsPoint bls381_64 (generator bls381_64) T ∧
    IsPoint bls381_64 (Ecp.add bls381_64 (generator bls381_64) (Ecp.dbl bls381_64 (generator bls381_64))) (T + (T + T)) := by
  obtain ⟨hh, hT⟩ := C48_generator bls381_curve (C55_rom64 _ (by simp [all64])) ⟨rfl, rfl⟩
  exact ⟨_, (some_ne_zero' hh).symm, hT, C48_add bls381_curve hT (C48_dbl bls381_curve hT)⟩

/-! ### the order of the generator -/

/-- the computation behind `C55_order64`/`C55_order32` -/
def orderB {C : Nat} (r : Rom C) : Bool := zeroB r.p r.a (r.val r.bv).toNat (r.val r.gx).toNat (r.val r.gy).toNat (r.val r.order).toNat

theorem order_of_check {C : Nat} {K : Rom C} [hp : Fact K.p.Prime] (h : WCurve K) (hc : K.Consistent) (hb : orderB K = true)
    (hh : (curve K).Nonsingular (K.val K.gx : ZMod K.p) (K.val K.gy : ZMod K.p)) : (K.val K.order).toNat • Affine.Point.some _ _ hh = 0 := by
  obtain ⟨r1, _, r2, _, r3, _⟩ := hc.ranges
  have key : ∀ z : Int, 0 ≤ z → ((z.toNat : Nat) : ZMod K.p) = (z : ZMod K.p) := fun z hz => by
    rw [← Int.cast_natCast, Int.toNat_of_nonneg hz]
  exact zeroB_sound (key _ r1) (key _ r2) (key _ r3) h.noTwo (two_ne_zero' h.arith.toConsts) hh hb

/-- C55. The number `CURVE_ORDER` of every bundled 64-bit Weierstrass curve annihilates its generator: `CURVE_ORDER · G = O` in the group of the curve. -/
theorem C55_order64 (r : Rom 64) (hr : r ∈ all64) (ht : r.ctype = .weierstrass) [hp : Fact r.p.Prime]
    (hh : (curve r).Nonsingular (r.val r.gx : ZMod r.p) (r.val r.gy : ZMod r.p)) : (r.val r.order).toNat • Affine.Point.some _ _ hh = 0 := by
  have h : all64.all (fun r => !(decide (r.ctype = .weierstrass)) || orderB r) = true := by decide +kernel
  have := List.all_eq_true.1 h r hr
  exact order_of_check (C48_rom64 r hr ht) (C55_rom64 r hr) (by simpa [ht] using this) hh

/-- C55. The same for the 32-bit ROM files. -/
theorem C55_order32 (r : Rom 32) (hr : r ∈ all32) (ht : r.ctype = .weierstrass) (h384 : r.p ≠ 2 ^ 384 - 317) [hp : Fact r.p.Prime]
    (hh : (curve r).Nonsingular (r.val r.gx : ZMod r.p) (r.val r.gy : ZMod r.p)) : (r.val r.order).toNat • Affine.Point.some _ _ hh = 0 := by
  have h : all32.all (fun r => !(decide (r.ctype = .weierstrass)) || orderB r) = true := by decide +kernel
  have := List.all_eq_true.1 h r hr
  exact order_of_check (C48_rom32 r hr ht h384) (C55_rom32 r hr) (by simpa [ht] using this) hh

/-! ### what is wrong with the encoding -/

/-- C50, counterexample at infinity: on BLS12-381 the compressed encoding of the point at infinity is the encoding of a finite
point: `frombytes(tobytes(O)) ≠ O`. -/
theorem C50_infinity_compressed :
    ∃ enc r, tobytes bls381_64 (Ecp.new bls381_64) (List.replicate 49 0) true = some enc ∧ frombytes bls381_64 enc = some r ∧
      isInfinity bls381_64 (Ecp.new bls381_64) = true ∧ isInfinity bls381_64 r = false := by
  have henc : tobytes bls381_64 (Ecp.new bls381_64) (List.replicate 49 0) true = some (0x03#8 :: List.replicate 48 0) := by decide +kernel
  have hm := bls381_mont
  obtain ⟨hb, hs⟩ := C50_rom64 bls381_64 (by simp [all64]) rfl
  obtain ⟨r, T, h1, h2, h3⟩ := C50_frombytes bls381_curve hm hs hb (0x03#8 :: List.replicate 48 0) (by decide) (by decide)
  refine ⟨_, r, henc, h1, (isInfinity_ok bls381_curve (new_ok bls381_curve)).mpr rfl, ?_⟩
  have h4 : Bcoef bls381_64 = 4 := by
    have : limbsVal bls381_64.P.b bls381_64.bv = 4 := by decide +kernel
    rw [Bcoef, this]; norm_num
  have h20 : (2 : ZMod bls381_64.p) ≠ 0 := two_ne_zero' hm.toConsts
  have hh : (curve bls381_64).Nonsingular 0 (-2) := onCurve bls381_curve (by rw [h4]; norm_num)
  have hval : (-2 : ZMod bls381_64.p).val % 2 = 1 := by
    have e2 : (2 : ZMod bls381_64.p) = ((2 : Nat) : ZMod bls381_64.p) := by norm_num
    rw [neg_parity (odd_of_prime hm.toConsts) h20, e2, zcast_val (by have := hm.toConsts.two_lt; exact this)]
  have hT := (h3 0 (-2) hh).mpr (Or.inr (by
    rw [sec1C, if_pos hval]
    have : beBytes bls381_64.modbytes (0 : ZMod bls381_64.p).val = List.replicate 48 0 := by rw [ZMod.val_zero]; decide
    rw [this]))
  rw [Bool.eq_false_iff]
  intro hi
  rw [isInfinity_ok bls381_curve h2, hT] at hi
  exact some_ne_zero' hh hi.symm

/-- C50, counterexample for plain (pseudo-Mersenne) moduli: for EVERY abscissa of a point, `new_bigint` with sign 0 and with sign 1 returns two
different (opposite) points on which `gets` — and hence the compressed tag — reports the same parity.  So one of the two does not
survive an encoding round trip. -/
theorem C50_plain_sign {C : Nat} {K : Rom C} [hp : Fact K.p.Prime] (h : WCurve K) (hs : SqrtOk K.P K.p) (hpl : K.P.plain = true) (h5 : K.P.mod8 ≠ 5) {ix : Limbs C} {X : Nat}
    (hx : Rep K.P.b K.P.n ix X) (hX : X < K.p) (hsq : IsSquare ((X : ZMod K.p) ^ 3 + K.a * X + Bcoef K)) :
    ∃ T : (curve K).Point, T ≠ -T ∧ IsPoint K (newBigint K ix 0) T ∧ IsPoint K (newBigint K ix 1) (-T) ∧ gets K (newBigint K ix 0) % 2 = gets K (newBigint K ix 1) % 2 :=
  plain_sign h hs hpl h5 hx hX hsq

/-- the hypotheses of `C50_plain_sign` hold for the pseudo-Mersenne Weierstrass curves, e.g. P-521, and the abscissa of its generator -/
theorem C50_plain_sign_p521 [hp : Fact nist521_64.p.Prime] :
    ∃ T : (curve nist521_64).Point, T ≠ -T ∧ IsPoint nist521_64 (newBigint nist521_64 nist521_64.gx 0) T ∧ IsPoint nist521_64 (newBigint nist521_64 nist521_64.gx 1) (-T) ∧
      gets nist521_64 (newBigint nist521_64 nist521_64.gx 0) % 2 = gets nist521_64 (newBigint nist521_64 nist521_64.gx 1) % 2 := by
  have hmem : nist521_64 ∈ all64 := by simp [all64]
  have h := C48_rom64 nist521_64 hmem rfl
  obtain ⟨hpm, hpe⟩ := C16_pm64 nist521_64 hmem rfl
  have hc := C55_rom64 nist521_64 hmem
  have hs : SqrtOk nist521_64.P nist521_64.p := fun k a ha hk hsq => sqrt_plain h.arith.toFieldOk rfl hpe (by decide) ha hk hsq
  obtain ⟨hh, _⟩ := C48_generator h hc ⟨rfl, rfl⟩
  obtain ⟨_, _, r1, r2, _, _⟩ := hc.ranges
  have ex : ((nist521_64.val nist521_64.gx).toNat : Int) = nist521_64.val nist521_64.gx := Int.toNat_of_nonneg r1
  have cx : ((nist521_64.val nist521_64.gx : Int) : ZMod nist521_64.p) = ((nist521_64.val nist521_64.gx).toNat : ZMod nist521_64.p) := by rw [← ex]; simp
  refine C50_plain_sign h hs rfl (by decide) (X := (nist521_64.val nist521_64.gx).toNat) ⟨rfl, hc.digits.2.1.normal, ex.symm⟩ (by omega) ⟨(nist521_64.val nist521_64.gy : ZMod nist521_64.p), ?_⟩
  have := short_eq.mp hh.1
  rw [← cx]
  linear_combination -this

/-- instances of C49 and C50: `3 G` on BLS12-381, and the encoding of the generator -/
example : ∃ (T : (curve bls381_64).Point) (r : Pt 64), T ≠ 0 ∧ Ecp.mul bls381_64 (generator bls381_64) (newInt 64 7 3) = some r ∧ IsPoint bls381_64 r (3 • T) := by
  obtain ⟨hh, hT⟩ := C48_generator bls381_curve (C55_rom64 _ (by simp [all64])) ⟨rfl, rfl⟩
  obtain ⟨r, h1, h2⟩ := C49_mul bls381_curve hT (e := newInt 64 7 3) (E := 3) (newInt_rep bls381_mont.ok (by decide) 3 (by norm_num) (by decide +kernel)) (by decide +kernel)
  exact ⟨_, r, (some_ne_zero' hh).symm, h1, h2⟩

example : ∃ enc r, tobytes bls381_64 (generator bls381_64) (List.replicate 97 0) true = some enc ∧ frombytes bls381_64 enc = some r ∧
    Ecp.equals bls381_64 r (generator bls381_64) = true := by
  obtain ⟨hh, hT⟩ := C48_generator bls381_curve (C55_rom64 _ (by simp [all64])) ⟨rfl, rfl⟩
  obtain ⟨hb, hs⟩ := C50_rom64 bls381_64 (by simp [all64]) rfl
  obtain ⟨enc, r, h1, h2, _, h4⟩ := C50_roundtrip bls381_curve bls381_mont hs hb (some_ne_zero' hh).symm hT (fun hx0 hz => by
    exfalso
    have hd : (coords bls381_64 (generator bls381_64)).z ≠ 0 ∧ (coords bls381_64 (generator bls381_64)).x = _ * (coords bls381_64 (generator bls381_64)).z ∧ _ := hT.2
    rw [hd.2.1, hz, mul_one, ZMod.intCast_zmod_eq_zero_iff_dvd] at hx0
    exact absurd hx0 (by decide +kernel)) true (List.replicate 97 0) (by decide)
  exact ⟨enc, r, h1, h2, h4⟩

end Verif.Props
