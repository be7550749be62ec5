import Verif.Edwards.Cert
import Verif.Props.Prime
/-
C60, C61: points of twisted Edwards curves (`src/ecp.rs` with `CURVETYPE == EDWARDS`).  The vocabulary is in
`Verif/Spec/Edwards.lean` (the curve `a x^2 + y^2 = 1 + d x^2 y^2` and its addition law) and `Verif/Spec/EdwardsRom.lean`:
`EdPoint K` are the points of the curve of the ROM file and `IsPointE K s T` says that the `ECP` value `s` is a legal
representative of `T`.
-/
namespace Verif.Props
open Verif.Big Verif.Fp Verif.Rom Verif.Curve Verif.Ecp Spec

/-! ### the hypotheses hold for the ROM files -/

/-- the conditions of `EdCurve` that are checked by evaluation -/
def edB {C : Nat} (r : Rom C) : Bool :=
  decide ((r.a = 1 ∨ r.a = -1 ∧ r.p % 4 = 1) ∧ r.bv.length = r.P.n) && nonsquareB r.p (r.val r.bv).toNat

theorem ed_Bcoef {C : Nat} {r : Rom C} (hc : r.Consistent) : Bcoef r = ((r.val r.bv).toNat : ZMod r.p) := by
  have hv : ((r.val r.bv).toNat : Int) = r.val r.bv := Int.toNat_of_nonneg hc.ranges.1
  rw [Bcoef, show limbsVal r.P.b r.bv = r.val r.bv from rfl, ← hv]; simp

theorem edB_sound {C : Nat} {r : Rom C} [hp : Fact r.p.Prime] (hC : C ≤ 64) (hc : r.Consistent) (ha : Arith r.P r.p) (ht : r.ctype = .edwards) (h : edB r = true) :
    EdCurve r := by
  unfold edB at h
  rw [Bool.and_eq_true] at h
  obtain ⟨h1, h2⟩ := h
  obtain ⟨a1, a3⟩ := of_decide_eq_true h1
  obtain ⟨d1, _, _, _⟩ := hc.digits
  obtain ⟨r1, r2, _⟩ := hc.ranges
  have hv : ((r.val r.bv).toNat : Int) = r.val r.bv := Int.toNat_of_nonneg r1
  have hrep : Rep r.P.b r.P.n r.bv ((r.val r.bv).toNat : Int) := ⟨a3, d1.normal, hv.symm⟩
  refine { arith := ha, word := hC, type := ht, a := a1.imp id And.left, bv := ⟨_, hrep, by omega⟩, complete := ⟨?_, ?_, two_ne_zero' ha.toConsts⟩ }
  · rcases a1 with e | ⟨e, h4⟩
    · exact ⟨1, one_ne_zero, by rw [e]; simp⟩
    · obtain ⟨s, hs⟩ := (ZMod.exists_sq_eq_neg_one_iff (p := r.p)).mpr (by omega)
      refine ⟨s, ?_, by rw [e, pow_two, ← hs]; simp⟩
      rintro rfl
      simp at hs
  · rw [ed_Bcoef hc]; exact nonsquareB_sound h2

/-- C60, hypothesis: every bundled 64-bit Edwards curve with a pseudo-Mersenne modulus — all but Goldilocks, whose field arithmetic
overflows (C16) — satisfies `EdCurve` if its modulus is prime: `a` is a square and `d` is not, so the addition law is complete. -/
theorem C60_rom64 (r : Rom 64) (hr : r ∈ all64) (ht : r.ctype = .edwards) (hm : r.P.modtype = .PseudoMersenne) [hp : Fact r.p.Prime] : EdCurve r := by
  refine edB_sound (by norm_num) (C55_rom64 r hr) ((C16_pm64 r hr hm).1.arith (C16_pm64 r hr hm).2 (by norm_num)) ht ?_
  have : all64.all (fun r => !(decide (r.ctype = .edwards)) || edB r) = true := by decide +kernel
  have := List.all_eq_true.1 this r hr
  simpa [ht] using this

/-- C60, hypothesis, 32-bit; the curve over `2^384 - 317` is excluded because its field arithmetic overflows (C16). -/
theorem C60_rom32 (r : Rom 32) (hr : r ∈ all32) (ht : r.ctype = .edwards) (hm : r.P.modtype = .PseudoMersenne) (h384 : r.p ≠ 2 ^ 384 - 317) [hp : Fact r.p.Prime] :
    EdCurve r := by
  refine edB_sound (by norm_num) (C55_rom32 r hr) ((C16_pm32 r hr hm h384).1.arith (C16_pm32 r hr hm h384).2 (by norm_num)) ht ?_
  have : all32.all (fun r => !(decide (r.ctype = .edwards)) || edB r) = true := by decide +kernel
  have := List.all_eq_true.1 this r hr
  simpa [ht] using this

example : (all64.filter (fun r => r.ctype = .edwards ∧ r.P.modtype = .PseudoMersenne)).length = 6 ∧
    (all32.filter (fun r => r.ctype = .edwards ∧ r.P.modtype = .PseudoMersenne)).length = 6 := by decide

section
variable {C : Nat} {K : Rom C} [hp : Fact K.p.Prime] [hc : Fact (EdComplete K)]

/-! ### C60 group law -/

/-- C60. The addition law of the specification is a commutative group law on the points of the curve. -/
theorem C60_group {F : Type} [Field F] {a d : F} [Fact (Edwards.Complete a d)] (P Q R : Edwards.Point a d) :
    P + Q + R = P + (Q + R) ∧ P + Q = Q + P ∧ 0 + P = P ∧ -P + P = 0 ∧
      (P + Q).x = (P.x * Q.y + P.y * Q.x) / (1 + d * P.x * Q.x * P.y * Q.y) ∧ (P + Q).y = (P.y * Q.y - a * P.x * Q.x) / (1 - d * P.x * Q.x * P.y * Q.y) ∧
      (0 : Edwards.Point a d).x = 0 ∧ (0 : Edwards.Point a d).y = 1 ∧ (-P).x = -P.x ∧ (-P).y = P.y ∧
      1 + d * P.x * Q.x * P.y * Q.y ≠ 0 ∧ 1 - d * P.x * Q.x * P.y * Q.y ≠ 0 :=
  ⟨add_assoc P Q R, add_comm P Q, zero_add P, neg_add_cancel P, rfl, rfl, rfl, rfl, rfl, rfl,
    Edwards.denomP Fact.out P.on Q.on, Edwards.denomM Fact.out P.on Q.on⟩

/-- C60. `add` computes the sum of every two points: different, equal, opposite or neutral. -/
theorem C60_add (h : EdCurve K) {s q : Pt C} {S T : EdPoint K} (hs : IsPointE K s S) (hq : IsPointE K q T) : IsPointE K (Ecp.add K s q) (S + T) := addE_ok h hs hq

/-- C60. `dbl` doubles every point. -/
theorem C60_dbl (h : EdCurve K) {s : Pt C} {T : EdPoint K} (hs : IsPointE K s T) : IsPointE K (Ecp.dbl K s) (T + T) := dblE_ok h hs

/-- C60. `neg` negates every point. -/
theorem C60_neg (h : EdCurve K) {s : Pt C} {T : EdPoint K} (hs : IsPointE K s T) : IsPointE K (Ecp.neg K s) (-T) := Ecp.negE_ok h hs

/-- C60. `sub` subtracts. -/
theorem C60_sub (h : EdCurve K) {s q : Pt C} {S T : EdPoint K} (hs : IsPointE K s S) (hq : IsPointE K q T) : IsPointE K (Ecp.sub K s q) (S - T) := subE_ok h hs hq

/-- C60. `new` and `inf` give the neutral element and `is_infinity` recognises exactly its representatives. -/
theorem C60_zero (h : EdCurve K) {s : Pt C} {T : EdPoint K} (hs : IsPointE K s T) :
    IsPointE K (Ecp.new K) 0 ∧ IsPointE K (inf K s) 0 ∧ (isInfinity K s = true ↔ T = 0) := ⟨newE_ok h, infE_ok h s, isInfinityE_ok h hs⟩

/-- C60. `equals` decides equality of points. -/
theorem C60_equals (h : EdCurve K) {s q : Pt C} {S T : EdPoint K} (hs : IsPointE K s S) (hq : IsPointE K q T) : Ecp.equals K s q = true ↔ S = T := equalsE_ok h hs hq

/-- C60. `affine` keeps the point and leaves its affine coordinates. -/
theorem C60_affine (h : EdCurve K) {s : Pt C} {T : EdPoint K} (hs : IsPointE K s T) :
    IsPointE K (affine K s) T ∧ (T ≠ 0 → coords K (affine K s) = ⟨T.x, T.y, 1⟩) := affineE_ok h hs

omit hc in
/-- C60. An `ECP` value represents at most one point. -/
theorem C60_unique {s : Pt C} {S T : EdPoint K} (hs : IsPointE K s S) (hq : IsPointE K s T) : S = T := by
  obtain ⟨h1, h2, h3⟩ := hs.2
  obtain ⟨_, k2, k3⟩ := hq.2
  exact Edwards.Point.ext (mul_right_cancel₀ h1 (h2.symm.trans k2)) (mul_right_cancel₀ h1 (h3.symm.trans k3))

/-! ### C60 scalar multiplication -/

/-- C60. `mul` computes the `E`-fold sum, for every scalar with four bits to spare, zero included, and every point. -/
theorem C60_mul (h : EdCurve K) {s : Pt C} {T : EdPoint K} (hs : IsPointE K s T) {e : Limbs C} {E : Nat} (he : Rep K.P.b K.P.n e E) (hE : E + 2 < 2 ^ (K.P.b * K.P.n - 4)) :
    ∃ r, Ecp.mul K s e = some r ∧ IsPointE K r (E • T) := mulE_ok h hs ⟨he, hE⟩

/-- C60. `mul2` computes `E S + F T`. -/
theorem C60_mul2 (h : EdCurve K) {s q : Pt C} {S T : EdPoint K} (hs : IsPointE K s S) (hq : IsPointE K q T) {e f : Limbs C} {E F : Nat}
    (he : Rep K.P.b K.P.n e E) (hE : E + 2 < 2 ^ (K.P.b * K.P.n - 4)) (hf : Rep K.P.b K.P.n f F) (hF : F + 2 < 2 ^ (K.P.b * K.P.n - 4)) :
    ∃ r, Ecp.mul2 K s e q f = some r ∧ IsPointE K r (E • S + F • T) := mul2E_ok h hs hq ⟨he, hE⟩ ⟨hf, hF⟩

/-- C60. `pinmul` multiplies by the low `bts` bits. -/
theorem C60_pinmul (h : EdCurve K) {s : Pt C} {T : EdPoint K} (hs : IsPointE K s T) (e : BitVec 32) (bts : Nat) (hb : bts ≤ 32) :
    ∃ r, pinmul K s e bts = some r ∧ IsPointE K r ((e.toNat % 2 ^ bts) • T) := by
  obtain ⟨r, h1, h2⟩ := pinmulE_ok h hs e bts hb
  rw [natCast_zsmul] at h2
  exact ⟨r, h1, h2⟩

/-- C60. `cfp` multiplies by the cofactor. -/
theorem C60_cfp (h : EdCurve K) {s : Pt C} {T : EdPoint K} (hs : IsPointE K s T) (hk : K.cofI = 1 ∨ K.cofI = 4 ∨ K.cofI = 8) :
    ∃ r, cfp K s = some r ∧ IsPointE K r (K.cofI • T) := cfpE_ok h hs hk

/-! ### C61 construction and encoding -/

/-- C61. `new_bigs` gives the point with the given coordinates if they satisfy the curve equation, and the neutral element otherwise. -/
theorem C61_new_bigs (h : EdCurve K) {ix iy : Limbs C} {X Y : Nat} (hx : Rep K.P.b K.P.n ix X) (hX : X < K.p) (hy : Rep K.P.b K.P.n iy Y) (hY : Y < K.p) :
    (∀ T : EdPoint K, T.x = (X : ZMod K.p) → T.y = (Y : ZMod K.p) → IsPointE K (newBigs K ix iy) T) ∧
      (¬ Edwards.OnCurve (K.a : ZMod K.p) (Bcoef K) X Y → IsPointE K (newBigs K ix iy) 0) := newBigsE_ok h hx hX hy hY

/-- C61. `frombytes` on uncompressed strings: exactly the encodings `04 ‖ x ‖ y` of points of the curve give that point; every other string
gives the neutral element (never an off-curve point). -/
theorem C61_frombytes (h : EdCurve K) (hb : BytesOk K) (bs : List (BitVec 8)) (hl : 2 * K.modbytes + 1 ≤ bs.length) (h4 : bs.headD 0 = 0x04#8) :
    ∃ r, ∃ T : EdPoint K, frombytes K bs = some r ∧ IsPointE K r T ∧ (∀ S : EdPoint K, sec1U K S.x S.y <+: bs → T = S) ∧
      ((∀ S : EdPoint K, ¬ sec1U K S.x S.y <+: bs) → T = 0) := by
  obtain ⟨r, T, h1, h2, h3, h5, _⟩ := frombytesU_ok h hb bs hl h4
  exact ⟨r, T, h1, h2, h3, h5⟩

/-- C61. Decoding the uncompressed encoding of any point and encoding the result gives the same bytes back. -/
theorem C61_reencode (h : EdCurve K) (hb : BytesOk K) (S : EdPoint K) (bs buf : List (BitVec 8)) (hl : 2 * K.modbytes + 1 ≤ bs.length) (he : sec1U K S.x S.y <+: bs)
    (hbuf : 2 * K.modbytes + 1 ≤ buf.length) :
    ∃ r, frombytes K bs = some r ∧ tobytes K r buf false = some (sec1U K S.x S.y ++ buf.drop (2 * K.modbytes + 1)) := by
  have h4 : bs.headD 0 = 0x04#8 := by
    cases bs with
    | nil => simp at hl
    | cons t bs => exact sec1U_head he
  obtain ⟨r, T, h1, h2, h3, _, hz, hpr⟩ := frombytesU_ok h hb bs hl h4
  have := h3 S he
  subst this
  refine ⟨r, h1, (tobytesE_gen h ?_ ?_ buf).1 hbuf⟩
  · rw [affineE_one h h2 hz]; exact (hpr hz).1
  · rw [affineE_one h h2 hz]; exact (hpr hz).2

/-- C61. Encoding (uncompressed) and decoding any point gives the same point, provided that, if its third coordinate is one, its coordinates are
stored reduced (`Prints`; it holds for decoded points, for the neutral element and whenever `affine` has to divide). -/
theorem C61_roundtrip (h : EdCurve K) (hb : BytesOk K) {s : Pt C} {T : EdPoint K} (hT : T ≠ 0) (hs : IsPointE K s T) (hpr : Prints K s T.x T.y) (buf : List (BitVec 8))
    (hbuf : 2 * K.modbytes + 1 ≤ buf.length) :
    ∃ enc r, tobytes K s buf false = some enc ∧ sec1U K T.x T.y <+: enc ∧ frombytes K enc = some r ∧ IsPointE K r T := by
  obtain ⟨hx, hy⟩ := affineE_redc h hs hpr hT
  have e := (tobytesE_gen h hx hy buf).1 hbuf
  have hlen : (sec1U K T.x T.y).length = 2 * K.modbytes + 1 := by simp [sec1U, beBytes_length]; omega
  obtain ⟨r, T', h1, h2, h3, _⟩ := frombytesU_ok h hb (sec1U K T.x T.y ++ buf.drop (2 * K.modbytes + 1)) (by rw [List.length_append]; omega) rfl
  refine ⟨_, r, e, List.prefix_append _ _, h1, ?_⟩
  rw [h3 T (List.prefix_append _ _)] at h2
  exact h2

/-- C61. `new_bigint`: for an abscissa of the curve other than `±1/√a` the result is one of its two points, for every other abscissa the
neutral element. -/
theorem C61_new_bigint (h : EdCurve K) (hs : SqrtOk K.P K.p) {ix : Limbs C} {X : Nat} (hx : Rep K.P.b K.P.n ix X) (hX : X < K.p) (s : Nat)
    (h0 : (K.a : ZMod K.p) * (X : ZMod K.p) ^ 2 ≠ 1) :
    ((∀ S : EdPoint K, S.x ≠ (X : ZMod K.p)) ∧ IsPointE K (newBigint K ix s) 0) ∨ ∃ S : EdPoint K, S.x = (X : ZMod K.p) ∧ IsPointE K (newBigint K ix s) S :=
  newBigintE_ok h hs hx hX s h0

end

/-! ### generators -/

/-- the generator of the ROM file, as a point of the curve -/
def edGen {C : Nat} (K : Rom C) [hp : Fact K.p.Prime] (hc : K.Consistent) (ht : K.ctype = .edwards) : EdPoint K :=
  ⟨(K.val K.gx : ZMod K.p), (K.val K.gy : ZMod K.p), by
    have hg := hc.generator
    unfold Rom.generatorOk at hg
    rw [ht] at hg
    have := (ZMod.intCast_eq_intCast_iff' _ _ K.p).2 hg
    push_cast at this
    exact this⟩

/-- C60. `ECP::generator` is the generator of the ROM file. -/
theorem C60_generator {C : Nat} {K : Rom C} [hp : Fact K.p.Prime] (h : EdCurve K) (hc : K.Consistent) (hl : K.gx.length = K.P.n ∧ K.gy.length = K.P.n) :
    IsPointE K (generator K) (edGen K hc h.type) := by
  have : Fact (EdComplete K) := ⟨h.complete⟩
  obtain ⟨_, _, r1, r2, r3, r4⟩ := hc.ranges
  obtain ⟨_, d1, d2, _⟩ := hc.digits
  have ex : ((K.val K.gx).toNat : Int) = K.val K.gx := Int.toNat_of_nonneg r1
  have ey : ((K.val K.gy).toNat : Int) = K.val K.gy := Int.toNat_of_nonneg r3
  have cx : ((K.val K.gx : Int) : ZMod K.p) = ((K.val K.gx).toNat : ZMod K.p) := by rw [← ex]; simp
  have cy : ((K.val K.gy : Int) : ZMod K.p) = ((K.val K.gy).toNat : ZMod K.p) := by rw [← ey]; simp
  have e : generator K = newBigs K K.gx K.gy := by simp [generator, h.type]
  rw [e]
  exact (newBigsE_ok h (ix := K.gx) (iy := K.gy) (X := (K.val K.gx).toNat) (Y := (K.val K.gy).toNat)
    ⟨hl.1, d1.normal, ex.symm⟩ (by omega) ⟨hl.2, d2.normal, ey.symm⟩ (by omega)).1 _ cx cy

def orderEB {C : Nat} (r : Rom C) : Bool := zeroEB r.p r.a (r.val r.bv).toNat (r.val r.gx).toNat (r.val r.gy).toNat (r.val r.order).toNat

theorem orderE_of_check {C : Nat} {K : Rom C} [hp : Fact K.p.Prime] [Fact (EdComplete K)] (hc : K.Consistent) (ht : K.ctype = .edwards) (hb : orderEB K = true) :
    (K.val K.order).toNat • edGen K hc ht = 0 := by
  obtain ⟨r1, _, r2, _, r3, _⟩ := hc.ranges
  have key : ∀ z : Int, 0 ≤ z → ((z.toNat : Nat) : ZMod K.p) = (z : ZMod K.p) := fun z hz => by
    rw [← Int.cast_natCast, Int.toNat_of_nonneg hz]
  exact zeroEB_sound (d' := Bcoef K) (ed_Bcoef hc).symm (T := edGen K hc ht) (key _ r2) (key _ r3) hb

/-- C60. `CURVE_ORDER` annihilates the generator, for every bundled 64-bit Edwards curve. -/
theorem C60_order64 (r : Rom 64) (hr : r ∈ all64) (ht : r.ctype = .edwards) [hp : Fact r.p.Prime] [Fact (EdComplete r)] :
    (r.val r.order).toNat • edGen r (C55_rom64 r hr) ht = 0 := by
  have h : all64.all (fun r => !(decide (r.ctype = .edwards)) || orderEB r) = true := by decide +kernel
  have := List.all_eq_true.1 h r hr
  exact orderE_of_check _ ht (by simpa [ht] using this)

/-- C60. The same for the 32-bit ROM files. -/
theorem C60_order32 (r : Rom 32) (hr : r ∈ all32) (ht : r.ctype = .edwards) [hp : Fact r.p.Prime] [Fact (EdComplete r)] :
    (r.val r.order).toNat • edGen r (C55_rom32 r hr) ht = 0 := by
  have h : all32.all (fun r => !(decide (r.ctype = .edwards)) || orderEB r) = true := by decide +kernel
  have := List.all_eq_true.1 h r hr
  exact orderE_of_check _ ht (by simpa [ht] using this)

/-- C61, hypotheses: they hold for every bundled 64-bit Edwards curve with a pseudo-Mersenne modulus … -/
theorem C61_rom64 (r : Rom 64) (hr : r ∈ all64) (ht : r.ctype = .edwards) (hm : r.P.modtype = .PseudoMersenne) [hp : Fact r.p.Prime] : BytesOk r ∧ SqrtOk r.P r.p := by
  have h := C60_rom64 r hr ht hm
  have hb : all64.all (fun r => decide (8 * r.modbytes ≤ r.P.b * r.P.n ∧ r.p < 256 ^ r.modbytes)) = true := by decide +kernel
  have hb := of_decide_eq_true (List.all_eq_true.1 hb r hr)
  refine ⟨⟨hb.1, hb.2⟩, fun _ _ ha hk hsq => ?_⟩
  by_cases h5 : r.P.mod8 = 5
  · exact sqrt_plain5 h.arith.toFieldOk (by simp [Params.plain, hm]) (C16_pm64 r hr hm).2 h5 (C16_sqrt_zero64 r hr h5) ha hk hsq
  · exact sqrt_plain h.arith.toFieldOk (by simp [Params.plain, hm]) (C16_pm64 r hr hm).2 h5 ha hk hsq

/-- … and 32-bit. -/
theorem C61_rom32 (r : Rom 32) (hr : r ∈ all32) (ht : r.ctype = .edwards) (hm : r.P.modtype = .PseudoMersenne) (h384 : r.p ≠ 2 ^ 384 - 317) [hp : Fact r.p.Prime] :
    BytesOk r ∧ SqrtOk r.P r.p := by
  have h := C60_rom32 r hr ht hm h384
  have hb : all32.all (fun r => decide (8 * r.modbytes ≤ r.P.b * r.P.n ∧ r.p < 256 ^ r.modbytes)) = true := by decide +kernel
  have hb := of_decide_eq_true (List.all_eq_true.1 hb r hr)
  refine ⟨⟨hb.1, hb.2⟩, fun _ _ ha hk hsq => ?_⟩
  by_cases h5 : r.P.mod8 = 5
  · exact sqrt_plain5 h.arith.toFieldOk (by simp [Params.plain, hm]) (C16_pm32 r hr hm h384).2 h5 (C16_sqrt_zero32 r hr h5) ha hk hsq
  · exact sqrt_plain h.arith.toFieldOk (by simp [Params.plain, hm]) (C16_pm32 r hr hm h384).2 h5 ha hk hsq

/-! ### Ed25519, as an instance -/

set_option exponentiation.threshold 600 in
instance ed25519_fact : Fact (Nat.Prime ed25519_64.p) := ⟨C55_modulus_prime64 _ (by simp [all64])⟩

theorem ed25519_curve : EdCurve ed25519_64 := C60_rom64 _ (by simp [all64]) rfl rfl

instance ed25519_complete : Fact (EdComplete ed25519_64) := ⟨ed25519_curve.complete⟩

theorem ed25519_codec : BytesOk ed25519_64 ∧ SqrtOk ed25519_64.P ed25519_64.p := C61_rom64 _ (by simp [all64]) rfl rfl

/-- the generator of Ed25519, as an instance of `IsPointE` -/
theorem ed25519_generator : IsPointE ed25519_64 (generator ed25519_64) (edGen ed25519_64 (C55_rom64 _ (by simp [all64])) rfl) :=
  C60_generator ed25519_curve _ ⟨rfl, rfl⟩

/-- five times the generator of Ed25519 -/
example : ∃ r, Ecp.mul ed25519_64 (generator ed25519_64) (Big.newInt 64 5 5) = some r ∧
    IsPointE ed25519_64 r (5 • edGen ed25519_64 (C55_rom64 _ (by simp [all64])) rfl) :=
  C60_mul ed25519_curve ed25519_generator ⟨by decide, by decide, by decide⟩ (by decide +kernel)

/-- the generator is not the neutral element -/
example : isInfinity ed25519_64 (generator ed25519_64) = false := by
  rw [← Bool.not_eq_true, (C60_zero ed25519_curve ed25519_generator).2.2]
  intro h
  have h := congrArg Edwards.Point.x h
  have hd := (ZMod.intCast_zmod_eq_zero_iff_dvd (ed25519_64.val ed25519_64.gx) ed25519_64.p).1 h
  exact absurd hd (by decide +kernel)

/-- multiplying by the group order gives the neutral element -/
example : ∃ r, Ecp.mul ed25519_64 (generator ed25519_64) ed25519_64.order = some r ∧ isInfinity ed25519_64 r = true := by
  obtain ⟨r, h1, h2⟩ := C60_mul ed25519_curve ed25519_generator (e := ed25519_64.order) (E := (ed25519_64.val ed25519_64.order).toNat) ⟨rfl, by decide, by decide +kernel⟩
    (by decide +kernel)
  exact ⟨r, h1, (C60_zero ed25519_curve h2).2.2.2 (C60_order64 _ (by simp [all64]) rfl)⟩

/-- coordinates that are not on the curve, given to `new_bigs` -/
example : isInfinity ed25519_64 (newBigs ed25519_64 (Big.newInt 64 5 1) (Big.newInt 64 5 2)) = true := by
  refine (C60_zero ed25519_curve ((C61_new_bigs ed25519_curve (X := 1) (Y := 2) ⟨by decide, by decide, by decide⟩ (by decide +kernel) ⟨by decide, by decide, by decide⟩
    (by decide +kernel)).2 ?_)).2.2.2 rfl
  unfold Edwards.OnCurve
  have e : Bcoef ed25519_64 = ((ed25519_64.val ed25519_64.bv : Int) : ZMod ed25519_64.p) := rfl
  rw [e]
  intro h
  have h := (ZMod.intCast_eq_intCast_iff_dvd_sub (ed25519_64.a * 1 ^ 2 + 2 ^ 2) (1 + ed25519_64.val ed25519_64.bv * 1 ^ 2 * 2 ^ 2) ed25519_64.p).1 (by push_cast; push_cast at h; exact h)
  exact absurd h (by decide +kernel)

end Verif.Props
