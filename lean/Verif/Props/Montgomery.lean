import Verif.Montgomery.Cert
import Verif.Props.Prime
/-
C62: Montgomery curves (`src/ecp.rs` with `CURVETYPE == MONTGOMERY`, i.e. C25519).  An `ECP` holds the abscissa of a point only.
The vocabulary is in `Verif/Spec/Montgomery.lean`: `MoPoint K` are the points of `y^2 = x^3 + A x^2 + x` with Mathlib's group law and
`IsPointM K s T` says that the `ECP` value `s` is a legal representative of the pair `{T, -T}`.
-/
namespace Verif.Props
open WeierstrassCurve
open Verif.Big Verif.Fp Verif.Rom Verif.Curve Verif.Ecp Spec

/-! ### the hypotheses hold for the ROM files -/

/-- the conditions of `MoCurve` that are checked by evaluation -/
def moB {C : Nat} (r : Rom C) : Bool :=
  decide (r.bv.length = r.P.n ∧ r.a % 4 = 2 ∧ 0 < r.a ∧ r.a < 2 ^ r.P.b ∧ ¬ (r.p : Int) ∣ r.a - 2 ∧ ¬ (r.p : Int) ∣ r.a + 2)

theorem moB_sound {C : Nat} {r : Rom C} [hp : Fact r.p.Prime] (hC : C ≤ 64) (hc : r.Consistent) (ha : Arith r.P r.p) (ht : r.ctype = .montgomery) (h : moB r = true) :
    MoCurve r := by
  obtain ⟨a3, a4, s1, s2, n1, n2⟩ := of_decide_eq_true h
  obtain ⟨d1, _, _, _⟩ := hc.digits
  obtain ⟨r1, r2, _⟩ := hc.ranges
  have hv : ((r.val r.bv).toNat : Int) = r.val r.bv := Int.toNat_of_nonneg r1
  have hrep : Rep r.P.b r.P.n r.bv ((r.val r.bv).toNat : Int) := ⟨a3, d1.normal, hv.symm⟩
  refine { arith := ha, word := hC, type := ht, bv := ⟨_, hrep, by omega⟩, a4 := a4, small := ⟨s1, s2⟩, ne := ⟨fun e => n1 ?_, fun e => n2 ?_⟩ }
  · rw [← ZMod.intCast_zmod_eq_zero_iff_dvd]; push_cast; rw [e]; ring
  · rw [← ZMod.intCast_zmod_eq_zero_iff_dvd]; push_cast; rw [e]; ring

/-- C62, hypothesis: every bundled 64-bit Montgomery curve satisfies `MoCurve` if its modulus is prime (it is: `C55_modulus_prime64`), and its
coordinates fit the encoding … -/
theorem C62_rom64 (r : Rom 64) (hr : r ∈ all64) (ht : r.ctype = .montgomery) [hp : Fact r.p.Prime] : MoCurve r ∧ BytesOk r := by
  have h0 : all64.all (fun r => !(decide (r.ctype = .montgomery)) || (moB r && decide (r.P.modtype = .PseudoMersenne ∧ 8 * r.modbytes ≤ r.P.b * r.P.n ∧ r.p < 256 ^ r.modbytes))) = true := by
    decide +kernel
  have h0 := List.all_eq_true.1 h0 r hr
  simp only [ht, decide_true, Bool.not_true, Bool.false_or, Bool.and_eq_true] at h0
  obtain ⟨h1, h2⟩ := h0
  obtain ⟨hm, b1, b2⟩ := of_decide_eq_true h2
  exact ⟨moB_sound (by norm_num) (C55_rom64 r hr) ((C16_pm64 r hr hm).1.arith (C16_pm64 r hr hm).2 (by norm_num)) ht h1, ⟨b1, b2⟩⟩

/-- … and so does the 32-bit one. -/
theorem C62_rom32 (r : Rom 32) (hr : r ∈ all32) (ht : r.ctype = .montgomery) [hp : Fact r.p.Prime] : MoCurve r ∧ BytesOk r := by
  have h0 : all32.all (fun r => !(decide (r.ctype = .montgomery)) || (moB r && decide (r.P.modtype = .PseudoMersenne ∧ r.p ≠ 2 ^ 384 - 317 ∧ 8 * r.modbytes ≤ r.P.b * r.P.n ∧ r.p < 256 ^ r.modbytes))) = true := by
    decide +kernel
  have h0 := List.all_eq_true.1 h0 r hr
  simp only [ht, decide_true, Bool.not_true, Bool.false_or, Bool.and_eq_true] at h0
  obtain ⟨h1, h2⟩ := h0
  obtain ⟨hm, h384, b1, b2⟩ := of_decide_eq_true h2
  exact ⟨moB_sound (by norm_num) (C55_rom32 r hr) ((C16_pm32 r hr hm h384).1.arith (C16_pm32 r hr hm h384).2 (by norm_num)) ht h1, ⟨b1, b2⟩⟩

example : (all64.filter (fun r => r.ctype = .montgomery)).length = 1 ∧ (all32.filter (fun r => r.ctype = .montgomery)).length = 1 := by decide

section
variable {C : Nat} {K : Rom C} [hp : Fact K.p.Prime]

/-- C62. A value represents one point up to sign. -/
theorem C62_unique {s : Pt C} {S T : MoPoint K} (hs : IsPointM K s S) (hq : IsPointM K s T) : S = T ∨ S = -T := by
  have h1 := hs.2
  have h2 := hq.2
  cases S with
  | zero =>
    cases T with
    | zero => exact .inl rfl
    | some x y hn => exact absurd h1 h2.1
  | some x y hn =>
    cases T with
    | zero => exact absurd h2 h1.1
    | some x' y' hn' =>
      have : x = x' := mul_right_cancel₀ h1.1 (h1.2.symm.trans h2.2)
      subst this
      have e1 := mont_eq.mp hn.1
      have e2 := mont_eq.mp hn'.1
      have : (y - y') * (y + y') = 0 := by linear_combination e1 - e2
      rcases mul_eq_zero.mp this with c | c
      · left
        have : y = y' := sub_eq_zero.mp c
        subst this; rfl
      · right
        rw [Affine.Point.neg_some]
        have : y = -y' := eq_neg_of_add_eq_zero_left c
        subst this
        simp only [mont_negY]

/-- C62. `dbl` doubles. -/
theorem C62_dbl (h : MoCurve K) {s : Pt C} {T : MoPoint K} (hs : IsPointM K s T) : IsPointM K (Ecp.dbl K s) (T + T) := (dblM_ok h hs).1

/-- C62. `dadd` adds two points whose difference is the finite point `w`, given in affine form with non-zero abscissa. -/
theorem C62_dadd (h : MoCurve K) {s q w : Pt C} {S T : MoPoint K} (hs : IsPointM K s S) (hq : IsPointM K q T) (ns : Strict K s) (nq : Strict K q)
    (hw : IsPointM K w (S - T)) (hw1 : (coords K w).z = 1) (hw0 : (coords K w).x ≠ 0) : IsPointM K (Ecp.dadd K s q w) (S + T) :=
  (daddM_ok h hs hq ns nq hw hw1 hw0 rfl).1

/-- C62. `mul` computes the multiple for every scalar that fits the representation and every point but `(0, 0)`, the point of order two. -/
theorem C62_mul (h : MoCurve K) {s : Pt C} {T : MoPoint K} (hs : IsPointM K s T) (hx : T ≠ 0 → absc T ≠ 0) {e : Limbs C} {E : Nat} (he : Rep K.P.b K.P.n e E)
    (hE : (E : Int) < 2 ^ (K.P.b * K.P.n)) : ∃ r, Ecp.mul K s e = some r ∧ IsPointM K r (E • T) := mulM_ok h hs hx he hE

/-- C62, deviation: on the point `(0, 0)`, which is its own negative, every odd scalar above 1 yields the point at infinity, although an odd multiple of a
point of order two is the point itself. -/
theorem C62_order_two (h : MoCurve K) {s : Pt C} {T : MoPoint K} (hs : IsPointM K s T) (hT : T ≠ 0) (hx : absc T = 0) {e : Limbs C} {E : Nat} (he : Rep K.P.b K.P.n e E)
    (hE1 : 1 < E) (hodd : E % 2 = 1) (hE : (E : Int) < 2 ^ (K.P.b * K.P.n)) : E • T = T ∧ ∃ r, Ecp.mul K s e = some r ∧ isInfinity K r = true := by
  constructor
  · have h2 := absc_zero hx
    have : E = E / 2 * 2 + 1 := by omega
    rw [this, add_nsmul T _ _, one_nsmul, mul_nsmul', h2]
    have : (E / 2) • (0 : MoPoint K) = 0 := nsmul_zero _
    rw [this, zero_add]
  · have hni : ¬ isInfinity K s = true := fun c => hT ((isInfinityM_ok h hs).mp c)
    have hz : ¬ Big.iszilch e = true := by
      intro c
      have : (E : Int) = 0 := (he.iszilch).mp c
      omega
    have hinf : isInfinity K (mulMont K s e) = true := by
      obtain ⟨l, z⟩ := mulMont_two h hs hT hx he hE1 hodd hE
      have e : isInfinity K (mulMont K s e) = Fp.iszilch K.P (mulMont K s e).z := by simp [isInfinity, h.type]
      rw [e, elem_iszilch h.arith l.elems.2.2]
      exact z
    refine ⟨mulMont K s e, ?_, hinf⟩
    unfold Ecp.mul
    rw [if_neg (by simp [hni, hz]), if_pos h.type]
    simp [affine, hinf]

/-- C62. The point at infinity is recognised; `new` is one. -/
theorem C62_zero (h : MoCurve K) {s : Pt C} {T : MoPoint K} (hs : IsPointM K s T) : IsPointM K (Ecp.new K) 0 ∧ (isInfinity K s = true ↔ T = 0) :=
  ⟨newM_ok h, isInfinityM_ok h hs⟩

/-- C62. `equals` compares up to sign when neither value is the pair `(0 : 0)`. -/
theorem C62_equals (h : MoCurve K) {s q : Pt C} {S T : MoPoint K} (hs : IsPointM K s S) (hq : IsPointM K q T) (ns : Strict K s) (nq : Strict K q) :
    Ecp.equals K s q = true ↔ S = T ∨ S = -T := (equalsM_ok h hs hq).1 ns nq

/-- C62, deviation: the point at infinity made by `new` compares equal to every point. -/
theorem C62_equals_new (h : MoCurve K) {s : Pt C} {T : MoPoint K} (hs : IsPointM K s T) : Ecp.equals K s (Ecp.new K) = true := by
  refine (equalsM_ok h hs (newM_ok h)).2 (.inr ?_)
  have e : Ecp.new K = ⟨Fp.zero K.P, Fp.newInt K.P 1, Fp.zero K.P⟩ := by simp [Ecp.new, pnew, h.type]
  rintro (c | c)
  · exact c (by rw [e]; exact (elem_zero h.arith).res)
  · exact c (by rw [e]; exact (elem_zero h.arith).res)

/-- C62. `affine` changes the representative, not the point: a finite point gets third coordinate one. -/
theorem C62_affine (h : MoCurve K) {s : Pt C} {T : MoPoint K} (hs : IsPointM K s T) :
    IsPointM K (Ecp.affine K s) T ∧ (T ≠ 0 → (coords K (Ecp.affine K s)).x = absc T ∧ (coords K (Ecp.affine K s)).z = 1) := affineM_ok h hs

/-- C62. `cfp` multiplies by the cofactor. -/
theorem C62_cfp (h : MoCurve K) {s : Pt C} {T : MoPoint K} (hs : IsPointM K s T) (hk : K.cofI = 1 ∨ K.cofI = 4 ∨ K.cofI = 8) :
    ∃ r, Ecp.cfp K s = some r ∧ IsPointM K r (K.cofI • T) := cfpM_ok h hs hk

/-- C62. `new_big` accepts exactly the abscissae of finite points that are not their own negative; any other abscissa (on the twist, or of a
point of order two) gives the point at infinity. -/
theorem C62_new_big (h : MoCurve K) {ix : Limbs C} {X : Nat} (hx : Rep K.P.b K.P.n ix X) (hX : X < K.p) :
    (∀ T : MoPoint K, T ≠ 0 → absc T = (X : ZMod K.p) → T ≠ -T → IsPointM K (newBigX K ix) T) ∧
    ((∀ T : MoPoint K, T ≠ 0 → absc T = (X : ZMod K.p) → T = -T) → IsPointM K (newBigX K ix) 0) :=
  ⟨fun T a b c => ((newBigXM_ok h hx hX).1 T a b c).1, fun hh => ((newBigXM_ok h hx hX).2 hh).1⟩

/-- C62. `tobytes` writes the byte 6 and the reduced abscissa, whatever `compress` says. -/
theorem C62_tobytes (h : MoCurve K) {s : Pt C} {T : MoPoint K} (hs : IsPointM K s T) (hT : T ≠ 0) (hpr : PrintsX K s (absc T)) (buf : List (BitVec 8)) (c : Bool)
    (hl : K.modbytes + 1 ≤ buf.length) : tobytes K s buf c = some (sec1M K (absc T) ++ buf.drop (K.modbytes + 1)) := tobytesM_ok h hs hT hpr buf c hl

/-- C62. `frombytes` ignores the first byte; what follows decodes to the point with that abscissa, and to infinity if there is none other than a point
of order two. -/
theorem C62_frombytes (h : MoCurve K) (hb : BytesOk K) (bs : List (BitVec 8)) (hl : K.modbytes + 1 ≤ bs.length) :
    ∃ r, frombytes K bs = some r ∧ (∀ T : MoPoint K, T ≠ 0 → T ≠ -T → beBytes K.modbytes (absc T).val <+: bs.drop 1 → IsPointM K r T) ∧
      ((∀ T : MoPoint K, T ≠ 0 → T ≠ -T → ¬ beBytes K.modbytes (absc T).val <+: bs.drop 1) → IsPointM K r 0) := by
  obtain ⟨r, h1, h2, h3⟩ := frombytesM_ok h hb bs hl
  exact ⟨r, h1, fun T a b c => (h2 T a b c).1, h3⟩

/-- C62. Decoding an encoding gives the point back (up to sign), and encoding it again gives the same bytes. -/
theorem C62_roundtrip (h : MoCurve K) (hb : BytesOk K) {s : Pt C} {T : MoPoint K} (hs : IsPointM K s T) (hT : T ≠ 0) (hn : T ≠ -T) (hpr : PrintsX K s (absc T))
    (buf : List (BitVec 8)) (c : Bool) (hl : K.modbytes + 1 ≤ buf.length) :
    ∃ bs r, tobytes K s buf c = some bs ∧ frombytes K bs = some r ∧ IsPointM K r T ∧ ∀ c', tobytes K r bs c' = some bs := by
  have h1 := tobytesM_ok h hs hT hpr buf c hl
  have hlen : (sec1M K (absc T)).length = K.modbytes + 1 := by simp [sec1M, beBytes_length]
  obtain ⟨r, h2, h3, _⟩ := frombytesM_ok h hb (sec1M K (absc T) ++ buf.drop (K.modbytes + 1)) (by simp [hlen])
  obtain ⟨k1, k2⟩ := h3 T hT hn (by simp [sec1M])
  refine ⟨_, r, h1, h2, k1, fun c' => ?_⟩
  rw [tobytesM_ok h k1 hT k2 _ c' (by simp [hlen])]
  congr 1
  rw [← hlen, List.drop_left]

/-- C62. Diffie-Hellman: two parties who multiply each other's public abscissa get the same abscissa, if the base point has odd order (as the generator does: `C62_order64`). -/
theorem C62_agree (h : MoCurve K) {s : Pt C} {T : MoPoint K} (hs : IsPointM K s T) {n : Nat} (hord : n • T = 0) (hodd : n % 2 = 1) {a b : Limbs C} {A B : Nat}
    (ha : Rep K.P.b K.P.n a A) (hb : Rep K.P.b K.P.n b B) (hA : (A : Int) < 2 ^ (K.P.b * K.P.n)) (hB : (B : Int) < 2 ^ (K.P.b * K.P.n)) :
    ∃ p q r t, Ecp.mul K s a = some p ∧ Ecp.mul K s b = some q ∧ Ecp.mul K p b = some r ∧ Ecp.mul K q a = some t ∧
      IsPointM K r ((A * B) • T) ∧ IsPointM K t ((A * B) • T) := by
  have hx := absc_odd hord hodd
  have h1 : T ≠ 0 → absc T ≠ 0 := fun hT => by have := hx 1; rw [one_nsmul] at this; exact this hT
  obtain ⟨p, p1, p2⟩ := mulM_ok h hs h1 ha hA
  obtain ⟨q, q1, q2⟩ := mulM_ok h hs h1 hb hB
  obtain ⟨r, r1, r2⟩ := mulM_ok h p2 (hx A) hb hB
  obtain ⟨t, t1, t2⟩ := mulM_ok h q2 (hx B) ha hA
  refine ⟨p, q, r, t, p1, q1, r1, t1, ?_, ?_⟩
  · rw [← mul_nsmul'] at r2
    rwa [Nat.mul_comm] at r2
  · rwa [← mul_nsmul'] at t2

end

/-! ### the generator and its order -/

/-- an ordinate of the generator of Curve25519 -/
def moGy : Nat := 14781619447589544791020593568409986887264606134616475288964881837755586237401

/-- the generator is on the curve and the group order annihilates it, checked on residues -/
def genMB {C : Nat} (r : Rom C) : Bool :=
  let x := (r.val r.gx).toNat
  let a := r.a.toNat
  decide (r.gx.length = r.P.n ∧ 0 < x ∧ x < r.p ∧ 0 < moGy ∧ moGy < r.p ∧ moGy ^ 2 % r.p = (x ^ 3 + a * x ^ 2 + x) % r.p ∧ r.val r.order % 2 = 1) &&
    zeroMB r.p ((a + 2) / 4) x (r.val r.order).toNat

theorem genMB_sound {C : Nat} {r : Rom C} [hp : Fact r.p.Prime] (h : MoCurve r) (hc : r.Consistent) (hb : genMB r = true) :
    ∃ T : MoPoint r, T ≠ 0 ∧ T ≠ -T ∧ absc T = (r.val r.gx : ZMod r.p) ∧ IsPointM r (generator r) T ∧ PrintsX r (generator r) (absc T) ∧ (r.val r.order).toNat • T = 0 ∧ (r.val r.order).toNat % 2 = 1 := by
  unfold genMB at hb
  dsimp only at hb
  rw [Bool.and_eq_true] at hb
  obtain ⟨hb, hz⟩ := hb
  obtain ⟨l, x0, xp, y0, yp, hy, ho⟩ := of_decide_eq_true hb
  obtain ⟨_, d1, _, _⟩ := hc.digits
  obtain ⟨_, _, g0, _⟩ := hc.ranges
  have hv : ((r.val r.gx).toNat : Int) = r.val r.gx := Int.toNat_of_nonneg g0
  have hrep : Rep r.P.b r.P.n r.gx ((r.val r.gx).toNat : Int) := ⟨l, d1.normal, hv.symm⟩
  have ha : (r.a.toNat : Int) = r.a := Int.toNat_of_nonneg h.small.1.le
  have ha' : ((r.a.toNat : Nat) : ZMod r.p) = (r.a : ZMod r.p) := by rw [← Int.cast_natCast, ha]
  have hx' : ((r.val r.gx : Int) : ZMod r.p) = (((r.val r.gx).toNat : Nat) : ZMod r.p) := by rw [← Int.cast_natCast, hv]
  have h4 := h.a4
  have hs := h.small.1
  generalize hX : (r.val r.gx).toNat = X at *
  have hon : (moGy : ZMod r.p) ^ 2 = (X : ZMod r.p) ^ 3 + r.a * (X : ZMod r.p) ^ 2 + X := by
    have := (ZMod.natCast_eq_natCast_iff' (moGy ^ 2) (X ^ 3 + r.a.toNat * X ^ 2 + X) r.p).mpr hy
    push_cast at this
    rw [this, ha']
  have hn := onCurveM h hon
  have hXn : (X : ZMod r.p) ≠ 0 := by
    intro c
    rw [ZMod.natCast_eq_zero_iff] at c
    exact absurd (Nat.le_of_dvd x0 c) (by omega)
  have hne : Affine.Point.some _ _ hn ≠ - Affine.Point.some _ _ hn := by
    intro c
    rw [Affine.Point.neg_some] at c
    injection c with _ c
    rw [mont_negY] at c
    have : (2 : ZMod r.p) * (moGy : ZMod r.p) = 0 := by linear_combination c
    rcases mul_eq_zero.mp this with c | c
    · exact two_ne_zero' h.arith.toConsts c
    · rw [ZMod.natCast_eq_zero_iff] at c
      exact absurd (Nat.le_of_dvd y0 c) (by omega)
  obtain ⟨k1, k2, _⟩ := (newBigXM_ok h hrep xp).1 _ (some_ne_zero' hn).symm rfl hne
  have eg : generator r = newBigX r r.gx := by simp [generator, h.type]
  rw [eg]
  refine ⟨_, (some_ne_zero' hn).symm, hne, hx'.symm, k1, k2, ?_, by have := hc.order; omega⟩
  have h4' : 4 * (((r.a.toNat + 2) / 4 : Nat) : ZMod r.p) = (r.a : ZMod r.p) + 2 := by
    have : 4 * ((r.a.toNat + 2) / 4) = r.a.toNat + 2 := by omega
    have := congrArg (Nat.cast (R := ZMod r.p)) this
    push_cast at this
    rw [← ha', ← this]
  exact zeroMB_sound (two_ne_zero' h.arith.toConsts) h.ne h4' hXn (T := .some _ _ hn) ⟨one_ne_zero, by rw [mul_one]⟩ hz

/-- C62. The generator of the 64-bit ROM file is a point of the curve that is not its own negative, with the abscissa `CURVE_GX`; `CURVE_ORDER`, which is odd, annihilates it. -/
theorem C62_order64 (r : Rom 64) (hr : r ∈ all64) (ht : r.ctype = .montgomery) [hp : Fact r.p.Prime] :
    ∃ T : MoPoint r, T ≠ 0 ∧ T ≠ -T ∧ absc T = (r.val r.gx : ZMod r.p) ∧ IsPointM r (generator r) T ∧ PrintsX r (generator r) (absc T) ∧ (r.val r.order).toNat • T = 0 ∧ (r.val r.order).toNat % 2 = 1 := by
  have h : all64.all (fun r => !(decide (r.ctype = .montgomery)) || genMB r) = true := by decide +kernel
  have := List.all_eq_true.1 h r hr
  exact genMB_sound (C62_rom64 r hr ht).1 (C55_rom64 r hr) (by simpa [ht] using this)

/-- C62. The same for the 32-bit ROM file. -/
theorem C62_order32 (r : Rom 32) (hr : r ∈ all32) (ht : r.ctype = .montgomery) [hp : Fact r.p.Prime] :
    ∃ T : MoPoint r, T ≠ 0 ∧ T ≠ -T ∧ absc T = (r.val r.gx : ZMod r.p) ∧ IsPointM r (generator r) T ∧ PrintsX r (generator r) (absc T) ∧ (r.val r.order).toNat • T = 0 ∧ (r.val r.order).toNat % 2 = 1 := by
  have h : all32.all (fun r => !(decide (r.ctype = .montgomery)) || genMB r) = true := by decide +kernel
  have := List.all_eq_true.1 h r hr
  exact genMB_sound (C62_rom32 r hr ht).1 (C55_rom32 r hr) (by simpa [ht] using this)

/-! ### Curve25519, as an instance -/

set_option exponentiation.threshold 600 in
instance c25519_fact : Fact (Nat.Prime c25519_64.p) := ⟨C55_modulus_prime64 _ (by simp [all64])⟩

theorem c25519_curve : MoCurve c25519_64 ∧ BytesOk c25519_64 := C62_rom64 _ (by simp [all64]) rfl

/-- the shared secret of the private keys 5 and 7 -/
example : ∃ p q r t, Ecp.mul c25519_64 (generator c25519_64) (Big.newInt 64 5 5) = some p ∧ Ecp.mul c25519_64 (generator c25519_64) (Big.newInt 64 5 7) = some q ∧
    Ecp.mul c25519_64 p (Big.newInt 64 5 7) = some r ∧ Ecp.mul c25519_64 q (Big.newInt 64 5 5) = some t ∧
    ∃ S : MoPoint c25519_64, IsPointM c25519_64 r S ∧ IsPointM c25519_64 t S := by
  obtain ⟨T, _, _, _, h1, _, h2, h3⟩ := C62_order64 c25519_64 (by simp [all64]) rfl
  obtain ⟨p, q, r, t, a, b, c, d, e, f⟩ := C62_agree c25519_curve.1 h1 h2 h3 (a := Big.newInt 64 5 5) (A := 5) (b := Big.newInt 64 5 7) (B := 7)
    ⟨by decide, by decide, by decide⟩ ⟨by decide, by decide, by decide⟩ (by decide +kernel) (by decide +kernel)
  exact ⟨p, q, r, t, a, b, c, d, _, e, f⟩

/-- the generator survives a trip through its encoding -/
example : ∃ bs r, tobytes c25519_64 (generator c25519_64) (List.replicate 33 0) false = some bs ∧ frombytes c25519_64 bs = some r ∧
    Ecp.equals c25519_64 r (generator c25519_64) = true := by
  obtain ⟨T, t1, t2, _, h1, h2, _⟩ := C62_order64 c25519_64 (by simp [all64]) rfl
  obtain ⟨bs, r, a, b, c, _⟩ := C62_roundtrip c25519_curve.1 c25519_curve.2 h1 t1 t2 h2 (List.replicate 33 0) false (by decide)
  have st : ∀ {s : Pt 64}, IsPointM c25519_64 s T → Strict c25519_64 s := by
    intro s hs
    have := hs.2
    cases T with
    | zero => exact absurd rfl t1
    | some x y hn => exact .inr this.1
  exact ⟨bs, r, a, b, (C62_equals c25519_curve.1 c h1 (st c) (st h1)).mpr (.inl rfl)⟩

/-- the point `(0, 0)` satisfies the hypotheses of `C62_order_two` -/
example : ∃ s : Pt 64, ∃ T : MoPoint c25519_64, IsPointM c25519_64 s T ∧ T ≠ 0 ∧ absc T = 0 := by
  have h := c25519_curve.1
  have hn := onCurveM h (x := 0) (y := 0) (by ring)
  obtain ⟨l, ec⟩ := Legal.of (s := ⟨Fp.zero c25519_64.P, Fp.one c25519_64.P, Fp.one c25519_64.P⟩) (elem_zero h.arith) (elem11 h.arith (elem_one h.arith)) (elem_one h.arith)
  exact ⟨_, .some _ _ hn, ⟨l, by rw [ec]; exact ⟨one_ne_zero, by simp⟩⟩, (some_ne_zero' hn).symm, rfl⟩

end Verif.Props
