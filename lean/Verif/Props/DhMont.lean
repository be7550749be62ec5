import Verif.Props.DhGen
import Verif.Props.Montgomery
/-
C86: Diffie-Hellman of `src/ecdh.rs` over Montgomery curves (C25519), where a key is the abscissa of a point.
-/
namespace Verif.Props
open Verif.Big Verif.Fp Verif.Rom Verif.Curve Verif.Ecp Verif.Ecdh Spec
set_option linter.unusedSectionVars false
set_option exponentiation.threshold 600

section
variable {C : Nat} {K : Rom C} [hp : Fact K.p.Prime]

/-- the multiple of `s` by the number `u` that `ECP::mul` computes prints an abscissa below the modulus (see `C86_reduced`) -/
def RedMulX (K : Rom C) (s : Pt C) (u : Nat) : Prop :=
  ∀ e W, Rep K.P.b K.P.n e (u : Int) → Ecp.mul K s e = some W → ∃ x : Nat, x < K.p ∧ Rep K.P.b K.P.n (getx K W) (x : Int)

/-- the byte string holds, after its first byte, the abscissa of the point `T`, which is not its own negative -/
structure KeyOf (K : Rom C) [Fact K.p.Prime] (w : List Byte) (T : MoPoint K) : Prop where
  long : K.modbytes + 1 ≤ w.length
  ne : T ≠ 0
  two : T ≠ -T
  key : beBytes K.modbytes (absc T).val <+: w.drop 1

/-- what C86 assumes of the ROM file: the arithmetic is right (C62), the group order is an odd prime, and `G` is a point of that order with
the abscissa of the generator -/
structure DhMont (K : Rom C) [Fact K.p.Prime] (G : MoPoint K) : Prop where
  curve : MoCurve K
  num : DhNum K
  base : IsPointM K (generator K) G
  ne : G ≠ 0
  annihilates : ordN K • G = 0

theorem absc_of_two {T : MoPoint K} (h : T ≠ -T) : absc T ≠ 0 := fun e => h (by
  have := absc_zero e
  rw [two_nsmul] at this
  exact eq_neg_of_add_eq_zero_left this)

theorem order_smul_ne {G : MoPoint K} (h : DhMont K G) {k : Nat} (hk : ¬ ordN K ∣ k) : k • G ≠ 0 := by
  intro e
  have h1 : addOrderOf G ∣ k := addOrderOf_dvd_of_nsmul_eq_zero e
  have h2 : addOrderOf G ∣ ordN K := addOrderOf_dvd_of_nsmul_eq_zero h.annihilates
  rcases (Nat.dvd_prime h.num.orderPrime).1 h2 with c | c
  · exact h.ne (AddMonoid.addOrderOf_eq_one_iff.1 c)
  · exact hk (c ▸ h1)

theorem self_neg_odd {T : MoPoint K} {n : Nat} (hn : n • T = 0) (hodd : n % 2 = 1) (h0 : T ≠ 0) : T ≠ -T := by
  intro e
  have h2 : (2 : Nat) • T = 0 := by
    rw [two_nsmul]
    nth_rewrite 2 [e]
    exact add_neg_cancel T
  apply h0
  have e2 : n = n / 2 * 2 + 1 := by omega
  have := hn
  rw [e2, add_nsmul, mul_nsmul', h2, nsmul_zero, zero_add, one_nsmul] at this
  exact this

/-- the abscissa printed by a value whose printed number is below the modulus -/
theorem getxM_ok (h : MoCurve K) (hpl : K.P.plain = true) {s : Pt C} {T : MoPoint K} (hs : IsPointM K s T) (hT : T ≠ 0) (hr : ∃ x : Nat, x < K.p ∧ Rep K.P.b K.P.n (getx K s) (x : Int)) :
    Rep K.P.b K.P.n (getx K s) ((absc T).val : Int) := by
  obtain ⟨x, hx, rx⟩ := hr
  have ex : residue K.P K.p (affine K s).x = absc T := ((affineM_ok h hs).2 hT).1
  have rx' : Rep K.P.b K.P.n (redc K.P (affine K s).x) (x : Int) := rx
  have e : residue K.P K.p (affine K s).x = (x : ZMod K.p) := by
    have hf : K.P.factor = 1 := by simp [Params.factor, hpl]
    have hd : redc K.P (affine K s).x = (affine K s).x.x := by simp [redc, hpl]
    rw [residue, hf, Int.cast_one, inv_one, mul_one, ← hd, rx'.val, Int.cast_natCast]
  rw [← ex, e, ZMod.val_natCast_of_lt hx]
  exact rx

theorem mulM (h : MoCurve K) (hn : DhNum K) {s : Pt C} {T : MoPoint K} (hs : IsPointM K s T) (hx : T ≠ 0 → absc T ≠ 0) {e : Limbs C} {E : Nat} (he : Rep K.P.b K.P.n e (E : Int)) (hE : E < ordN K) :
    ∃ r, Ecp.mul K s e = some r ∧ IsPointM K r (E • T) := mulM_ok h hs hx he (by have := Gen.lt_two hn hE; omega)

theorem keyTailM_ok {G : MoPoint K} (h : DhMont K G) {sc : Limbs C} {A : Nat} (hA : A < ordN K) (hsc : Rep K.P.b K.P.n sc (A : Int)) (s w : List Byte)
    (hs : K.modbytes ≤ s.length) (hw : K.modbytes + 1 ≤ w.length) (hT : A • G ≠ 0) (hx : RedMulX K (generator K) A) :
    keyPairTail K sc s w = some (beBytes K.modbytes A ++ s.drop K.modbytes, sec1M K (absc (A • G)) ++ w.drop (K.modbytes + 1)) := by
  unfold keyPairTail
  rw [Gen.bigInto_ok h.num hsc (Gen.lt_two h.num hA) s hs]
  have hG : absc G ≠ 0 := absc_of_two (self_neg_odd h.annihilates h.num.orderOdd h.ne)
  obtain ⟨r, e1, e2⟩ := mulM h.curve h.num h.base (fun _ => hG) hsc hA
  have p1 := getxM_ok h.curve h.num.plain e2 hT (hx _ _ hsc e1)
  have bx := toBytes_rep h.curve.arith.toConsts p1 (K := K)
  have e3 : Ecp.tobytes K r w false = some (sec1M K (absc (A • G)) ++ w.drop (K.modbytes + 1)) := by
    have c1 : ¬ w.length < K.modbytes + 1 := by omega
    have bx' : toBytes K.P.b K.modbytes (redc K.P (affine K r).x) = beBytes K.modbytes (absc (A • G)).val := bx
    simp [tobytes, h.curve.type, bx', c1, sec1M]
  simp only [Option.bind_eq_bind, Option.bind_some, e1, e3, Option.pure_def]

theorem keyOf_sec1M {T : MoPoint K} (h0 : T ≠ 0) (h2 : T ≠ -T) (rest : List Byte) : KeyOf K (sec1M K (absc T) ++ rest) T :=
  ⟨by simp [sec1M, Spec.beBytes_length], h0, h2, by simp [sec1M]⟩

theorem odd_mul {G : MoPoint K} (h : DhMont K G) {k : Nat} (hk : k • G ≠ 0) : k • G ≠ -(k • G) :=
  self_neg_odd (n := ordN K) (by rw [nsmul_left_comm, h.annihilates, nsmul_zero]) h.num.orderOdd hk

/-- C86. Key generation from given secret bytes: the secret is reduced modulo the order, the public key is the byte 6 and the abscissa of that
multiple of the generator. -/
theorem C86_keypair {G : MoPoint K} (h : DhMont K G) (s w : List Byte) (hs : K.modbytes ≤ s.length) (hw : K.modbytes + 1 ≤ w.length) (h0 : ¬ ordN K ∣ num K s)
    (hr : RedMulX K (generator K) (num K s % ordN K)) :
    ∃ w', keyPairExternal K s w = some (beBytes K.modbytes (num K s % ordN K) ++ s.drop K.modbytes, w') ∧ KeyOf K w' ((num K s % ordN K) • G) ∧
      w' = sec1M K (absc ((num K s % ordN K) • G)) ++ w.drop (K.modbytes + 1) := by
  have hne : (num K s % ordN K) • G ≠ 0 := order_smul_ne h (fun hd => h0 (by rwa [Nat.dvd_mod_iff (dvd_refl _)] at hd))
  obtain ⟨sc, e, hsc⟩ := Gen.rmod_ok h.num (Gen.fromBytes_ok h.num s) (Gen.bytes_lt h.num (num_lt K s))
  refine ⟨_, ?_, keyOf_sec1M hne (odd_mul h hne) _, rfl⟩
  unfold keyPairExternal
  simp only [e, Option.bind_eq_bind, Option.bind_some]
  exact keyTailM_ok h (Gen.mod_lt h.num _) hsc s w hs hw hne hr

/-- C86. The same with a random generator, whose state advances. -/
theorem C86_generate {σ : Type} {G : MoPoint K} (h : DhMont K G) (next : σ → Byte × σ) (rng : σ) (s w : List Byte) (hs : K.modbytes ≤ s.length) (hw : K.modbytes + 1 ≤ w.length)
    (h0 : scalar next K rng ≠ 0) (hr : RedMulX K (generator K) (scalar next K rng)) :
    ∃ s' w', keyPairGenerate next K rng s w = some (s', w', (draw next (drawn K) rng).2) ∧ num K s' = scalar next K rng ∧ KeyOf K w' (scalar next K rng • G) := by
  have hlt := Gen.scalar_lt h.num next rng
  have hne : scalar next K rng • G ≠ 0 := order_smul_ne h (fun hd => h0 (Nat.eq_zero_of_dvd_of_lt hd hlt))
  obtain ⟨sc, e, hsc⟩ := Gen.random_ok h.num next rng
  refine ⟨beBytes K.modbytes (scalar next K rng) ++ s.drop K.modbytes, sec1M K (absc (scalar next K rng • G)) ++ w.drop (K.modbytes + 1), ?_,
    num_bytes K (lt_of_lt_of_le hlt h.num.orderBytes) _, keyOf_sec1M hne (odd_mul h hne) _⟩
  unfold keyPairGenerate
  simp only [e, Option.bind_some]
  rw [keyTailM_ok h hlt hsc s w hs hw hne hr]
  rfl

theorem fromKey (h : MoCurve K) (hb : BytesOk K) {w : List Byte} {T : MoPoint K} (hw : KeyOf K w T) : ∃ r, Ecp.frombytes K w = some r ∧ IsPointM K r T := by
  obtain ⟨r, h1, h2, _⟩ := frombytesM_ok h hb w hw.long
  exact ⟨r, h1, (h2 T hw.ne hw.two hw.key).1⟩

/-- C86. `ecpsvdp_dh` for every secret and every peer string that holds the abscissa of a point, whether or not it is in the subgroup of the
generator: an error if the product is the point at infinity (so for points of small order), otherwise the abscissa of the product. -/
theorem C86_dh (h : MoCurve K) (hn : DhNum K) {s wd z : List Byte} {T : MoPoint K} (hw : KeyOf K wd T) (hz : K.modbytes ≤ z.length)
    (hr : ∀ W, Ecp.frombytes K wd = some W → RedMulX K W (num K s % ordN K)) :
    ((num K s % ordN K) • T = 0 → dh K s wd z = some (-3, z)) ∧
    ((num K s % ordN K) • T ≠ 0 → dh K s wd z = some (0, beBytes K.modbytes (absc ((num K s % ordN K) • T)).val ++ z.drop K.modbytes)) := by
  obtain ⟨W, e1, i1⟩ := fromKey h hn.bytes hw
  obtain ⟨sc, e2, i2⟩ := Gen.rmod_ok hn (Gen.fromBytes_ok hn s) (Gen.bytes_lt hn (num_lt K s))
  obtain ⟨V, e3, i3⟩ := mulM h hn i1 (fun _ => absc_of_two hw.two) i2 (Gen.mod_lt hn _)
  have c1 : ¬ isInfinity K W = true := fun hc => hw.ne ((isInfinityM_ok h i1).1 hc)
  constructor
  · intro hT
    unfold dh
    simp only [Option.bind_eq_bind, Option.bind_some, e1, e2, e3, if_neg c1, if_pos ((isInfinityM_ok h i3).2 hT), Option.pure_def]
  · intro hT
    have c2 : ¬ isInfinity K V = true := fun hc => hT ((isInfinityM_ok h i3).1 hc)
    unfold dh
    simp only [Option.bind_eq_bind, Option.bind_some, e1, e2, e3, if_neg c1, if_neg c2,
      Gen.bigInto_ok hn (getxM_ok h hn.plain i3 hT (hr W e1 _ _ i2 e3)) (Gen.p_lt hn _) z hz, Option.pure_def]

/-- C86. A string that holds no abscissa (of a point that is not its own negative) is refused, whatever the secret: abscissae of the twist, numbers
not below the modulus, the point of order two. -/
theorem C86_rejects (h : MoCurve K) (hn : DhNum K) (s wd z : List Byte) (hl : K.modbytes + 1 ≤ wd.length) (hbad : ∀ T, ¬ KeyOf K wd T) : dh K s wd z = some (-3, z) := by
  obtain ⟨W, e1, _, i1⟩ := frombytesM_ok h hn.bytes wd hl
  have i1 := i1 (fun T h0 h2 hk => hbad T ⟨hl, h0, h2, hk⟩)
  unfold dh
  simp only [Option.bind_eq_bind, Option.bind_some, e1, if_pos ((isInfinityM_ok h i1).2 rfl), Option.pure_def]

/-- C86. The two parties agree. -/
theorem C86_agree {G : MoPoint K} (h : DhMont K G) {A B : Nat} {sa wa sb wb : List Byte} (hA : A ≠ 0 ∧ A < ordN K) (hB : B ≠ 0 ∧ B < ordN K) (ha : num K sa = A) (hb : num K sb = B)
    (ka : KeyOf K wa (A • G)) (kb : KeyOf K wb (B • G)) (z : List Byte) (hz : K.modbytes ≤ z.length)
    (hra : ∀ W, Ecp.frombytes K wb = some W → RedMulX K W A) (hrb : ∀ W, Ecp.frombytes K wa = some W → RedMulX K W B) :
    dh K sa wb z = some (0, beBytes K.modbytes (absc ((A * B) • G)).val ++ z.drop K.modbytes) ∧ dh K sb wa z = dh K sa wb z := by
  have hne : (A * B) • G ≠ 0 := by
    refine order_smul_ne h (fun hd => ?_)
    rcases (Nat.Prime.dvd_mul h.num.orderPrime).1 hd with c | c
    · exact hA.1 (Nat.eq_zero_of_dvd_of_lt c hA.2)
    · exact hB.1 (Nat.eq_zero_of_dvd_of_lt c hB.2)
  have ea : num K sa % ordN K = A := by rw [ha, Nat.mod_eq_of_lt hA.2]
  have eb : num K sb % ordN K = B := by rw [hb, Nat.mod_eq_of_lt hB.2]
  have e1 : A • B • G = (A * B) • G := by rw [mul_nsmul']
  have e2 : B • A • G = (A * B) • G := by rw [mul_comm, mul_nsmul']
  have k1 := (C86_dh h.curve h.num (s := sa) kb hz (by rw [ea]; exact hra)).2 (by rw [ea, e1]; exact hne)
  have k2 := (C86_dh h.curve h.num (s := sb) ka hz (by rw [eb]; exact hrb)).2 (by rw [eb, e2]; exact hne)
  rw [ea, e1] at k1
  rw [eb, e2] at k2
  exact ⟨k1, k2.trans k1.symm⟩

theorem halveM_ok (h : MoCurve K) (f j : Nat) {k : Limbs C} (hk : Rep K.P.b K.P.n k ((2 ^ j : Nat) : Int)) (hf : j < f) (hj : j < K.P.b * K.P.n) {W : Pt C} {T : MoPoint K} (hW : IsPointM K W T) :
    ∃ k' W', halve K f k W = some (k', W') ∧ Rep K.P.b K.P.n k' (1 : Int) ∧ IsPointM K W' (2 ^ j • T) := by
  have hco := h.arith.toConsts
  induction f generalizing k j W T with
  | zero => omega
  | succ f ih =>
    have hp := hk.parity hco.ok hco.hn
    rw [halve]
    cases j with
    | zero =>
      rw [if_neg (by rw [hp]; norm_num)]
      exact ⟨k, W, rfl, by simpa using hk, by rw [pow_zero, one_nsmul]; exact hW⟩
    | succ j =>
      rw [if_pos (by rw [hp, pow_succ 2 j]; omega)]
      have hb := hco.ok.hb
      have hlt : ((2 ^ (j + 1) : Nat) : Int) < 2 ^ (K.P.b * K.P.n) := by
        exact_mod_cast Nat.pow_lt_pow_right (by norm_num) hj
      have r := shr_rep (k := 1) hco.ok hk (by rw [Nat.div_eq_of_lt (by omega)]; have := hco.hn; omega) (by positivity) hlt
      have ed : (2 ^ (j + 1) / 2 : Nat) = 2 ^ j := by rw [pow_succ]; omega
      have r : Rep K.P.b K.P.n (shr K.P.b 1 k) ((2 ^ j : Nat) : Int) := by
        rw [← ed, Int.natCast_div]; rw [pow_one] at r; exact r
      obtain ⟨k', W', a1, a2, a3⟩ := ih j r (by omega) (by omega) (dblM_ok h hW).1
      refine ⟨k', W', a1, a2, ?_⟩
      rw [← two_nsmul, ← mul_nsmul', ← pow_succ] at a3
      exact a3

theorem validateM (h : MoCurve K) (hn : DhNum K) (hc : CofOk K) {j : Nat} (hj : cofN K = 2 ^ j) {w : List Byte} {W : Pt C} {T : MoPoint K} (e1 : Ecp.frombytes K w = some W) (i1 : IsPointM K W T) :
    (T ≠ 0 ∧ cofN K • T ≠ 0 → publicKeyValidate K w = some 0) ∧ (¬ (T ≠ 0 ∧ cofN K • T ≠ 0) → publicKeyValidate K w = some (-2)) := by
  unfold publicKeyValidate
  simp only [Option.bind_eq_bind, Option.bind_some, e1]
  by_cases hT : T = 0
  · rw [if_pos ((isInfinityM_ok h i1).2 hT)]; exact ⟨fun k => absurd hT k.1, fun _ => rfl⟩
  rw [if_neg (fun k => hT ((isInfinityM_ok h i1).1 k)), Gen.nbits_p hn]
  have hnn := hn.consts.hn
  have hb := hn.consts.ok.hb
  have hC := hn.consts.ok.hC
  generalize hm : (K.p.size + 4) / 2 = m
  have q1 := hc.quot
  have q4 := hc.room
  rw [hm] at q1 q4
  have hR := hn.R_pos
  have hmlt : m < K.P.b * K.P.n := by
    have : (2 : Nat) ^ m < 2 ^ (K.P.b * K.P.n) := by omega
    exact (Nat.pow_lt_pow_iff_right (by norm_num)).1 this
  have hmk : m / K.P.b < K.P.n := Nat.div_lt_of_lt_mul hmlt
  have hone := newInt_rep (C := C) hn.consts.ok (n := K.P.n) (by omega) 1 (by norm_num) (one_lt_pow₀ (by norm_num) (by omega))
  have q4' : 2 * ((2 : Int) ^ m + K.p) < 2 ^ (K.P.b * K.P.n) := by exact_mod_cast q4
  have hpn : (0 : Int) ≤ K.p := by positivity
  have h2m : (0 : Int) < 2 ^ m := by positivity
  have hsh := shl_rep (k := m) hn.consts.ok hone hmk (by norm_num) (by omega)
  rw [one_mul] at hsh
  have hcg := cap_ge (n := K.P.n) hn.consts.ok (by omega)
  have hcp := cap_pos C K.P.b K.P.n
  have hsum := norm_add_rep hn.consts.ok (by omega) hsh hn.consts.md_rep (by omega) (by omega) (by omega) (by omega)
  have hRz : (0 : Int) < ordN K := by exact_mod_cast (by omega : 0 < ordN K)
  obtain ⟨f, hf⟩ : ∃ f, fuel K = f + 1 := ⟨fuel K - 1, by have := fuel_ge K; omega⟩
  have hfge : K.P.b * K.P.n ≤ f := by have := fuel_ge K; omega
  have hpf : (2 : Int) ^ (K.P.b * K.P.n) ≤ 2 ^ f := pow_le_pow_right₀ (by norm_num) hfge
  obtain ⟨q, eq1, rq⟩ := div_spec hn.consts.ok hnn f hsum hn.orderRep (by omega) (by omega) hRz (by nlinarith)
  have rq : Rep K.P.b K.P.n q ((2 ^ j : Nat) : Int) := by
    rw [← hj, ← q1]; push_cast; exact rq
  have hjl : j < K.P.b * K.P.n := by
    have h1 := hc.range
    rw [hj] at h1
    have : (2 : Nat) ^ j < 2 ^ (K.P.b * K.P.n - 4) := by omega
    have := (Nat.pow_lt_pow_iff_right (by norm_num)).1 this
    omega
  obtain ⟨k', W', a1, a2, a5⟩ := halveM_ok h (fuel K) j rq (by omega) hjl i1
  rw [← hf] at eq1
  have c : isunity k' = true := (a2.isunity hn.consts.ok (by omega)).2 rfl
  rw [← hj] at a5
  have := isInfinityM_ok h a5
  simp only [eq1, Option.bind_some, a1, if_pos c, Option.pure_def]
  refine ⟨fun k => ?_, fun k => ?_⟩
  · rw [if_neg (fun c => k.2 (this.1 c))]
  · rw [if_pos (this.2 (by by_contra c; exact k ⟨hT, c⟩))]

/-- C86. `public_key_validate` returns 0 exactly when the string holds the abscissa of a point whose multiple by the cofactor is not the point at infinity. -/
theorem C86_validate (h : MoCurve K) (hn : DhNum K) (hc : CofOk K) {j : Nat} (hj : cofN K = 2 ^ j) (w : List Byte) (hl : K.modbytes + 1 ≤ w.length) :
    ((∃ T, KeyOf K w T ∧ cofN K • T ≠ 0) → publicKeyValidate K w = some 0) ∧ ((¬ ∃ T, KeyOf K w T ∧ cofN K • T ≠ 0) → publicKeyValidate K w = some (-2)) := by
  constructor
  · rintro ⟨T, hT, h0⟩
    obtain ⟨W, e1, i1⟩ := fromKey h hn.bytes hT
    exact (validateM h hn hc hj e1 i1).1 ⟨hT.ne, h0⟩
  · intro hno
    by_cases hk : ∃ T, KeyOf K w T
    · obtain ⟨T, hT⟩ := hk
      obtain ⟨W, e1, i1⟩ := fromKey h hn.bytes hT
      exact (validateM h hn hc hj e1 i1).2 (fun k => hno ⟨T, hT, k.2⟩)
    · obtain ⟨W, e1, _, i1⟩ := frombytesM_ok h hn.bytes w hl
      exact (validateM h hn hc hj e1 (i1 (fun T h0 h2 hk' => hk ⟨T, ⟨hl, h0, h2, hk'⟩⟩))).2 (fun k => k.1 rfl)

/-- C86. When the condition `RedMulX` holds: if the value has to be divided by its third coordinate (it is not 1 modulo `p`), the abscissa
printed is reduced.  `ECP::mul` ends with that division. -/
theorem C86_reduced (h : MoCurve K) {s : Pt C} {T : MoPoint K} (hs : IsPointM K s T) (hT : T ≠ 0) (hz : (coords K s).z ≠ 1) :
    ∃ x : Nat, x < K.p ∧ Rep K.P.b K.P.n (getx K (affine K s)) (x : Int) := by
  have k1 := affineM_redc h hs hT (fun e => absurd e hz)
  obtain ⟨i1, i2⟩ := affineM_ok h hs
  have hi : ¬ isInfinity K (affine K s) = true := fun hc => hT ((isInfinityM_ok h i1).mp hc)
  obtain ⟨s1, s2, s3⟩ := i1.1.elems
  have he : Fp.equals K.P (affine K s).z (newInt K.P 1) = true := (elem_equals h.arith s3 (elem_int1 h.arith)).mpr (i2 hT).2
  have e : affine K (affine K s) = affine K s := by rw [affine, if_neg hi]; simp only [he, if_true]
  refine ⟨_, ZMod.val_lt (absc T), ?_⟩
  unfold getx; rw [e]; exact k1
end

/-- what C86 needs of a ROM file -/
def MontRom {C : Nat} (K : Rom C) [Fact K.p.Prime] : Prop := (∃ G, DhMont K G) ∧ CofOk K ∧ (∃ j, cofN K = 2 ^ j) ∧ 0 < K.modbytes

/-- C86 applies to the bundled Montgomery curve, 64-bit … -/
theorem C86_rom64 (r : Rom 64) (hr : r ∈ all64) (ht : r.ctype = .montgomery) : ∃ _ : Fact r.p.Prime, MontRom r := by
  obtain ⟨p1, p2⟩ := C55_primes64 r hr
  have hp : Fact r.p.Prime := ⟨p1⟩
  have hB : all64.all (fun r => !(decide (r.ctype = .montgomery)) || (dhB r && decide (r.P.modtype = .PseudoMersenne ∧ cofN r = 2 ^ 3))) = true := by decide +kernel
  have hB := List.all_eq_true.1 hB r hr
  simp only [ht, decide_true, Bool.not_true, Bool.false_or, Bool.and_eq_true, decide_eq_true_eq] at hB
  obtain ⟨h, hb⟩ := C62_rom64 r hr ht
  obtain ⟨G, g1, _, _, g2, _, g3, _⟩ := C62_order64 r hr ht
  exact ⟨hp, ⟨G, h, dhNum_of h.arith.toConsts (by simp [Params.plain, hB.2.1]) (C55_rom64 r hr) hb hB.1 p2, g2, g1, g3⟩, C37_cof64 r hr, ⟨3, hB.2.2⟩, (of_decide_eq_true hB.1).2.2.2.2.2.2⟩

/-- … and 32-bit. -/
theorem C86_rom32 (r : Rom 32) (hr : r ∈ all32) (ht : r.ctype = .montgomery) : ∃ _ : Fact r.p.Prime, MontRom r := by
  obtain ⟨p1, p2⟩ := C55_primes32 r hr
  have hp : Fact r.p.Prime := ⟨p1⟩
  have hB : all32.all (fun r => !(decide (r.ctype = .montgomery)) || (dhB r && decide (r.P.modtype = .PseudoMersenne ∧ cofN r = 2 ^ 3))) = true := by decide +kernel
  have hB := List.all_eq_true.1 hB r hr
  simp only [ht, decide_true, Bool.not_true, Bool.false_or, Bool.and_eq_true, decide_eq_true_eq] at hB
  obtain ⟨h, hb⟩ := C62_rom32 r hr ht
  obtain ⟨G, g1, _, _, g2, _, g3, _⟩ := C62_order32 r hr ht
  exact ⟨hp, ⟨G, h, dhNum_of h.arith.toConsts (by simp [Params.plain, hB.2.1]) (C55_rom32 r hr) hb hB.1 p2, g2, g1, g3⟩, C37_cof32 r hr, ⟨3, hB.2.2⟩, (of_decide_eq_true hB.1).2.2.2.2.2.2⟩

/-! ### the hypotheses can be met -/

/-- check that a computed point prints a reduced abscissa -/
def redXB {C : Nat} (K : Rom C) : Option (Pt C) → Bool
  | none => true
  | some W => decide ((getx K W).length = K.P.n ∧ Normal K.P.b (getx K W) ∧ 0 ≤ limbsVal K.P.b (getx K W) ∧ limbsVal K.P.b (getx K W) < K.p)

theorem redMulX_of {C : Nat} {K : Rom C} [Fact K.p.Prime] (hco : Consts K.P K.p) {s : Pt C} {u : Nat} (hu : (u : Int) < 2 ^ K.P.b)
    (h : redXB K (Ecp.mul K s (Big.newInt C K.P.n u)) = true) : RedMulX K s u := by
  intro e W he hm
  have hr := newInt_rep (C := C) hco.ok (n := K.P.n) (by have := hco.hn; omega) u (by positivity) hu
  have : e = Big.newInt C K.P.n u := normal_unique _ _ (by rw [he.len, hr.len]) he.low hr.low (by rw [he.val, hr.val])
  rw [← this, hm] at h
  obtain ⟨a1, a2, a3, a4⟩ := of_decide_eq_true h
  obtain ⟨x, hx⟩ := Int.eq_ofNat_of_zero_le a3
  exact ⟨x, by omega, ⟨a1, a2, hx⟩⟩

/-- the computation behind the next statement: key pair with secret 2, and the product of the public key by 2 -/
def exXB {C : Nat} (K : Rom C) : Bool :=
  redXB K (Ecp.mul K (generator K) (Big.newInt C K.P.n 2)) && decide (num K (beBytes K.modbytes 2) % ordN K = 2 ∧ (2 : Int) < 2 ^ K.P.b) &&
  ((keyPairExternal K (beBytes K.modbytes 2) (List.replicate (K.modbytes + 1) 0)).bind fun q => Ecp.frombytes K q.2).all (fun W =>
      redXB K (Ecp.mul K W (Big.newInt C K.P.n 2)))

set_option maxRecDepth 100000 in
theorem exXB_c25519 : exXB c25519_64 = true := by decide +kernel

theorem exX_of {C : Nat} {K : Rom C} [hp : Fact K.p.Prime] (h : MontRom K) (hB : exXB K = true) :
    ∃ (G : MoPoint K) (w : List Byte), DhMont K G ∧ KeyOf K w (2 • G) ∧ ∀ W, Ecp.frombytes K w = some W → RedMulX K W 2 := by
  obtain ⟨⟨G, h⟩, _⟩ := h
  unfold exXB at hB
  rw [Bool.and_eq_true, Bool.and_eq_true] at hB
  obtain ⟨⟨h1, h2⟩, h3⟩ := hB
  obtain ⟨h2, h4⟩ := of_decide_eq_true h2
  have hr : RedMulX K (generator K) 2 := redMulX_of h.num.consts h4 h1
  obtain ⟨w', e, hk, _⟩ := C86_keypair h (beBytes K.modbytes 2) (List.replicate (K.modbytes + 1) 0) (by rw [Spec.beBytes_length]) (by rw [List.length_replicate])
    (fun hd => by rw [Nat.mod_eq_zero_of_dvd hd] at h2; exact absurd h2 (by norm_num)) (by rw [h2]; exact hr)
  rw [h2] at hk
  refine ⟨G, w', h, hk, fun W hW => redMulX_of h.num.consts h4 ?_⟩
  rw [e, Option.bind_some, hW] at h3
  exact h3

/-- C25519, secret 2 on both sides: a key is generated, and the hypotheses of `C86_agree` hold for it -/
example : ∃ (r : Rom 64) (_ : Fact r.p.Prime) (G : MoPoint r) (w : List Byte), DhMont r G ∧ KeyOf r w (2 • G) ∧ ∀ W, Ecp.frombytes r w = some W → RedMulX r W 2 := by
  obtain ⟨hp, h⟩ := C86_rom64 c25519_64 (by simp [all64]) rfl
  obtain ⟨G, w, h1⟩ := exX_of h exXB_c25519
  exact ⟨_, hp, G, w, h1⟩

end Verif.Props
