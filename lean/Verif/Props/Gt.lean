import Verif.Gt.Codec
import Verif.Tower.Top
/-
C76-C81: exponentiation in the extension of degree 12 and the final exponentiation of the pairing.
-/
namespace Verif.Props
open Verif.Big Verif.Fp Verif.Rom Verif.Tower Verif.Ecp2 Verif.Pair Verif.Gt Spec
set_option exponentiation.threshold 10000
set_option linter.unusedSectionVars false

theorem pow_pred_one {p : Nat} [Fact p.Prime] {v w : F12 p} (hw : v * w = 1) {N : Nat} (hN : 1 ≤ N) (h : v ^ N = v) : v ^ (N - 1) = 1 := by
  obtain ⟨k, rfl⟩ := Nat.exists_eq_add_of_le' hN
  rw [Nat.add_sub_cancel]
  calc v ^ k = v ^ k * (v * w) := by rw [hw, mul_one]
    _ = v ^ (k + 1) * w := by rw [pow_succ v, mul_assoc]
    _ = 1 := by rw [h, hw]

theorem four_val {p : Nat} [Fact p.Prime] (u0 u1 u2 u3 : (F12 p)ˣ) (E0 E1 E2 E3 : Nat) :
    ((u0 ^ E0 * u1 ^ E1 * u2 ^ E2 * u3 ^ E3 : (F12 p)ˣ) : F12 p) = (u0 : F12 p) ^ E0 * (u1 : F12 p) ^ E1 * (u2 : F12 p) ^ E2 * (u3 : F12 p) ^ E3 := by
  rw [Units.val_mul, Units.val_mul, Units.val_mul, Units.val_pow_eq_pow_val, Units.val_pow_eq_pow_val, Units.val_pow_eq_pow_val, Units.val_pow_eq_pow_val]

/-! ### C76: `FP12::pow` -/

/-- What C76 says about one ROM file: `pow` raises the elements of the cyclotomic subgroup to every positive power that leaves two bits
to spare in a `Big`; the result is fully reduced. The exponent 0 is refused (the code computes `0 - 1` on an unsigned integer). -/
def PowOk {C : Nat} (K : GlsRom C) [Fact K.pair.rom.p.Prime] : Prop :=
  ∀ (x : Fp12 C) (v : F12 K.pair.rom.p), Std12 K.pair.rom.P K.pair.rom.p 2800 x v → v ^ (K.pair.rom.p ^ 4 - K.pair.rom.p ^ 2 + 1) = 1 →
    ∀ (e : Limbs C) (E : Nat), Rep K.pair.rom.P.b K.pair.rom.P.n e E → 3 * E < 2 ^ (K.pair.rom.P.b * K.pair.rom.P.n) →
      (0 < E → ∃ r, Gt.pow K.pair.rom.P x e = some r ∧ Canon12 K.pair.rom.P K.pair.rom.p r (v ^ E)) ∧ (E = 0 → Gt.pow K.pair.rom.P x e = none)

section
variable {C : Nat} {K : GlsRom C} [hp : Fact K.pair.rom.p.Prime] [h4 : Fact (K.pair.rom.p % 4 = 3)]

theorem powOk_of (h : TowerOk K.pair.rom.P K.pair.rom.p) (t : TowerPrime K.pair.rom.p) (hb : fexpB K = true) : PowOk K := by
  intro x v hx hv e E he hE
  obtain ⟨u, hu, rfl⟩ := Cyc.of_val hv
  unfold fexpB at hb
  simp only [Bool.and_eq_true, decide_eq_true_eq] at hb
  obtain ⟨⟨⟨⟨⟨b1, b2⟩, b3⟩, b4⟩, b5⟩, b6⟩ := hb
  constructor
  · intro h0
    obtain ⟨r, r1, r2⟩ := pow_ok h t b1 hu hx he h0 hE
    exact ⟨r, r1, by rwa [Units.val_pow_eq_pow_val] at r2⟩
  · rintro rfl
    exact pow_zero_none h he

/-! ### C77: `FP12::pow4` -/

/-- `q` holds the element `v` of the cyclotomic subgroup; `stype` is a machine word -/
def GtElem {C : Nat} (K : GlsRom C) [Fact K.pair.rom.p.Prime] (q : Fp12 C) (v : F12 K.pair.rom.p) : Prop :=
  Std12 K.pair.rom.P K.pair.rom.p 2800 q v ∧ q.stype < 2 ^ 64 ∧ v ^ (K.pair.rom.p ^ 4 - K.pair.rom.p ^ 2 + 1) = 1

/-- `e` holds the exponent `E`, and `E + 1` still fits a `Big` -/
def GtExp {C : Nat} (K : GlsRom C) (e : Limbs C) (E : Nat) : Prop :=
  Rep K.pair.rom.P.b K.pair.rom.P.n e E ∧ E + 1 < 2 ^ (K.pair.rom.P.b * K.pair.rom.P.n)

/-- What C77 says about one ROM file: `pow4` multiplies four powers in the cyclotomic subgroup. -/
def Pow4Ok {C : Nat} (K : GlsRom C) [Fact K.pair.rom.p.Prime] : Prop :=
  ∀ (q0 q1 q2 q3 : Fp12 C) (v0 v1 v2 v3 : F12 K.pair.rom.p), GtElem K q0 v0 → GtElem K q1 v1 → GtElem K q2 v2 → GtElem K q3 v3 →
    ∀ (e0 e1 e2 e3 : Limbs C) (E0 E1 E2 E3 : Nat), GtExp K e0 E0 → GtExp K e1 E1 → GtExp K e2 E2 → GtExp K e3 E3 →
      ∃ r, Gt.pow4 K.pair.rom.P q0 q1 q2 q3 e0 e1 e2 e3 = some r ∧ Canon12 K.pair.rom.P K.pair.rom.p r (v0 ^ E0 * v1 ^ E1 * v2 ^ E2 * v3 ^ E3)

theorem gtRel_of {p : Nat} [Fact p.Prime] {P : Params C} {q : Fp12 C} {v : F12 p} (hq : Std12 P p 2800 q v) (hs : q.stype < 2 ^ 64) (hv : v ^ (p ^ 4 - p ^ 2 + 1) = 1) :
    ∃ u : (F12 p)ˣ, GtRel P p 2800 q (.ofMul u) ∧ (u : F12 p) = v := by
  obtain ⟨u, hu, rfl⟩ := Cyc.of_val hv
  exact ⟨u, ⟨hq, hu, hs⟩, rfl⟩

theorem pow4_val {p : Nat} [Fact p.Prime] {P : Params C} (h : TowerOk P p) (t : TowerPrime p) {q0 q1 q2 q3 : Fp12 C} {u0 u1 u2 u3 : (F12 p)ˣ} {v0 v1 v2 v3 : F12 p}
    (z0 : (u0 : F12 p) = v0) (z1 : (u1 : F12 p) = v1) (z2 : (u2 : F12 p) = v2) (z3 : (u3 : F12 p) = v3)
    (h0 : GtRel P p 2800 q0 (.ofMul u0)) (h1 : GtRel P p 2800 q1 (.ofMul u1)) (h2 : GtRel P p 2800 q2 (.ofMul u2)) (h3 : GtRel P p 2800 q3 (.ofMul u3))
    {s0 s1 s2 s3 : Limbs C} {E0 E1 E2 E3 : Nat} (r0 : Rep P.b P.n s0 E0) (r1 : Rep P.b P.n s1 E1) (r2 : Rep P.b P.n s2 E2) (r3 : Rep P.b P.n s3 E3)
    (b0 : E0 + 1 < 2 ^ (P.b * P.n)) (b1 : E1 < 2 ^ (P.b * P.n)) (b2 : E2 < 2 ^ (P.b * P.n)) (b3 : E3 < 2 ^ (P.b * P.n)) :
    ∃ r, Gt.pow4 P q0 q1 q2 q3 s0 s1 s2 s3 = some r ∧ Canon12 P p r (v0 ^ E0 * v1 ^ E1 * v2 ^ E2 * v3 ^ E3) := by
  subst z0 z1 z2 z3
  have hn : ∀ {s : Limbs C} {E : Nat}, Rep P.b P.n s E → E < 2 ^ (P.b * P.n) → Rep P.b P.n (Big.norm P.b s) E := fun {s E} hs hE => by
    have hi : (E : Int) < 2 ^ (P.b * P.n) := by exact_mod_cast hE
    rw [Ecp.rep_norm h.arith.ok (Nat.lt_of_lt_of_le Nat.two_pos h.arith.hn) hs (Int.natCast_nonneg _) hi]
    exact hs
  obtain ⟨r, k1, k2⟩ := pow4_ok h t h0 (gt_low h h1) (gt_low h h2) (gt_low h h3) (hn r0 (Nat.lt_of_succ_lt b0)) (hn r1 b1) (hn r2 b2) (hn r3 b3) b0 b1 b2 b3
  rw [four_val] at k2
  exact ⟨r, k1, k2⟩

theorem pow4Ok_of (h : TowerOk K.pair.rom.P K.pair.rom.p) (t : TowerPrime K.pair.rom.p) : Pow4Ok K := by
  intro q0 q1 q2 q3 v0 v1 v2 v3 h0 h1 h2 h3 e0 e1 e2 e3 E0 E1 E2 E3 r0 r1 r2 r3
  obtain ⟨u0, g0, z0⟩ := gtRel_of h0.1 h0.2.1 h0.2.2
  obtain ⟨u1, g1, z1⟩ := gtRel_of h1.1 h1.2.1 h1.2.2
  obtain ⟨u2, g2, z2⟩ := gtRel_of h2.1 h2.2.1 h2.2.2
  obtain ⟨u3, g3, z3⟩ := gtRel_of h3.1 h3.2.1 h3.2.2
  exact pow4_val h t z0 z1 z2 z3 g0 g1 g2 g3 r0.1 r1.1 r2.1 r3.1 r0.2 (Nat.lt_of_succ_lt r1.2) (Nat.lt_of_succ_lt r2.2) (Nat.lt_of_succ_lt r3.2)

/-! ### C78: `FP12::pinpow` -/

/-- What C78 says about one ROM file: `pinpow` raises to every `i32` exponent that fits the stated number of bits, 0 included. -/
def PinpowOk {C : Nat} (K : GlsRom C) [Fact K.pair.rom.p.Prime] : Prop :=
  ∀ (x : Fp12 C) (v : F12 K.pair.rom.p), Std12 K.pair.rom.P K.pair.rom.p 2800 x v → v ^ (K.pair.rom.p ^ 4 - K.pair.rom.p ^ 2 + 1) = 1 →
    ∀ (E bts : Nat), E < 2 ^ 31 → E < 2 ^ bts → bts ≤ 32 → Std12 K.pair.rom.P K.pair.rom.p 2800 (Gt.pinpow K.pair.rom.P x (BitVec.ofNat 32 E) bts) (v ^ E)

theorem pinpowOk_of (h : TowerOk K.pair.rom.P K.pair.rom.p) (t : TowerPrime K.pair.rom.p) : PinpowOk K := by
  intro x v hx hv E bts hE hb _
  obtain ⟨u, hu, rfl⟩ := Cyc.of_val hv
  have := pinpow_ok h t hu hx hE hb
  rwa [Units.val_pow_eq_pow_val] at this

/-! ### C79: `pair::gtpow` -/

/-- What C79 says about one ROM file: `gtpow` raises every element of the target group (`v^r = 1`) to every power up to the group order. -/
def GtpowOk {C : Nat} (K : GlsRom C) [Fact K.pair.rom.p.Prime] : Prop :=
  ∀ (d : Fp12 C) (v : F12 K.pair.rom.p), Std12 K.pair.rom.P K.pair.rom.p 63 d v → d.stype < 2 ^ 64 → v ^ rN K.pair = 1 →
    ∀ (e : Limbs C) (E : Nat), Rep K.pair.rom.P.b K.pair.rom.P.n e E → E ≤ rN K.pair →
      ∃ r, Gt.gtpow K d e = some r ∧ Canon12 K.pair.rom.P K.pair.rom.p r (v ^ E)

theorem gtpowOk_of {lam : Int} (hf : PairFacts K lam) (hb : fexpB K = true) : GtpowOk K := by
  intro d v hd hs hv e E he hE
  have hr := hf.prime.pos
  have h1 : v * v ^ (rN K.pair - 1) = 1 := by rw [← pow_succ', Nat.sub_add_cancel hr]; exact hv
  set u : (F12 K.pair.rom.p)ˣ := ⟨v, v ^ (rN K.pair - 1), h1, by rw [mul_comm]; exact h1⟩
  have hu : u ^ rN K.pair = 1 := Units.ext (by rw [Units.val_pow_eq_pow_val]; exact hv)
  obtain ⟨r, r1, r2⟩ := gtpow_ok hf.g1.gls hf.tw.tower hf.pr (std2_iff.2 hf.fr.rel) hb (u := u) hd hs hu he hE
  exact ⟨r, r1, by rwa [Units.val_pow_eq_pow_val] at r2⟩

/-! ### C80, C81: `pair::fexp` -/

/-- What C80 says about one ROM file: `fexp` never fails on a nonzero element, and raises it to `c (p^12 - 1) / r`, with `c = 1` for the BN curves and
`c = 3` for the BLS curves. -/
def FexpOk {C : Nat} (K : GlsRom C) [Fact K.pair.rom.p.Prime] : Prop :=
  ∀ (m : Fp12 C) (v : F12 K.pair.rom.p), Std12 K.pair.rom.P K.pair.rom.p 32767 m v → v ≠ 0 →
    ∃ r, Gt.fexp K m = some r ∧ Canon12 K.pair.rom.P K.pair.rom.p r (v ^ ((if K.bn then 1 else 3) * ((K.pair.rom.p ^ 12 - 1) / rN K.pair)))

theorem fexpOk_of {lam : Int} (hf : PairFacts K lam) (hb : fexpB K = true) : FexpOk K := by
  intro m v hm hv
  obtain ⟨w, hw⟩ := C51_field12 hf.pr v hv
  obtain ⟨r, r1, r2⟩ := fexp_ok hf.tw.tower hf.pr (std2_iff.2 hf.fr.rel) hb (u := ⟨v, w, hw, by rw [mul_comm]; exact hw⟩) hm
  refine ⟨r, r1, ?_⟩
  rw [Units.val_pow_eq_pow_val] at r2
  exact r2

/-- What C81 says about one ROM file. `FexpOk` gives the value; this is what the callers use:
the result lies in the group of order `r`; it is 1 exactly when the reduced value `v^((p^12-1)/r)` is 1; the final exponentiation of a product is the product;
factors from the subfield of degree 6 disappear; and `gtpow` of the result raises to that power. -/
def FexpGroup {C : Nat} (K : GlsRom C) [Fact K.pair.rom.p.Prime] : Prop :=
  ∃ φ : F12 K.pair.rom.p → F12 K.pair.rom.p,
    (∀ (m : Fp12 C) (v : F12 K.pair.rom.p), Std12 K.pair.rom.P K.pair.rom.p 32767 m v → v ≠ 0 →
      ∃ r, Gt.fexp K m = some r ∧ Canon12 K.pair.rom.P K.pair.rom.p r (φ v) ∧ (Fp12.isunity K.pair.rom.P r = true ↔ v ^ ((K.pair.rom.p ^ 12 - 1) / rN K.pair) = 1) ∧
        ∀ (e : Limbs C) (E : Nat), Rep K.pair.rom.P.b K.pair.rom.P.n e E → E ≤ rN K.pair →
          ∃ s, Gt.gtpow K r e = some s ∧ Canon12 K.pair.rom.P K.pair.rom.p s (φ v ^ E)) ∧
    (∀ v, v ≠ 0 → φ v ^ rN K.pair = 1) ∧ (∀ v w, φ (v * w) = φ v * φ w) ∧ (∀ v, v ≠ 0 → v ^ (K.pair.rom.p ^ 6) = v → φ v = 1) ∧
    ∃ v, v ≠ 0 ∧ φ v ≠ 1

theorem fexpGroup_of {lam : Int} (hf : PairFacts K lam) (hb : fexpB K = true) (h3 : 3 < rN K.pair) : FexpGroup K := by
  have hdv : rN K.pair ∣ K.pair.rom.p ^ 4 - K.pair.rom.p ^ 2 + 1 := by
    unfold fexpB at hb
    simp only [Bool.and_eq_true, decide_eq_true_eq] at hb
    exact Nat.dvd_of_mod_eq_zero hb.1.2
  have hr := hf.prime
  have e1 := factor12 (p := K.pair.rom.p) hp.out.pos
  have e2 : (K.pair.rom.p ^ 12 - 1) / rN K.pair = ((K.pair.rom.p ^ 6 - 1) * (K.pair.rom.p ^ 2 + 1)) * ((K.pair.rom.p ^ 4 - K.pair.rom.p ^ 2 + 1) / rN K.pair) := by
    rw [e1, Nat.mul_div_assoc _ hdv]
  have e3 : (K.pair.rom.p ^ 12 - 1) / rN K.pair * rN K.pair = K.pair.rom.p ^ 12 - 1 := Nat.div_mul_cancel (by rw [e1]; exact Dvd.dvd.mul_left hdv _)
  have hp6 : 1 ≤ K.pair.rom.p ^ 6 := Nat.one_le_pow _ _ hp.out.pos
  have hp12 : 1 ≤ K.pair.rom.p ^ 12 := Nat.one_le_pow _ _ hp.out.pos
  have p1 := hp.out.one_lt
  have full : ∀ v : F12 K.pair.rom.p, v ≠ 0 → v ^ (K.pair.rom.p ^ 12 - 1) = 1 := by
    intro v hv
    obtain ⟨w, hw⟩ := C51_field12 hf.pr v hv
    have := pow12 hf.pr (⟨v, w, hw, by rw [mul_comm]; exact hw⟩ : (F12 K.pair.rom.p)ˣ)
    have := congrArg Units.val this
    rw [Units.val_pow_eq_pow_val] at this
    exact pow_pred_one hw hp12 this
  set c : Nat := if K.bn then 1 else 3 with hc
  set D := (K.pair.rom.p ^ 12 - 1) / rN K.pair with hD
  have cop : Nat.Coprime c (rN K.pair) := by
    rw [hc]
    split
    · exact Nat.coprime_one_left _
    · exact (Nat.coprime_primes Nat.prime_three hr).2 (by omega)
  have ord : ∀ v : F12 K.pair.rom.p, v ≠ 0 → (v ^ D) ^ rN K.pair = 1 := fun v hv => by rw [← pow_mul, e3]; exact full v hv
  have one_iff : ∀ v : F12 K.pair.rom.p, v ≠ 0 → (v ^ (c * D) = 1 ↔ v ^ D = 1) := by
    intro v hv
    constructor
    · intro h1
      rw [mul_comm, pow_mul] at h1
      have := pow_gcd_eq_one.2 ⟨h1, ord v hv⟩
      rwa [Nat.Coprime.gcd_eq_one cop, pow_one] at this
    · intro h1; rw [mul_comm, pow_mul, h1, one_pow]
  refine ⟨fun v => v ^ (c * D), ?_, ?_, ?_, ?_, ?_⟩
  · intro m v hm hv
    obtain ⟨r, r1, r2⟩ := fexpOk_of hf hb m v hm hv
    refine ⟨r, r1, r2, (r2.1.unity hf.tw.tower).trans (one_iff v hv), fun e E he hE => ?_⟩
    refine gtpowOk_of hf hb r _ (r2.1.mono hf.tw.tower (by norm_num)) (fexp_type r1) ?_ e E he hE
    rw [mul_comm, pow_mul, ← pow_mul, mul_comm, pow_mul, ord v hv, one_pow]
  · intro v hv
    show (v ^ (c * D)) ^ _ = 1
    rw [mul_comm, pow_mul, ← pow_mul, mul_comm, pow_mul, ord v hv, one_pow]
  · intro v w; exact mul_pow v w _
  · intro v hv h6
    show v ^ (c * D) = 1
    have : v ^ (K.pair.rom.p ^ 6 - 1) = 1 := by
      obtain ⟨w, hw⟩ := C51_field12 hf.pr v hv
      exact pow_pred_one hw hp6 h6
    rw [e2, mul_comm c, mul_assoc, mul_assoc, pow_mul, this, one_pow]
  · have hp2 : 2 ^ 12 ≤ K.pair.rom.p ^ 12 := Nat.pow_le_pow_left p1 12
    obtain ⟨v, hv, h1⟩ := exists_pow_ne hf.pr (d := D) (by
      by_contra h0
      have : D = 0 := by omega
      rw [this, zero_mul] at e3
      omega) (by
      rw [← e3]
      have : 0 < D := by
        by_contra h0
        have : D = 0 := by omega
        rw [this, zero_mul] at e3
        omega
      calc D = D * 1 := (mul_one D).symm
        _ < D * rN K.pair := Nat.mul_lt_mul_of_pos_left (by omega) this)
    exact ⟨v, hv, fun h2 => h1 ((one_iff v hv).1 h2)⟩

/-! ### C82: the encoding -/

/-- What C82 says about one ROM file. `enc12` (Spec/Gt.lean) is the concatenation of the twelve coefficients, most significant byte first.
1. `tobytes` of a fully reduced element writes the encoding and leaves the rest of the buffer alone.
2. `frombytes` of an encoding (and anything behind it) gives the element back, with a tag that promises nothing.
3. `frombytes` then `tobytes` gives the same bytes back, if every block is a number below the modulus.
4. Both refuse (panic on) less than twelve blocks. -/
def Codec12Ok {C : Nat} (K : GlsRom C) [Fact K.pair.rom.p.Prime] : Prop :=
  let mb := K.pair.rom.modbytes
  (∀ (x : Fp12 C) (v : F12 K.pair.rom.p) (buf : List (BitVec 8)), Canon12 K.pair.rom.P K.pair.rom.p x v → 12 * mb ≤ buf.length →
    Gt.tobytes K.pair x buf = some (enc12 mb v ++ buf.drop (12 * mb))) ∧
  (∀ (v : F12 K.pair.rom.p) (rest : List (BitVec 8)), ∃ x, Gt.frombytes K.pair (enc12 mb v ++ rest) = some x ∧ Std12 K.pair.rom.P K.pair.rom.p 2 x v ∧ x.stype = 4) ∧
  (∀ w buf : List (BitVec 8), 12 * mb ≤ w.length → 12 * mb ≤ buf.length → (∀ i < 12, beNat ((w.drop (i * mb)).take mb) < K.pair.rom.p) →
    ∃ x, Gt.frombytes K.pair w = some x ∧ Gt.tobytes K.pair x buf = some (w.take (12 * mb) ++ buf.drop (12 * mb))) ∧
  ∀ w : List (BitVec 8), w.length < 12 * mb → Gt.frombytes K.pair w = none ∧ ∀ x, Gt.tobytes K.pair x w = none

theorem codec12Ok_of (h : TowerOk K.pair.rom.P K.pair.rom.p) (hb : bytesB K.pair = true) : Codec12Ok K :=
  ⟨fun _ _ _ hx hl => tobytes_ok (K := K.pair) h hx.1 (Tidy12.of h hx) hl,
    fun v rest => by
      obtain ⟨x, x1, x2, _, x4⟩ := from_enc12 (K := K.pair) h hb v rest
      exact ⟨x, x1, x2, x4⟩,
    fun _ _ hw hl hlt => enc_from (K := K.pair) h hb hw hl hlt, fun _ hw => ⟨frombytes_short hw, fun _ => tobytes_short hw⟩⟩

/-- two elements with the same encoding are equal -/
theorem enc12_inj (hb : bytesB K.pair = true) {v w : F12 K.pair.rom.p} (he : enc12 K.pair.rom.modbytes v = enc12 K.pair.rom.modbytes w) : v = w := by
  rw [← ofNats_coeffs (K := K.pair) v, ← ofNats_coeffs (K := K.pair) w]
  have b : ∀ i, i < 12 → (coeffs v).getD i 0 = (coeffs w).getD i 0 := fun i hi => by
    rw [← (enc12_blocks (K := K.pair) hb v [] hi).1, ← (enc12_blocks (K := K.pair) hb w [] hi).1, he]
  unfold ofNats
  simp only [b 0 (by norm_num), b 1 (by norm_num), b 2 (by norm_num), b 3 (by norm_num), b 4 (by norm_num), b 5 (by norm_num), b 6 (by norm_num), b 7 (by norm_num),
      b 8 (by norm_num), b 9 (by norm_num), b 10 (by norm_num), b 11 (by norm_num)]

/-- The hypotheses of C76-C80 can be met: some element of the target group other than 1 is held by a fully reduced `FP12`. -/
theorem gt_inhabited {lam : Int} (hf : PairFacts K lam) (hb : fexpB K = true) (h3 : 3 < rN K.pair) (hy : bytesB K.pair = true) :
    ∃ (x : Fp12 C) (v : F12 K.pair.rom.p), Canon12 K.pair.rom.P K.pair.rom.p x v ∧ x.stype < 2 ^ 64 ∧ v ≠ 1 ∧ v ≠ 0 ∧ v ^ rN K.pair = 1 ∧
      v ^ (K.pair.rom.p ^ 4 - K.pair.rom.p ^ 2 + 1) = 1 := by
  obtain ⟨φ, f1, f2, f3, f4, v, hv, hne⟩ := fexpGroup_of hf hb h3
  obtain ⟨m, m1, m2, m3, m4⟩ := from_enc12 (K := K.pair) hf.tw.tower hy v []
  obtain ⟨r, r1, r2, _, _⟩ := f1 m v (m2.mono hf.tw.tower (by norm_num)) hv
  have ho := f2 v hv
  refine ⟨r, φ v, r2, fexp_type r1, hne, ?_, ho, ?_⟩
  · intro h0
    rw [h0, zero_pow (by omega)] at ho
    exact zero_ne_one ho
  · unfold fexpB at hb
    simp only [Bool.and_eq_true, decide_eq_true_eq] at hb
    obtain ⟨k, hk⟩ := Nat.dvd_of_mod_eq_zero hb.1.2
    rw [hk, pow_mul, ho, one_pow]
end

/-- C76, every bundled curve of embedding degree 12, 64-bit -/
theorem C76_pow64 (K : GlsRom 64) (hK : K ∈ gls64) : ∃ (_ : Fact K.pair.rom.p.Prime), (rN K.pair).Prime ∧ PowOk K := by
  obtain ⟨hp, h4, lam, h⟩ := facts64 K hK
  have hb := List.all_eq_true.1 fexpB64 K hK
  have h3 := of_decide_eq_true (List.all_eq_true.1 gt3.1 K hK)
  exact ⟨hp, h.prime, powOk_of h.tw.tower h.pr hb⟩
/-- C76, 32-bit; the representation must have 19 bits to spare -/
theorem C76_pow32 (K : GlsRom 32) (hK : K ∈ gls32) (hh : 2 ^ 19 * K.pair.rom.p ≤ 2 ^ (K.pair.rom.P.b * K.pair.rom.P.n)) :
    ∃ (_ : Fact K.pair.rom.p.Prime), (rN K.pair).Prime ∧ PowOk K := by
  obtain ⟨hp, h4, lam, h⟩ := facts32 K hK hh
  have hb := List.all_eq_true.1 fexpB32 K hK
  have h3 := of_decide_eq_true (List.all_eq_true.1 gt3.2 K hK)
  exact ⟨hp, h.prime, powOk_of h.tw.tower h.pr hb⟩

/-- C77, every bundled curve of embedding degree 12, 64-bit -/
theorem C77_pow4_64 (K : GlsRom 64) (hK : K ∈ gls64) : ∃ (_ : Fact K.pair.rom.p.Prime), (rN K.pair).Prime ∧ Pow4Ok K := by
  obtain ⟨hp, h4, lam, h⟩ := facts64 K hK
  have hb := List.all_eq_true.1 fexpB64 K hK
  have h3 := of_decide_eq_true (List.all_eq_true.1 gt3.1 K hK)
  exact ⟨hp, h.prime, pow4Ok_of h.tw.tower h.pr⟩
/-- C77, 32-bit; the representation must have 19 bits to spare -/
theorem C77_pow4_32 (K : GlsRom 32) (hK : K ∈ gls32) (hh : 2 ^ 19 * K.pair.rom.p ≤ 2 ^ (K.pair.rom.P.b * K.pair.rom.P.n)) :
    ∃ (_ : Fact K.pair.rom.p.Prime), (rN K.pair).Prime ∧ Pow4Ok K := by
  obtain ⟨hp, h4, lam, h⟩ := facts32 K hK hh
  have hb := List.all_eq_true.1 fexpB32 K hK
  have h3 := of_decide_eq_true (List.all_eq_true.1 gt3.2 K hK)
  exact ⟨hp, h.prime, pow4Ok_of h.tw.tower h.pr⟩

/-- C78, every bundled curve of embedding degree 12, 64-bit -/
theorem C78_pinpow64 (K : GlsRom 64) (hK : K ∈ gls64) : ∃ (_ : Fact K.pair.rom.p.Prime), (rN K.pair).Prime ∧ PinpowOk K := by
  obtain ⟨hp, h4, lam, h⟩ := facts64 K hK
  have hb := List.all_eq_true.1 fexpB64 K hK
  have h3 := of_decide_eq_true (List.all_eq_true.1 gt3.1 K hK)
  exact ⟨hp, h.prime, pinpowOk_of h.tw.tower h.pr⟩
/-- C78, 32-bit; the representation must have 19 bits to spare -/
theorem C78_pinpow32 (K : GlsRom 32) (hK : K ∈ gls32) (hh : 2 ^ 19 * K.pair.rom.p ≤ 2 ^ (K.pair.rom.P.b * K.pair.rom.P.n)) :
    ∃ (_ : Fact K.pair.rom.p.Prime), (rN K.pair).Prime ∧ PinpowOk K := by
  obtain ⟨hp, h4, lam, h⟩ := facts32 K hK hh
  have hb := List.all_eq_true.1 fexpB32 K hK
  have h3 := of_decide_eq_true (List.all_eq_true.1 gt3.2 K hK)
  exact ⟨hp, h.prime, pinpowOk_of h.tw.tower h.pr⟩

/-- C79, every bundled curve of embedding degree 12, 64-bit -/
theorem C79_gtpow64 (K : GlsRom 64) (hK : K ∈ gls64) : ∃ (_ : Fact K.pair.rom.p.Prime), (rN K.pair).Prime ∧ GtpowOk K := by
  obtain ⟨hp, h4, lam, h⟩ := facts64 K hK
  have hb := List.all_eq_true.1 fexpB64 K hK
  have h3 := of_decide_eq_true (List.all_eq_true.1 gt3.1 K hK)
  exact ⟨hp, h.prime, gtpowOk_of h hb⟩
/-- C79, 32-bit; the representation must have 19 bits to spare -/
theorem C79_gtpow32 (K : GlsRom 32) (hK : K ∈ gls32) (hh : 2 ^ 19 * K.pair.rom.p ≤ 2 ^ (K.pair.rom.P.b * K.pair.rom.P.n)) :
    ∃ (_ : Fact K.pair.rom.p.Prime), (rN K.pair).Prime ∧ GtpowOk K := by
  obtain ⟨hp, h4, lam, h⟩ := facts32 K hK hh
  have hb := List.all_eq_true.1 fexpB32 K hK
  have h3 := of_decide_eq_true (List.all_eq_true.1 gt3.2 K hK)
  exact ⟨hp, h.prime, gtpowOk_of h hb⟩

/-- C80, every bundled curve of embedding degree 12, 64-bit -/
theorem C80_fexp64 (K : GlsRom 64) (hK : K ∈ gls64) : ∃ (_ : Fact K.pair.rom.p.Prime), (rN K.pair).Prime ∧ FexpOk K := by
  obtain ⟨hp, h4, lam, h⟩ := facts64 K hK
  have hb := List.all_eq_true.1 fexpB64 K hK
  have h3 := of_decide_eq_true (List.all_eq_true.1 gt3.1 K hK)
  exact ⟨hp, h.prime, fexpOk_of h hb⟩
/-- C80, 32-bit; the representation must have 19 bits to spare -/
theorem C80_fexp32 (K : GlsRom 32) (hK : K ∈ gls32) (hh : 2 ^ 19 * K.pair.rom.p ≤ 2 ^ (K.pair.rom.P.b * K.pair.rom.P.n)) :
    ∃ (_ : Fact K.pair.rom.p.Prime), (rN K.pair).Prime ∧ FexpOk K := by
  obtain ⟨hp, h4, lam, h⟩ := facts32 K hK hh
  have hb := List.all_eq_true.1 fexpB32 K hK
  have h3 := of_decide_eq_true (List.all_eq_true.1 gt3.2 K hK)
  exact ⟨hp, h.prime, fexpOk_of h hb⟩

/-- C81, every bundled curve of embedding degree 12, 64-bit -/
theorem C81_fexp_group64 (K : GlsRom 64) (hK : K ∈ gls64) : ∃ (_ : Fact K.pair.rom.p.Prime), (rN K.pair).Prime ∧ FexpGroup K := by
  obtain ⟨hp, h4, lam, h⟩ := facts64 K hK
  have hb := List.all_eq_true.1 fexpB64 K hK
  have h3 := of_decide_eq_true (List.all_eq_true.1 gt3.1 K hK)
  exact ⟨hp, h.prime, fexpGroup_of h hb h3⟩
/-- C81, 32-bit; the representation must have 19 bits to spare -/
theorem C81_fexp_group32 (K : GlsRom 32) (hK : K ∈ gls32) (hh : 2 ^ 19 * K.pair.rom.p ≤ 2 ^ (K.pair.rom.P.b * K.pair.rom.P.n)) :
    ∃ (_ : Fact K.pair.rom.p.Prime), (rN K.pair).Prime ∧ FexpGroup K := by
  obtain ⟨hp, h4, lam, h⟩ := facts32 K hK hh
  have hb := List.all_eq_true.1 fexpB32 K hK
  have h3 := of_decide_eq_true (List.all_eq_true.1 gt3.2 K hK)
  exact ⟨hp, h.prime, fexpGroup_of h hb h3⟩

/-- C82, every bundled curve of embedding degree 12, 64-bit; and the encoding is injective -/
theorem C82_codec64 (K : GlsRom 64) (hK : K ∈ gls64) : ∃ (_ : Fact K.pair.rom.p.Prime), Codec12Ok K ∧
    ∀ v w : F12 K.pair.rom.p, enc12 K.pair.rom.modbytes v = enc12 K.pair.rom.modbytes w → v = w := by
  obtain ⟨hp, h4, lam, h⟩ := facts64 K hK
  have hb := List.all_eq_true.1 bytesB64 K hK
  exact ⟨hp, codec12Ok_of h.tw.tower hb, fun _ _ he => enc12_inj hb he⟩
/-- C82, 32-bit; the representation must have 19 bits to spare -/
theorem C82_codec32 (K : GlsRom 32) (hK : K ∈ gls32) (hh : 2 ^ 19 * K.pair.rom.p ≤ 2 ^ (K.pair.rom.P.b * K.pair.rom.P.n)) :
    ∃ (_ : Fact K.pair.rom.p.Prime), Codec12Ok K ∧ ∀ v w : F12 K.pair.rom.p, enc12 K.pair.rom.modbytes v = enc12 K.pair.rom.modbytes w → v = w := by
  obtain ⟨hp, h4, lam, h⟩ := facts32 K hK hh
  have hb := List.all_eq_true.1 bytesB32 K hK
  exact ⟨hp, codec12Ok_of h.tw.tower hb, fun _ _ he => enc12_inj hb he⟩

/-! ### the hypotheses can be met -/

set_option exponentiation.threshold 600 in
example : gls64.length = 7 ∧ (gls32.filter fun K => decide (2 ^ 19 * K.pair.rom.p ≤ 2 ^ (K.pair.rom.P.b * K.pair.rom.P.n))).length = 5 := by decide +kernel

/-- every curve has a fully reduced element of the target group other than 1: it meets what C76 to C80 and C82 assume about elements
(bounds 1 ≤ 63 ≤ 2800 on the counters) -/
example (K : GlsRom 64) (hK : K ∈ gls64) : ∃ (_ : Fact K.pair.rom.p.Prime) (x : Fp12 64) (v : F12 K.pair.rom.p), Canon12 K.pair.rom.P K.pair.rom.p x v ∧ x.stype < 2 ^ 64 ∧
    v ≠ 1 ∧ v ≠ 0 ∧ v ^ rN K.pair = 1 ∧ v ^ (K.pair.rom.p ^ 4 - K.pair.rom.p ^ 2 + 1) = 1 := by
  obtain ⟨hp, h4, lam, h⟩ := facts64 K hK
  exact ⟨hp, gt_inhabited h (List.all_eq_true.1 fexpB64 K hK) (of_decide_eq_true (List.all_eq_true.1 gt3.1 K hK)) (List.all_eq_true.1 bytesB64 K hK)⟩
example (K : GlsRom 32) (hK : K ∈ gls32) (hh : 2 ^ 19 * K.pair.rom.p ≤ 2 ^ (K.pair.rom.P.b * K.pair.rom.P.n)) : ∃ (_ : Fact K.pair.rom.p.Prime) (x : Fp12 32) (v : F12 K.pair.rom.p),
    Canon12 K.pair.rom.P K.pair.rom.p x v ∧ x.stype < 2 ^ 64 ∧ v ≠ 1 ∧ v ≠ 0 ∧ v ^ rN K.pair = 1 ∧ v ^ (K.pair.rom.p ^ 4 - K.pair.rom.p ^ 2 + 1) = 1 := by
  obtain ⟨hp, h4, lam, h⟩ := facts32 K hK hh
  exact ⟨hp, gt_inhabited h (List.all_eq_true.1 fexpB32 K hK) (of_decide_eq_true (List.all_eq_true.1 gt3.2 K hK)) (List.all_eq_true.1 bytesB32 K hK)⟩

/-- exponents: on every curve the parameter of the family is an exponent `pow` accepts; it is also below the group order -/
example : gls64.all (fun K => repB K.pair.rom.P K.pair.rom.p K.pair.bnx && decide (0 < nv K.pair.rom.P.b K.pair.bnx) &&
    decide (3 * nv K.pair.rom.P.b K.pair.bnx < 2 ^ (K.pair.rom.P.b * K.pair.rom.P.n)) && decide (nv K.pair.rom.P.b K.pair.bnx ≤ rN K.pair)) = true := by decide +kernel

end Verif.Props
