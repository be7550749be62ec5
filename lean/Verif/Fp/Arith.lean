import Verif.Fp.Fpow
/- Plain (pseudo-Mersenne) representations: constructors, `imul`, `inverse`, `sqrt`; common interface. -/
namespace Verif.Fp
open Verif.Big Spec

variable {C : Nat} {P : Params C} {p : Nat} [hp : Fact p.Prime]

theorem bigB_le (h : Consts P p) : (2 : Int) ^ P.b ≤ p := by
  have h1 : (2 : Int) ^ (P.modbits - 1) ≤ p := by exact_mod_cast h.lower
  have h2 := h.cpow; have h3 := h.bits; have hn := h.hn
  have h6 : P.b * 1 ≤ P.b * (P.n - 1) := Nat.mul_le_mul_left _ (by omega)
  exact le_trans (pow_le_pow_right₀ (by norm_num) (by omega)) h1

theorem newInt_plain (h : Consts P p) (hpl : P.plain = true) (c : Nat) (hc : (c : Int) < 2 ^ P.b) :
    Normed P p (newInt P c) ∧ residue P p (newInt P c) = c := by
  have := nres_plain h hpl (newInt_rep' h c hc) (by positivity) (lt_of_lt_of_le hc (bigB_le h))
  exact ⟨this.1, by rw [newInt, this.2]; simp⟩

theorem one_plain (h : Consts P p) (hpl : P.plain = true) : Normed P p (one P) ∧ residue P p (one P) = 1 := by
  have hn := h.hn
  have hb := h.ok.hb
  have h1 : (1 : Int) < 2 ^ P.b := one_lt_pow₀ (by norm_num) (by omega)
  have hr := newInt_rep (C := C) (n := P.n) h.ok (by omega) 1 (by norm_num) h1
  have h2 := h.two_lt
  have := nres_plain h hpl hr (by norm_num) (by omega)
  exact ⟨this.1, by rw [one, this.2]; simp⟩

/-- `pxmul` -/
theorem pxmul_spec (h : Consts P p) {a : Fp C} (ha : Normed P p a) (c : Nat) (hcn : (c : Int) < 2 ^ P.b) :
    (pxmul P.b a.x c).length = 2 * P.n ∧ Digits P.b (pxmul P.b a.x c) ∧ limbsVal P.b (pxmul P.b a.x c) = c * limbsVal P.b a.x := by
  have hw := ofInt_nat_toInt h c hcn
  have hn := h.hn
  have hpb := two_pow_pos' P.b
  obtain ⟨m1, m2, m3, m4⟩ := pmulGo_spec h.ok (BitVec.ofInt C (c : Int)) ⟨by rw [hw]; positivity, by rw [hw]; exact hcn⟩ a.x ha.digits 0
    (by simp)
  rw [hw, ha.valid.len] at m4
  have h00 : (0 : BitVec C).toInt = 0 := by simp
  rw [h00, add_zero] at m4
  have hz : ∀ m, limbsVal P.b (List.replicate m (0 : BitVec C)) = 0 := by
    intro m
    induction m with
    | zero => simp [limbsVal]
    | succ m ih => rw [List.replicate_succ, limbsVal, ih, h00]; ring
  unfold pxmul
  dsimp only
  refine ⟨by rw [List.length_append, List.length_cons, List.length_replicate, m1, ha.valid.len]; omega, ?_, ?_⟩
  · apply m2.append
    intro z hz
    rcases List.mem_cons.1 hz with rfl | hz
    · exact m3
    · rw [List.eq_of_mem_replicate hz, h00]; omega
  · rw [val_append, limbsVal, hz, m1, ha.valid.len, ← m4]; ring

theorem imulNat_plain (h : FieldOk P p) (hpl : P.plain = true) {a : Fp C} (ha : Normed P p a) (c : Nat) (hcn : (c : Int) < 2 ^ P.b) :
    Normed P p { x := modulo P (pxmul P.b a.x c), xes := 2 } ∧ residue P p { x := modulo P (pxmul P.b a.x c), xes := 2 } = residue P p a * (c : ZMod p) := by
  have hpz : (0 : Int) < p := by exact_mod_cast h.ppos
  obtain ⟨l1, l2, l3⟩ := pxmul_spec h.toConsts ha c hcn
  have hlt : limbsVal P.b (pxmul P.b a.x c) < 2 ^ P.sh * (p * p) := by
    rw [l3]
    have h1 : limbsVal P.b a.x < 2 ^ P.sh * p := by
      refine lt_of_lt_of_le ha.valid.lt (mul_le_mul_of_nonneg_right ?_ hpz.le)
      have := lt_of_le_of_lt ha.valid.xes2 (fexcess_lt P)
      exact_mod_cast this.le
    have h2 : (c : Int) < p := lt_of_lt_of_le hcn (bigB_le h.toConsts)
    have h3 := ha.valid.nonneg
    nlinarith [Int.natCast_nonneg c]
  obtain ⟨d1, d2, d3, q, d4⟩ := h.modulo_ok _ l1 l2 hlt
  have hfac : P.factor = 1 := by simp [Params.factor, hpl]
  rw [hfac, mul_one] at d4
  have hge := fexcess_ge h.toConsts
  refine ⟨Normed.of_rep h.toConsts (X := limbsVal P.b (modulo P (pxmul P.b a.x c))) ⟨d1, d2.normal, rfl⟩ d2.bounds.1 (by push_cast; exact d3)
    (by norm_num) (by show 2 ≤ _; omega), ?_⟩
  rw [residue_eq_iff h.toConsts]
  unfold residue
  simp only [hfac, d4, l3]
  push_cast
  simp [mul_comm]

theorem imul_plain (h : FieldOk P p) (hpl : P.plain = true) (hC64 : C ≤ 64) {a : Fp C} (ha : Normed P p a) (c : Int) (hc : |c| < 2 ^ P.b) :
    Normed P p (imul P a c) ∧ residue P p (imul P a c) = residue P p a * c := by
  have hnat : ((c.natAbs : Nat) : Int) = |c| := Int.natCast_natAbs c
  have hcn : ((c.natAbs : Nat) : Int) < 2 ^ P.b := by rw [hnat]; exact hc
  set r : Fp C := { x := modulo P (pxmul P.b a.x c.natAbs), xes := 2 } with hr
  have hrr : Normed P p r ∧ residue P p r = residue P p a * (c.natAbs : ZMod p) := imulNat_plain h hpl ha c.natAbs hcn
  have e : imul P a c = if c < 0 then norm P (neg P r) else r := by simp [imul, hpl, hr]
  rw [e]
  split_ifs with hneg
  · have hroom := room_one h.toConsts
    obtain ⟨n1, n2⟩ := neg_ok h.toConsts hC64 hrr.1.valid (hroom.mono (by omega))
    obtain ⟨m1, m2⟩ := norm_ok h.toConsts n1 (hroom.mono (by omega))
    refine ⟨m1, ?_⟩
    rw [m2, n2, hrr.2, show c = -(c.natAbs : Int) by omega]
    simp
  · refine ⟨hrr.1, ?_⟩
    rw [hrr.2]
    congr 1
    have : (c.natAbs : Int) = c := by omega
    rw [← this]; simp

theorem inverse_plain_on {s : Nat} (h : MulOn P p s) (hpl : P.plain = true) (he : PlainExp P p) {a : Fp C} (ha : Normed P p a) (hs : a.xes ≤ s) :
    Normed P p (inverse P a) ∧ residue P p (inverse P a) = (residue P p a)⁻¹ := by
  have hinv : ∀ n : Nat, n = p - 2 → ∀ v : ZMod p, v ^ n = v⁻¹ := by
    intro n hn v
    have h2 := h.toConsts.two_lt
    by_cases hz : v = 0
    · rw [hz, inv_zero, zero_pow (by omega)]
    · apply eq_inv_of_mul_eq_one_left
      rw [← pow_succ, show n + 1 = p - 1 by omega]
      exact ZMod.pow_card_sub_one_eq_one hz
  unfold PlainExp at he
  split_ifs at he with h5
  · obtain ⟨hp5, hx⟩ := he
    obtain ⟨f1, f2, f3⟩ := fpow_on h ha hs hx
    have e : inverse P a = mul P (mul P a (sqr P a)) (sqr P (sqr P (sqr P (fpow P a)))) := by simp [inverse, hpl, h5]
    obtain ⟨s1, s2⟩ := h.sqr_on _ ha hs
    obtain ⟨m1, m2⟩ := h.mul_on _ _ ha s1 hs h.two
    obtain ⟨t1, t2⟩ := h.sqr_on _ f1 f3
    obtain ⟨u1, u2⟩ := h.sqr_on _ t1 h.two
    obtain ⟨w1, w2⟩ := h.sqr_on _ u1 h.two
    obtain ⟨z1, z2⟩ := h.mul_on _ _ m1 w1 h.two h.two
    rw [e]
    refine ⟨z1, ?_⟩
    rw [z2, m2, s2, w2, u2, t2, f2, ← hinv (3 + 8 * ((p - 5) / 8)) (by omega)]
    rw [pow_add, pow_mul']
    ring
  · obtain ⟨hp5, hx⟩ := he
    obtain ⟨f1, f2, f3⟩ := fpow_on h ha hs hx
    have e : inverse P a = mul P a (sqr P (sqr P (fpow P a))) := by simp [inverse, hpl, h5]
    obtain ⟨t1, t2⟩ := h.sqr_on _ f1 f3
    obtain ⟨u1, u2⟩ := h.sqr_on _ t1 h.two
    obtain ⟨z1, z2⟩ := h.mul_on _ _ ha u1 hs h.two
    rw [e]
    refine ⟨z1, ?_⟩
    rw [z2, u2, t2, f2, ← hinv (1 + 4 * ((p - 3) / 4)) (by omega)]
    rw [pow_add, pow_mul']
    ring

theorem sqrt_plain_on {s : Nat} (h : MulOn P p s) (hpl : P.plain = true) (he : PlainExp P p) (h5 : P.mod8 ≠ 5) {k : Nat} {a : Fp C} (ha : Valid P p k a)
    (hk : Room P k) (hsq : IsSquare (residue P p a)) :
    Normed P p (sqrt P a) ∧ residue P p (sqrt P a) * residue P p (sqrt P a) = residue P p a := by
  unfold PlainExp at he
  rw [if_neg h5] at he
  obtain ⟨hp4, hx⟩ := he
  obtain ⟨q1, q2, q3, _⟩ := reduce_ok h.toConsts ha hk
  have hq : (reduce P a).xes ≤ s := by rw [q3]; have := h.two; omega
  obtain ⟨f1, f2, f3⟩ := fpow_on h q1 hq hx
  have e : sqrt P a = mul P (fpow P (reduce P a)) (reduce P a) := by simp [sqrt, hpl, h5]
  obtain ⟨z1, z2⟩ := h.mul_on _ _ f1 q1 f3 hq
  rw [e]
  refine ⟨z1, ?_⟩
  rw [z2, f2, q2]
  have h2 := h.toConsts.two_lt
  obtain ⟨s, hs⟩ := hsq
  rw [hs]
  by_cases hz : s = 0
  · subst hz; ring
  · have e : 2 * (2 * ((p - 3) / 4) + 1) = p - 1 := by omega
    have := ZMod.pow_card_sub_one_eq_one hz
    rw [← e] at this
    generalize (p - 3) / 4 = m at this
    calc (s * s) ^ m * (s * s) * ((s * s) ^ m * (s * s)) = s ^ (2 * (2 * m + 1)) * (s * s) := by
          rw [← pow_two s, ← pow_mul]; ring
      _ = s * s := by rw [this, one_mul]

theorem inverse_plain (h : FieldOk P p) (hpl : P.plain = true) (he : PlainExp P p) {a : Fp C} (ha : Normed P p a) :
    Normed P p (inverse P a) ∧ residue P p (inverse P a) = (residue P p a)⁻¹ :=
  inverse_plain_on (h.mulOn (a.xes + 2) (by omega)) hpl he ha (by omega)

theorem sqrt_plain (h : FieldOk P p) (hpl : P.plain = true) (he : PlainExp P p) (h5 : P.mod8 ≠ 5) {k : Nat} {a : Fp C} (ha : Valid P p k a)
    (hk : Room P k) (hsq : IsSquare (residue P p a)) :
    Normed P p (sqrt P a) ∧ residue P p (sqrt P a) * residue P p (sqrt P a) = residue P p a :=
  sqrt_plain_on (h.mulOn 2 le_rfl) hpl he h5 ha hk hsq

/-- What the operations of a ROM file's field need; provided by Montgomery and by pseudo-Mersenne constants. -/
structure Arith (P : Params C) (p : Nat) [Fact p.Prime] : Prop extends FieldOk P p where
  one_ok : Normed P p (one P) ∧ residue P p (one P) = 1
  newInt_ok : ∀ c : Nat, (c : Int) < 2 ^ P.b → Normed P p (newInt P c) ∧ residue P p (newInt P c) = c
  newBig_ok : ∀ (x : Limbs C) (X : Nat), Rep P.b P.n x X → X < p → Normed P p (newBig P x) ∧ residue P p (newBig P x) = X
  imul_ok : ∀ (a : Fp C) (c : Int), Normed P p a → c ≠ 0 → |c| < 2 ^ P.b → Normed P p (imul P a c) ∧ residue P p (imul P a c) = residue P p a * c
  inverse_ok : ∀ (k : Nat) (a : Fp C), Valid P p k a → Room P k → (P.plain = true → Normed P p a) →
    Normed P p (inverse P a) ∧ residue P p (inverse P a) = (residue P p a)⁻¹
  /-- conversion back, after a reduction -/
  redc_ok : ∀ a : Fp C, Normed P p a → limbsVal P.b a.x < p → Rep P.b P.n (redc P a) ((residue P p a).val : Int)
  /-- conversion there and back -/
  nres_redc : ∀ (x : Limbs C) (X : Nat), Rep P.b P.n x X → X < p → Rep P.b P.n (redc P (newBig P x)) X

/-- The same, with multiplication restricted to operands satisfying `okm`, and exponentiation and inversion to `okp`. -/
structure ArithOn (P : Params C) (p : Nat) [Fact p.Prime] (okm : Fp C → Fp C → Prop) (okp : Fp C → Prop) : Prop extends Consts P p where
  one_ok : Normed P p (one P) ∧ residue P p (one P) = 1
  newInt_ok : ∀ c : Nat, (c : Int) < 2 ^ P.b → Normed P p (newInt P c) ∧ residue P p (newInt P c) = c
  newBig_ok : ∀ (x : Limbs C) (X : Nat), Rep P.b P.n x X → X < p → Normed P p (newBig P x) ∧ residue P p (newBig P x) = X
  mul_ok : ∀ a c : Fp C, Valid P p 1 a → Valid P p 1 c → okm a c → Normed P p (mul P a c) ∧ residue P p (mul P a c) = residue P p a * residue P p c
  sqr_ok : ∀ a : Fp C, Valid P p 1 a → okm a a → Normed P p (sqr P a) ∧ residue P p (sqr P a) = residue P p a * residue P p a
  imul_ok : ∀ (a : Fp C) (c : Int), Normed P p a → c ≠ 0 → |c| < 2 ^ P.b → Normed P p (imul P a c) ∧ residue P p (imul P a c) = residue P p a * c
  pow_ok : ∀ (k : Nat) (a : Fp C) (e : Limbs C) (E : Nat), Valid P p k a → Room P k → okp a → Rep P.b P.n e E → (E : Int) < 2 ^ (P.b * P.n) →
    Normed P p (pow P a e) ∧ residue P p (pow P a e) = residue P p a ^ E
  inverse_ok : ∀ (k : Nat) (a : Fp C), Valid P p k a → Room P k → okp a → (P.plain = true → Normed P p a) →
    Normed P p (inverse P a) ∧ residue P p (inverse P a) = (residue P p a)⁻¹
  redc_ok : ∀ a : Fp C, Normed P p a → limbsVal P.b a.x < p → Rep P.b P.n (redc P a) ((residue P p a).val : Int)
  nres_redc : ∀ (x : Limbs C) (X : Nat), Rep P.b P.n x X → X < p → Rep P.b P.n (redc P (newBig P x)) X

theorem Arith.on (h : Arith P p) : ArithOn P p (fun _ _ => True) (fun _ => True) :=
  { h.toConsts with
    one_ok := h.one_ok, newInt_ok := h.newInt_ok, newBig_ok := h.newBig_ok, imul_ok := h.imul_ok, redc_ok := h.redc_ok, nres_redc := h.nres_redc
    mul_ok := fun _ _ h1 h2 _ => mul_ok' h.toFieldOk h1 h2
    sqr_ok := fun _ h1 _ => sqr_ok' h.toFieldOk h1
    pow_ok := fun _ _ _ _ h1 h2 _ h3 h4 => by obtain ⟨r1, r2, _⟩ := pow_ok h.toFieldOk h.one_ok h1 h2 h3 h4; exact ⟨r1, r2⟩
    inverse_ok := fun k a h1 h2 _ h3 => h.inverse_ok k a h1 h2 h3 }

theorem odd_of_prime (h : Consts P p) : p % 2 = 1 := by
  rcases hp.out.eq_two_or_odd with e | e
  · have := h.two_lt; omega
  · exact e

/-- `nres` of zero is stored as zero -/
theorem nres_zero (h : MontConsts P p) {x : Limbs C} (hx : Rep P.b P.n x ((0 : Nat) : Int)) : limbsVal P.b (nres P x).x = 0 := by
  have hpl : P.plain = false := by simp [Params.plain, h.type]
  have hpz : (0 : Int) < p := by exact_mod_cast h.ppos
  have hn := h.hn
  have hd := hx.digits (by simp) (by simpa using two_pow_pos' (P.b * P.n))
  obtain ⟨m1, m2, m3⟩ := mul_spec h.ok hd h.r2dig (by rw [hx.len, h.r2len]) (by rw [hx.len]; omega) (by rw [hx.len]; exact h.fits)
  rw [hx.len] at m1
  rw [hx.val, Nat.cast_zero, zero_mul] at m3
  have e : (nres P x).x = monty P.b P.md P.mc (Big.mul P.b x P.r2) := by simp [nres, hpl, modulo, h.type]
  rw [e]
  obtain ⟨q1, q2, v, t, v0, v1, e1, q3⟩ := monty_spec h.ok h.hn h.mddig m2 P.mc h.mc h.mdlen m1 h.fits
  rw [h.mdval, m3, zero_add] at e1
  have hR := two_pow_pos' (P.b * P.n)
  have ht : (p : Int) ∣ t := by
    rw [← ZMod.intCast_zmod_eq_zero_iff_dvd]
    have e2 := congrArg (fun z : Int => (z : ZMod p)) e1
    push_cast at e2
    rw [ZMod.natCast_self, mul_zero] at e2
    exact (mul_eq_zero.1 e2).resolve_left (pow_ne_zero _ (two_ne_zero' h.toConsts))
  obtain ⟨k, rfl⟩ := ht
  have hk : (2 : Int) ^ (P.b * P.n) * k = v := by
    apply mul_right_cancel₀ hpz.ne'
    rw [← e1]; ring
  have hk0 : k = 0 := by
    rcases lt_trichotomy k 0 with hl | hl | hl
    · exfalso
      have : (2 : Int) ^ (P.b * P.n) * k < 0 := mul_neg_of_pos_of_neg hR hl
      omega
    · exact hl
    · exfalso
      have : (2 : Int) ^ (P.b * P.n) * 1 ≤ 2 ^ (P.b * P.n) * k := mul_le_mul_of_nonneg_left (by omega) hR.le
      omega
  rw [q3, hk0]; simp

theorem small_zero (h : Consts P p) {a : Fp C} (h0 : 0 ≤ limbsVal P.b a.x) (hlt : limbsVal P.b a.x < p) (hr : residue P p a = 0) : limbsVal P.b a.x = 0 := by
  have := (residue_eq_iff h a 0).1 hr
  rw [zero_mul, ZMod.intCast_zmod_eq_zero_iff_dvd] at this
  have e := Int.emod_eq_zero_of_dvd this
  rwa [Int.emod_eq_of_lt h0 hlt] at e

theorem MontConsts.arith (h : MontConsts P p) (hC : C ≤ 64) : Arith P p where
  toFieldOk := h.fieldOk
  one_ok := one_mont h
  newInt_ok := newInt_mont h
  newBig_ok := by
    intro x X hx hX
    have hXp : (X : Int) < p := by exact_mod_cast hX
    obtain ⟨n1, n2⟩ := nres_mont h hx (by positivity) (by
      have : (1 : Int) ≤ 2 ^ P.sh := by exact_mod_cast Nat.one_le_two_pow
      have : (p : Int) ≤ 2 ^ P.sh * p := by nlinarith [h.ppos]
      omega)
    exact ⟨n1, by rw [show newBig P x = nres P x from rfl, n2]; simp⟩
  imul_ok := fun a c ha h0 hc => imul_mont h hC ha c h0 hc
  inverse_ok := fun k a ha hk _ => inverse_ok h.fieldOk (one_mont h) (by simp [Params.plain, h.type]) ha hk
  redc_ok := by
    intro a ha hlt
    have hr := redc_mont h ha
    split_ifs at hr with hz
    · exact absurd (small_zero h.toConsts ha.valid.nonneg hlt hz.1) hz.2
    · exact hr
  nres_redc := by
    intro x X hx hX
    have hXp : (X : Int) < p := by exact_mod_cast hX
    obtain ⟨n1, n2⟩ := nres_mont h hx (by positivity) (by
      have : (1 : Int) ≤ 2 ^ P.sh := by exact_mod_cast Nat.one_le_two_pow
      have : (p : Int) ≤ 2 ^ P.sh * p := by nlinarith [h.ppos]
      omega)
    have hr := redc_mont h n1
    rw [n2] at hr
    have hval : ((X : ZMod p)).val = X := by rw [ZMod.val_natCast, Nat.mod_eq_of_lt hX]
    rw [show newBig P x = nres P x from rfl]
    split_ifs at hr with hz
    · exfalso
      obtain ⟨z1, z2⟩ := hz
      have : (X : ZMod p) = 0 := by simpa using z1
      rw [ZMod.natCast_eq_zero_iff] at this
      have hX0 : X = 0 := Nat.eq_zero_of_dvd_of_lt this hX
      subst hX0
      exact z2 (nres_zero h hx)
    · simpa [hval] using hr

theorem PMConsts.arith (h : PMConsts P p) (he : PlainExp P p) (hC : C ≤ 64) : Arith P p := by
  have hpl : P.plain = true := by simp [Params.plain, h.type]
  have hfac : P.factor = 1 := by simp [Params.factor, hpl]
  exact {
    toFieldOk := h.fieldOk
    one_ok := one_plain h.toConsts hpl
    newInt_ok := newInt_plain h.toConsts hpl
    newBig_ok := by
      intro x X hx hX
      obtain ⟨n1, n2⟩ := nres_plain h.toConsts hpl hx (by positivity) (by exact_mod_cast hX)
      exact ⟨n1, by rw [show newBig P x = nres P x from rfl, n2]; simp⟩
    imul_ok := fun a c ha _ hc => imul_plain h.fieldOk hpl hC ha c hc
    inverse_ok := fun k a _ _ hn => inverse_plain h.fieldOk hpl he (hn hpl)
    redc_ok := by
      intro a ha hlt
      have e : redc P a = a.x := by simp [redc, hpl]
      have : ((residue P p a).val : Int) = limbsVal P.b a.x := by
        have hn := ha.valid.nonneg
        obtain ⟨X, hX⟩ : ∃ X : Nat, limbsVal P.b a.x = X := ⟨_, (Int.toNat_of_nonneg hn).symm⟩
        have hr : residue P p a = (X : ZMod p) := by unfold residue; rw [hfac, hX]; simp
        rw [hr, hX, ZMod.val_natCast, Nat.mod_eq_of_lt (by rw [hX] at hlt; exact_mod_cast hlt)]
      rw [e, this]; exact ha.rep
    nres_redc := by
      intro x X hx hX
      have e : redc P (newBig P x) = x := by simp [redc, newBig, nres, hpl]
      rw [e]; exact hx }

end Verif.Fp
