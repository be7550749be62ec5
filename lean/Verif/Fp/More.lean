import Verif.Fp.Ops
import Verif.Big.Jacobi
import Mathlib.Tactic.FieldSimp
/- Conversions, comparison, halving, small multiples, powers. -/
namespace Verif.Fp
open Verif.Big Spec

variable {C : Nat} {P : Params C} {p : Nat} [hp : Fact p.Prime]

theorem zero_ok (h : Consts P p) : Normed P p (zero P) ∧ residue P p (zero P) = 0 := by
  have hz := zero_rep (C := C) P.b P.n
  have := fexcess_ge h
  have hpz : (0 : Int) < p := by exact_mod_cast h.ppos
  refine ⟨Normed.of_rep h (X := 0) hz le_rfl (by simpa [zero] using hpz) le_rfl (by show 1 ≤ _; omega), ?_⟩
  rw [residue_eq_iff h]; simp [zero, val_zero]

/-- the integer `X` may be converted by `nres`: below `2^SH * p` in Montgomery representation, below `p`
for the plain ones -/
def Convertible (P : Params C) (p : Nat) (X : Int) : Prop := 0 ≤ X ∧ X < if P.plain then (p : Int) else 2 ^ P.sh * p

/-- `nres` / `new_big`, Montgomery -/
theorem nres_mont (h : MontConsts P p) {x : Limbs C} {X : Int} (hx : Rep P.b P.n x X) (hX : 0 ≤ X) (hX2 : X < 2 ^ P.sh * p) :
    Normed P p (nres P x) ∧ residue P p (nres P x) = X := by
  have hpl : P.plain = false := by simp [Params.plain, h.type]
  have hf := h.fieldOk
  have hpz : (0 : Int) < p := by exact_mod_cast h.ppos
  have hd := hx.digits hX (hX2.trans h.p_sh)
  have hn := h.hn
  obtain ⟨m1, m2, m3⟩ := mul_spec h.ok hd h.r2dig (by rw [hx.len, h.r2len]) (by rw [hx.len]; omega) (by rw [hx.len]; exact h.fits)
  rw [hx.len] at m1
  rw [hx.val, h.r2val] at m3
  have hr0 := Int.emod_nonneg ((2 : Int) ^ (P.b * P.n) * 2 ^ (P.b * P.n)) hpz.ne'
  have hr1 := Int.emod_lt_of_pos ((2 : Int) ^ (P.b * P.n) * 2 ^ (P.b * P.n)) hpz
  obtain ⟨r1, r2⟩ := modulo_ok' hf m1 m2 (by
    rw [m3]
    calc X * ((2 : Int) ^ (P.b * P.n) * 2 ^ (P.b * P.n) % p) ≤ X * p := mul_le_mul_of_nonneg_left hr1.le hX
      _ < (2 ^ P.sh * p) * p := mul_lt_mul_of_pos_right hX2 hpz
      _ = 2 ^ P.sh * (p * p) := by ring)
  have e : nres P x = { x := modulo P (Big.mul P.b x P.r2), xes := 2 } := by simp [nres, hpl]
  rw [e]
  refine ⟨r1, r2.trans ?_⟩
  rw [m3]
  have hfac : P.factor = 2 ^ (P.b * P.n) := by simp [Params.factor, hpl]
  have hfn := factor_ne h.toConsts
  rw [hfac] at hfn ⊢
  push_cast
  push_cast at hfn
  generalize (2 : ZMod p) ^ (P.b * P.n) = R at hfn
  field_simp

/-- `nres` / `new_big`, plain representation -/
theorem nres_plain (h : Consts P p) (hpl : P.plain = true) {x : Limbs C} {X : Int} (hx : Rep P.b P.n x X) (hX : 0 ≤ X) (hX2 : X < p) :
    Normed P p (nres P x) ∧ residue P p (nres P x) = X := by
  have e : nres P x = { x := x, xes := 1 } := by simp [nres, hpl]
  have := fexcess_ge h
  rw [e]
  refine ⟨Normed.of_rep h hx hX (by simpa using hX2) le_rfl (by show 1 ≤ _; omega), ?_⟩
  rw [residue_eq_iff h]; simp [Params.factor, hpl, hx.val]

/-- `redc`, Montgomery: the result is congruent to the residue and at most `p`; it is `p` exactly for a
non-zero representative of zero -/
theorem redc_gen (h : MontConsts P p) {k : Nat} {a : Fp C} (ha : Valid P p k a) (hk1 : 1 ≤ k) (hkn : k < P.n) :
    Rep P.b P.n (redc P a) (if residue P p a = 0 ∧ limbsVal P.b a.x ≠ 0 then (p : Int) else ((residue P p a).val : Int)) := by
  have hpl : P.plain = false := by simp [Params.plain, h.type]
  have hn := h.hn
  have hpz : (0 : Int) < p := by exact_mod_cast h.ppos
  obtain ⟨hs1, hs2, hs3⟩ := newScopy_gen h.ok (by omega : 0 < P.n) hk1 ha.len ha.lim
  have hfit := ha.fit h.toConsts
  have hR := two_pow_pos' (P.b * P.n)
  have e : redc P a = monty P.b P.md P.mc (newScopy P.b a.x) := by simp [redc, hpl, modulo, h.type]
  rw [e]
  obtain ⟨m1, m2, v, t, v0, v1, e1, m3⟩ := monty_gen h.ok h.hn hkn h.mddig hs2 P.mc h.mc h.mdlen hs1 h.fits
  rw [h.mdval, hs3] at e1
  set X := limbsVal P.b a.x with hX
  have hX0 : 0 ≤ X := ha.nonneg
  have hvp : 0 ≤ v * p := mul_nonneg v0 hpz.le
  have ht0 : 0 ≤ t := by
    by_contra hc
    have : (2 : Int) ^ (P.b * P.n) * t < 0 := mul_neg_of_pos_of_neg hR (by omega)
    linarith
  have htp : t ≤ p := by
    have h2 : v * p ≤ (2 ^ (P.b * P.n) - 1) * p := mul_le_mul_of_nonneg_right (by omega) hpz.le
    have h3 : (2 : Int) ^ (P.b * P.n) * t < 2 ^ (P.b * P.n) * (p + 1) := by rw [e1]; nlinarith
    have := lt_of_mul_lt_mul_left h3 hR.le
    omega
  have hpR : (p : Int) < 2 ^ (P.b * P.n) := by
    have := h.p_sh
    have h1 : (1 : Int) * p ≤ 2 ^ P.sh * p := mul_le_mul_of_nonneg_right (by have := two_pow_pos' P.sh; omega) hpz.le
    linarith
  rw [Int.emod_eq_of_lt ht0 (by linarith)] at m3
  have hres : residue P p a = (t : ZMod p) := by
    rw [residue_eq_iff h.toConsts]
    have e2 := congrArg (fun z : Int => (z : ZMod p)) e1
    push_cast at e2
    rw [ZMod.natCast_self, mul_zero, add_zero] at e2
    rw [← hX, ← e2]
    simp [Params.factor, hpl, mul_comm]
  refine ⟨m1, m2.normal, ?_⟩
  rw [m3]
  split_ifs with hc
  · -- residue 0, X ≠ 0
    have hz : (p : Int) ∣ t := by
      rw [← ZMod.intCast_zmod_eq_zero_iff_dvd t p, ← hres]; exact hc.1
    obtain ⟨k, hk⟩ := hz
    have : t ≠ 0 := by
      rintro rfl
      have : X + v * p = 0 := by linarith
      exact hc.2 (by omega)
    have hk1 : 1 ≤ k := by
      by_contra hkc
      have : (p : Int) * k ≤ 0 := mul_nonpos_of_nonneg_of_nonpos hpz.le (by omega)
      omega
    nlinarith
  · rw [hres]
    have hlt : t < p := by
      rcases lt_or_eq_of_le htp with hl | he
      · exact hl
      · exfalso; apply hc
        refine ⟨by rw [hres, he]; simp, ?_⟩
        intro hx0
        rw [hx0, he, zero_add] at e1
        have := mul_right_cancel₀ hpz.ne' e1
        omega
    lift t to Nat using ht0
    have : t < p := by exact_mod_cast hlt
    rw [Int.cast_natCast, ZMod.val_natCast_of_lt this]

theorem redc_signed (h : MontConsts P p) {a : Fp C} (ha : Valid P p 1 a) :
    Rep P.b P.n (redc P a) (if residue P p a = 0 ∧ limbsVal P.b a.x ≠ 0 then (p : Int) else ((residue P p a).val : Int)) :=
  redc_gen h ha le_rfl (by have := h.hn; omega)

theorem redc_mont (h : MontConsts P p) {a : Fp C} (ha : Normed P p a) :
    Rep P.b P.n (redc P a) (if residue P p a = 0 ∧ limbsVal P.b a.x ≠ 0 then (p : Int) else ((residue P p a).val : Int)) :=
  redc_signed h ha.valid

/-- `iszilch` decides whether the residue is zero -/
theorem iszilch_ok (h : Consts P p) {k : Nat} {a : Fp C} (ha : Valid P p k a) (hk : Room P k) :
    iszilch P a = true ↔ residue P p a = 0 := by
  obtain ⟨r1, r2, r3, r4⟩ := reduce_ok h ha hk
  have hn := h.hn
  unfold iszilch
  rw [Rep.iszilch r1.rep, r4, residue_eq_iff h, zero_mul, ← Int.dvd_iff_emod_eq_zero, ZMod.intCast_zmod_eq_zero_iff_dvd]

/-- `equals` decides equality of residues -/
theorem equals_ok (h : Consts P p) {k l : Nat} {a c : Fp C} (ha : Valid P p k a) (hc : Valid P p l c) (hk : Room P k) (hl : Room P l) :
    equals P a c = true ↔ residue P p a = residue P p c := by
  obtain ⟨r1, r2, r3, r4⟩ := reduce_ok h ha hk
  obtain ⟨s1, s2, s3, s4⟩ := reduce_ok h hc hl
  unfold equals
  rw [beq_iff_eq, Rep.comp_eq r1.rep s1.rep, r4, s4, residue_eq_iff h, residue_mul_factor h, ZMod.intCast_eq_intCast_iff']

/-- `div2` -/
theorem div2_ok (h : Consts P p) {a : Fp C} (ha : Normed P p a) (hodd : p % 2 = 1) :
    Normed P p (div2 P a) ∧ 2 * residue P p (div2 P a) = residue P p a := by
  have hn := h.hn
  have hpz : (0 : Int) < p := by exact_mod_cast h.ppos
  have hx1 := ha.valid.xes1
  have hxp : (1 : Int) * p ≤ a.xes * p := mul_le_mul_of_nonneg_right (by exact_mod_cast hx1) hpz.le
  have hlt := ha.valid.lt
  have h0 := ha.valid.nonneg
  have key : ∀ (w : Limbs C) (V : Int), Rep P.b P.n w V → 0 ≤ V → V < 2 * (a.xes * p) → V % 2 = 0 →
      (V : ZMod p) = (limbsVal P.b a.x : ZMod p) →
      Normed P p { a with x := fshr P.b 1 w } ∧ 2 * residue P p { a with x := fshr P.b 1 w } = residue P p a := by
    intro w V hw hV0 hV1 hpar hcast
    have hf := fshr_one_rep h.ok hw
    refine ⟨Normed.of_rep h hf (by omega) (by show V / 2 < a.xes * p; omega) hx1 ha.valid.xes2, ?_⟩
    unfold residue
    simp only [hf.val]
    rw [← mul_assoc]
    congr 1
    rw [← hcast]
    have : (2 : Int) * (V / 2) = V := by omega
    calc (2 : ZMod p) * ((V / 2 : Int) : ZMod p) = ((2 * (V / 2) : Int) : ZMod p) := by push_cast; rfl
      _ = (V : ZMod p) := by rw [this]
  unfold div2
  rw [ha.rep.parity h.ok hn]
  split_ifs with hpar
  · exact key a.x _ ha.rep h0 (by omega) hpar rfl
  · have hcg := cap_ge (n := P.n) h.ok (by omega : 0 < P.n)
    have hfit := ha.valid.fit h
    have hpR : (p : Int) < 2 ^ (P.b * P.n) := by
      have := h.p_sh
      have h1 : (1 : Int) * p ≤ 2 ^ P.sh * p := mul_le_mul_of_nonneg_right (by have := two_pow_pos' P.sh; omega) hpz.le
      linarith
    have hcp := cap_pos C P.b P.n
    have hs := norm_add_rep h.ok (by omega : 0 < P.n) ha.rep h.md_rep (by omega) (by omega) (by omega) (by omega)
    exact key _ _ hs (by omega) (by omega) (by omega) (by push_cast; simp)

theorem ofInt_nat_toInt (h : Consts P p) (c : Nat) (hc : (c : Int) < 2 ^ P.b) : (BitVec.ofInt C (c : Int)).toInt = c := by
  have hC := h.ok.hC
  have : (2 : Int) ^ P.b ≤ 2 ^ (C - 1) := pow_le_pow_right₀ (by norm_num) (by omega)
  exact toInt_ofInt_of (by omega) (by have := two_pow_pos' (C - 1); omega) (by omega)

theorem newInt_rep' (h : Consts P p) (c : Nat) (hc : (c : Int) < 2 ^ P.b) : Rep P.b P.n (inc P.b (Big.zero C P.n) c) c := by
  have hn := h.hn
  have hC := h.ok.hC
  have e : inc P.b (Big.zero C P.n) c = Big.newInt C P.n c := by
    have hz := zero_rep (C := C) P.b P.n
    have hd : Digits P.b (Big.zero C P.n) := digits_zero _ _
    have hr := Digits.norm_rep h.ok (hz.ne_nil (by omega)) hd
    have e0 : Big.norm P.b (Big.zero C P.n) = Big.zero C P.n :=
      normal_unique _ _ (by rw [hr.len]) hr.low hz.low (by rw [hr.val])
    unfold inc Big.newInt
    simp only [e0]
    congr 1
    have : at' (Big.zero C P.n) 0 = 0 := by
      obtain ⟨m, hm⟩ : ∃ m, P.n = m + 1 := ⟨P.n - 1, by omega⟩
      simp [at', Big.zero, hm, List.replicate_succ]
    rw [this]; simp
  rw [e]
  exact newInt_rep h.ok (by omega) _ (by positivity) hc

/-- `new_int`, Montgomery, for a non-negative argument below `2^BASEBITS` -/
theorem newInt_mont (h : MontConsts P p) (c : Nat) (hc : (c : Int) < 2 ^ P.b) :
    Normed P p (newInt P c) ∧ residue P p (newInt P c) = c := by
  have hpz : (0 : Int) < p := by exact_mod_cast h.ppos
  have hbig : (2 : Int) ^ P.b ≤ 2 ^ P.sh * p := by
    have h1 : (2 : Int) ^ (P.modbits - 1) ≤ p := by exact_mod_cast h.lower
    have h2 := h.cpow; have h3 := h.bits; have hn := h.hn; have h5 := h.sh5
    have h6 : P.b * 1 ≤ P.b * (P.n - 1) := Nat.mul_le_mul_left _ (by omega)
    calc (2 : Int) ^ P.b ≤ 2 ^ (P.modbits - 1) := pow_le_pow_right₀ (by norm_num) (by omega)
      _ ≤ p := h1
      _ = 1 * p := by ring
      _ ≤ 2 ^ P.sh * p := mul_le_mul_of_nonneg_right (by have := two_pow_pos' P.sh; omega) hpz.le
  have := nres_mont h (newInt_rep' h.toConsts c hc) (by positivity) (lt_of_lt_of_le hc hbig)
  exact ⟨this.1, by rw [newInt, this.2]; simp⟩

theorem one_mont (h : MontConsts P p) : Normed P p (one P) ∧ residue P p (one P) = 1 := by
  have hn := h.hn
  have hb := h.ok.hb
  have h1 : (1 : Int) < 2 ^ P.b := one_lt_pow₀ (by norm_num) (by omega)
  have hpz : (0 : Int) < p := by exact_mod_cast h.ppos
  have hr := newInt_rep (C := C) (n := P.n) h.ok (by omega) 1 (by norm_num) h1
  have h2 := h.two_lt
  have := nres_mont h hr (by norm_num) (by have := two_pow_pos' P.sh; nlinarith)
  exact ⟨this.1, by rw [one, this.2]; simp⟩

theorem imulNat_mont (h : MontConsts P p) {a : Fp C} (ha : Normed P p a) (c : Nat) (hpos : 1 ≤ c) (hcn : (c : Int) < 2 ^ P.b) :
    let r : Fp C := if P.plain then { x := modulo P (pxmul P.b a.x c), xes := 2 }
      else if a.xes * c ≤ P.fexcess then { x := (pmul P.b a.x c).1, xes := a.xes * c } else mul P a (newInt P c)
    Normed P p r ∧ residue P p r = residue P p a * (c : ZMod p) := by
  have hpl : P.plain = false := by simp [Params.plain, h.type]
  have hpz : (0 : Int) < p := by exact_mod_cast h.ppos
  simp only [hpl, Bool.false_eq_true, if_false]
  split_ifs with hx
  · have hw := ofInt_nat_toInt h.toConsts c hcn
    obtain ⟨m1, m2, m3, m4⟩ := pmulGo_spec h.ok (BitVec.ofInt C (c : Int)) ⟨by rw [hw]; positivity, by rw [hw]; exact hcn⟩ a.x ha.digits 0
      (by have := two_pow_pos' P.b; simp)
    rw [hw, ha.valid.len] at m4
    have h00 : (0 : BitVec C).toInt = 0 := by simp
    rw [h00, add_zero] at m4
    have hXlt : (c : Int) * limbsVal P.b a.x < (a.xes * c : Nat) * p := by
      have : (c : Int) * limbsVal P.b a.x < c * (a.xes * p) := mul_lt_mul_of_pos_left ha.valid.lt (by exact_mod_cast hpos)
      push_cast; linarith
    have hfit := h.toConsts.xes_p (x := a.xes * c) (le_of_lt (lt_of_le_of_lt hx (fexcess_lt P)))
    have hd := m2.bounds
    have hcar : (pmulGo P.b (BitVec.ofInt C (c : Int)) 0 a.x).2.toInt = 0 := by
      by_contra hcc
      have : (2 : Int) ^ (P.b * P.n) * 1 ≤ 2 ^ (P.b * P.n) * (pmulGo P.b (BitVec.ofInt C (c : Int)) 0 a.x).2.toInt :=
        mul_le_mul_of_nonneg_left (by omega) (two_pow_pos' _).le
      linarith
    rw [hcar, mul_zero, add_zero] at m4
    have hrep : Rep P.b P.n (pmul P.b a.x c).1 (c * limbsVal P.b a.x) :=
      ⟨by unfold pmul; rw [m1, ha.valid.len], m2.normal, m4⟩
    refine ⟨Normed.of_rep h.toConsts hrep (mul_nonneg (by positivity) ha.valid.nonneg) hXlt (Nat.mul_pos ha.valid.xes1 hpos) hx, ?_⟩
    unfold residue
    simp only [hrep.val]; push_cast; ring
  · obtain ⟨n1, n2⟩ := newInt_mont h c hcn
    obtain ⟨m1, m2⟩ := mul_ok h.fieldOk ha n1
    exact ⟨m1, by rw [m2, n2]⟩

/-- `imul`, Montgomery, for `0 < |c| < 2^BASEBITS` -/
theorem imul_mont (h : MontConsts P p) (hC64 : C ≤ 64) {a : Fp C} (ha : Normed P p a) (c : Int) (hc0 : c ≠ 0) (hc : |c| < 2 ^ P.b) :
    Normed P p (imul P a c) ∧ residue P p (imul P a c) = residue P p a * c := by
  have hpl : P.plain = false := by simp [Params.plain, h.type]
  have hpz : (0 : Int) < p := by exact_mod_cast h.ppos
  have hnat : ((c.natAbs : Nat) : Int) = |c| := Int.natCast_natAbs c
  have hcn : ((c.natAbs : Nat) : Int) < 2 ^ P.b := by rw [hnat]; exact hc
  have hpos : 1 ≤ c.natAbs := by omega
  have hn := h.hn
  set r : Fp C := if P.plain then { x := modulo P (pxmul P.b a.x c.natAbs), xes := 2 }
    else if a.xes * c.natAbs ≤ P.fexcess then { x := (pmul P.b a.x c.natAbs).1, xes := a.xes * c.natAbs }
    else mul P a (newInt P c.natAbs) with hr
  have hrr : Normed P p r ∧ residue P p r = residue P p a * (c.natAbs : ZMod p) := imulNat_mont h ha c.natAbs hpos hcn
  have e : imul P a c = if c < 0 then norm P (neg P r) else r := rfl
  rw [e]
  split_ifs with hneg
  · have hroom := room_one h.toConsts
    obtain ⟨n1, n2⟩ := neg_ok h.toConsts hC64 hrr.1.valid (hroom.mono (by omega))
    obtain ⟨m1, m2⟩ := norm_ok h.toConsts n1 (hroom.mono (by omega))
    refine ⟨m1, ?_⟩
    rw [m2, n2, hrr.2, show c = -(c.natAbs : Int) by omega]
    simp
  · refine ⟨hrr.1, ?_⟩
    rw [hrr.2]
    congr 1
    have : (c.natAbs : Int) = c := by omega
    rw [← this]; simp

/-- `cmove` -/
theorem cmove_ok {a c : Fp C} (hl : a.x.length = c.x.length) (d : Nat) (hd : d = 0 ∨ d = 1) : cmove a c d = if d = 1 then c else a := by
  rcases hd with rfl | rfl
  · simp [cmove, cmove_zero _ _ hl]
  · simp [cmove, cmove_one _ _ hl]

end Verif.Fp
