import Verif.Fp.Reduce
/- The field operations of `fp.rs` on residues. -/
namespace Verif.Fp
open Verif.Big Spec

variable {C : Nat} {P : Params C} {p : Nat}

/-- `FP::modulo` with `MODTYPE = NotSpecial` meets its contract -/
theorem modulo_mont (h : MontConsts P p) : ModuloSpec P p := by
  intro d hl hd hlt
  have hfac : P.factor = 2 ^ (P.b * P.n) := by simp [Params.factor, Params.plain, h.type]
  have hm : modulo P d = monty P.b P.md P.mc d := by simp [modulo, h.type]
  rw [hm, hfac]
  obtain ⟨m1, m2, v, t, v0, v1, e, m3⟩ := monty_spec h.ok h.hn h.mddig hd P.mc h.mc h.mdlen hl h.fits
  rw [h.mdval] at e
  have hpz : (0 : Int) < p := by exact_mod_cast h.ppos
  have hR := two_pow_pos' (P.b * P.n)
  have hd0 := hd.bounds.1
  have hvp : 0 ≤ v * p := mul_nonneg v0 hpz.le
  have ht0 : 0 ≤ t := by
    by_contra hc
    have : (2 : Int) ^ (P.b * P.n) * t < 0 := mul_neg_of_pos_of_neg hR (by omega)
    linarith
  have hps := h.p_sh
  have ht2 : t < 2 * p := by
    have h1 : (2 : Int) ^ P.sh * (p * p) ≤ 2 ^ (P.b * P.n) * p := by nlinarith
    have h2 : v * p ≤ 2 ^ (P.b * P.n) * p := mul_le_mul_of_nonneg_right v1.le hpz.le
    have h3 : (2 : Int) ^ (P.b * P.n) * t < 2 ^ (P.b * P.n) * (2 * p) := by rw [e]; linarith
    exact lt_of_mul_lt_mul_left h3 hR.le
  have h2p : (2 : Int) * p < 2 ^ (P.b * P.n) := by
    have h5 := h.sh5
    have : (2 : Int) ^ 1 * p ≤ 2 ^ P.sh * p := mul_le_mul_of_nonneg_right (pow_le_pow_right₀ (by norm_num) (by omega)) hpz.le
    linarith
  rw [Int.emod_eq_of_lt ht0 (by linarith)] at m3
  exact ⟨m1, m2, by rw [m3]; exact ht2, v, by rw [m3, mul_comm, e]⟩

theorem MontConsts.fieldOk (h : MontConsts P p) : FieldOk P p := { h.toConsts with modulo_ok := modulo_mont h }

theorem Consts.two_lt (h : Consts P p) : 2 < p := by
  have h1 := h.lower
  have h2 := h.cpow
  have h3 := h.b_pos
  have h4 := h.ok.hb
  have h5 := h.hn
  have h6 : P.b * 1 ≤ P.b * (P.n - 1) := Nat.mul_le_mul_left _ (by omega)
  have h7 : 2 ^ 2 ≤ 2 ^ (P.modbits - 1) := Nat.pow_le_pow_right (by norm_num) (by omega)
  omega

section
variable [hp : Fact p.Prime]

theorem two_ne_zero' (h : Consts P p) : (2 : ZMod p) ≠ 0 := by
  intro e
  have : ((2 : Nat) : ZMod p) = 0 := by exact_mod_cast e
  rw [ZMod.natCast_eq_zero_iff] at this
  have := Nat.le_of_dvd (by norm_num) this
  have := h.two_lt
  omega

theorem factor_ne (h : Consts P p) : (P.factor : ZMod p) ≠ 0 := by
  unfold Params.factor
  split_ifs
  · simp
  · push_cast; exact pow_ne_zero _ (two_ne_zero' h)

theorem residue_mul_factor (h : Consts P p) (a : Fp C) : residue P p a * (P.factor : ZMod p) = (limbsVal P.b a.x : ZMod p) := by
  unfold residue
  rw [mul_assoc, inv_mul_cancel₀ (factor_ne h), mul_one]

theorem residue_eq_iff (h : Consts P p) (a : Fp C) (v : ZMod p) :
    residue P p a = v ↔ (limbsVal P.b a.x : ZMod p) = v * (P.factor : ZMod p) := by
  rw [← residue_mul_factor h a]
  exact ⟨fun e => by rw [e], fun e => mul_right_cancel₀ (factor_ne h) e⟩

theorem residue_congr (a c : Fp C) (e : (limbsVal P.b a.x : ZMod p) = (limbsVal P.b c.x : ZMod p)) : residue P p a = residue P p c := by
  unfold residue; rw [e]

theorem cast_emod (X : Int) : ((X % (p : Int) : Int) : ZMod p) = (X : ZMod p) := by
  rw [← ZMod.intCast_mod X p]

theorem fexcess_ge (h : Consts P p) : 31 ≤ P.fexcess := by
  unfold Params.fexcess
  have : 2 ^ 5 ≤ 2 ^ P.sh := Nat.pow_le_pow_right (by norm_num) h.sh5
  omega

/-- `norm` -/
theorem norm_ok (h : Consts P p) {k : Nat} {a : Fp C} (ha : Valid P p k a) (hk : Room P k) :
    Normed P p (norm P a) ∧ residue P p (norm P a) = residue P p a := by
  obtain ⟨h1, h2, _⟩ := norm_normed h ha hk
  exact ⟨h1, residue_congr _ _ (by rw [h2])⟩

/-- `reduce` from any representative whose excess is at most `2^(SH+1)` -/
theorem reduce_core (h : Consts P p) {k : Nat} {a : Fp C} (hlen : a.x.length = P.n) (hlim : LimbsWithin (k * (2 ^ P.b - 1)) a.x)
    (hk : Room P k) (h0 : 0 ≤ limbsVal P.b a.x) (hlt : limbsVal P.b a.x < a.xes * p) (hfit : a.xes ≤ 2 ^ (P.sh + 1)) (hx1 : 1 ≤ a.xes) :
    Normed P p (reduce P a) ∧ residue P p (reduce P a) = residue P p a ∧ (reduce P a).xes = 1 ∧
      limbsVal P.b (reduce P a).x = limbsVal P.b a.x % p := by
  obtain ⟨h1, h2⟩ := reduce_rep h hlen hlim hk h0 hlt (Or.inr hfit) hx1
  have hpz : (0 : Int) < p := by exact_mod_cast h.ppos
  have := fexcess_ge h
  refine ⟨Normed.of_rep h h1 (Int.emod_nonneg _ hpz.ne') ?_ (by omega) (by omega), residue_congr _ _ ?_, h2, h1.val⟩
  · rw [h2]; simpa using Int.emod_lt_of_pos _ hpz
  · rw [h1.val, cast_emod]

theorem reduce_ok (h : Consts P p) {k : Nat} {a : Fp C} (ha : Valid P p k a) (hk : Room P k) :
    Normed P p (reduce P a) ∧ residue P p (reduce P a) = residue P p a ∧ (reduce P a).xes = 1 ∧
      limbsVal P.b (reduce P a).x = limbsVal P.b a.x % p :=
  reduce_core h ha.len ha.lim hk ha.nonneg ha.lt (by
    have := ha.xes2; have := fexcess_lt P; rw [pow_succ]; omega) ha.xes1

theorem check_core (h : Consts P p) {k : Nat} {a : Fp C} (hlen : a.x.length = P.n) (hlim : LimbsWithin (k * (2 ^ P.b - 1)) a.x)
    (hk : Room P k) (hk1 : 1 ≤ k) (h0 : 0 ≤ limbsVal P.b a.x) (hlt : limbsVal P.b a.x < a.xes * p) (hfit : a.xes ≤ 2 ^ (P.sh + 1)) (hx1 : 1 ≤ a.xes) :
    Valid P p k (check P a) ∧ residue P p (check P a) = residue P p a := by
  unfold check
  split_ifs with hc
  · obtain ⟨h1, h2, _⟩ := reduce_core h hlen hlim hk h0 hlt hfit hx1
    exact ⟨h1.valid.mono hk1, h2⟩
  · exact ⟨⟨hlen, hlim, h0, hlt, hx1, by omega⟩, rfl⟩

theorem Room.mono {k l : Nat} (h : Room P l) (hkl : k ≤ l) : Room P k :=
  le_trans (Nat.mul_le_mul_right _ hkl) h

theorem Room.int {k : Nat} (h : Room P k) : (k : Int) * 2 ^ P.b ≤ 2 ^ (C - 1) := by exact_mod_cast h

theorem room_lt {k : Nat} (h : Room P k) : (k : Int) * (2 ^ P.b - 1) < 2 ^ (C - 1) := by
  have h1 := h.int
  rcases Nat.eq_zero_or_pos k with rfl | hk
  · simp
  · have : (1 : Int) ≤ k := by exact_mod_cast hk
    rw [mul_sub]; omega

/-- `add` -/
theorem add_ok (h : Consts P p) {k l : Nat} {a c : Fp C} (ha : Valid P p k a) (hc : Valid P p l c) (hk1 : 1 ≤ k) (hr : Room P (k + l)) :
    Valid P p (k + l) (add P a c) ∧ residue P p (add P a c) = residue P p a + residue P p c := by
  have hC := h.ok.hC
  have hST : (k : Int) * (2 ^ P.b - 1) + l * (2 ^ P.b - 1) < 2 ^ (C - 1) := by
    have := room_lt hr; push_cast at this; linarith
  have hv := add_val (b := P.b) (by omega : 0 < C) a.x c.x (by rw [ha.len, hc.len]) _ _ ha.lim hc.lim hST
  have hw := add_within (by omega : 0 < C) a.x c.x _ _ ha.lim hc.lim hST
  have hx1 := ha.xes2; have hx2 := hc.xes2; have hf := fexcess_lt P; have := ha.xes1
  obtain ⟨r1, r2⟩ := check_core h (a := { x := Big.add a.x c.x, xes := a.xes + c.xes }) (k := k + l)
    (by simp [Big.add, ha.len, hc.len]) (by push_cast; rw [add_mul]; exact hw) hr (by omega)
    (by rw [hv]; have := ha.nonneg; have := hc.nonneg; omega)
    (by rw [hv]; push_cast; have := ha.lt; have := hc.lt; rw [add_mul]; omega)
    (by show a.xes + c.xes ≤ _; rw [pow_succ]; omega) (by show 1 ≤ a.xes + c.xes; omega)
  refine ⟨r1, r2.trans ?_⟩
  rw [residue_eq_iff h, add_mul, residue_mul_factor h, residue_mul_factor h]
  simp only [hv]; push_cast; ring

/-- `dbl` -/
theorem dbl_ok (h : Consts P p) {k : Nat} {a : Fp C} (ha : Valid P p k a) (hk1 : 1 ≤ k) (hr : Room P (k + k)) :
    Valid P p (k + k) (dbl P a) ∧ residue P p (dbl P a) = residue P p a + residue P p a := by
  have e : dbl P a = add P a a := by
    unfold dbl add
    congr 2
    unfold Big.dbl Big.add
    rw [List.zipWith_self]
  rw [e]; exact add_ok h ha ha hk1 hr

theorem sh_lt32 (h : Consts P p) (hC : C ≤ 64) : 2 ^ P.sh ≤ 2 ^ 32 := by
  have := h.shhalf
  exact Nat.pow_le_pow_right (by norm_num) (by omega)

/-- `neg` -/
theorem neg_ok (h : Consts P p) (hC64 : C ≤ 64) {k : Nat} {a : Fp C} (ha : Valid P p k a) (hr : Room P (k + 1)) :
    Valid P p (k + 1) (neg P a) ∧ residue P p (neg P a) = - residue P p a := by
  have hC := h.ok.hC
  have hxes : a.xes ≤ 2 ^ P.sh := le_of_lt (lt_of_le_of_lt ha.xes2 (fexcess_lt P))
  obtain ⟨l1, l2⟩ := logXes_spec ha.xes1 (hxes.trans (sh_lt32 h hC64))
  have hsb := l2 _ hxes
  obtain ⟨f1, f2⟩ := h.md_shift hsb
  set sb := logXes a.xes with hsbd
  have hST : (k : Int) * (2 ^ P.b - 1) + (1 : Nat) * (2 ^ P.b - 1) < 2 ^ (C - 1) := by
    have := room_lt hr; push_cast at this ⊢; linarith
  have erw : Big.rsub a.x (fshl P.b sb P.md) = Big.sub (fshl P.b sb P.md) a.x := by
    unfold Big.rsub Big.sub; rw [List.zipWith_comm]
  have hlim1 := Digits.lim f2 1 le_rfl
  have hv := sub_val (b := P.b) (by omega : 0 < C) (fshl P.b sb P.md) a.x (by rw [ha.len, f1.len]) _ _ hlim1 ha.lim (by rw [add_comm]; exact hST)
  have hw := sub_within (by omega : 0 < C) (fshl P.b sb P.md) a.x _ _ hlim1 ha.lim (by rw [add_comm]; exact hST)
  rw [f1.val] at hv
  have hpz : (0 : Int) < p := by exact_mod_cast h.ppos
  have hle : limbsVal P.b a.x < 2 ^ sb * p := lt_of_lt_of_le ha.lt (mul_le_mul_of_nonneg_right (by exact_mod_cast l1) hpz.le)
  obtain ⟨r1, r2⟩ := check_core h (a := { x := Big.rsub a.x (fshl P.b sb P.md), xes := 2 ^ (sb + 1) }) (k := k + 1)
    (by simp [Big.rsub, ha.len, f1.len])
    (by rw [erw]; refine within_mono ?_ _ hw; push_cast; linarith) hr (by omega)
    (by simp only [erw, hv]; omega)
    (by simp only [erw, hv]; push_cast; rw [pow_succ]; have := ha.nonneg; have : (0 : Int) < 2 ^ sb * p := mul_pos (two_pow_pos' _) hpz
        linarith)
    (by show 2 ^ (sb + 1) ≤ _; exact Nat.pow_le_pow_right (by norm_num) (by omega)) (by show 1 ≤ 2 ^ (sb + 1); exact Nat.one_le_two_pow)
  refine ⟨r1, r2.trans ?_⟩
  rw [residue_eq_iff h, neg_mul, residue_mul_factor h]
  simp only [erw, hv]; push_cast; simp

/-- `sub` -/
theorem sub_ok (h : Consts P p) (hC64 : C ≤ 64) {k l : Nat} {a c : Fp C} (ha : Valid P p k a) (hc : Valid P p l c) (hk1 : 1 ≤ k)
    (hr : Room P (k + (l + 1))) :
    Valid P p (k + (l + 1)) (sub P a c) ∧ residue P p (sub P a c) = residue P p a - residue P p c := by
  obtain ⟨n1, n2⟩ := neg_ok h hC64 hc (hr.mono (by omega))
  obtain ⟨a1, a2⟩ := add_ok h ha n1 hk1 hr
  exact ⟨a1, by rw [sub, a2, n2, sub_eq_add_neg]⟩

/-- `rsub` -/
theorem rsub_ok (h : Consts P p) (hC64 : C ≤ 64) {k l : Nat} {a c : Fp C} (ha : Valid P p k a) (hc : Valid P p l c)
    (hr : Room P (k + 1 + l)) :
    Valid P p (k + 1 + l) (rsub P a c) ∧ residue P p (rsub P a c) = residue P p c - residue P p a := by
  obtain ⟨n1, n2⟩ := neg_ok h hC64 ha (hr.mono (by omega))
  obtain ⟨a1, a2⟩ := add_ok h n1 hc (by omega) hr
  exact ⟨a1, by rw [rsub, a2, n2]; ring⟩

theorem room_one (h : Consts P p) : Room P 4 := by
  have := h.ok.hC
  unfold Room
  calc 4 * 2 ^ P.b = 2 ^ (P.b + 2) := by rw [pow_add]; ring
    _ ≤ 2 ^ (C - 1) := Nat.pow_le_pow_right (by norm_num) (by omega)

/-- product of two representatives through `modulo` -/
theorem modulo_ok' (h : FieldOk P p) {d : Limbs C} (hl : d.length = 2 * P.n) (hd : Digits P.b d)
    (hlt : limbsVal P.b d < 2 ^ P.sh * (p * p)) :
    Normed P p { x := modulo P d, xes := 2 } ∧
      residue P p { x := modulo P d, xes := 2 } = (limbsVal P.b d : ZMod p) * (P.factor : ZMod p)⁻¹ * (P.factor : ZMod p)⁻¹ := by
  obtain ⟨m1, m2, m3, q, m4⟩ := h.modulo_ok d hl hd hlt
  have := fexcess_ge h.toConsts
  refine ⟨⟨⟨m1, Digits.lim m2 1 le_rfl, m2.bounds.1, by simpa using m3, by simp, by simp; omega⟩, m2⟩, ?_⟩
  rw [residue_eq_iff h.toConsts]
  have hf := factor_ne h.toConsts
  rw [mul_assoc _ _ (P.factor : ZMod p), inv_mul_cancel₀ hf, mul_one]
  have e := congrArg (fun z : Int => (z : ZMod p)) m4
  push_cast at e
  rw [ZMod.natCast_self, mul_zero, add_zero] at e
  rw [← e, mul_assoc, mul_inv_cancel₀ hf, mul_one]

theorem prod_lt (h : Consts P p) {a c : Fp C} (ha : Valid P p 1 a) (hc : Valid P p 1 c) (hx : a.xes * c.xes ≤ P.fexcess) :
    limbsVal P.b a.x * limbsVal P.b c.x < 2 ^ P.sh * (p * p) := by
  have hpz : (0 : Int) < p := by exact_mod_cast h.ppos
  have h1 : (a.xes * c.xes : Int) < 2 ^ P.sh := by
    have : a.xes * c.xes < 2 ^ P.sh := lt_of_le_of_lt hx (fexcess_lt P)
    exact_mod_cast this
  calc limbsVal P.b a.x * limbsVal P.b c.x ≤ (a.xes * p) * (c.xes * p) :=
        mul_le_mul ha.lt.le hc.lt.le hc.nonneg (by positivity)
    _ = (a.xes * c.xes) * (p * p) := by ring
    _ < 2 ^ P.sh * (p * p) := mul_lt_mul_of_pos_right h1 (by positivity)

theorem Valid.within {a : Fp C} (ha : Valid P p 1 a) : LimbsWithin (2 ^ P.b - 1) a.x := by
  have := ha.lim
  rwa [Nat.cast_one, one_mul] at this

theorem mul_core (h : FieldOk P p) {a c : Fp C} (ha : Valid P p 1 a) (hc : Valid P p 1 c) (hx : a.xes * c.xes ≤ P.fexcess) :
    Normed P p { x := modulo P (Big.mul P.b a.x c.x), xes := 2 } ∧
      residue P p { x := modulo P (Big.mul P.b a.x c.x), xes := 2 } = residue P p a * residue P p c := by
  have hn := h.hn
  obtain ⟨m1, m2, m3⟩ := mul_signed h.ok ha.within hc.within ha.nonneg hc.nonneg (by rw [ha.len, hc.len]) (by rw [ha.len]; omega)
    (by rw [ha.len]; exact h.fits)
  rw [ha.len] at m1
  obtain ⟨r1, r2⟩ := modulo_ok' h m1 m2 (by rw [m3]; exact prod_lt h.toConsts ha hc hx)
  refine ⟨r1, r2.trans ?_⟩
  rw [m3]; unfold residue; push_cast; ring

/-- `mul`, of operands whose limbs are digits up to sign -/
theorem mul_ok' (h : FieldOk P p) {a c : Fp C} (ha : Valid P p 1 a) (hc : Valid P p 1 c) :
    Normed P p (mul P a c) ∧ residue P p (mul P a c) = residue P p a * residue P p c := by
  unfold mul
  simp only
  split_ifs with hx
  · obtain ⟨r1, r2, r3, _⟩ := reduce_ok h.toConsts ha ((room_one h.toConsts).mono (by omega))
    rw [← r2]
    exact mul_core h r1.valid hc (by rw [r3, one_mul]; exact hc.xes2)
  · exact mul_core h ha hc (by omega)

theorem mul_ok (h : FieldOk P p) {a c : Fp C} (ha : Normed P p a) (hc : Normed P p c) :
    Normed P p (mul P a c) ∧ residue P p (mul P a c) = residue P p a * residue P p c := mul_ok' h ha.valid hc.valid

theorem sqr_core (h : FieldOk P p) {a : Fp C} (ha : Valid P p 1 a) (hx : a.xes * a.xes ≤ P.fexcess) :
    Normed P p { x := modulo P (Big.sqr P.b a.x), xes := 2 } ∧
      residue P p { x := modulo P (Big.sqr P.b a.x), xes := 2 } = residue P p a * residue P p a := by
  have hn := h.hn
  obtain ⟨m1, m2, m3⟩ := sqr_signed h.ok ha.within ha.nonneg (by rw [ha.len]; omega) (by rw [ha.len]; exact h.fits)
  rw [ha.len] at m1
  obtain ⟨r1, r2⟩ := modulo_ok' h m1 m2 (by rw [m3]; exact prod_lt h.toConsts ha ha hx)
  refine ⟨r1, r2.trans ?_⟩
  rw [m3]; unfold residue; push_cast; ring

/-- `sqr`, of an operand whose limbs are digits up to sign -/
theorem sqr_ok' (h : FieldOk P p) {a : Fp C} (ha : Valid P p 1 a) :
    Normed P p (sqr P a) ∧ residue P p (sqr P a) = residue P p a * residue P p a := by
  unfold sqr
  simp only
  split_ifs with hx
  · obtain ⟨r1, r2, r3, _⟩ := reduce_ok h.toConsts ha ((room_one h.toConsts).mono (by omega))
    rw [← r2]
    exact sqr_core h r1.valid (by rw [r3]; have := fexcess_ge h.toConsts; omega)
  · exact sqr_core h ha (by omega)

theorem sqr_ok (h : FieldOk P p) {a : Fp C} (ha : Normed P p a) :
    Normed P p (sqr P a) ∧ residue P p (sqr P a) = residue P p a * residue P p a := sqr_ok' h ha.valid

end
end Verif.Fp
