import Verif.Fp.Goldi
import Verif.Fp.Hist
/- Field operations modulo the Goldilocks prime. -/
namespace Verif.Fp
open Verif.Big Spec

variable {C : Nat} {P : Params C} {p : Nat} [hp : Fact p.Prime]

/-- Without Montgomery form, `modulo` reduces every integer below `B p^2`. -/
structure PlainB (P : Params C) (p : Nat) (B : Nat) : Prop extends Consts P p where
  plain : P.plain = true
  modB : ∀ d : Limbs C, d.length = 2 * P.n → Digits P.b d → limbsVal P.b d < B * (p * p) →
    (modulo P d).length = P.n ∧ Digits P.b (modulo P d) ∧ limbsVal P.b (modulo P d) < 2 * p ∧ ∃ q : Int, limbsVal P.b (modulo P d) = limbsVal P.b d + q * p
  big : P.b + P.sh < P.modbits

omit hp in
theorem GMConsts.plainB (h : GMConsts P p) {B : Nat} (hB : GMBound P B) (hbig : P.b + P.sh < P.modbits) : PlainB P p B :=
  { h.toConsts with plain := by simp [Params.plain, h.type], modB := modulo_gm h hB, big := hbig }

omit hp in
/-- pseudo-Mersenne constants that fit with a smaller excess bound `2^s` -/
theorem PMConsts.plainB (hc : Consts P p) {s : Nat} (h : PMConsts { P with sh := s } p) (hbig : P.b + P.sh < P.modbits) : PlainB P p (2 ^ s) where
  toConsts := hc
  plain := by have := h.type; simp only at this; simp [Params.plain, this]
  big := hbig
  modB := by
    intro d hl hd hlt
    have hf : ({ P with sh := s } : Params C).factor = 1 := by have := h.type; simp only at this; simp [Params.factor, Params.plain, this]
    obtain ⟨m1, m2, m3, q, m4⟩ := modulo_pm h d hl hd (by push_cast at hlt; exact hlt)
    rw [hf, mul_one] at m4
    exact ⟨m1, m2, m3, q, m4⟩

theorem moduloGM_ok {B : Nat} (h : PlainB P p B) {d : Limbs C} (hl : d.length = 2 * P.n) (hd : Digits P.b d)
    (hlt : limbsVal P.b d < B * (p * p)) :
    Normed P p { x := modulo P d, xes := 2 } ∧ residue P p { x := modulo P d, xes := 2 } = (limbsVal P.b d : ZMod p) := by
  obtain ⟨m1, m2, m3, q, m4⟩ := h.modB d hl hd hlt
  have := fexcess_ge h.toConsts
  have hfac : P.factor = 1 := by simp [Params.factor, h.plain]
  refine ⟨⟨⟨m1, Digits.lim m2 1 le_rfl, m2.bounds.1, by simpa using m3, by simp, by simp; omega⟩, m2⟩, ?_⟩
  unfold residue
  rw [hfac, m4]
  simp

omit hp in
theorem prodB_lt (h : Consts P p) {B : Nat} {a c : Fp C} (ha : Valid P p 1 a) (hc : Valid P p 1 c) (hx : a.xes * c.xes ≤ B) :
    limbsVal P.b a.x * limbsVal P.b c.x < B * (p * p) := by
  have hpz : (0 : Int) < p := by exact_mod_cast h.ppos
  have h1 : (a.xes * c.xes : Int) ≤ B := by exact_mod_cast hx
  calc limbsVal P.b a.x * limbsVal P.b c.x < (a.xes * p) * (c.xes * p) :=
        mul_lt_mul'' ha.lt hc.lt ha.nonneg hc.nonneg
    _ = (a.xes * c.xes) * (p * p) := by ring
    _ ≤ B * (p * p) := mul_le_mul_of_nonneg_right h1 (by positivity)

theorem mulGM_core {B : Nat} (h : PlainB P p B) {a c : Fp C} (ha : Valid P p 1 a) (hc : Valid P p 1 c) (hx : a.xes * c.xes ≤ B) :
    Normed P p { x := modulo P (Big.mul P.b a.x c.x), xes := 2 } ∧
      residue P p { x := modulo P (Big.mul P.b a.x c.x), xes := 2 } = residue P p a * residue P p c := by
  have hn := h.hn
  have hfac : P.factor = 1 := by simp [Params.factor, h.plain]
  obtain ⟨m1, m2, m3⟩ := mul_signed h.ok ha.within hc.within ha.nonneg hc.nonneg (by rw [ha.len, hc.len]) (by rw [ha.len]; omega)
    (by rw [ha.len]; exact h.fits)
  rw [ha.len] at m1
  obtain ⟨r1, r2⟩ := moduloGM_ok h m1 m2 (by rw [m3]; exact prodB_lt h.toConsts ha hc hx)
  refine ⟨r1, r2.trans ?_⟩
  rw [m3]; unfold residue; rw [hfac]; push_cast; ring

theorem sqrGM_core {B : Nat} (h : PlainB P p B) {a : Fp C} (ha : Valid P p 1 a) (hx : a.xes * a.xes ≤ B) :
    Normed P p { x := modulo P (Big.sqr P.b a.x), xes := 2 } ∧
      residue P p { x := modulo P (Big.sqr P.b a.x), xes := 2 } = residue P p a * residue P p a := by
  have hn := h.hn
  have hfac : P.factor = 1 := by simp [Params.factor, h.plain]
  obtain ⟨m1, m2, m3⟩ := sqr_signed h.ok ha.within ha.nonneg (by rw [ha.len]; omega) (by rw [ha.len]; exact h.fits)
  rw [ha.len] at m1
  obtain ⟨r1, r2⟩ := moduloGM_ok h m1 m2 (by rw [m3]; exact prodB_lt h.toConsts ha ha hx)
  refine ⟨r1, r2.trans ?_⟩
  rw [m3]; unfold residue; rw [hfac]; push_cast; ring

theorem mulGM {B : Nat} (h : PlainB P p B) {a c : Fp C} (ha : Valid P p 1 a) (hc : Valid P p 1 c) (hx : MulBound P B a c) :
    Normed P p (mul P a c) ∧ residue P p (mul P a c) = residue P p a * residue P p c := by
  unfold MulBound at hx
  unfold mul
  simp only
  split_ifs at hx ⊢ with hc'
  · obtain ⟨r1, r2, r3, _⟩ := reduce_ok h.toConsts ha ((room_one h.toConsts).mono (by omega))
    rw [← r2]
    exact mulGM_core h r1.valid hc (by rw [r3, one_mul]; exact hx)
  · exact mulGM_core h ha hc hx

theorem sqrGM {B : Nat} (h : PlainB P p B) (hB1 : 1 ≤ B) {a : Fp C} (ha : Valid P p 1 a) (hx : MulBound P B a a) :
    Normed P p (sqr P a) ∧ residue P p (sqr P a) = residue P p a * residue P p a := by
  unfold MulBound at hx
  unfold sqr
  simp only
  split_ifs at hx ⊢ with hc'
  · obtain ⟨r1, r2, r3, _⟩ := reduce_ok h.toConsts ha ((room_one h.toConsts).mono (by omega))
    rw [← r2]
    exact sqrGM_core h r1.valid (by rw [r3]; omega)
  · exact sqrGM_core h ha hx

/-- products of small counters are within the bound, whether or not a reduction happens -/
theorem mulBound_of {B s : Nat} {a c : Fp C} (hs : s * s ≤ B) (ha : a.xes ≤ s) (hc : c.xes ≤ s) : MulBound P B a c := by
  have h1 := Nat.mul_le_mul ha hc
  have h2 : s ≤ s * s := by nlinarith
  unfold MulBound
  split_ifs <;> omega

theorem PlainB.mulOn {B : Nat} (h : PlainB P p B) (s : Nat) (h2 : 2 ≤ s) (hs : s * s ≤ B) : MulOn P p s :=
  have h4 : 2 * 2 ≤ s * s := Nat.mul_le_mul h2 h2
  { h.toConsts with
    two := h2
    mul_on := fun _ _ ha hc hxa hxc => mulGM h ha.valid hc.valid (mulBound_of hs hxa hxc)
    sqr_on := fun _ ha hxa => sqrGM h (by omega) ha.valid (mulBound_of hs hxa hxa) }

theorem PlainB.mulOn' {B : Nat} (h : PlainB P p B) (h4 : 4 ≤ B) {a : Fp C} (hx : a.xes * a.xes ≤ B) : ∃ s, MulOn P p s ∧ a.xes ≤ s := by
  by_cases h2 : 2 ≤ a.xes
  · exact ⟨_, h.mulOn a.xes h2 hx, le_rfl⟩
  · exact ⟨_, h.mulOn 2 le_rfl h4, by omega⟩

theorem imulGM_nat {B : Nat} (h : PlainB P p B) (hB1 : 1 ≤ B) {a : Fp C} (ha : Normed P p a) (c : Nat) (hcn : (c : Int) < 2 ^ P.b) :
    Normed P p { x := modulo P (pxmul P.b a.x c), xes := 2 } ∧ residue P p { x := modulo P (pxmul P.b a.x c), xes := 2 } = residue P p a * (c : ZMod p) := by
  have hpz : (0 : Int) < p := by exact_mod_cast h.ppos
  have hfac : P.factor = 1 := by simp [Params.factor, h.plain]
  obtain ⟨l1, l2, l3⟩ := pxmul_spec h.toConsts ha c hcn
  have hlt : limbsVal P.b (pxmul P.b a.x c) < B * (p * p) := by
    rw [l3]
    have hv := ha.digits.bounds.2
    rw [ha.valid.len] at hv
    have h3 := ha.valid.nonneg
    -- c * val < 2^(b) * xes * p and 2^b * xes ≤ p
    have hx : (a.xes : Int) ≤ 2 ^ P.sh := by
      have := lt_of_le_of_lt ha.valid.xes2 (fexcess_lt P)
      exact_mod_cast this.le
    have hb : (2 : Int) ^ P.b * 2 ^ P.sh ≤ p := by
      have h1 : (2 : Int) ^ (P.modbits - 1) ≤ p := by exact_mod_cast h.lower
      refine le_trans ?_ h1
      rw [← pow_add]
      apply pow_le_pow_right₀ (by norm_num)
      have := h.big
      omega
    have h4 : limbsVal P.b a.x ≤ 2 ^ P.sh * p := by
      have := ha.valid.lt
      have := mul_le_mul_of_nonneg_right hx hpz.le
      omega
    have h5 : (c : Int) * limbsVal P.b a.x ≤ (2 ^ P.b - 1) * (2 ^ P.sh * p) :=
      mul_le_mul (by omega) h4 h3 (by have := two_pow_pos' P.b; omega)
    have h6 : (2 ^ P.b * 2 ^ P.sh) * p ≤ (p : Int) * p := mul_le_mul_of_nonneg_right hb hpz.le
    have h7 : (0 : Int) < 2 ^ P.sh * p := mul_pos (two_pow_pos' _) hpz
    have h8 : (p : Int) * p ≤ B * (p * p) := le_mul_of_one_le_left (by positivity) (by exact_mod_cast hB1)
    linarith [show ((2 : Int) ^ P.b - 1) * (2 ^ P.sh * p) = (2 ^ P.b * 2 ^ P.sh) * p - 2 ^ P.sh * p by ring]
  obtain ⟨d1, d2⟩ := moduloGM_ok h l1 l2 hlt
  refine ⟨d1, ?_⟩
  rw [d2, l3]
  unfold residue
  rw [hfac]
  push_cast
  simp [mul_comm]

theorem imulGM {B : Nat} (h : PlainB P p B) (hB1 : 1 ≤ B) (hC64 : C ≤ 64) {a : Fp C} (ha : Normed P p a) (c : Int) (hc : |c| < 2 ^ P.b) :
    Normed P p (imul P a c) ∧ residue P p (imul P a c) = residue P p a * c := by
  have hnat : ((c.natAbs : Nat) : Int) = |c| := Int.natCast_natAbs c
  have hcn : ((c.natAbs : Nat) : Int) < 2 ^ P.b := by rw [hnat]; exact hc
  set r : Fp C := { x := modulo P (pxmul P.b a.x c.natAbs), xes := 2 } with hr
  have hrr : Normed P p r ∧ residue P p r = residue P p a * (c.natAbs : ZMod p) := imulGM_nat h hB1 ha c.natAbs hcn
  have e : imul P a c = if c < 0 then norm P (neg P r) else r := by simp [imul, h.plain, hr]
  rw [e]
  split_ifs with hneg
  · have hroom := room_one h.toConsts
    obtain ⟨n1, n2⟩ := neg_ok h.toConsts hC64 hrr.1.valid (hroom.mono (by omega))
    obtain ⟨m1, m2⟩ := norm_ok h.toConsts n1 (hroom.mono (by omega))
    refine ⟨m1, ?_⟩
    rw [m2, n2, hrr.2, show c = -(c.natAbs : Int) by omega]
    simp
  · refine ⟨hrr.1, ?_⟩
    rw [hrr.2]
    congr 1
    have : (c.natAbs : Int) = c := by omega
    rw [← this]; simp

/-- The operations of such a field, on operands with bounded counters. -/
theorem PlainB.arithOn {B : Nat} (h : PlainB P p B) (he : PlainExp P p) (h4 : 4 ≤ B) (hC : C ≤ 64) :
    ArithOn P p (MulBound P B) (fun a => a.xes * a.xes ≤ B) := by
  have hpl := h.plain
  have hfac : P.factor = 1 := by simp [Params.factor, hpl]
  exact { h.toConsts with
    one_ok := one_plain h.toConsts hpl
    newInt_ok := newInt_plain h.toConsts hpl
    newBig_ok := by
      intro x X hx hX
      obtain ⟨n1, n2⟩ := nres_plain h.toConsts hpl hx (by positivity) (by exact_mod_cast hX)
      exact ⟨n1, by rw [show newBig P x = nres P x from rfl, n2]; simp⟩
    mul_ok := fun _ _ ha hc hx => mulGM h ha hc hx
    sqr_ok := fun _ ha hx => sqrGM h (by omega) ha hx
    imul_ok := fun a c ha _ hc => imulGM h (by omega) hC ha c hc
    pow_ok := by
      intro k a e E ha hk hx he hE
      obtain ⟨s, hs, hxs⟩ := h.mulOn' h4 hx
      obtain ⟨r1, r2, _⟩ := pow_on hs (one_plain h.toConsts hpl) ha hk hxs he hE
      exact ⟨r1, r2⟩
    inverse_ok := by
      intro k a ha hk hx hn
      obtain ⟨s, hs, hxs⟩ := h.mulOn' h4 hx
      exact inverse_plain_on hs hpl he (hn hpl) hxs
    redc_ok := by
      intro a ha hlt
      have e : redc P a = a.x := by simp [redc, hpl]
      have : ((residue P p a).val : Int) = limbsVal P.b a.x := by
        have hn := ha.valid.nonneg
        obtain ⟨X, hX⟩ : ∃ X : Nat, limbsVal P.b a.x = X := ⟨_, (Int.toNat_of_nonneg hn).symm⟩
        have hr : residue P p a = (X : ZMod p) := by unfold residue; rw [hfac, hX]; simp
        rw [hr, hX, ZMod.val_natCast, Nat.mod_eq_of_lt (by rw [hX] at hlt; exact_mod_cast hlt)]
      rw [e, this]; exact ha.rep
    nres_redc := by
      intro x X hx hX
      have e : redc P (newBig P x) = x := by simp [redc, newBig, nres, hpl]
      rw [e]; exact hx }

/-- `sqrt` in the Goldilocks field -/
theorem sqrtGM {B : Nat} (h : PlainB P p B) (he : PlainExp P p) (h5 : P.mod8 ≠ 5) (h4 : 4 ≤ B) {k : Nat} {a : Fp C} (ha : Valid P p k a)
    (hk : Room P k) (hsq : IsSquare (residue P p a)) :
    Normed P p (sqrt P a) ∧ residue P p (sqrt P a) * residue P p (sqrt P a) = residue P p a :=
  sqrt_plain_on (h.mulOn 2 le_rfl h4) h.plain he h5 ha hk hsq

end Verif.Fp
