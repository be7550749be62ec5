import Verif.Big.Wide
import Verif.Tower.Sqrt2
/-
Products of operands that were not normalised after an addition: on wide enough words they equal the products of the normalised operands.
-/
namespace Verif.Fp
open Verif.Big Verif.Tower Spec

set_option linter.unusedSectionVars false
variable {C : Nat}

/-- words so wide that limbs of two digits can be multiplied (64-bit builds) -/
structure Wide (P : Params C) : Prop where
  fits : (4 * P.n : Int) * (2 ^ P.b * 2 ^ P.b) ≤ 2 ^ (2 * C - 1)
  spare : P.b + 5 ≤ C

theorem digits_unique {b : Nat} {xs ys : Limbs C} (hl : xs.length = ys.length) (hx : Digits b xs) (hy : Digits b ys) (hv : limbsVal b xs = limbsVal b ys) : xs = ys := by
  refine normal_unique xs ys hl ?_ ?_ hv
  · exact (Rep.of_digits hx).low
  · exact (Rep.of_digits hy).low

variable {P : Params C} {p : Nat}

theorem Wide.lim (h : Wide P) {k : Nat} (hk : k ≤ 8) : (k : Int) * (2 ^ P.b - 1) ≤ 2 ^ (C - 2) := by
  have := h.spare
  have h1 : (2 : Int) ^ (P.b + 3) ≤ 2 ^ (C - 2) := pow_le_pow_right₀ (by norm_num) (by omega)
  rw [pow_add] at h1
  have h2 := two_pow_pos' P.b
  have h3 : (k : Int) ≤ 8 := by exact_mod_cast hk
  nlinarith

/-- limbs in the sense of the lazy bounds -/
theorem Elem.within {l k : Nat} {a : Fp C} {v : ZMod p} (ha : Elem P p l k a v) : LimbsWithin ((max l k : Nat) * (2 ^ P.b - 1)) a.x := ha.valid.lim

theorem norm_of (hw : Wide P) (hn : 0 < P.n) {k : Nat} (hk : k ≤ 8) {x : Limbs C} (hl : x.length = P.n) (hx : LimbsWithin (k * (2 ^ P.b - 1)) x) (ok : Ok C P.b) :
    Rep P.b P.n (Big.norm P.b x) (limbsVal P.b x) := by
  have := norm_rep ok x (by rintro rfl; simp at hl; omega) (within_mono (hw.lim hk) x hx)
  rw [hl] at this
  exact this

/-- normalising before an addition that is followed by a normalisation changes nothing -/
theorem norm_add_norm (hw : Wide P) (hn : 0 < P.n) (ok : Ok C P.b) {k k' : Nat} (hk : k + k' ≤ 7) (h1' : 1 ≤ k) {x y : Limbs C} (hl : x.length = P.n) (hl' : y.length = P.n)
    (hx : LimbsWithin (k * (2 ^ P.b - 1)) x) (hy : LimbsWithin (k' * (2 ^ P.b - 1)) y) (hd : Digits P.b (Big.norm P.b x)) :
    Big.norm P.b (Big.add (Big.norm P.b x) y) = Big.norm P.b (Big.add x y) := by
  have r := norm_of hw hn (by omega) hl hx ok
  have hsp := hw.spare
  have hb1 := two_pow_pos' P.b
  have hb : ((k + k' : Nat) : Int) * (2 ^ P.b - 1) < 2 ^ (C - 1) := by
    refine lt_of_le_of_lt (hw.lim (by omega : k + k' ≤ 8)) (pow_lt_pow_right₀ (by norm_num) (by omega))
  push_cast at hb
  have hb' : (k : Int) * (2 ^ P.b - 1) + k' * (2 ^ P.b - 1) < 2 ^ (C - 1) := by linarith
  have hx' : LimbsWithin (k * (2 ^ P.b - 1)) (Big.norm P.b x) := by
    intro z hz
    have := hd z hz
    have h1 : (1 : Int) ≤ k := by exact_mod_cast h1'
    constructor <;> nlinarith
  have v1 := add_val (b := P.b) (by omega) x y (by rw [hl, hl']) _ _ hx hy hb'
  have v2 := add_val (b := P.b) (by omega) (Big.norm P.b x) y (by rw [r.len, hl']) _ _ hx' hy hb'
  have w1 := add_within (by omega) x y _ _ hx hy hb'
  have w2 := add_within (by omega) (Big.norm P.b x) y _ _ hx' hy hb'
  rw [← add_mul, ← Nat.cast_add] at w1 w2
  have n1 := norm_of hw hn (show k + k' ≤ 8 by omega) (by unfold Big.add; simp [hl, hl']) w1 ok
  have n2 := norm_of hw hn (show k + k' ≤ 8 by omega) (by unfold Big.add; simp [r.len, hl']) w2 ok
  refine normal_unique _ _ (by rw [n1.len, n2.len]) n2.low n1.low ?_
  rw [n1.val, n2.val, v1, v2, r.val]

/-- sums of equal numbers have equal normal forms -/
theorem norm_add_val (hw : Wide P) (hn : 0 < P.n) (ok : Ok C P.b) {k k' : Nat} (hk : k + k' ≤ 7) {x y x' y' : Limbs C} (hl : x.length = P.n) (hl' : y.length = P.n)
    (hm : x'.length = P.n) (hm' : y'.length = P.n) (hx : LimbsWithin (k * (2 ^ P.b - 1)) x) (hy : LimbsWithin (k' * (2 ^ P.b - 1)) y)
    (hx' : LimbsWithin (k * (2 ^ P.b - 1)) x') (hy' : LimbsWithin (k' * (2 ^ P.b - 1)) y') (e1 : limbsVal P.b x = limbsVal P.b x') (e2 : limbsVal P.b y = limbsVal P.b y') :
    Big.norm P.b (Big.add x y) = Big.norm P.b (Big.add x' y') := by
  have hsp := hw.spare
  have hb : ((k + k' : Nat) : Int) * (2 ^ P.b - 1) < 2 ^ (C - 1) :=
    lt_of_le_of_lt (hw.lim (by omega : k + k' ≤ 8)) (pow_lt_pow_right₀ (by norm_num) (by omega))
  push_cast at hb
  have hb' : (k : Int) * (2 ^ P.b - 1) + k' * (2 ^ P.b - 1) < 2 ^ (C - 1) := by linarith
  have v1 := add_val (b := P.b) (by omega) x y (by rw [hl, hl']) _ _ hx hy hb'
  have v2 := add_val (b := P.b) (by omega) x' y' (by rw [hm, hm']) _ _ hx' hy' hb'
  have w1 := add_within (by omega) x y _ _ hx hy hb'
  have w2 := add_within (by omega) x' y' _ _ hx' hy' hb'
  rw [← add_mul, ← Nat.cast_add] at w1 w2
  have n1 := norm_of hw hn (show k + k' ≤ 8 by omega) (by unfold Big.add; simp [hl, hl']) w1 ok
  have n2 := norm_of hw hn (show k + k' ≤ 8 by omega) (by unfold Big.add; simp [hm, hm']) w2 ok
  refine normal_unique _ _ (by rw [n1.len, n2.len]) n1.low n2.low ?_
  rw [n1.val, n2.val, v1, v2, e1, e2]

section
variable [hp : Fact p.Prime]

theorem norm_digits (h : Consts P p) {l k : Nat} {a : Fp C} {v : ZMod p} (ha : Elem P p l k a v) : Digits P.b (Big.norm P.b a.x) := (ha.norm h).digits

theorem norm_val (h : Consts P p) {l k : Nat} {a : Fp C} {v : ZMod p} (ha : Elem P p l k a v) : limbsVal P.b (Big.norm P.b a.x) = limbsVal P.b a.x :=
  (norm_normed h ha.valid ha.room).2.1

theorem norm_len (h : Consts P p) {l k : Nat} {a : Fp C} {v : ZMod p} (ha : Elem P p l k a v) : (Big.norm P.b a.x).length = P.n := (ha.norm h).valid.len

theorem norm_norm (h : Consts P p) {l k : Nat} {a : Fp C} {v : ZMod p} (ha : Elem P p l k a v) : norm P (norm P a) = norm P a := by
  have h1 := ha.norm h
  have h2 := h1.norm h
  have e : Big.norm P.b (Big.norm P.b a.x) = Big.norm P.b a.x :=
    digits_unique (by rw [norm_len h ha]; exact norm_len h h1) (norm_digits h h1) (norm_digits h ha) (norm_val h h1)
  unfold norm
  dsimp only
  rw [e]

theorem reduce_norm (h : Consts P p) {l k : Nat} {a : Fp C} {v : ZMod p} (ha : Elem P p l k a v) : reduce P (norm P a) = reduce P a := by
  have e : Big.norm P.b (norm P a).x = Big.norm P.b a.x := congrArg Fp.x (norm_norm h ha)
  unfold reduce
  rw [e]
  rfl

theorem val_lt (h : Consts P p) {l k : Nat} {a : Fp C} {v : ZMod p} (ha : Elem P p l k a v) : limbsVal P.b a.x < 2 ^ (P.b * P.n) := by
  rw [← norm_val h ha, ← norm_len h ha]
  exact within_lt (norm_digits h ha).within1

theorem bigMul_norm (h : Consts P p) (hw : Wide P) {l k l' k' : Nat} {a c : Fp C} {v w : ZMod p} (ha : Elem P p l k a v) (hc : Elem P p l' k' c w)
    (h1 : l ≤ 2 ∧ k ≤ 2) (h2 : l' ≤ 2 ∧ k' ≤ 2) : Big.mul P.b a.x c.x = Big.mul P.b (Big.norm P.b a.x) (Big.norm P.b c.x) := by
  have hb := two_pow_pos' P.b
  have two : ∀ {l k : Nat} {a : Fp C} {v : ZMod p}, Elem P p l k a v → l ≤ 2 → k ≤ 2 → LimbsWithin (2 * (2 ^ P.b - 1)) a.x := by
    intro l k a v q q1 q2
    have q3 : ((max l k : Nat) : Int) ≤ 2 := by exact_mod_cast (max_le q1 q2)
    exact within_mono (by nlinarith) _ q.within
  have hn : 2 ≤ P.n := h.hn
  have f4 : (4 * a.x.length : Int) * (2 ^ P.b * 2 ^ P.b) ≤ 2 ^ (2 * C - 1) := by rw [ha.valid.len]; exact hw.fits
  obtain ⟨m1, m2, m3⟩ := Wide.mul_signed h.ok (two ha h1.1 h1.2) (two hc h2.1 h2.2) ha.valid.nonneg hc.valid.nonneg (by rw [ha.valid.len, hc.valid.len])
    (by rw [ha.valid.len]; omega) (by rw [ha.valid.len]; exact mul_lt_mul'' (val_lt h ha) (val_lt h hc) ha.valid.nonneg hc.valid.nonneg) f4
  obtain ⟨n1, n2, n3⟩ := mul_spec h.ok (norm_digits h ha) (norm_digits h hc) (by rw [norm_len h ha, norm_len h hc]) (by rw [norm_len h ha]; omega)
    (by rw [norm_len h ha]; exact h.fits)
  refine digits_unique (by rw [m1, n1, ha.valid.len, norm_len h ha]) m2 n2 ?_
  rw [m3, n3, norm_val h ha, norm_val h hc]

theorem bigSqr_norm (h : Consts P p) (hw : Wide P) {l k : Nat} {a : Fp C} {v : ZMod p} (ha : Elem P p l k a v)
    (h1 : l ≤ 2 ∧ k ≤ 2) : Big.sqr P.b a.x = Big.sqr P.b (Big.norm P.b a.x) := by
  have hb := two_pow_pos' P.b
  have w1 : LimbsWithin (2 * (2 ^ P.b - 1)) a.x :=
    within_mono (by have q3 : ((max l k : Nat) : Int) ≤ 2 := (by exact_mod_cast (max_le h1.1 h1.2)); nlinarith) _ ha.within
  have hn : 2 ≤ P.n := h.hn
  have f4 : (4 * a.x.length : Int) * (2 ^ P.b * 2 ^ P.b) ≤ 2 ^ (2 * C - 1) := by rw [ha.valid.len]; exact hw.fits
  obtain ⟨m1, m2, m3⟩ := Wide.sqr_signed h.ok w1 ha.valid.nonneg
    (by rw [ha.valid.len]; omega) (by rw [ha.valid.len]; exact mul_lt_mul'' (val_lt h ha) (val_lt h ha) ha.valid.nonneg ha.valid.nonneg) f4
  obtain ⟨n1, n2, n3⟩ := sqr_spec h.ok (norm_digits h ha) (by rw [norm_len h ha]; omega)
    (by rw [norm_len h ha]; exact h.fits)
  refine digits_unique (by rw [m1, n1, ha.valid.len, norm_len h ha]) m2 n2 ?_
  rw [m3, n3, norm_val h ha]

/-- `FP::mul` of operands with limbs of up to two digits -/
theorem mul_norm (h : Consts P p) (hw : Wide P) {l k l' k' : Nat} {a c : Fp C} {v w : ZMod p} (ha : Elem P p l k a v) (hc : Elem P p l' k' c w)
    (h1 : l ≤ 2 ∧ k ≤ 2) (h2 : l' ≤ 2 ∧ k' ≤ 2) : mul P a c = mul P (norm P a) (norm P c) := by
  unfold mul
  rw [reduce_norm h ha]
  dsimp only
  rw [show (norm P a).xes = a.xes from rfl, show (norm P c).xes = c.xes from rfl]
  split_ifs with q
  · have r := ha.reduce h
    rw [bigMul_norm h hw r hc ⟨by omega, by omega⟩ h2, bigMul_norm h hw r (hc.norm h) ⟨by omega, by omega⟩ ⟨by omega, by omega⟩]
    rw [show Big.norm P.b (norm P c).x = Big.norm P.b c.x from congrArg Fp.x (norm_norm h hc)]
  · rw [bigMul_norm h hw ha hc h1 h2]
    rfl

theorem Elem.mulW (h : FieldOk P p) (hw : Wide P) {l k l' k' : Nat} {a c : Fp C} {v w : ZMod p} (ha : Elem P p l k a v) (hc : Elem P p l' k' c w)
    (h1 : l ≤ 2 ∧ k ≤ 2) (h2 : l' ≤ 2 ∧ k' ≤ 2) : Elem P p 0 1 (Fp.mul P a c) (v * w) := by
  rw [mul_norm h.toConsts hw ha hc h1 h2]
  exact (ha.norm h.toConsts).mul h (hc.norm h.toConsts) ⟨by omega, le_rfl⟩ ⟨by omega, le_rfl⟩

theorem sqr_norm (h : Consts P p) (hw : Wide P) {l k : Nat} {a : Fp C} {v : ZMod p} (ha : Elem P p l k a v)
    (h1 : l ≤ 2 ∧ k ≤ 2) : sqr P a = sqr P (norm P a) := by
  unfold sqr
  rw [reduce_norm h ha]
  dsimp only
  rw [show (norm P a).xes = a.xes from rfl]
  split_ifs with q
  · rfl
  · rw [bigSqr_norm h hw ha h1]
    rfl

/-- an addition followed by `norm` -/
theorem norm_add (h : Consts P p) (hw : Wide P) {l k l' k' : Nat} {a c : Fp C} {v w : ZMod p} (ha : Elem P p l k a v) (hc : Elem P p l' k' c w)
    (h1 : l ≤ 3 ∧ k ≤ 3) (h2 : l' ≤ 3 ∧ k' ≤ 3) : norm P (add P (norm P a) c) = norm P (add P a c) := by
  have e : Big.norm P.b (Big.add (Big.norm P.b a.x) c.x) = Big.norm P.b (Big.add a.x c.x) :=
    norm_add_norm hw (by have := h.hn; omega) h.ok (k := max l k) (k' := max l' k') (by omega) (by have := ha.pos; omega) ha.valid.len hc.valid.len
      ha.within hc.within (norm_digits h ha)
  unfold add check norm
  dsimp only
  split_ifs with q
  · unfold reduce
    dsimp only
    rw [e]
  · dsimp only; rw [e]

end
end Verif.Fp
