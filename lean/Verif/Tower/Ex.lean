import Verif.Fp.Arith
import Verif.Fp.Hist
import Verif.Fp.Lazy
import Verif.Fp.More
import Mathlib.Data.Nat.Size
/- Field elements with a bound on the excess counter: rules for the operations of `fp.rs`. -/
namespace Verif.Tower
open Verif.Big Verif.Fp Spec

variable {C : Nat} {P : Params C} {p : Nat}

/-- `Elem` with the excess counter bounded by `e` -/
structure Ex (P : Params C) (p : Nat) (l k e : Nat) (a : Fp C) (v : ZMod p) : Prop where
  el : Elem P p l k a v
  xes : a.xes ≤ e

/-- counter after `FP::neg` -/
def negE (e : Nat) : Nat := if e ≤ 1 then 2 else 2 ^ (Nat.log2 (e - 1) + 2)

theorem check_xes (a : Fp C) {e : Nat} (h : a.xes ≤ e) (h1 : 1 ≤ e) : (check P a).xes ≤ e := by
  unfold check
  split
  · unfold reduce
    dsimp only
    split <;> exact h1
  · exact h

theorem reduce_xes (a : Fp C) : (reduce P a).xes = 1 := by
  unfold reduce
  dsimp only
  split <;> rfl

theorem negE_le {x e : Nat} (h1 : 1 ≤ x) (h2 : x ≤ 2 ^ 32) (h : x ≤ e) : 2 ^ (logXes x + 1) ≤ negE e := by
  obtain ⟨_, hs⟩ := logXes_spec h1 h2
  unfold negE
  split
  · have : logXes x ≤ 0 := hs _ (by omega)
    rw [Nat.le_zero.1 this]; norm_num
  · apply Nat.pow_le_pow_right (by norm_num)
    have : logXes x ≤ Nat.log2 (e - 1) + 1 := hs _ (by have := Nat.lt_log2_self (n := e - 1); omega)
    omega

theorem fexcess_le (h : Consts P p) (hC : C ≤ 64) : P.fexcess ≤ 2 ^ 32 := by
  unfold Params.fexcess
  have h1 := h.shhalf
  have : 2 ^ P.sh ≤ 2 ^ 32 := Nat.pow_le_pow_right (by norm_num) (by omega)
  omega

variable {l k e l' k' e' : Nat} {a c : Fp C} {v w : ZMod p} [hp : Fact p.Prime]

theorem Ex.mono (h : Ex P p l k e a v) (hl : l ≤ l') (hk : k ≤ k') (he : e ≤ e') (hr : Room P (max l' k')) : Ex P p l' k' e' a v :=
  ⟨h.el.mono hl hk hr, h.xes.trans he⟩

omit hp in
theorem Ex.pos (h : Ex P p l k e a v) : 1 ≤ e := h.el.valid.xes1.trans h.xes

theorem Ex.add (h : Consts P p) (ha : Ex P p l k e a v) (hc : Ex P p l' k' e' c w) (hr : Room P (max (l + l') (k + k'))) :
    Ex P p (l + l') (k + k') (e + e') (Fp.add P a c) (v + w) := by
  refine ⟨ha.el.add h hc.el hr, ?_⟩
  have h1 := ha.xes; have h2 := hc.xes; have h3 := ha.pos
  exact check_xes _ (by dsimp only; omega) (by omega)

theorem Ex.dbl (h : Consts P p) (ha : Ex P p l k e a v) (hr : Room P (max (l + l) (k + k))) :
    Ex P p (l + l) (k + k) (e + e) (Fp.dbl P a) (v + v) := by
  refine ⟨ha.el.dbl h hr, ?_⟩
  have h1 := ha.xes; have h3 := ha.pos
  exact check_xes _ (by dsimp only; omega) (by omega)

theorem Ex.neg (h : Consts P p) (hC : C ≤ 64) (ha : Ex P p l k e a v) (hr : Room P (max k (l + 1))) :
    Ex P p k (l + 1) (negE e) (Fp.neg P a) (-v) := by
  refine ⟨ha.el.neg h hC hr, ?_⟩
  have h1 := negE_le ha.el.valid.xes1 (ha.el.valid.xes2.trans (fexcess_le h hC)) ha.xes
  exact check_xes _ h1 (le_trans Nat.one_le_two_pow h1)

theorem Ex.sub (h : Consts P p) (hC : C ≤ 64) (ha : Ex P p l k e a v) (hc : Ex P p l' k' e' c w) (hr : Room P (max (l + k') (k + l' + 1))) :
    Ex P p (l + k') (k + l' + 1) (e + negE e') (Fp.sub P a c) (v - w) := by
  refine ⟨ha.el.sub h hC hc.el hr, ?_⟩
  have h1 := ha.xes; have h2 := (hc.neg h hC (hr.mono (by omega))).xes; have h3 := ha.pos
  exact check_xes _ (by dsimp only; omega) (by omega)

theorem Ex.norm (h : Consts P p) (ha : Ex P p l k e a v) : Ex P p 0 1 e (Fp.norm P a) v := ⟨ha.el.norm h, ha.xes⟩

theorem Ex.reduce (h : Consts P p) (ha : Ex P p l k e a v) : Ex P p 0 1 1 (Fp.reduce P a) v := ⟨ha.el.reduce h, (reduce_xes a).le⟩

theorem Ex.mul (h : FieldOk P p) (ha : Ex P p l k e a v) (hc : Ex P p l' k' e' c w) (h1 : l ≤ 1 ∧ k ≤ 1) (h2 : l' ≤ 1 ∧ k' ≤ 1) :
    Ex P p 0 1 2 (Fp.mul P a c) (v * w) := ⟨ha.el.mul h hc.el h1 h2, le_rfl⟩

theorem Ex.sqr (h : FieldOk P p) (ha : Ex P p l k e a v) (h1 : l ≤ 1 ∧ k ≤ 1) :
    Ex P p 0 1 2 (Fp.sqr P a) (v * v) := ⟨ha.el.sqr h h1, le_rfl⟩

omit hp in
theorem Ex.to {v' : ZMod p} (h : Ex P p l k e a v) (e' : v = v') : Ex P p l k e a v' := e' ▸ h

theorem zero_ex (h : Consts P p) : Ex P p 0 1 1 (Fp.zero P) 0 := by
  have hz : limbsVal P.b (Fp.zero P : Fp C).x = 0 := (zero_rep (C := C) P.b P.n).val
  have hd : Digits P.b (Fp.zero P : Fp C).x := by
    refine Rep.digits (zero_rep (C := C) P.b P.n) le_rfl (two_pow_pos' _)
  refine ⟨.of_normed h ⟨⟨⟨(zero_rep (C := C) P.b P.n).len, ?_, hz.ge, ?_, le_rfl, ?_⟩, hd⟩, ?_⟩, le_rfl⟩
  · rw [Nat.cast_one, one_mul]; exact hd.within1
  · rw [hz]; have := h.ppos; simp [Fp.zero]; omega
  · unfold Params.fexcess Fp.zero
    have := h.sh5
    have : 2 ^ 5 ≤ 2 ^ P.sh := Nat.pow_le_pow_right (by norm_num) this
    dsimp only; omega
  · unfold residue; rw [hz]; simp


theorem Ex.div2 (h : Consts P p) (ha : Ex P p 0 1 e a v) : Ex P p 0 1 e (Fp.div2 P a) (v / 2) := by
  obtain ⟨d1, d2⟩ := div2_ok h ha.el.normed (odd_of_prime h)
  have h2 : (2 : ZMod p) ≠ 0 := by
    have := h.two_lt
    intro e
    have e : ((2 : Nat) : ZMod p) = 0 := by exact_mod_cast e
    rw [ZMod.natCast_eq_zero_iff] at e
    exact absurd (Nat.le_of_dvd (by norm_num) e) (by omega)
  refine ⟨.of_normed h ⟨d1, ?_⟩, ?_⟩
  · rw [eq_div_iff h2, mul_comm, d2, ha.el.res]
  · unfold Fp.div2
    split <;> exact ha.xes

omit hp in
theorem pow_xes (P : Params C) (a : Fp C) (x : Limbs C) : (Fp.pow P a x).xes = 1 := by
  unfold Fp.pow
  exact reduce_xes _

theorem Ex.inverse (h : Arith P p) (hpl : P.plain = false) (ha : Ex P p l k e a v) : Ex P p 0 1 1 (Fp.inverse P a) v⁻¹ := by
  obtain ⟨i1, i2⟩ := h.inverse_ok _ a ha.el.valid ha.el.room (by rw [hpl]; intro h; cases h)
  refine ⟨.of_normed h.toConsts ⟨i1, by rw [i2, ha.el.res]⟩, ?_⟩
  unfold Fp.inverse
  rw [hpl]
  simp only [Bool.false_eq_true, if_false]
  exact (pow_xes P a _).le


/-- counter after `FP::imul` -/
def imulE (e : Nat) (c : Int) : Nat := if c < 0 then negE (max (e * c.natAbs) 2) else max (e * c.natAbs) 2

/-- the product of `FP::imul` before the sign -/
def imulPos (P : Params C) (a : Fp C) (cc : Nat) : Fp C :=
  if a.xes * cc ≤ P.fexcess then { x := (Big.pmul P.b a.x cc).1, xes := a.xes * cc } else Fp.mul P a (Fp.newInt P cc)

omit hp in
theorem imulPos_xes (a : Fp C) (cc N : Nat) (ha1 : 1 ≤ a.xes) (hx : a.xes ≤ e) (hc : 1 ≤ cc) (hN : P.fexcess ≤ N) (hN2 : 2 ≤ N) :
    1 ≤ (imulPos P a cc).xes ∧ (imulPos P a cc).xes ≤ max (e * cc) 2 ∧ (imulPos P a cc).xes ≤ N := by
  have hm := Nat.mul_le_mul_right cc hx
  have hpos := Nat.mul_le_mul ha1 hc
  unfold imulPos
  split
  · rename_i hh
    exact ⟨by dsimp only; omega, by dsimp only; omega, hh.trans hN⟩
  · have : (Fp.mul P a (Fp.newInt P cc)).xes = 2 := rfl
    rw [this]; omega

omit hp in
theorem imul_eq (hpl : P.plain = false) (a : Fp C) (c : Int) :
    Fp.imul P a c = if c < 0 then Fp.norm P (Fp.neg P (imulPos P a c.natAbs)) else imulPos P a c.natAbs := by
  unfold Fp.imul imulPos
  rw [hpl]
  rfl

omit hp in
theorem norm_xes (a : Fp C) : (Fp.norm P a).xes = a.xes := rfl

omit hp in
theorem neg_xes (a : Fp C) (h : 2 ^ (logXes a.xes + 1) ≤ e) : (Fp.neg P a).xes ≤ e := by
  unfold Fp.neg
  exact check_xes _ h (le_trans Nat.one_le_two_pow h)

theorem Ex.imul (h : Arith P p) (hC : C ≤ 64) (hpl : P.plain = false) (ha : Ex P p 0 1 e a v) {c : Int} (h0 : c ≠ 0) (hc : |c| < 2 ^ P.b) :
    Ex P p 0 1 (imulE e c) (Fp.imul P a c) (c * v) := by
  obtain ⟨m1, m2⟩ := h.imul_ok a c ha.el.normed h0 hc
  refine ⟨.of_normed h.toConsts ⟨m1, by rw [m2, ha.el.res, mul_comm]⟩, ?_⟩
  obtain ⟨k1, k2, k3⟩ := imulPos_xes (P := P) (e := e) a c.natAbs _ ha.el.valid.xes1 ha.xes (Int.natAbs_pos.2 h0) (fexcess_le h.toConsts hC) (by norm_num)
  rw [imul_eq hpl]
  unfold imulE
  split
  · have := negE_le k1 k3 k2
    rw [norm_xes]; exact neg_xes _ this
  · exact k2

end Verif.Tower
