import Verif.Tower.Mul2
import Verif.Prog.Field
import Mathlib.Tactic.SplitIfs
/- `FP2` as an implementation of `Z/p[i]`: abstract operations and their soundness. -/
namespace Verif.Tower
open Verif.Big Verif.Fp Verif.Prog Spec

attribute [local irreducible] Fp.norm Fp.neg Fp.add Fp.sub Fp.dbl Fp.reduce Fp.mul Fp.sqr Fp.imul Fp.div2 Fp.inverse

variable {C : Nat}

/-- how lazily reduced the components of an `FP2` are: limbs between `-l` and `k` digits, counters at most `e` -/
structure Lz where
  l : Nat
  k : Nat
  e : Nat
  deriving DecidableEq

/-- `x` represents `v`, as lazily as `d` -/
structure Rel2 (P : Params C) (p : Nat) (d : Lz) (x : Fp2 C) (v : F2 p) : Prop where
  re : Ex P p d.l d.k d.e x.a v.re
  im : Ex P p d.l d.k d.e x.b v.im

/-- limbs must not exceed four digits -/
def cap2 (l k e : Nat) : Option Lz := if l ≤ 4 ∧ k ≤ 4 then some ⟨l, k, e⟩ else none

/-- rules for `neg` -/
def negLz (d : Lz) : Lz := ⟨2 * d.k + d.l, 2 * d.l + 1 + d.k, negE (2 * d.e) + d.e⟩

/-- `(re - i im) / (re² + im²)` -/
def inv2 {p : Nat} (v : F2 p) : F2 p := ⟨v.re * (v.re ^ 2 + v.im ^ 2)⁻¹, -(v.im * (v.re ^ 2 + v.im ^ 2)⁻¹)⟩

/-- what the further operations compute -/
def ext2 (p : Nat) (i : Nat) (v : F2 p) : F2 p := match i with
  | 0 => v * xi p
  | 1 => v * ⟨0, 1⟩
  | 2 => ⟨v.re, -v.im⟩
  | 3 => v
  | 4 => v * ⟨1, -1⟩
  | 5 => v * ⟨2⁻¹, -2⁻¹⟩
  | 6 => v * ⟨2⁻¹, 0⟩
  | 7 => inv2 v
  | _ => v

/-- the largest counter a second factor in `FP2::mul` may have -/
abbrev T : Nat := 131071

/-- rules: operands of products are normalised up to sign, and second operands have counters at most `T` -/
def fp2Abs : AbsOps Lz where
  mul d e := if d.l ≤ 1 ∧ d.k ≤ 1 ∧ e.l ≤ 1 ∧ e.k ≤ 1 ∧ e.e ≤ T then some ⟨0, 1, 3⟩ else none
  sqr d := if d.l ≤ 1 ∧ d.k ≤ 1 then some ⟨0, 1, 2⟩ else none
  add d e := cap2 (d.l + e.l) (d.k + e.k) (d.e + e.e)
  sub d e := cap2 (d.l + (negLz e).l) (d.k + (negLz e).k) (d.e + (negLz e).e)
  rsub d e := cap2 ((negLz d).l + e.l) ((negLz d).k + e.k) ((negLz d).e + e.e)
  dbl d := cap2 (d.l + d.l) (d.k + d.k) (d.e + d.e)
  neg d := cap2 (negLz d).l (negLz d).k (negLz d).e
  norm d := some ⟨0, 1, d.e⟩
  imul d c := if d.l = 0 ∧ d.k = 1 then some ⟨0, 1, imulE d.e c⟩ else none
  un i d := match i with
    | 0 => cap2 (max (d.k + d.l) (d.l + d.l)) (max (d.l + 1 + d.k) (d.k + d.k)) (negE d.e + d.e)
    | 1 => cap2 (max d.k d.l) (max (d.l + 1) d.k) (max (negE d.e) d.e)
    | 2 => cap2 (max d.k d.l) (max (d.l + 1) d.k) (max (negE d.e) d.e)
    | 3 => some ⟨0, 1, 1⟩
    | 4 => some ⟨0, 1, d.e + negE d.e⟩
    | 5 => some ⟨0, 1, d.e + negE d.e⟩
    | 6 => if d.l = 0 ∧ d.k = 1 then some d else none
    | 7 => some ⟨0, 1, 2⟩
    | _ => none

theorem cap2_some {l k e : Nat} {r : Lz} (h : cap2 l k e = some r) : r = ⟨l, k, e⟩ ∧ l ≤ 4 ∧ k ≤ 4 := by
  unfold cap2 at h
  split_ifs at h with hh
  exact ⟨(Option.some.inj h).symm, hh⟩

variable {P : Params C} {p : Nat} [hp : Fact p.Prime]

omit hp in
theorem Rel2.mk' {l k e : Nat} {a b : Fp C} {v : F2 p} (h1 : Ex P p l k e a v.re) (h2 : Ex P p l k e b v.im) : Rel2 P p ⟨l, k, e⟩ ⟨a, b⟩ v := ⟨h1, h2⟩

omit hp in
theorem Rel2.to {d : Lz} {x : Fp2 C} {v w : F2 p} (h : Rel2 P p d x v) (e : v = w) : Rel2 P p d x w := e ▸ h

/-- What the tower needs from a ROM file: a Montgomery field and numbers with at least 19 bits of headroom. -/
structure TowerOk (P : Params C) (p : Nat) : Prop extends MontConsts P p where
  hC : C ≤ 64
  head : 2 ^ 19 * p ≤ 2 ^ (P.b * P.n)

variable (h : TowerOk P p)
include h

theorem TowerOk.arith : Arith P p := MontConsts.arith h.toMontConsts h.hC
omit hp in
theorem TowerOk.plain : P.plain = false := by simp [Params.plain, h.type]
theorem mul2_ok {d e : Lz} {x y : Fp2 C} {v w : F2 p} (hx : Rel2 P p d x v) (hy : Rel2 P p e y w) (h1 : d.l ≤ 1) (h2 : d.k ≤ 1)
    (h3 : e.l ≤ 1) (h4 : e.k ≤ 1) (h5 : e.e ≤ T) : Rel2 P p ⟨0, 1, 3⟩ (Fp2.mul P x y) (v * w) := by
  have ya := hy.re.el.one h3 h4
  have yb := hy.im.el.one h3 h4
  have e1 := hy.re.xes; have e2 := hy.im.xes
  have hz : ∃ z, Fp2.mulPre P x y = z ∧ Valid P p 1 z.a ∧ Valid P p 1 z.b ∧ residue P p z.a = v.re ∧ residue P p z.b = v.im ∧
      (((z.a.xes + z.b.xes) * (y.a.xes + y.b.xes) : Nat) : Int) * p < 2 ^ (P.b * P.n) := by
    refine ⟨_, rfl, ?_⟩
    unfold Fp2.mulPre
    split
    · have ra := hx.re.reduce h.toConsts
      have rb := hx.im.reduce h.toConsts
      have qa : ∀ u : Fp C, u = (if x.a.xes > 1 then Fp.reduce P x.a else x.a) → Valid P p 1 u ∧ residue P p u = v.re ∧ u.xes ≤ 1 := by
        intro u hu; subst hu
        split
        · exact ⟨ra.el.one (by omega) le_rfl, ra.el.res, ra.xes⟩
        · exact ⟨hx.re.el.one h1 h2, hx.re.el.res, by omega⟩
      have qb : ∀ u : Fp C, u = (if x.b.xes > 1 then Fp.reduce P x.b else x.b) → Valid P p 1 u ∧ residue P p u = v.im ∧ u.xes ≤ 1 := by
        intro u hu; subst hu
        split
        · exact ⟨rb.el.one (by omega) le_rfl, rb.el.res, rb.xes⟩
        · exact ⟨hx.im.el.one h1 h2, hx.im.el.res, by omega⟩
      obtain ⟨a1, a2, a3⟩ := qa _ rfl
      obtain ⟨b1, b2, b3⟩ := qb _ rfl
      refine ⟨a1, b1, a2, b2, ?_⟩
      have h6 := Nat.mul_le_mul (Nat.add_le_add a3 b3) (show y.a.xes + y.b.xes ≤ 2 * T by omega)
      have h7 : ((2 ^ 19 * p : Nat) : Int) ≤ 2 ^ (P.b * P.n) := by exact_mod_cast h.head
      have h8 := h.toConsts.ppos
      refine lt_of_lt_of_le ?_ h7
      exact_mod_cast lt_of_le_of_lt (Nat.mul_le_mul_right p h6) (by nlinarith)
    · rename_i hle
      refine ⟨hx.re.el.one h1 h2, hx.im.el.one h1 h2, hx.re.el.res, hx.im.el.res, h.toConsts.xes_p ?_⟩
      exact le_of_lt (lt_of_le_of_lt (Nat.le_of_not_lt hle) (fexcess_lt P))
  obtain ⟨z, z0, z1, z2, z3, z4, z5⟩ := hz
  have hm := mul2_core h.toMontConsts z1 z2 ya yb z5
  have q1 := hy.re.el.res; have q2 := hy.im.el.res
  unfold Fp2.mul
  rw [z0]
  refine ⟨⟨Elem.to' hm.1 ?_, le_rfl⟩, ⟨Elem.to' hm.2 ?_, by norm_num⟩⟩
  · rw [z3, z4, q1, q2]; simp [QuadraticAlgebra.re_mul]; ring
  · rw [z3, z4, q1, q2]; simp [QuadraticAlgebra.im_mul]

theorem room2 {l k : Nat} (hl : l ≤ 4) (hk : k ≤ 4) : Room P (max l k) := (room_one h.toConsts).mono (by omega)

theorem add2_ok {d e : Lz} {x y : Fp2 C} {v w : F2 p} (hx : Rel2 P p d x v) (hy : Rel2 P p e y w) (h1 : d.l + e.l ≤ 4) (h2 : d.k + e.k ≤ 4) :
    Rel2 P p ⟨d.l + e.l, d.k + e.k, d.e + e.e⟩ (Fp2.add P x y) (v + w) :=
  ⟨hx.re.add h.toConsts hy.re (room2 h h1 h2), hx.im.add h.toConsts hy.im (room2 h h1 h2)⟩

theorem neg2_ok {d : Lz} {x : Fp2 C} {v : F2 p} (hx : Rel2 P p d x v) (h1 : (negLz d).l ≤ 4) (h2 : (negLz d).k ≤ 4) :
    Rel2 P p (negLz d) (Fp2.neg P x) (-v) := by
  unfold negLz at h1 h2 ⊢
  dsimp only at h1 h2
  have m := hx.re.add h.toConsts hx.im (room2 h (by omega) (by omega))
  have n := m.neg h.toConsts h.hC (room2 h (by omega) (by omega))
  have ra := n.add h.toConsts hx.im (room2 h (by omega) (by omega))
  have rb := n.add h.toConsts hx.re (room2 h (by omega) (by omega))
  have e1 : d.k + d.k + d.l = 2 * d.k + d.l := by omega
  have e2 : d.l + d.l + 1 + d.k = 2 * d.l + 1 + d.k := by omega
  have e3 : d.e + d.e = 2 * d.e := by omega
  rw [e1, e2, e3] at ra rb
  exact ⟨ra.to (by simp), rb.to (by simp)⟩

theorem sqr2_ok {d : Lz} {x : Fp2 C} {v : F2 p} (hx : Rel2 P p d x v) (h1 : d.l ≤ 1) (h2 : d.k ≤ 1) :
    Rel2 P p ⟨0, 1, 2⟩ (Fp2.sqr P x) (v ^ 2) := by
  have w1 := (hx.re.add h.toConsts hx.im (room2 h (by omega) (by omega))).norm h.toConsts
  have w3 := (hx.re.add h.toConsts hx.re (room2 h (by omega) (by omega))).norm h.toConsts
  have n := hx.im.neg h.toConsts h.hC (room2 h (by omega) (by omega))
  have a := (hx.re.add h.toConsts n (room2 h (by omega) (by omega))).norm h.toConsts
  have f := h.arith.toFieldOk
  exact ⟨(a.mul f w1 ⟨by omega, le_rfl⟩ ⟨by omega, le_rfl⟩).to (by rw [pow_two]; simp; ring),
    (hx.im.mul f w3 ⟨h1, h2⟩ ⟨by omega, le_rfl⟩).to (by rw [pow_two]; simp; ring)⟩

theorem inverse2_ok {d : Lz} {x : Fp2 C} {v : F2 p} (hx : Rel2 P p d x v) : Rel2 P p ⟨0, 1, 2⟩ (Fp2.inverse P x) (inv2 v) := by
  have f := h.arith.toFieldOk
  have na := hx.re.norm h.toConsts
  have nb := hx.im.norm h.toConsts
  have s := (na.sqr f ⟨by omega, le_rfl⟩).add h.toConsts (nb.sqr f ⟨by omega, le_rfl⟩) (room2 h (by omega) (by omega))
  have i := s.inverse h.arith h.plain
  have m := (i.neg h.toConsts h.hC (room2 h (by omega) (by omega))).norm h.toConsts
  refine ⟨(na.mul f i ⟨by omega, le_rfl⟩ ⟨by omega, le_rfl⟩).to ?_, (nb.mul f m ⟨by omega, le_rfl⟩ ⟨by omega, le_rfl⟩).to ?_⟩
  · simp only [inv2, pow_two]
  · simp only [inv2, pow_two]; ring

theorem divIp2_ok {d : Lz} {x : Fp2 C} {v : F2 p} (hx : Rel2 P p d x v) : Rel2 P p ⟨0, 1, d.e + negE d.e⟩ (Fp2.divIp2 P x) (v * ⟨1, -1⟩) := by
  have na := hx.re.norm h.toConsts
  have nb := hx.im.norm h.toConsts
  have a := (na.add h.toConsts nb (room2 h (by omega) (by omega))).norm h.toConsts
  have b := (nb.sub h.toConsts h.hC na (room2 h (by omega) (by omega))).norm h.toConsts
  have le : d.e + d.e ≤ d.e + negE d.e := by
    have : d.e ≤ negE d.e := by
      unfold negE
      split
      · omega
      · have := Nat.lt_log2_self (n := d.e - 1); rw [pow_add] at *; omega
    omega
  exact ⟨(a.mono le_rfl le_rfl le (room2 h (by omega) (by omega))).to (by simp), b.to (by simp; ring)⟩

theorem div2_2_ok {e : Nat} {x : Fp2 C} {v : F2 p} (hx : Rel2 P p ⟨0, 1, e⟩ x v) : Rel2 P p ⟨0, 1, e⟩ (Fp2.div2 P x) (v * ⟨2⁻¹, 0⟩) :=
  ⟨(hx.re.div2 h.toConsts).to (by simp [div_eq_mul_inv]), (hx.im.div2 h.toConsts).to (by simp [div_eq_mul_inv])⟩

omit hp h in
theorem le_negE (e : Nat) : e ≤ negE e := by
  unfold negE
  split
  · omega
  · have := Nat.lt_log2_self (n := e - 1); rw [pow_add] at *; omega

theorem dbl2_ok {d : Lz} {x : Fp2 C} {v : F2 p} (hx : Rel2 P p d x v) (h1 : d.l + d.l ≤ 4) (h2 : d.k + d.k ≤ 4) :
    Rel2 P p ⟨d.l + d.l, d.k + d.k, d.e + d.e⟩ (Fp2.dbl P x) (v + v) :=
  ⟨hx.re.dbl h.toConsts (room2 h h1 h2), hx.im.dbl h.toConsts (room2 h h1 h2)⟩

theorem norm2_ok {d : Lz} {x : Fp2 C} {v : F2 p} (hx : Rel2 P p d x v) : Rel2 P p ⟨0, 1, d.e⟩ (Fp2.norm P x) v :=
  ⟨hx.re.norm h.toConsts, hx.im.norm h.toConsts⟩

theorem reduce2_ok {d : Lz} {x : Fp2 C} {v : F2 p} (hx : Rel2 P p d x v) : Rel2 P p ⟨0, 1, 1⟩ (Fp2.reduce P x) v :=
  ⟨hx.re.reduce h.toConsts, hx.im.reduce h.toConsts⟩

theorem imul2_ok {e : Nat} {x : Fp2 C} {v : F2 p} (hx : Rel2 P p ⟨0, 1, e⟩ x v) {c : Int} (hg : small P c) :
    Rel2 P p ⟨0, 1, imulE e c⟩ (Fp2.imul P x c) ((c : F2 p) * v) :=
  ⟨(hx.re.imul h.arith h.hC h.plain hg.1 hg.2).to (by simp), (hx.im.imul h.arith h.hC h.plain hg.1 hg.2).to (by simp)⟩

theorem mulIp_ok {d : Lz} {x : Fp2 C} {v : F2 p} (hx : Rel2 P p d x v) (h1 : max (d.k + d.l) (d.l + d.l) ≤ 4) (h2 : max (d.l + 1 + d.k) (d.k + d.k) ≤ 4) :
    Rel2 P p ⟨max (d.k + d.l) (d.l + d.l), max (d.l + 1 + d.k) (d.k + d.k), negE d.e + d.e⟩ (Fp2.mulIp P x) (v * xi p) := by
  have n := hx.im.neg h.toConsts h.hC (room2 h (by omega) (by omega))
  have a := n.add h.toConsts hx.re (room2 h (by omega) (by omega))
  have b := hx.re.add h.toConsts hx.im (room2 h (by omega) (by omega))
  have le := le_negE d.e
  exact Rel2.mk' ((a.mono (by omega) (by omega) le_rfl (room2 h h1 h2)).to (by simp; ring))
    ((b.mono (by omega) (by omega) (by omega) (room2 h h1 h2)).to (by simp))

theorem timesI_ok {d : Lz} {x : Fp2 C} {v : F2 p} (hx : Rel2 P p d x v) (h1 : max d.k d.l ≤ 4) (h2 : max (d.l + 1) d.k ≤ 4) :
    Rel2 P p ⟨max d.k d.l, max (d.l + 1) d.k, max (negE d.e) d.e⟩ (Fp2.timesI P x) (v * ⟨0, 1⟩) := by
  have n := hx.im.neg h.toConsts h.hC (room2 h (by omega) (by omega))
  exact Rel2.mk' ((n.mono (by omega) (by omega) (by omega) (room2 h h1 h2)).to (by simp))
    ((hx.re.mono (by omega) (by omega) (by omega) (room2 h h1 h2)).to (by simp))

theorem conj2_ok {d : Lz} {x : Fp2 C} {v : F2 p} (hx : Rel2 P p d x v) (h1 : max d.k d.l ≤ 4) (h2 : max (d.l + 1) d.k ≤ 4) :
    Rel2 P p ⟨max d.k d.l, max (d.l + 1) d.k, max (negE d.e) d.e⟩ (Fp2.conj P x) ⟨v.re, -v.im⟩ := by
  have n := (hx.im.neg h.toConsts h.hC (room2 h (by omega) (by omega))).norm h.toConsts
  exact Rel2.mk' (v := ⟨v.re, -v.im⟩) (hx.re.mono (by omega) (by omega) (by omega) (room2 h h1 h2))
    (n.mono (by omega) (by omega) (by omega) (room2 h h1 h2))

theorem fp2_sound : Sound (fp2Ops P) (ringOps (F2 p) (ext2 p)) fp2Abs (small P) (Rel2 P p) where
  mul := by
    intro d e r a c v w hr ha hc
    simp only [fp2Abs] at hr
    split_ifs at hr with hh
    cases hr
    exact mul2_ok h ha hc hh.1 hh.2.1 hh.2.2.1 hh.2.2.2.1 hh.2.2.2.2
  sqr := by
    intro d r a v hr ha
    simp only [fp2Abs] at hr
    split_ifs at hr with hh
    cases hr
    exact sqr2_ok h ha hh.1 hh.2
  add := by
    intro d e r a c v w hr ha hc
    obtain ⟨rfl, h1, h2⟩ := cap2_some hr
    exact add2_ok h ha hc h1 h2
  sub := by
    intro d e r a c v w hr ha hc
    obtain ⟨rfl, h1, h2⟩ := cap2_some hr
    exact (add2_ok h ha (neg2_ok h hc (by omega) (by omega)) h1 h2).to (sub_eq_add_neg _ _).symm
  rsub := by
    intro d e r a c v w hr ha hc
    obtain ⟨rfl, h1, h2⟩ := cap2_some hr
    exact (add2_ok h (neg2_ok h ha (by omega) (by omega)) hc h1 h2).to (by show -v + w = w - v; ring)
  dbl := by
    intro d r a v hr ha
    obtain ⟨rfl, h1, h2⟩ := cap2_some hr
    exact dbl2_ok h ha h1 h2
  neg := by
    intro d r a v hr ha
    obtain ⟨rfl, h1, h2⟩ := cap2_some hr
    exact neg2_ok h ha h1 h2
  norm := by
    intro d r a v hr ha
    cases hr
    exact norm2_ok h ha
  imul := by
    intro d r a v c hg hr ha
    simp only [fp2Abs] at hr
    split_ifs at hr with hh
    cases hr
    obtain ⟨l, k, e⟩ := d
    obtain ⟨rfl, rfl⟩ := hh
    exact imul2_ok h ha hg
  un := by
    intro i d r a v hr ha
    match i, hr with
    | 0, hr =>
      obtain ⟨rfl, h1, h2⟩ := cap2_some hr
      exact mulIp_ok h ha h1 h2
    | 1, hr =>
      obtain ⟨rfl, h1, h2⟩ := cap2_some hr
      exact timesI_ok h ha h1 h2
    | 2, hr =>
      obtain ⟨rfl, h1, h2⟩ := cap2_some hr
      exact conj2_ok h ha h1 h2
    | 3, hr =>
      cases hr
      exact reduce2_ok h ha
    | 4, hr =>
      cases hr
      exact divIp2_ok h ha
    | 5, hr =>
      cases hr
      refine (div2_2_ok h (divIp2_ok h ha)).to ?_
      show v * ⟨1, -1⟩ * ⟨2⁻¹, 0⟩ = v * ⟨2⁻¹, -2⁻¹⟩
      rw [mul_assoc]
      congr 1
      ext <;> simp
    | 6, hr =>
      simp only [fp2Abs] at hr
      split_ifs at hr with hh
      cases hr
      obtain ⟨l, k, e⟩ := d
      obtain ⟨rfl, rfl⟩ := hh
      exact div2_2_ok h ha
    | 7, hr =>
      cases hr
      exact inverse2_ok h ha
    | (i + 8), hr => simp [fp2Abs] at hr
  bin := by
    intro i d e r a c v w hr
    cases hr

end Verif.Tower
