import Verif.Gt.Slack
import Verif.Tower.Ops12
/- `FP12::mul` by an element whose counters are only known through the stored integers. -/
namespace Verif.Tower
open Verif.Big Verif.Fp Verif.Prog Spec
set_option linter.unusedVariables false
set_option linter.unusedSectionVars false

attribute [local irreducible] Fp.norm Fp.neg Fp.add Fp.sub Fp.dbl Fp.reduce Fp.mul Fp.sqr Fp.imul Fp.div2 Fp.inverse
attribute [local irreducible] Fp4.norm Fp4.neg Fp4.add Fp4.sub Fp4.dbl Fp4.reduce Fp4.mul Fp4.sqr Fp4.imul Fp4.div2 Fp4.inverse Fp4.conj Fp4.nconj Fp4.timesI Fp4.pmul Fp4.padd Fp4.zero
attribute [local irreducible] Fp2.sub Fp2.dbl Fp2.reduce Fp2.sqr Fp2.imul Fp2.div2 Fp2.inverse Fp2.conj Fp2.timesI Fp2.divIp Fp2.divIp2 Fp2.zero

variable {C : Nat} {P : Params C} {p : Nat} [hp : Fact p.Prime]

/-- limbs between `-l` and `k` digits, and `Slk j t` -/
structure Sk where
  l : Nat
  k : Nat
  j : Nat
  t : Nat

/-- both components of an `FP2` -/
structure Sl2 (P : Params C) (p : Nat) (d : Sk) (x : Fp2 C) (v : F2 p) : Prop where
  re : Elem P p d.l d.k x.a v.re
  im : Elem P p d.l d.k x.b v.im
  sre : Slk P p d.j d.t x.a
  sim : Slk P p d.j d.t x.b

/-- bounded counters, or bounded integers -/
inductive D2
  | lz (d : Lz)
  | sl (d : Sk)

/-- `x` represents `v`, as lazily as `d` -/
def RelD2 (P : Params C) (p : Nat) : D2 → Fp2 C → F2 p → Prop
  | .lz d => Rel2 P p d
  | .sl d => Sl2 P p d

/-- a rule of `fp2Abs` -/
def lift1 (f : Lz → Option Lz) : D2 → Option D2
  | .lz d => (f d).map .lz
  | .sl _ => none
/-- a rule of `fp2Abs` -/
def lift2 (f : Lz → Lz → Option Lz) : D2 → D2 → Option D2
  | .lz d, .lz e => (f d e).map .lz
  | _, _ => none

/-- the rules with slack: such elements may be added, normalised, and used as second factor -/
def absD2 : AbsOps D2 where
  mul d e := match d, e with
    | .lz d, .sl e => if d.l ≤ 1 ∧ d.k ≤ 1 ∧ e.l ≤ 1 ∧ e.k ≤ 1 ∧ e.j ≤ 2 ∧ e.t ≤ 65535 then some (.lz ⟨0, 1, 3⟩) else none
    | d, e => lift2 fp2Abs.mul d e
  sqr := lift1 fp2Abs.sqr
  add d e := match d, e with
    | .sl d, .sl e => if d.l + e.l ≤ 4 ∧ d.k + e.k ≤ 4 ∧ 1 ≤ d.t then some (.sl ⟨d.l + e.l, d.k + e.k, d.j + e.j, d.t + e.t⟩) else none
    | d, e => lift2 fp2Abs.add d e
  sub := lift2 fp2Abs.sub
  rsub := lift2 fp2Abs.rsub
  dbl := lift1 fp2Abs.dbl
  neg := lift1 fp2Abs.neg
  norm d := match d with
    | .sl d => some (.sl ⟨0, 1, d.j, d.t⟩)
    | d => lift1 fp2Abs.norm d
  imul d c := lift1 (fun d => fp2Abs.imul d c) d
  un i d := lift1 (fp2Abs.un i) d
  bin i d e := lift2 (fp2Abs.bin i) d e

theorem lift1_ok {f : Lz → Option Lz} {g : Fp2 C → Fp2 C} {q : F2 p → F2 p} (hf : ∀ {d r a v}, f d = some r → Rel2 P p d a v → Rel2 P p r (g a) (q v))
    {d r a v} (hr : lift1 f d = some r) (ha : RelD2 P p d a v) : RelD2 P p r (g a) (q v) := by
  cases d with
  | sl d => cases hr
  | lz d =>
    obtain ⟨x, hx, rfl⟩ := Option.map_eq_some_iff.1 hr
    exact hf hx ha

theorem lift2_ok {f : Lz → Lz → Option Lz} {g : Fp2 C → Fp2 C → Fp2 C} {q : F2 p → F2 p → F2 p}
    (hf : ∀ {d e r a c v w}, f d e = some r → Rel2 P p d a v → Rel2 P p e c w → Rel2 P p r (g a c) (q v w))
    {d e r a c v w} (hr : lift2 f d e = some r) (ha : RelD2 P p d a v) (hc : RelD2 P p e c w) : RelD2 P p r (g a c) (q v w) := by
  cases d <;> cases e <;> first | cases hr | skip
  · obtain ⟨x, hx, rfl⟩ := Option.map_eq_some_iff.1 hr
    exact hf hx ha hc

variable (h : TowerOk P p)
include h

theorem Sl2.of {K t : Nat} {x : Fp2 C} {v : F2 p} (hx : Std2 P p K x v) (ht : K ≤ t) : Sl2 P p ⟨0, 1, 0, t⟩ x v :=
  ⟨hx.1.1, hx.2.1, .of_valid hx.1.1.valid (hx.1.2.trans ht), .of_valid hx.2.1.valid (hx.2.2.trans ht)⟩

theorem Sl2.mono {l k j t j' t' : Nat} {x : Fp2 C} {v : F2 p} (hx : Sl2 P p ⟨l, k, j, t⟩ x v) (hj : j ≤ j') (ht : t ≤ t') : Sl2 P p ⟨l, k, j', t'⟩ x v :=
  ⟨hx.re, hx.im, hx.sre.mono hj ht, hx.sim.mono hj ht⟩

theorem Sl2.norm {d : Sk} {x : Fp2 C} {v : F2 p} (hx : Sl2 P p d x v) : Sl2 P p ⟨0, 1, d.j, d.t⟩ (Fp2.norm P x) v :=
  ⟨hx.re.norm h.toConsts, hx.im.norm h.toConsts, hx.sre.norm h.toConsts hx.re, hx.sim.norm h.toConsts hx.im⟩

theorem Sl2.add {d e : Sk} {x y : Fp2 C} {v w : F2 p} (hx : Sl2 P p d x v) (hy : Sl2 P p e y w) (h1 : d.l + e.l ≤ 4) (h2 : d.k + e.k ≤ 4) (h3 : 1 ≤ d.t) :
    Sl2 P p ⟨d.l + e.l, d.k + e.k, d.j + e.j, d.t + e.t⟩ (Fp2.add P x y) (v + w) := by
  have r := room2 h h1 h2
  exact ⟨hx.re.add h.toConsts hy.re r, hx.im.add h.toConsts hy.im r, hx.sre.add h.toConsts hx.re hy.re hy.sre h3 r, hx.sim.add h.toConsts hx.im hy.im hy.sim h3 r⟩

/-- `FP2::neg` followed by `norm` -/
theorem Sl2.neg {t : Nat} {x : Fp2 C} {v : F2 p} (hx : Sl2 P p ⟨0, 1, 1, t⟩ x v) : Sl2 P p ⟨0, 1, 1, t + 1⟩ (Fp2.norm P (Fp2.neg P x)) (-v) := by
  have q : Rel2 P p ⟨0, 1, P.fexcess⟩ x v := ⟨⟨hx.re, hx.re.valid.xes2⟩, ⟨hx.im, hx.im.valid.xes2⟩⟩
  have n := neg2_ok h q (by simp [negLz]) (by simp [negLz])
  have r1 : Room P (max (0 + 0) (1 + 1)) := room2 h (by norm_num) (by norm_num)
  have r2 : Room P (max (1 + 1) (0 + 0 + 1)) := room2 h (by norm_num) (by norm_num)
  have r3 : Room P (max (1 + 1 + 0) (0 + 0 + 1 + 1)) := room2 h (by norm_num) (by norm_num)
  have m := hx.re.add h.toConsts hx.im r1
  have cs := add_cases h.toConsts hx.re hx.im r1
  refine Sl2.norm h (d := ⟨2, 2, 1, t + 1⟩) ⟨n.re.el, n.im.el, ?_, ?_⟩
  · exact Slk.negAdd h.toConsts h.hC hx.re.valid.nonneg m hx.im hx.sim (cs.imp (fun q => q.2) id) r2 r3
  · exact Slk.negAdd h.toConsts h.hC hx.im.valid.nonneg m hx.re hx.sre (cs.imp (fun q => by rw [q.2]; ring) id) r2 r3

theorem mulSl_ok {d : Lz} {e : Sk} {x y : Fp2 C} {v w : F2 p} (hx : Rel2 P p d x v) (hy : Sl2 P p e y w) (h1 : d.l ≤ 1) (h2 : d.k ≤ 1)
    (h3 : e.l ≤ 1) (h4 : e.k ≤ 1) (h5 : e.j ≤ 2) (h6 : e.t ≤ 65535) : Rel2 P p ⟨0, 1, 3⟩ (Fp2.mul P x y) (v * w) := by
  have ya := hy.re.one h3 h4
  have yb := hy.im.one h3 h4
  have hpz : (0 : Int) < p := by exact_mod_cast h.toConsts.ppos
  have hsy : limbsVal P.b y.a.x + limbsVal P.b y.b.x < 2 ^ (P.b * P.n) := by
    rcases Nat.lt_or_ge P.sh 19 with hs | hs
    · have hf := fexcess_lt P
      have f18 : 2 ^ P.sh ≤ 2 ^ 18 := Nat.pow_le_pow_right (by norm_num) (by omega)
      have bd : ∀ {f : Fp C} {k : Nat}, Valid P p k f → limbsVal P.b f.x < 2 ^ 18 * p := by
        intro f k hv
        have h1 := hv.lt
        have h2 : (f.xes : Int) ≤ 2 ^ 18 := by have := hv.xes2; exact_mod_cast (by omega : f.xes ≤ 2 ^ 18)
        have h3 : (f.xes : Int) * p ≤ 2 ^ 18 * p := mul_le_mul_of_nonneg_right h2 hpz.le
        linarith
      have hh : (2 : Int) ^ 19 * p ≤ 2 ^ (P.b * P.n) := by exact_mod_cast h.head
      have := bd ya; have := bd yb
      norm_num at *
      linarith
    · refine hy.sre.sum_lt h.toConsts hy.sim ya yb h5 h5 ?_
      have : 2 ^ 17 ≤ 2 ^ (P.sh - 2) := Nat.pow_le_pow_right (by norm_num) (by omega)
      omega
  have n3 := ya.nonneg; have n4 := yb.nonneg
  have hz : ∃ z, Fp2.mulPre P x y = z ∧ Valid P p 1 z.a ∧ Valid P p 1 z.b ∧ residue P p z.a = v.re ∧ residue P p z.b = v.im ∧
      limbsVal P.b z.a.x + limbsVal P.b z.b.x < 2 ^ (P.b * P.n) ∧ limbsVal P.b z.a.x * limbsVal P.b y.a.x < p * 2 ^ (P.b * P.n) ∧
      limbsVal P.b z.b.x * limbsVal P.b y.b.x < p * 2 ^ (P.b * P.n) ∧
      limbsVal P.b z.a.x * limbsVal P.b y.b.x + limbsVal P.b z.b.x * limbsVal P.b y.a.x < p * 2 ^ (P.b * P.n) := by
    refine ⟨_, rfl, ?_⟩
    unfold Fp2.mulPre
    split
    · have ra := hx.re.reduce h.toConsts
      have rb := hx.im.reduce h.toConsts
      have qa : ∀ u : Fp C, u = (if x.a.xes > 1 then Fp.reduce P x.a else x.a) → Valid P p 1 u ∧ residue P p u = v.re ∧ u.xes ≤ 1 := by
        intro u hu; subst hu
        split
        · exact ⟨ra.el.one (by omega) le_rfl, ra.el.res, ra.xes⟩
        · exact ⟨hx.re.el.one h1 h2, hx.re.el.res, by omega⟩
      have qb : ∀ u : Fp C, u = (if x.b.xes > 1 then Fp.reduce P x.b else x.b) → Valid P p 1 u ∧ residue P p u = v.im ∧ u.xes ≤ 1 := by
        intro u hu; subst hu
        split
        · exact ⟨rb.el.one (by omega) le_rfl, rb.el.res, rb.xes⟩
        · exact ⟨hx.im.el.one h1 h2, hx.im.el.res, by omega⟩
      obtain ⟨a1, a2, a3⟩ := qa _ rfl
      obtain ⟨b1, b2, b3⟩ := qb _ rfl
      refine ⟨a1, b1, a2, b2, ?_⟩
      dsimp only
      generalize (if x.a.xes > 1 then Fp.reduce P x.a else x.a) = u at *
      generalize (if x.b.xes > 1 then Fp.reduce P x.b else x.b) = s at *
      have lt1 : ∀ {f : Fp C}, Valid P p 1 f → f.xes ≤ 1 → limbsVal P.b f.x < p := by
        intro f hf hl
        have e : f.xes = 1 := le_antisymm hl hf.xes1
        have := hf.lt
        rwa [e, Nat.cast_one, one_mul] at this
      have l1 := lt1 a1 a3; have l2 := lt1 b1 b3
      have n1 := a1.nonneg; have n2 := b1.nonneg
      have p2 := h.toConsts.xes_p (x := 2) (by
        have : 2 ^ 5 ≤ 2 ^ P.sh := Nat.pow_le_pow_right (by norm_num) h.toConsts.sh5
        omega)
      push_cast at p2
      have ub : ∀ {f g : Int}, f < p → 0 ≤ g → f * g ≤ p * g := fun hf hg => mul_le_mul_of_nonneg_right hf.le hg
      have tot : (p : Int) * (limbsVal P.b y.a.x + limbsVal P.b y.b.x) < p * 2 ^ (P.b * P.n) := mul_lt_mul_of_pos_left hsy hpz
      have t1 := mul_nonneg hpz.le n3; have t2 := mul_nonneg hpz.le n4
      rw [mul_add] at tot
      refine ⟨by linarith, ?_, ?_, ?_⟩
      · have := ub l1 n3; linarith
      · have := ub l2 n4; linarith
      · have := ub l1 n4; have := ub l2 n3; linarith
    · rename_i hle
      have za := hx.re.el.one h1 h2
      have zb := hx.im.el.one h1 h2
      refine ⟨za, zb, hx.re.el.res, hx.im.el.res, ?_⟩
      have hX := h.toConsts.xes_p (x := (x.a.xes + x.b.xes) * (y.a.xes + y.b.xes)) (le_of_lt (lt_of_le_of_lt (Nat.le_of_not_lt hle) (fexcess_lt P)))
      have hXp : ∀ {m : Nat}, m ≤ (x.a.xes + x.b.xes) * (y.a.xes + y.b.xes) → (m : Int) * p < 2 ^ (P.b * P.n) := fun hm =>
        lt_of_le_of_lt (mul_le_mul_of_nonneg_right (by exact_mod_cast hm) hpz.le) hX
      have x1 := za.xes1; have x2 := zb.xes1; have y1 := ya.xes1; have y2 := yb.xes1
      have la := za.lt; have lb := zb.lt; have lc := ya.lt; have ld := yb.lt
      have na := za.nonneg; have nb := zb.nonneg
      have hF : ∀ {m : Nat}, m ≤ (x.a.xes + x.b.xes) * (y.a.xes + y.b.xes) → (m : Int) * (p * p) < p * 2 ^ (P.b * P.n) := by
        intro m hm
        have h2 := hXp hm
        calc (m : Int) * (p * p) = p * (m * p) := by ring
          _ < p * 2 ^ (P.b * P.n) := mul_lt_mul_of_pos_left h2 hpz
      have hE : (limbsVal P.b x.a.x + limbsVal P.b x.b.x) * (limbsVal P.b y.a.x + limbsVal P.b y.b.x) < p * 2 ^ (P.b * P.n) := by
        refine lt_of_le_of_lt ?_ (hF (m := (x.a.xes + x.b.xes) * (y.a.xes + y.b.xes)) le_rfl)
        calc _ ≤ (x.a.xes * p + x.b.xes * p : Int) * (y.a.xes * p + y.b.xes * p) := mul_le_mul (by linarith) (by linarith) (by linarith) (by positivity)
          _ = _ := by push_cast; ring
      have hsx := hXp (m := x.a.xes + x.b.xes) (Nat.le_mul_of_pos_right _ (by omega))
      push_cast at hsx
      have p1 := mul_nonneg na n3
      have p2 := mul_nonneg nb n4
      have p3 := mul_nonneg na n4
      have p4 := mul_nonneg nb n3
      have ex : (limbsVal P.b x.a.x + limbsVal P.b x.b.x) * (limbsVal P.b y.a.x + limbsVal P.b y.b.x) =
        limbsVal P.b x.a.x * limbsVal P.b y.a.x + limbsVal P.b x.b.x * limbsVal P.b y.b.x + limbsVal P.b x.a.x * limbsVal P.b y.b.x + limbsVal P.b x.b.x * limbsVal P.b y.a.x := by ring
      refine ⟨by linarith, by linarith, by linarith, by linarith⟩
  obtain ⟨z, z0, z1, z2, z3, z4, z5, z6, z7, z8⟩ := hz
  have hm := mul2_val h.toMontConsts z1 z2 ya yb z5 hsy z6 z7 z8
  have q1 := hy.re.res; have q2 := hy.im.res
  unfold Fp2.mul
  rw [z0]
  refine ⟨⟨Elem.to' hm.1 ?_, le_rfl⟩, ⟨Elem.to' hm.2 ?_, by norm_num⟩⟩
  · rw [z3, z4, q1, q2]; simp [QuadraticAlgebra.re_mul]; ring
  · rw [z3, z4, q1, q2]; simp [QuadraticAlgebra.im_mul]

attribute [local irreducible] Fp2.norm Fp2.neg Fp2.add Fp2.mul

theorem absD2_sound : Sound (fp2Ops P) (ringOps (F2 p) (ext2 p)) absD2 (small P) (RelD2 P p) where
  mul := by
    intro d e r a c v w hr ha hc
    cases d with
    | sl d => cases hr
    | lz d =>
      cases e with
      | lz e => exact lift2_ok (d := .lz d) (e := .lz e) (f := fp2Abs.mul) (fun q => (fp2_sound h).mul q) hr ha hc
      | sl e =>
        simp only [absD2] at hr
        split_ifs at hr with hh
        cases hr
        exact mulSl_ok h ha hc hh.1 hh.2.1 hh.2.2.1 hh.2.2.2.1 hh.2.2.2.2.1 hh.2.2.2.2.2
  sqr := fun hr ha => lift1_ok (f := fp2Abs.sqr) (fun q => (fp2_sound h).sqr q) hr ha
  add := by
    intro d e r a c v w hr ha hc
    cases d with
    | lz d => 
      cases e with
      | lz e => exact lift2_ok (d := .lz d) (e := .lz e) (f := fp2Abs.add) (fun q => (fp2_sound h).add q) hr ha hc
      | sl e => cases hr
    | sl d =>
      cases e with
      | lz e => cases hr
      | sl e =>
        simp only [absD2] at hr
        split_ifs at hr with hh
        cases hr
        exact Sl2.add h ha hc hh.1 hh.2.1 hh.2.2
  sub := fun hr ha hc => lift2_ok (f := fp2Abs.sub) (fun q => (fp2_sound h).sub q) hr ha hc
  rsub := fun hr ha hc => lift2_ok (f := fp2Abs.rsub) (fun q => (fp2_sound h).rsub q) hr ha hc
  dbl := fun hr ha => lift1_ok (f := fp2Abs.dbl) (fun q => (fp2_sound h).dbl q) hr ha
  neg := fun hr ha => lift1_ok (f := fp2Abs.neg) (fun q => (fp2_sound h).neg q) hr ha
  norm := by
    intro d r a v hr ha
    cases d with
    | lz d => exact lift1_ok (d := .lz d) (f := fp2Abs.norm) (fun q => (fp2_sound h).norm q) hr ha
    | sl d =>
      cases hr
      exact Sl2.norm h ha
  imul := fun hg hr ha => lift1_ok (fun q => (fp2_sound h).imul hg q) hr ha
  un := fun hr ha => lift1_ok (fun q => (fp2_sound h).un q) hr ha
  bin := fun hr ha hc => lift2_ok (fun q => (fp2_sound h).bin q) hr ha hc

omit hp h
/-- bounded counters, or bounded integers -/
inductive D4
  | lz (d : Lz4)
  | sl (a b : Sk)

/-- both components of an `FP4` -/
structure Sl4 (P : Params C) (p : Nat) (a b : Sk) (x : Fp4 C) (v : F4 p) : Prop where
  re : Sl2 P p a x.a v.re
  im : Sl2 P p b x.b v.im

/-- `x` represents `v`, as lazily as `d` -/
def RelD4 (P : Params C) (p : Nat) : D4 → Fp4 C → F4 p → Prop
  | .lz d => Rel4 P p d
  | .sl a b => Sl4 P p a b

/-- a rule of `fp4Abs` -/
def lift41 (f : Lz4 → Option Lz4) : D4 → Option D4
  | .lz d => (f d).map .lz
  | .sl _ _ => none
/-- a rule of `fp4Abs` -/
def lift42 (f : Lz4 → Lz4 → Option Lz4) : D4 → D4 → Option D4
  | .lz d, .lz e => (f d e).map .lz
  | _, _ => none

/-- a pair of `FP2` descriptors -/
def pairD : D2 → D2 → Option D4
  | .lz a, .lz b => some (.lz ⟨a, b⟩)
  | .sl a, .sl b => some (.sl a b)
  | _, _ => none

/-- the rules with slack -/
def absD4 : AbsOps D4 where
  mul d e := match d, e with
    | .lz d, .sl a b => (absRun absD2 Fp4.mulProg (Fp4.init (.lz ⟨0, 1, 1⟩) (.lz d.a) (.lz d.b) (.sl a) (.sl b))).bind fun t => pairD (t .a) (t .b)
    | d, e => lift42 fp4Abs.mul d e
  sqr := lift41 fp4Abs.sqr
  add d e := match d, e with
    | .sl a b, .sl a' b' => (absD2.add (.sl a) (.sl a')).bind fun r => (absD2.add (.sl b) (.sl b')).bind fun s => pairD r s
    | d, e => lift42 fp4Abs.add d e
  sub := lift42 fp4Abs.sub
  rsub := lift42 fp4Abs.rsub
  dbl := lift41 fp4Abs.dbl
  neg := lift41 fp4Abs.neg
  norm d := match d with
    | .sl a b => some (.sl ⟨0, 1, a.j, a.t⟩ ⟨0, 1, b.j, b.t⟩)
    | d => lift41 fp4Abs.norm d
  imul d c := lift41 (fun d => fp4Abs.imul d c) d
  un i d := lift41 (fp4Abs.un i) d
  bin i d e := lift42 (fp4Abs.bin i) d e

theorem pairD_ok {d e : D2} {r : D4} {a b : Fp2 C} {v w : F2 p} (hr : pairD d e = some r) (ha : RelD2 P p d a v) (hb : RelD2 P p e b w) :
    RelD4 P p r ⟨a, b⟩ ⟨v, w⟩ := by
  cases d <;> cases e <;> cases hr
  · exact ⟨ha, hb⟩
  · exact ⟨ha, hb⟩

include hp
theorem lift41_ok {f : Lz4 → Option Lz4} {g : Fp4 C → Fp4 C} {q : F4 p → F4 p} (hf : ∀ {d r a v}, f d = some r → Rel4 P p d a v → Rel4 P p r (g a) (q v))
    {d r a v} (hr : lift41 f d = some r) (ha : RelD4 P p d a v) : RelD4 P p r (g a) (q v) := by
  cases d with
  | sl a b => cases hr
  | lz d =>
    obtain ⟨x, hx, rfl⟩ := Option.map_eq_some_iff.1 hr
    exact hf hx ha

theorem lift42_ok {f : Lz4 → Lz4 → Option Lz4} {g : Fp4 C → Fp4 C → Fp4 C} {q : F4 p → F4 p → F4 p}
    (hf : ∀ {d e r a c v w}, f d e = some r → Rel4 P p d a v → Rel4 P p e c w → Rel4 P p r (g a c) (q v w))
    {d e r a c v w} (hr : lift42 f d e = some r) (ha : RelD4 P p d a v) (hc : RelD4 P p e c w) : RelD4 P p r (g a c) (q v w) := by
  cases d <;> cases e <;> first | cases hr | skip
  · obtain ⟨x, hx, rfl⟩ := Option.map_eq_some_iff.1 hr
    exact hf hx ha hc

include h
theorem mulD4_ok {d : Lz4} {a b : Sk} {r : D4} {x y : Fp4 C} {v w : F4 p} (hr : absD4.mul (.lz d) (.sl a b) = some r)
    (hx : Rel4 P p d x v) (hy : Sl4 P p a b y w) : RelD4 P p r (Fp4.mul P x y) (v * w) := by
  obtain ⟨t', ht, hr⟩ := Option.bind_eq_some_iff.1 hr
  have hz : RelD2 P p (.lz ⟨0, 1, 1⟩) (Fp2.zero P) 0 := zero2_ok h
  have := run_sound (absD2_sound h) Fp4.mulProg (by intro i hi; fin_cases hi <;> exact trivial) (s := Fp4.init (Fp2.zero P) x.a x.b y.a y.b)
    (v := Fp4.init 0 v.re v.im w.re w.im) (t := Fp4.init (.lz ⟨0, 1, 1⟩) (.lz d.a) (.lz d.b) (.sl a) (.sl b))
    (fun r => by cases r <;> first | exact hx.re | exact hx.im | exact hy.re | exact hy.im | exact hz) ht
  have q := pairD_ok hr (this .a) (this .b)
  have e : Fp4.mul P x y = ⟨run (fp2Ops P) Fp4.mulProg (Fp4.init (Fp2.zero P) x.a x.b y.a y.b) .a, run (fp2Ops P) Fp4.mulProg (Fp4.init (Fp2.zero P) x.a x.b y.a y.b) .b⟩ := by
    unfold Fp4.mul Fp4.runOn; rfl
  rw [e]
  rw [mulProg_a, mulProg_b] at q
  have e2 : (⟨Fp4.init 0 v.re v.im w.re w.im .a * Fp4.init 0 v.re v.im w.re w.im .ya + Fp4.init 0 v.re v.im w.re w.im .b * Fp4.init 0 v.re v.im w.re w.im .yb * xi p,
      Fp4.init 0 v.re v.im w.re w.im .a * Fp4.init 0 v.re v.im w.re w.im .yb + Fp4.init 0 v.re v.im w.re w.im .b * Fp4.init 0 v.re v.im w.re w.im .ya⟩ : F4 p) = v * w := by
    ext1
    · simp [Fp4.init]; ring
    · simp [Fp4.init]
  rw [e2] at q
  exact q

theorem absD4_sound : Sound (fp4Ops P) (ringOps (F4 p) (ext4 p) (bin4 p)) absD4 (small P) (RelD4 P p) where
  mul := by
    intro d e r a c v w hr ha hc
    cases d with
    | sl _ _ => cases hr
    | lz d =>
      cases e with
      | lz e => exact lift42_ok (d := .lz d) (e := .lz e) (f := fp4Abs.mul) (fun q => (fp4_sound h).mul q) hr ha hc
      | sl x y => exact mulD4_ok h hr ha hc
  sqr := fun hr ha => lift41_ok (f := fp4Abs.sqr) (fun q => (fp4_sound h).sqr q) hr ha
  add := by
    intro d e r a c v w hr ha hc
    cases d with
    | lz d =>
      cases e with
      | lz e => exact lift42_ok (d := .lz d) (e := .lz e) (f := fp4Abs.add) (fun q => (fp4_sound h).add q) hr ha hc
      | sl _ _ => cases hr
    | sl x y =>
      cases e with
      | lz e => cases hr
      | sl x' y' =>
        obtain ⟨s, hs, hr⟩ := Option.bind_eq_some_iff.1 hr
        obtain ⟨u, hu, hr⟩ := Option.bind_eq_some_iff.1 hr
        have q1 := (absD2_sound h).add (d := .sl x) (e := .sl x') hs ha.re hc.re
        have q2 := (absD2_sound h).add (d := .sl y) (e := .sl y') hu ha.im hc.im
        have q := pairD_ok hr q1 q2
        show RelD4 P p r (Fp4.add P a c) (v + w)
        unfold Fp4.add
        exact q
  sub := fun hr ha hc => lift42_ok (f := fp4Abs.sub) (fun q => (fp4_sound h).sub q) hr ha hc
  rsub := fun hr ha hc => lift42_ok (f := fp4Abs.rsub) (fun q => (fp4_sound h).rsub q) hr ha hc
  dbl := fun hr ha => lift41_ok (f := fp4Abs.dbl) (fun q => (fp4_sound h).dbl q) hr ha
  neg := fun hr ha => lift41_ok (f := fp4Abs.neg) (fun q => (fp4_sound h).neg q) hr ha
  norm := by
    intro d r a v hr ha
    cases d with
    | lz d => exact lift41_ok (d := .lz d) (f := fp4Abs.norm) (fun q => (fp4_sound h).norm q) hr ha
    | sl x y =>
      cases hr
      show RelD4 P p _ (Fp4.norm P a) v
      unfold Fp4.norm
      exact ⟨Sl2.norm h ha.re, Sl2.norm h ha.im⟩
  imul := fun hg hr ha => lift41_ok (fun q => (fp4_sound h).imul hg q) hr ha
  un := fun hr ha => lift41_ok (fun q => (fp4_sound h).un q) hr ha
  bin := fun hr ha hc => lift42_ok (fun q => (fp4_sound h).bin q) hr ha hc

end Verif.Tower
