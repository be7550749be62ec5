import Verif.Tower.Field2
import Verif.Tower.Model12
import Mathlib.Tactic.FinCases
/- `FP4` as an implementation of `F2[w]`, `w² = 1 + i`. -/
namespace Verif.Tower
open Verif.Big Verif.Fp Verif.Prog Spec
set_option linter.unusedVariables false

attribute [local irreducible] Fp2.norm Fp2.neg Fp2.add Fp2.sub Fp2.dbl Fp2.reduce Fp2.mul Fp2.sqr Fp2.imul Fp2.div2 Fp2.inverse Fp2.conj Fp2.timesI Fp2.divIp Fp2.divIp2

variable {C : Nat} {P : Params C} {p : Nat} [hp : Fact p.Prime]

theorem sqrProg_a (s : R4 → F2 p) : run (ringOps (F2 p) (ext2 p)) Fp4.sqrProg s .a = s .a ^ 2 + s .b ^ 2 * xi p := by
  change (let a := s .a; let b := s .b; let t1 := a; let t2 := b; let t3 := a; let t3 := t3 * b; let t1 := t1 + b; let t2 := t2 * xi p; let t2 := t2 + a; let a := t1; let a := a * t2; let t2 := t3; let t2 := t2 * xi p; let t2 := t2 + t3; let t2 := -t2; let a := a + t2; let t3 := t3 + t3; let b := t3; a) = _
  ring

theorem sqrProg_b (s : R4 → F2 p) : run (ringOps (F2 p) (ext2 p)) Fp4.sqrProg s .b = 2 * s .a * s .b := by
  change (let a := s .a; let b := s .b; let t1 := a; let t2 := b; let t3 := a; let t3 := t3 * b; let t1 := t1 + b; let t2 := t2 * xi p; let t2 := t2 + a; let a := t1; let a := a * t2; let t2 := t3; let t2 := t2 * xi p; let t2 := t2 + t3; let t2 := -t2; let a := a + t2; let t3 := t3 + t3; let b := t3; b) = _
  ring

theorem mulProg_a (s : R4 → F2 p) : run (ringOps (F2 p) (ext2 p)) Fp4.mulProg s .a = s .a * s .ya + s .b * s .yb * xi p := by
  change (let a := s .a; let b := s .b; let ya := s .ya; let yb := s .yb; let t1 := a; let t2 := b; let t3 := yb; let t4 := b; let t1 := t1 * ya; let t2 := t2 * yb; let t3 := t3 + ya; let t4 := t4 + a; let t4 := t4 * t3; let t3 := t1; let t3 := -t3; let t4 := t4 + t3; let t3 := t2; let t3 := -t3; let b := t4; let b := b + t3; let t2 := t2 * xi p; let a := t2; let a := a + t1; a) = _
  ring

theorem mulProg_b (s : R4 → F2 p) : run (ringOps (F2 p) (ext2 p)) Fp4.mulProg s .b = s .a * s .yb + s .b * s .ya := by
  change (let a := s .a; let b := s .b; let ya := s .ya; let yb := s .yb; let t1 := a; let t2 := b; let t3 := yb; let t4 := b; let t1 := t1 * ya; let t2 := t2 * yb; let t3 := t3 + ya; let t4 := t4 + a; let t4 := t4 * t3; let t3 := t1; let t3 := -t3; let t4 := t4 + t3; let t3 := t2; let t3 := -t3; let b := t4; let b := b + t3; let t2 := t2 * xi p; let a := t2; let a := a + t1; b) = _
  ring

theorem invProg_a (s : R4 → F2 p) : run (ringOps (F2 p) (ext2 p)) Fp4.invProg s .a = s .a * inv2 (s .a ^ 2 - s .b ^ 2 * xi p) := by
  change (let a := s .a; let b := s .b; let t1 := a; let t2 := b; let t1 := t1 ^ 2; let t2 := t2 ^ 2; let t2 := t2 * xi p; let t1 := t1 - t2; let t1 := inv2 t1; let a := a * t1; let t1 := -t1; let b := b * t1; a) = _
  ring

theorem invProg_b (s : R4 → F2 p) : run (ringOps (F2 p) (ext2 p)) Fp4.invProg s .b = -(s .b * inv2 (s .a ^ 2 - s .b ^ 2 * xi p)) := by
  change (let a := s .a; let b := s .b; let t1 := a; let t2 := b; let t1 := t1 ^ 2; let t2 := t2 ^ 2; let t2 := t2 * xi p; let t1 := t1 - t2; let t1 := inv2 t1; let a := a * t1; let t1 := -t1; let b := b * t1; b) = _
  ring

/-- how lazily reduced the components of an `FP4` are -/
structure Lz4 where
  a : Lz
  b : Lz
  deriving DecidableEq

/-- `x` represents `v`, as lazily as `d` -/
structure Rel4 (P : Params C) (p : Nat) (d : Lz4) (x : Fp4 C) (v : F4 p) : Prop where
  re : Rel2 P p d.a x.a v.re
  im : Rel2 P p d.b x.b v.im

omit hp in
theorem Rel4.mk' {d e : Lz} {a b : Fp2 C} {v : F4 p} (h1 : Rel2 P p d a v.re) (h2 : Rel2 P p e b v.im) : Rel4 P p ⟨d, e⟩ ⟨a, b⟩ v := ⟨h1, h2⟩

omit hp in
theorem Rel4.to {d : Lz4} {x : Fp4 C} {v w : F4 p} (h : Rel4 P p d x v) (e : v = w) : Rel4 P p d x w := e ▸ h

/-- `d` is less lazy than `d'` -/
def Lz.le (d d' : Lz) : Prop := d.l ≤ d'.l ∧ d.k ≤ d'.k ∧ d.e ≤ d'.e

instance (d d' : Lz) : Decidable (d.le d') := inferInstanceAs (Decidable (_ ∧ _ ∧ _))

/-- `d` is less lazy than `d'`, and `d'` is not too lazy -/
def Lz4.le (d d' : Lz4) : Prop := (d.a.le d'.a ∧ d.b.le d'.b) ∧ d'.a.l ≤ 4 ∧ d'.a.k ≤ 4 ∧ d'.b.l ≤ 4 ∧ d'.b.k ≤ 4

instance (d d' : Lz4) : Decidable (d.le d') := inferInstanceAs (Decidable (_ ∧ _ ∧ _ ∧ _ ∧ _))

/-- abstract run of a program of `FP4` -/
def abs4 (pr : List (Ins R4)) (d e : Lz4) : Option Lz4 :=
  (absRun fp2Abs pr (Fp4.init ⟨0, 1, 1⟩ d.a d.b e.a e.b)).map (fun t => ⟨t .a, t .b⟩)

/-- rule for `FP4::neg` -/
def negLz4 (d : Lz4) : Lz4 := ⟨⟨0, 1, (negLz ⟨0, 2, d.a.e + d.b.e⟩).e + d.b.e⟩, ⟨0, 1, (negLz ⟨0, 2, d.a.e + d.b.e⟩).e + d.a.e⟩⟩

/-- pairs of rules -/
def both (a b : Option Lz) : Option Lz4 := a.bind fun a => b.map fun b => ⟨a, b⟩

theorem both_some {a b : Option Lz} {r : Lz4} (h : both a b = some r) : a = some r.a ∧ b = some r.b := by
  cases a <;> cases b <;> simp [both] at h
  subst h
  simp

/-- `(a - b w) / (a² - b² (1 + i))` -/
def inv4 {p : Nat} (v : F4 p) : F4 p := ⟨v.re * inv2 (v.re ^ 2 - v.im ^ 2 * xi p), -(v.im * inv2 (v.re ^ 2 - v.im ^ 2 * xi p))⟩

/-- what the further operations compute -/
def ext4 (p : Nat) (i : Nat) (v : F4 p) : F4 p := match i with
  | 0 => v * om p
  | 1 => ⟨v.re, -v.im⟩
  | 2 => ⟨-v.re, v.im⟩
  | 3 => v
  | 4 => inv4 v
  | 5 => ⟨v.re * ⟨2⁻¹, 0⟩, v.im * ⟨2⁻¹, 0⟩⟩
  | _ => v

/-- what the further binary operations compute -/
def bin4 (p : Nat) (i : Nat) (v w : F4 p) : F4 p := match i with
  | 0 => v * ⟨w.re, 0⟩
  | 1 => v * ⟨w.im, 0⟩
  | 2 => v + ⟨w.re, 0⟩
  | 3 => ⟨0, v.im * w.im⟩
  | 4 => ⟨v.im * w.re, v.im * w.im⟩
  | 5 => ⟨v.re * w.re, 0⟩
  | 6 => ⟨v.re * w.re, v.re * w.im⟩
  | _ => v

/-- the rules for `FP4` -/
def fp4Abs : AbsOps Lz4 where
  mul d e := abs4 Fp4.mulProg d e
  sqr d := abs4 Fp4.sqrProg d d
  add d e := both (fp2Abs.add d.a e.a) (fp2Abs.add d.b e.b)
  sub d e := both (fp2Abs.add d.a (negLz4 e).a) (fp2Abs.add d.b (negLz4 e).b)
  rsub d e := both (fp2Abs.add (negLz4 d).a e.a) (fp2Abs.add (negLz4 d).b e.b)
  dbl d := both (fp2Abs.dbl d.a) (fp2Abs.dbl d.b)
  neg d := some (negLz4 d)
  norm d := some ⟨⟨0, 1, d.a.e⟩, ⟨0, 1, d.b.e⟩⟩
  imul d c := both (fp2Abs.imul d.a c) (fp2Abs.imul d.b c)
  un i d := match i with
    | 0 => (fp2Abs.un 1 d.b).bind fun t => (fp2Abs.add d.b t).map fun t => ⟨⟨0, 1, t.e⟩, ⟨0, 1, d.a.e⟩⟩
    | 1 => (fp2Abs.neg d.b).map fun t => ⟨⟨0, 1, d.a.e⟩, ⟨0, 1, t.e⟩⟩
    | 2 => (fp2Abs.neg d.a).map fun t => ⟨⟨0, 1, t.e⟩, ⟨0, 1, d.b.e⟩⟩
    | 3 => some ⟨⟨0, 1, 1⟩, ⟨0, 1, 1⟩⟩
    | 4 => abs4 Fp4.invProg d d
    | 5 => both (fp2Abs.un 6 d.a) (fp2Abs.un 6 d.b)
    | _ => none
  bin i d e := match i with
    | 0 => both (fp2Abs.mul d.a e.a) (fp2Abs.mul d.b e.a)
    | 1 => both (fp2Abs.mul d.a e.b) (fp2Abs.mul d.b e.b)
    | 2 => (fp2Abs.add d.a e.a).map fun t => ⟨t, d.b⟩
    | 3 => (fp2Abs.mul d.b e.b).map fun t => ⟨⟨0, 1, 1⟩, t⟩
    | 4 => both (fp2Abs.mul d.b e.a) (fp2Abs.mul d.b e.b)
    | 5 => (fp2Abs.mul d.a e.a).map fun t => ⟨t, ⟨0, 1, 1⟩⟩
    | 6 => both (fp2Abs.mul d.a e.a) (fp2Abs.mul d.a e.b)
    | _ => none

variable (h : TowerOk P p)
include h

theorem Rel2.mono {d d' : Lz} {x : Fp2 C} {v : F2 p} (hx : Rel2 P p d x v) (hd : d.le d') (h1 : d'.l ≤ 4) (h2 : d'.k ≤ 4) : Rel2 P p d' x v :=
  ⟨hx.re.mono hd.1 hd.2.1 hd.2.2 (room2 h h1 h2), hx.im.mono hd.1 hd.2.1 hd.2.2 (room2 h h1 h2)⟩

theorem Rel4.mono {d d' : Lz4} {x : Fp4 C} {v : F4 p} (hx : Rel4 P p d x v) (hd : d.le d') : Rel4 P p d' x v :=
  ⟨hx.re.mono h hd.1.1 hd.2.1 hd.2.2.1, hx.im.mono h hd.1.2 hd.2.2.2.1 hd.2.2.2.2⟩

theorem zero2_ok : Rel2 P p ⟨0, 1, 1⟩ (Fp2.zero P) 0 := ⟨zero_ex h.toConsts, zero_ex h.toConsts⟩

theorem zero4_ok : Rel4 P p ⟨⟨0, 1, 1⟩, ⟨0, 1, 1⟩⟩ (Fp4.zero P) 0 := ⟨zero2_ok h, zero2_ok h⟩

theorem runOn_ok {pr : List (Ins R4)} (hg : ∀ i ∈ pr, i.Good (small P)) {dx dy d : Lz4} {x y : Fp4 C} {v w : F4 p} (hx : Rel4 P p dx x v) (hy : Rel4 P p dy y w)
    (ha : abs4 pr dx dy = some d) :
    Rel4 P p d (Fp4.runOn P pr x y) ⟨run (ringOps (F2 p) (ext2 p)) pr (Fp4.init 0 v.re v.im w.re w.im) .a,
      run (ringOps (F2 p) (ext2 p)) pr (Fp4.init 0 v.re v.im w.re w.im) .b⟩ := by
  obtain ⟨t', ht, rfl⟩ := Option.map_eq_some_iff.1 ha
  have hz := zero2_ok h
  have := run_sound (fp2_sound h) pr hg (s := Fp4.init (Fp2.zero P) x.a x.b y.a y.b) (v := Fp4.init 0 v.re v.im w.re w.im)
    (t := Fp4.init ⟨0, 1, 1⟩ dx.a dx.b dy.a dy.b) (fun r => by cases r <;> first | exact hx.re | exact hx.im | exact hy.re | exact hy.im | exact hz) ht
  exact ⟨this .a, this .b⟩

theorem sqr4_ok {d r : Lz4} {x : Fp4 C} {v : F4 p} (hr : fp4Abs.sqr d = some r) (hx : Rel4 P p d x v) : Rel4 P p r (Fp4.sqr P x) (v ^ 2) := by
  have := runOn_ok h (pr := Fp4.sqrProg) (by intro i hi; fin_cases hi <;> exact trivial) hx hx hr
  refine this.to ?_
  rw [sqrProg_a, sqrProg_b]
  rw [pow_two v]
  ext1
  · simp [Fp4.init]; ring
  · simp [Fp4.init]; ring

theorem mul4_ok {d e r : Lz4} {x y : Fp4 C} {v w : F4 p} (hr : fp4Abs.mul d e = some r) (hx : Rel4 P p d x v) (hy : Rel4 P p e y w) :
    Rel4 P p r (Fp4.mul P x y) (v * w) := by
  have := runOn_ok h (pr := Fp4.mulProg) (by intro i hi; fin_cases hi <;> exact trivial) hx hy hr
  refine this.to ?_
  rw [mulProg_a, mulProg_b]
  ext1
  · simp [Fp4.init]; ring
  · simp [Fp4.init]

theorem inverse4_ok {d r : Lz4} {x : Fp4 C} {v : F4 p} (hr : fp4Abs.un 4 d = some r) (hx : Rel4 P p d x v) : Rel4 P p r (Fp4.inverse P x) (inv4 v) := by
  have := runOn_ok h (pr := Fp4.invProg) (by intro i hi; fin_cases hi <;> exact trivial) hx hx hr
  refine this.to ?_
  rw [invProg_a, invProg_b]
  rfl

theorem add4_ok {d e r : Lz4} {x y : Fp4 C} {v w : F4 p} (hr : fp4Abs.add d e = some r) (hx : Rel4 P p d x v) (hy : Rel4 P p e y w) :
    Rel4 P p r (Fp4.add P x y) (v + w) := by
  obtain ⟨h1, h2⟩ := both_some hr
  exact ⟨(fp2_sound h).add h1 hx.re hy.re, (fp2_sound h).add h2 hx.im hy.im⟩

theorem norm4_ok {d : Lz4} {x : Fp4 C} {v : F4 p} (hx : Rel4 P p d x v) : Rel4 P p ⟨⟨0, 1, d.a.e⟩, ⟨0, 1, d.b.e⟩⟩ (Fp4.norm P x) v :=
  ⟨norm2_ok h hx.re, norm2_ok h hx.im⟩

theorem reduce4_ok {d : Lz4} {x : Fp4 C} {v : F4 p} (hx : Rel4 P p d x v) : Rel4 P p ⟨⟨0, 1, 1⟩, ⟨0, 1, 1⟩⟩ (Fp4.reduce P x) v :=
  ⟨reduce2_ok h hx.re, reduce2_ok h hx.im⟩

theorem neg4_ok {d : Lz4} {x : Fp4 C} {v : F4 p} (hx : Rel4 P p d x v) : Rel4 P p (negLz4 d) (Fp4.neg P x) (-v) := by
  have na := norm2_ok h hx.re
  have nb := norm2_ok h hx.im
  have m := neg2_ok h (add2_ok h na nb (by simp) (by simp)) (by simp [negLz]) (by simp [negLz])
  have a := norm2_ok h (add2_ok h m nb (by simp [negLz]) (by simp [negLz]))
  have b := norm2_ok h (add2_ok h m na (by simp [negLz]) (by simp [negLz]))
  exact Rel4.mk' (a.to (by simp)) (b.to (by simp))

theorem conj4_ok {d r : Lz4} {x : Fp4 C} {v : F4 p} (hr : fp4Abs.un 1 d = some r) (hx : Rel4 P p d x v) :
    Rel4 P p r (Fp4.conj P x) ⟨v.re, -v.im⟩ := by
  obtain ⟨t, ht, rfl⟩ := Option.map_eq_some_iff.1 hr
  have a := norm2_ok h hx.re
  have b := norm2_ok h ((fp2_sound h).neg ht hx.im)
  exact Rel4.mk' (v := ⟨v.re, -v.im⟩) a b

theorem nconj4_ok {d r : Lz4} {x : Fp4 C} {v : F4 p} (hr : fp4Abs.un 2 d = some r) (hx : Rel4 P p d x v) :
    Rel4 P p r (Fp4.nconj P x) ⟨-v.re, v.im⟩ := by
  obtain ⟨t, ht, rfl⟩ := Option.map_eq_some_iff.1 hr
  have a := norm2_ok h ((fp2_sound h).neg ht hx.re)
  have b := norm2_ok h hx.im
  exact Rel4.mk' (v := ⟨-v.re, v.im⟩) a b

theorem timesI4_ok {d r : Lz4} {x : Fp4 C} {v : F4 p} (hr : fp4Abs.un 0 d = some r) (hx : Rel4 P p d x v) :
    Rel4 P p r (Fp4.timesI P x) (v * om p) := by
  obtain ⟨t, ht, hr⟩ := Option.bind_eq_some_iff.1 hr
  obtain ⟨u, hu, rfl⟩ := Option.map_eq_some_iff.1 hr
  have a := norm2_ok h ((fp2_sound h).add hu hx.im ((fp2_sound h).un ht hx.im))
  have b := norm2_ok h hx.re
  refine Rel4.mk' (a.to ?_) (b.to (by simp))
  show v.im + v.im * ⟨0, 1⟩ = _
  have : v.im + v.im * ⟨0, 1⟩ = v.im * xi p := by
    ext1
    · simp
    · simp [add_comm]
  rw [this]; simp [mul_comm]

/-- `FP4` implements `F4`. -/
theorem fp4_sound : Sound (fp4Ops P) (ringOps (F4 p) (ext4 p) (bin4 p)) fp4Abs (small P) (Rel4 P p) where
  mul := fun hr ha hb => mul4_ok h hr ha hb
  sqr := fun hr ha => sqr4_ok h hr ha
  add := fun hr ha hb => add4_ok h hr ha hb
  sub := by
    intro d e r a c v w hr ha hb
    have := add4_ok h (d := d) (e := negLz4 e) (r := r) hr ha (neg4_ok h hb)
    exact this.to (sub_eq_add_neg v w).symm
  rsub := by
    intro d e r a c v w hr ha hb
    have := add4_ok h (d := negLz4 d) (e := e) (r := r) hr (neg4_ok h ha) hb
    exact this.to (by show -v + w = w - v; ring)
  dbl := by
    intro d r a v hr ha
    obtain ⟨h1, h2⟩ := both_some hr
    exact ⟨(fp2_sound h).dbl h1 ha.re, (fp2_sound h).dbl h2 ha.im⟩
  neg := by
    intro d r a v hr ha
    cases hr
    exact neg4_ok h ha
  norm := by
    intro d r a v hr ha
    cases hr
    exact norm4_ok h ha
  imul := by
    intro d r a v c hg hr ha
    obtain ⟨h1, h2⟩ := both_some hr
    exact ⟨((fp2_sound h).imul hg h1 ha.re).to (by show (c : F2 p) * v.re = ((c : F4 p) * v).re; simp),
      ((fp2_sound h).imul hg h2 ha.im).to (by show (c : F2 p) * v.im = ((c : F4 p) * v).im; simp)⟩
  un := by
    intro i d r a v hr ha
    match i, hr with
    | 0, hr => exact timesI4_ok h hr ha
    | 1, hr => exact conj4_ok h hr ha
    | 2, hr => exact nconj4_ok h hr ha
    | 3, hr =>
      cases hr
      exact reduce4_ok h ha
    | 4, hr => exact inverse4_ok h hr ha
    | 5, hr =>
      obtain ⟨h1, h2⟩ := both_some hr
      exact ⟨(fp2_sound h).un h1 ha.re, (fp2_sound h).un h2 ha.im⟩
    | (i + 6), hr => simp [fp4Abs] at hr
  bin := by
    intro i d e r a c v w hr ha hc
    match i, hr with
    | 0, hr =>
      obtain ⟨h1, h2⟩ := both_some hr
      exact ⟨((fp2_sound h).mul h1 ha.re hc.re).to (by show v.re * w.re = (v * (⟨w.re, 0⟩ : F4 p)).re; simp),
        ((fp2_sound h).mul h2 ha.im hc.re).to (by show v.im * w.re = (v * (⟨w.re, 0⟩ : F4 p)).im; simp)⟩
    | 1, hr =>
      obtain ⟨h1, h2⟩ := both_some hr
      exact ⟨((fp2_sound h).mul h1 ha.re hc.im).to (by show v.re * w.im = (v * (⟨w.im, 0⟩ : F4 p)).re; simp),
        ((fp2_sound h).mul h2 ha.im hc.im).to (by show v.im * w.im = (v * (⟨w.im, 0⟩ : F4 p)).im; simp)⟩
    | 2, hr =>
      obtain ⟨t, ht, rfl⟩ := Option.map_eq_some_iff.1 hr
      exact ⟨(fp2_sound h).add ht ha.re hc.re, ha.im.to (by show v.im = (v + (⟨w.re, 0⟩ : F4 p)).im; simp)⟩
    | 3, hr =>
      obtain ⟨t, ht, rfl⟩ := Option.map_eq_some_iff.1 hr
      exact ⟨zero2_ok h, (fp2_sound h).mul ht ha.im hc.im⟩
    | 4, hr =>
      obtain ⟨h1, h2⟩ := both_some hr
      exact ⟨(fp2_sound h).mul h1 ha.im hc.re, (fp2_sound h).mul h2 ha.im hc.im⟩
    | 5, hr =>
      obtain ⟨t, ht, rfl⟩ := Option.map_eq_some_iff.1 hr
      exact ⟨(fp2_sound h).mul ht ha.re hc.re, zero2_ok h⟩
    | 6, hr =>
      obtain ⟨h1, h2⟩ := both_some hr
      exact ⟨(fp2_sound h).mul h1 ha.re hc.re, (fp2_sound h).mul h2 ha.re hc.im⟩
    | (i + 7), hr => simp [fp4Abs] at hr

end Verif.Tower
