import Verif.Prog.Basic
import Verif.Fp.Hist
/- The operations of a field, and the implementation `FP` as an instance. -/
namespace Verif.Prog
open Verif.Fp Verif.Big

/-- operations of a commutative ring; `ext` interprets the further unary operations, `ext'` the binary ones -/
def ringOps (F : Type) [CommRing F] (ext : Nat → F → F) (ext' : Nat → F → F → F := fun _ a _ => a) : Ops F where
  mul a b := a * b
  sqr a := a ^ 2
  add a b := a + b
  sub a b := a - b
  rsub a b := b - a
  dbl a := a + a
  neg a := -a
  norm a := a
  imul a c := c * a
  un := ext
  bin := ext'

variable {C : Nat}

/-- `FP` (fp.rs); no further operations -/
def fpOps (P : Params C) : Ops (Fp C) where
  mul := Fp.mul P
  sqr := Fp.sqr P
  add := Fp.add P
  sub := Fp.sub P
  rsub := Fp.rsub P
  dbl := Fp.dbl P
  neg := Fp.neg P
  norm := Fp.norm P
  imul := Fp.imul P
  un _ a := a

/-- limb counters `(l, k)`: limbs between `-l` and `k` digits, at most 4 -/
def cap (l k : Nat) : Option (Nat × Nat) := if l ≤ 4 ∧ k ≤ 4 then some (l, k) else none

/-- the rules of `History` as abstract operations -/
def fpAbs : AbsOps (Nat × Nat) where
  mul d e := if d.1 ≤ 1 ∧ d.2 ≤ 1 ∧ e.1 ≤ 1 ∧ e.2 ≤ 1 then some (0, 1) else none
  sqr d := if d.1 ≤ 1 ∧ d.2 ≤ 1 then some (0, 1) else none
  add d e := cap (d.1 + e.1) (d.2 + e.2)
  sub d e := cap (d.1 + e.2) (d.2 + e.1 + 1)
  rsub d e := cap (d.2 + e.1) (d.1 + 1 + e.2)
  dbl d := cap (d.1 + d.1) (d.2 + d.2)
  neg d := cap d.2 (d.1 + 1)
  norm _ := some (0, 1)
  imul d _ := if d = (0, 1) then some (0, 1) else none
  un _ _ := none

/-- representative `a` denotes `v` with limb counters `d` -/
def FpRel (P : Params C) (p : Nat) (d : Nat × Nat) (a : Fp C) (v : ZMod p) : Prop := Elem P p d.1 d.2 a v

variable {P : Params C} {p : Nat} [hp : Fact p.Prime]

theorem cap_some {l k : Nat} {r : Nat × Nat} (h : cap l k = some r) : r = (l, k) ∧ l ≤ 4 ∧ k ≤ 4 := by
  unfold cap at h
  split_ifs at h with hh
  exact ⟨(Option.some.inj h).symm, hh⟩

theorem room4 (h : Consts P p) {l k : Nat} (hl : l ≤ 4) (hk : k ≤ 4) : Room P (max l k) := (room_one h).mono (by omega)

/-- constants that `FP::imul` handles: non-zero and shorter than a limb -/
def small (P : Params C) (c : Int) : Prop := c ≠ 0 ∧ |c| < 2 ^ P.b

theorem fp_sound (h : Arith P p) (hC : C ≤ 64) :
    Sound (fpOps P) (ringOps (ZMod p) (fun _ a => a)) fpAbs (small P) (FpRel P p) where
  mul := by
    intro d e r a c v w hr ha hc
    simp only [fpAbs] at hr
    split_ifs at hr with hh
    cases hr
    exact Elem.mul h.toFieldOk ha hc ⟨hh.1, hh.2.1⟩ hh.2.2
  sqr := by
    intro d r a v hr ha
    simp only [fpAbs] at hr
    split_ifs at hr with hh
    cases hr
    have := Elem.sqr h.toFieldOk ha hh
    rw [← pow_two] at this
    exact this
  add := by
    intro d e r a c v w hr ha hc
    obtain ⟨rfl, h1, h2⟩ := cap_some hr
    exact Elem.add h.toConsts ha hc (room4 h.toConsts h1 h2)
  sub := by
    intro d e r a c v w hr ha hc
    obtain ⟨rfl, h1, h2⟩ := cap_some hr
    exact Elem.sub h.toConsts hC ha hc (room4 h.toConsts h1 h2)
  rsub := by
    intro d e r a c v w hr ha hc
    obtain ⟨rfl, h1, h2⟩ := cap_some hr
    exact Elem.rsub h.toConsts hC ha hc (room4 h.toConsts h1 h2)
  dbl := by
    intro d r a v hr ha
    obtain ⟨rfl, h1, h2⟩ := cap_some hr
    exact Elem.dbl h.toConsts ha (room4 h.toConsts h1 h2)
  neg := by
    intro d r a v hr ha
    obtain ⟨rfl, h1, h2⟩ := cap_some hr
    exact Elem.neg h.toConsts hC ha (room4 h.toConsts h1 h2)
  norm := by
    intro d r a v hr ha
    cases hr
    exact Elem.norm h.toConsts ha
  imul := by
    intro d r a v c hg hr ha
    simp only [fpAbs] at hr
    split_ifs at hr with hh
    cases hr
    subst hh
    obtain ⟨m1, m2⟩ := h.imul_ok _ c (Elem.normed ha) hg.1 hg.2
    refine .of_normed h.toConsts ⟨m1, ?_⟩
    rw [Elem.res ha] at m2
    exact m2.trans (mul_comm _ _)
  un := by
    intro i d r a v hr
    cases hr
  bin := by
    intro i d e r a c v w hr
    cases hr

end Verif.Prog
