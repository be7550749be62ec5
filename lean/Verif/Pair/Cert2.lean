import Verif.Pair.G2
import Verif.Ecp2.Cert
import Verif.Ecp.Order
/-
Computing multiples of a point of the twist with pairs of residues, fast enough for the kernel.
-/
namespace Verif.Pair
open Verif.Big Verif.Fp Verif.Rom Verif.Curve Verif.Tower Verif.Ecp Verif.Ecp2 Verif.Props Spec WeierstrassCurve
set_option linter.unusedSectionVars false

/-- evaluate both components before passing the pair on -/
def force2 {α : Type} (x : Nat × Nat) (k : Nat × Nat → α) : α := force x.1 fun a => force x.2 fun b => k (a, b)

theorem force2_eq {α : Type} (x : Nat × Nat) (k : Nat × Nat → α) : force2 x k = k x := by
  rw [force2, force_eq, force_eq]

def addP (p : Nat) (x y : Nat × Nat) : Nat × Nat := ((x.1 + y.1) % p, (x.2 + y.2) % p)
def subP (p : Nat) (x y : Nat × Nat) : Nat × Nat := ((x.1 + (p - y.1 % p)) % p, (x.2 + (p - y.2 % p)) % p)

abbrev Tri := (Nat × Nat) × (Nat × Nat) × (Nat × Nat)

/-- complete addition on `y² = x³ + b`, `b3 = 3 b` -/
def addT (p : Nat) (b3 : Nat × Nat) (P Q : Tri) : Tri :=
  force2 P.1 fun x1 => force2 P.2.1 fun y1 => force2 P.2.2 fun z1 =>
  force2 Q.1 fun x2 => force2 Q.2.1 fun y2 => force2 Q.2.2 fun z2 =>
  force2 (addP p (mulN2 p x1 y2) (mulN2 p x2 y1)) fun m =>
  force2 (addP p (mulN2 p x1 z2) (mulN2 p x2 z1)) fun s =>
  force2 (addP p (mulN2 p y1 z2) (mulN2 p y2 z1)) fun t =>
  force2 (mulN2 p b3 (mulN2 p z1 z2)) fun w =>
  force2 (mulN2 p x1 x2) fun xx =>
  force2 (addP p xx (addP p xx xx)) fun f =>
  force2 (mulN2 p y1 y2) fun yy =>
  force2 (mulN2 p b3 s) fun u =>
  force2 (subP p yy w) fun d =>
  force2 (addP p yy w) fun e =>
  (subP p (mulN2 p m d) (mulN2 p t u), addP p (mulN2 p f u) (mulN2 p e d), addP p (mulN2 p t e) (mulN2 p m f))

/-- double-and-add, `k` bounds the number of bits of `e` -/
def mulT (p : Nat) (b3 : Nat × Nat) (P : Tri) : Nat → Nat → Tri
  | 0, _ => ((0, 0), (1, 0), (0, 0))
  | k + 1, e => if e = 0 then ((0, 0), (1, 0), (0, 0)) else
      let h := mulT p b3 P k (e / 2)
      let d := addT p b3 h h
      if e % 2 = 1 then addT p b3 d P else d

def castT (p : Nat) (P : Tri) : Proj (F2 p) := ⟨castN2 p P.1, castN2 p P.2.1, castN2 p P.2.2⟩

section
variable {p : Nat} [hp : Fact p.Prime]

theorem castN2_add (x y : Nat × Nat) : castN2 p (addP p x y) = castN2 p x + castN2 p y := by
  unfold castN2 addP
  ext <;> simp

theorem castN2_sub (x y : Nat × Nat) : castN2 p (subP p x y) = castN2 p x - castN2 p y := by
  have : NeZero p := ⟨hp.1.ne_zero⟩
  unfold castN2 subP
  ext
  · simp only [QuadraticAlgebra.re_sub, ZMod.natCast_mod, Nat.cast_add, cast_psub]; ring
  · simp only [QuadraticAlgebra.im_sub, ZMod.natCast_mod, Nat.cast_add, cast_psub]; ring

theorem castN2_00 : castN2 p (0, 0) = 0 := by ext <;> simp [castN2]
theorem castN2_10 : castN2 p (1, 0) = 1 := by
  ext
  · show ((1 : Nat) : ZMod p) = 1
    exact Nat.cast_one
  · show ((0 : Nat) : ZMod p) = 0
    exact Nat.cast_zero

variable [h4 : Fact (p % 4 = 3)]

theorem addT_eq {B : F2 p} {b3 : Nat × Nat} (hb : castN2 p b3 = 3 * B) (P Q : Tri) : castT p (addT p b3 P Q) = rcb 0 B (castT p P) (castT p Q) := by
  simp only [addT, force2_eq, castT, rcb, castN2_add, castN2_sub, castN2_mul, hb, Proj.mk.injEq]
  refine ⟨by ring, by ring, by ring⟩

theorem mulT_denotes {B : F2 p} (h2 : NoTwoTorsion 0 B) (hc : (2 : F2 p) ≠ 0) {b3 : Nat × Nat} (hb : castN2 p b3 = 3 * B) {P : Tri} {T : (short 0 B).Point}
    (hP : Denotes (castT p P) T) (k : Nat) : ∀ e, e < 2 ^ k → Denotes (castT p (mulT p b3 P k e)) (e • T) := by
  have h0 : Denotes (castT p ((0, 0), (1, 0), (0, 0))) (0 : (short 0 B).Point) := by
    refine ⟨castN2_00, ?_, castN2_00⟩
    show castN2 p (1, 0) ≠ 0
    rw [castN2_10]; exact one_ne_zero
  induction k with
  | zero => intro e he; have : e = 0 := by simpa using he
            subst this; rw [zero_nsmul]; exact h0
  | succ k ih =>
    intro e he
    have h := ih (e / 2) (by rw [pow_succ] at he; omega)
    have hd := rcb_add h2 hc h h
    rw [← addT_eq hb, ← two_smul ℕ, ← mul_smul] at hd
    simp only [mulT]
    split_ifs with g0 g1
    · rw [g0, zero_nsmul]; exact h0
    · have hs := rcb_add h2 hc hd hP
      rw [← addT_eq hb] at hs
      have : e • T = (2 * (e / 2)) • T + T := by rw [← succ_nsmul]; congr 1; omega
      rw [this]; exact hs
    · have : e = 2 * (e / 2) := by omega
      rw [this]
      rw [show 2 * (e / 2) / 2 = e / 2 by omega]
      exact hd

theorem castN2_ne {x : Nat × Nat} (h : ¬ (x.1 % p = 0 ∧ x.2 % p = 0)) : castN2 p x ≠ 0 := by
  intro hc
  apply h
  have h1 := congrArg QuadraticAlgebra.re hc
  have h2 := congrArg QuadraticAlgebra.im hc
  exact ⟨Nat.mod_eq_zero_of_dvd ((ZMod.natCast_eq_zero_iff _ _).1 h1), Nat.mod_eq_zero_of_dvd ((ZMod.natCast_eq_zero_iff _ _).1 h2)⟩

/-- `e` times the point is the point at infinity -/
def zeroT (p : Nat) (b3 x y : Nat × Nat) (e : Nat) : Bool :=
  let r := mulT p b3 (x, y, (1, 0)) (e.log2 + 1) e
  r.2.2.1 == 0 && r.2.2.2 == 0

theorem one_denotes {B : F2 p} {x y : Nat × Nat} (hh : (short 0 B).Nonsingular (castN2 p x) (castN2 p y)) :
    Denotes (castT p (x, y, (1, 0))) (Affine.Point.some _ _ hh) := by
  refine ⟨?_, ?_, ?_⟩
  · show castN2 p (1, 0) ≠ 0
    rw [castN2_10]; exact one_ne_zero
  · show castN2 p x = _ * castN2 p (1, 0)
    rw [castN2_10, mul_one]
  · show castN2 p y = _ * castN2 p (1, 0)
    rw [castN2_10, mul_one]

theorem zeroT_sound {B : F2 p} (h2 : NoTwoTorsion 0 B) (hc : (2 : F2 p) ≠ 0) {b3 : Nat × Nat} (hb : castN2 p b3 = 3 * B) {x y : Nat × Nat} {e : Nat}
    (hh : (short 0 B).Nonsingular (castN2 p x) (castN2 p y)) (h : zeroT p b3 x y e = true) : e • Affine.Point.some _ _ hh = 0 := by
  have hd := mulT_denotes h2 hc hb (one_denotes hh) (e.log2 + 1) e Nat.lt_log2_self
  unfold zeroT at h
  simp only [Bool.and_eq_true, beq_iff_eq] at h
  generalize mulT p b3 (x, y, (1, 0)) (e.log2 + 1) e = R at hd h
  generalize e • Affine.Point.some _ _ hh = S at hd
  cases S with
  | zero => rfl
  | some x y hxy =>
    refine absurd ?_ hd.1
    show castN2 p R.2.2 = 0
    have : R.2.2 = (0, 0) := Prod.ext h.1 h.2
    rw [this, castN2_00]

/-- `u * x(e P) = x'` and `v * y(e P) = y'` -/
def eigT (p : Nat) (b3 x y : Nat × Nat) (e : Nat) (u v x' y' : Nat × Nat) : Bool :=
  let r := mulT p b3 (x, y, (1, 0)) (e.log2 + 1) e
  mulN2 p u r.1 == mulN2 p x' r.2.2 && mulN2 p v r.2.1 == mulN2 p y' r.2.2 && decide (¬ (r.2.2.1 % p = 0 ∧ r.2.2.2 % p = 0))

theorem eigT_sound {B : F2 p} (h2 : NoTwoTorsion 0 B) (hc : (2 : F2 p) ≠ 0) {b3 : Nat × Nat} (hb : castN2 p b3 = 3 * B) {x y u v x' y' : Nat × Nat} {e : Nat}
    (hh : (short 0 B).Nonsingular (castN2 p x) (castN2 p y)) (h : eigT p b3 x y e u v x' y' = true) :
    ∃ (X Y : F2 p) (hX : (short 0 B).Nonsingular X Y), e • Affine.Point.some _ _ hh = Affine.Point.some _ _ hX ∧ castN2 p u * X = castN2 p x' ∧ castN2 p v * Y = castN2 p y' := by
  have hd := mulT_denotes h2 hc hb (one_denotes hh) (e.log2 + 1) e Nat.lt_log2_self
  unfold eigT at h
  simp only [Bool.and_eq_true, beq_iff_eq, decide_eq_true_eq] at h
  obtain ⟨⟨k1, k2⟩, k3⟩ := h
  generalize mulT p b3 (x, y, (1, 0)) (e.log2 + 1) e = R at hd k1 k2 k3
  have z3 := castN2_ne k3
  have c1 := congrArg (castN2 p) k1
  have c2 := congrArg (castN2 p) k2
  rw [castN2_mul, castN2_mul] at c1 c2
  generalize e • Affine.Point.some _ _ hh = S at hd
  cases S with
  | zero => exact absurd hd.2.2 z3
  | some X Y hXY =>
    obtain ⟨d1, d2, d3⟩ := hd
    refine ⟨X, Y, hXY, rfl, ?_, ?_⟩
    · apply mul_right_cancel₀ z3
      have d2' : castN2 p R.1 = X * castN2 p R.2.2 := d2
      rw [← c1, d2', mul_assoc]
    · apply mul_right_cancel₀ z3
      have d3' : castN2 p R.2.1 = Y * castN2 p R.2.2 := d3
      rw [← c2, d3', mul_assoc]

end

variable {C : Nat}

/-- three times the coefficient of the twist -/
def b3N (K : PairRom C) : Nat × Nat :=
  let p := K.rom.p
  let b := K.rom.bI.toNat
  if K.mtype then (3 * b % p, 3 * b % p) else (3 * b * ((p + 1) / 2) % p, (p - 3 * b * ((p + 1) / 2) % p) % p)

def nv (b : Nat) (x : Limbs C) : Nat := (limbsVal b x).toNat

/-- The Frobenius constant, the generator of the second group, its order and the eigenvalue `p`. -/
def g2B (K : PairRom C) (r : Nat) : Bool :=
  let p := K.rom.p
  let b := K.rom.P.b
  let f := (nv b K.fra, nv b K.frb)
  let x := (nv b K.pxa, nv b K.pxb)
  let y := (nv b K.pya, nv b K.pyb)
  let cx := (x.1, p - x.2 % p)
  let cy := (y.1, p - y.2 % p)
  let f2 := mulN2 p f f
  let f3 := mulN2 p f2 f
  let e := p % r
  zeroT p (b3N K) x y r && repB K.rom.P p K.fra && repB K.rom.P p K.frb &&
  (if K.mtype then eigT p (b3N K) x y e f2 f3 cx cy
   else eigT p (b3N K) x y e (1, 0) (1, 0) (mulN2 p f2 cx) (mulN2 p f3 cy))

section
variable {K : PairRom C} [hp : Fact K.rom.p.Prime] [h4 : Fact (K.rom.p % 4 = 3)]

theorem b3N_ok (h : TCurve K) : castN2 K.rom.p (b3N K) = 3 * Ecp2.Btw K := by
  have : NeZero K.rom.p := ⟨hp.1.ne_zero⟩
  have hI : (K.rom.bI.toNat : Int) = K.rom.bI := Int.toNat_of_nonneg (by
    have h5 := h.small
    simp only [List.mem_cons, List.not_mem_nil, or_false] at h5; omega)
  have hb : Ecp.Bcoef K.rom = (K.rom.bI.toNat : ZMod K.rom.p) := by
    rw [← h.bI, ← Int.cast_natCast, hI]
  obtain ⟨bM, bD⟩ := Btw_eq K _ hb xi_ne
  have e3 : (3 : F2 K.rom.p) = ⟨3, 0⟩ := by
    ext
    · rfl
    · rfl
  by_cases hm : K.mtype = true
  · rw [bM hm, b3N, if_pos hm, e3]
    ext <;> simp [castN2]
  · apply mul_right_cancel₀ (xi_ne (K := K))
    rw [mul_assoc, bD (by simpa using hm), b3N, if_neg hm, e3]
    have h2 : (((K.rom.p + 1) / 2 : Nat) : ZMod K.rom.p) * 2 = 1 := by
      have : (K.rom.p + 1) / 2 * 2 = K.rom.p + 1 := by have := h4.out; omega
      have e := congrArg (Nat.cast (R := ZMod K.rom.p)) this
      push_cast at e
      rw [e]; simp
    ext
    · simp only [castN2, QuadraticAlgebra.re_mul, ZMod.natCast_mod, Nat.cast_mul, cast_psub, Nat.cast_ofNat]
      linear_combination 3 * (K.rom.bI.toNat : ZMod K.rom.p) * h2
    · simp only [castN2, QuadraticAlgebra.im_mul, ZMod.natCast_mod, Nat.cast_mul, cast_psub, Nat.cast_ofNat]
      ring

theorem castN2_conj (x : Nat × Nat) : castN2 K.rom.p (x.1, K.rom.p - x.2 % K.rom.p) = conjH K.rom.p (castN2 K.rom.p x) := by
  have : NeZero K.rom.p := ⟨hp.1.ne_zero⟩
  show (⟨_, _⟩ : F2 K.rom.p) = ⟨_, _⟩
  rw [cast_psub]
  rfl

theorem nv_cast {b : Nat} {x : Limbs C} (h : 0 ≤ limbsVal b x) {p : Nat} : ((nv b x : Nat) : ZMod p) = (limbsVal b x : ZMod p) := by
  rw [nv, ← Int.cast_natCast, Int.toNat_of_nonneg h]

theorem frob_num (h : TCurve K) (hf : FrobOk K) (h1 : repB K.rom.P K.rom.p K.fra = true) (h2 : repB K.rom.P K.rom.p K.frb = true) :
    castN2 K.rom.p (nv K.rom.P.b K.fra, nv K.rom.P.b K.frb) = xi K.rom.p ^ ((K.rom.p - 1) / 6) := by
  obtain ⟨a1, b1⟩ := repB_sound h1
  obtain ⟨a2, b2⟩ := repB_sound h2
  have hx := std2_iff.1 (std2_newBigs h.tower a1 b1 a2 b2)
  have r1 := rel_res2 hx
  have r2 := rel_res2 hf.rel
  rw [← r2, r1]
  rfl

theorem two_ne2' (h : TCurve K) : (2 : F2 K.rom.p) ≠ 0 := two_ne2 h

theorem g2B_sound (h : TCurve K) (hf : FrobOk K) {r : Nat} (hr : 0 < r) (hg : g2B K r = true)
    (hh : (curve2 K).Nonsingular (castN2 K.rom.p (nv K.rom.P.b K.pxa, nv K.rom.P.b K.pxb)) (castN2 K.rom.p (nv K.rom.P.b K.pya, nv K.rom.P.b K.pyb))) :
    r • Affine.Point.some _ _ hh = 0 ∧ psi hf.six (Affine.Point.some _ _ hh) = (K.rom.p : Int) • Affine.Point.some _ _ hh := by
  unfold g2B at hg
  dsimp only at hg
  simp only [Bool.and_eq_true] at hg
  obtain ⟨⟨⟨g1, g2⟩, g3⟩, g5⟩ := hg
  have hz := zeroT_sound h.noTwo (two_ne2' h) (b3N_ok h) hh g1
  refine ⟨hz, ?_⟩
  have hfn := frob_num h hf g2 g3
  have hxi : xi K.rom.p ^ ((K.rom.p - 1) / 6) ≠ 0 := pow_ne_zero _ xi_ne
  have hred : ∀ q : Nat, ((q : Nat) : Int) • Affine.Point.some _ _ hh = (q % r) • Affine.Point.some _ _ hh := fun q => by
    have e : (q : Int) • Affine.Point.some _ _ hh = (q % r + r * (q / r)) • Affine.Point.some _ _ hh := by rw [natCast_zsmul, Nat.mod_add_div]
    rw [e, add_nsmul, mul_nsmul, hz, nsmul_zero, add_zero]
  rw [hred]
  have key : ∃ (X Y : F2 K.rom.p) (hX : (curve2 K).Nonsingular X Y), (K.rom.p % r) • Affine.Point.some _ _ hh = Affine.Point.some _ _ hX ∧
      frobZ K ^ 2 * conjH K.rom.p (castN2 K.rom.p (nv K.rom.P.b K.pxa, nv K.rom.P.b K.pxb)) = X ∧
      frobZ K ^ 3 * conjH K.rom.p (castN2 K.rom.p (nv K.rom.P.b K.pya, nv K.rom.P.b K.pyb)) = Y := by
    by_cases hm : K.mtype = true
    · rw [if_pos hm] at g5
      obtain ⟨X, Y, hX, e1, e2, e3⟩ := eigT_sound h.noTwo (two_ne2' h) (b3N_ok h) hh g5
      refine ⟨X, Y, hX, e1, ?_, ?_⟩
      · rw [castN2_mul, hfn, castN2_conj (_, _)] at e2
        rw [frobZ, if_pos hm, ← e2]
        field_simp
      · rw [castN2_mul, castN2_mul, hfn, castN2_conj (_, _)] at e3
        rw [frobZ, if_pos hm, ← e3]
        field_simp
    · rw [if_neg hm] at g5
      obtain ⟨X, Y, hX, e1, e2, e3⟩ := eigT_sound h.noTwo (two_ne2' h) (b3N_ok h) hh g5
      refine ⟨X, Y, hX, e1, ?_, ?_⟩
      · rw [castN2_10, one_mul, castN2_mul, castN2_mul, hfn, castN2_conj (_, _)] at e2
        rw [frobZ, if_neg hm, e2]
        ring
      · rw [castN2_10, one_mul, castN2_mul, castN2_mul, castN2_mul, hfn, castN2_conj (_, _)] at e3
        rw [frobZ, if_neg hm, e3]
        ring
  obtain ⟨X, Y, hX, e1, e2, e3⟩ := key
  rw [psi, endo_some]
  refine Eq.trans ?_ e1.symm
  exact some_congr _ _ e2 e3

end
end Verif.Pair
