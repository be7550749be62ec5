import Verif.Bilin.NonDeg
/-
The pairing of the generators is not one.
-/
namespace Verif.Ate
set_option linter.unusedSectionVars false
open Verif.Big Verif.Fp Verif.Rom Verif.Curve Verif.Tower Verif.Ecp Verif.Ecp2 Verif.Pair Verif.Gt Spec WeierstrassCurve Verif.Props

variable {C : Nat} {K : GlsRom C} [hp : Fact K.pair.rom.p.Prime] [h4 : Fact (K.pair.rom.p % 4 = 3)] {lam : Int}

theorem finN_nd (hdv : rN K.pair ∣ K.pair.rom.p ^ 4 - K.pair.rom.p ^ 2 + 1) : finN K = ndE K.pair.rom.p (rN K.pair) K.bn * (K.pair.rom.p ^ 6 - 1) := by
  unfold finN ndE
  rw [factor12 (p := K.pair.rom.p) hp.out.pos, Nat.mul_div_assoc _ hdv]
  ring

theorem ev_ne (t : TowerPrime K.pair.rom.p) (hdv : rN K.pair ∣ K.pair.rom.p ^ 4 - K.pair.rom.p ^ 2 + 1) {v w : F12 K.pair.rom.p} (hv : v ≠ 0) (hw : w = v ^ ndE K.pair.rom.p (rN K.pair) K.bn) (hi : w.a.im ≠ 0) :
    ev K t v ≠ 1 := by
  intro e
  have e1 : v ^ finN K = 1 := by rw [← ev_val t hv, e]; rfl
  rw [finN_nd hdv, pow_mul, ← hw] at e1
  have hp6 : 1 ≤ K.pair.rom.p ^ 6 := Nat.one_le_pow _ _ hp.out.pos
  have e2 : w ^ (K.pair.rom.p ^ 6) = w := by
    have h : K.pair.rom.p ^ 6 = (K.pair.rom.p ^ 6 - 1) + 1 := by omega
    rw [h, pow_succ, e1, one_mul]
  rw [f12_pow6 t.mod8 t.mod6 t.two] at e2
  have e3 : -w.a.im = w.a.im := congrArg (fun z : F12 K.pair.rom.p => z.a.im) e2
  have e4 : (2 : F2 K.pair.rom.p) * w.a.im = 0 := by linear_combination -e3
  have h2 : (2 : F2 K.pair.rom.p) ≠ 0 := by
    intro h
    apply two_nz t
    have := congrArg QuadraticAlgebra.re h
    exact this
  rcases mul_eq_zero.1 e4 with h | h
  · exact h2 h
  · exact hi h

/-- the pairing of two points given by their coordinates -/
theorem nd_ok (hf : PairFacts K lam) (hdv : rN K.pair ∣ K.pair.rom.p ^ 4 - K.pair.rom.p ^ 2 + 1) (hd : ∀ d ∈ digs K (lbits K - 2), d = 0 ∨ d = 1 ∨ d = -1) (hb : optB K = true)
    (hn : ndB K = true) {S : (curve2 K.pair).Point}
    (hP : Denotes (castT K.pair.rom.p ((nv K.pair.rom.P.b K.pair.pxa, nv K.pair.rom.P.b K.pair.pxb), (nv K.pair.rom.P.b K.pair.pya, nv K.pair.rom.P.b K.pair.pyb), (1, 0))) S) (h0 : S ≠ 0)
    (hr : rN K.pair • S = 0) (hs : psi hf.fr.six S = (K.pair.rom.p : Int) • S) {x y : ZMod K.pair.rom.p} {hh : (Ecp.curve K.pair.rom).Nonsingular x y}
    (hx : ((nv K.pair.rom.P.b K.pair.rom.gx : Nat) : ZMod K.pair.rom.p) = x) (hy : ((nv K.pair.rom.P.b K.pair.rom.gy : Nat) : ZMod K.pair.rom.p) = y) :
    optAte K hf.fr.six (digs K (lbits K - 2)) S (.some x y hh) ≠ 1 := by
  rw [← evU_val hf, evU_some]
  have y0 : y ≠ 0 := Curve.y_ne hf.g1.wc.noTwo hh.1
  clear hh
  subst hx hy
  obtain ⟨n1, n2⟩ := ate_sound hf hdv hd hb hP h0 hr hs (x := nv K.pair.rom.P.b K.pair.rom.gx) (y := nv K.pair.rom.P.b K.pair.rom.gy) y0
  rw [← n2]
  unfold ndB ndC ndIn at hn
  dsimp only at hn
  rw [force12_eq, force12_eq, force12_eq] at hn
  generalize ateNum K.pair.rom.p (rN K.pair) K.pair.mtype K.bn K.pair.negx (b3N K.pair) (nv K.pair.rom.P.b K.pair.pxa, nv K.pair.rom.P.b K.pair.pxb) (nv K.pair.rom.P.b K.pair.pya, nv K.pair.rom.P.b K.pair.pyb)
    (nv K.pair.rom.P.b K.pair.rom.gx) (nv K.pair.rom.P.b K.pair.rom.gy) (digs K (lbits K - 2)) = v at *
  have hw := cast12_pow (p := K.pair.rom.p) (pow12 K.pair.rom.p v ((ndE1 K.pair.rom.p).log2 + 1) (ndE1 K.pair.rom.p)) ((ndE2 K.pair.rom.p (rN K.pair) K.bn).log2 + 1) (ndE2 K.pair.rom.p (rN K.pair) K.bn) Nat.lt_log2_self
  rw [cast12_pow (p := K.pair.rom.p) v ((ndE1 K.pair.rom.p).log2 + 1) (ndE1 K.pair.rom.p) Nat.lt_log2_self, ← pow_mul] at hw
  have hi := ev_ne hf.pr hdv n1 hw (castN2_ne (of_decide_eq_true hn))
  intro e
  apply hi
  apply Units.ext
  exact e

/-- the pairing of the generators -/
theorem nd_gen (hf : PairFacts K lam) (hdv : rN K.pair ∣ K.pair.rom.p ^ 4 - K.pair.rom.p ^ 2 + 1) (hd : ∀ d ∈ digs K (lbits K - 2), d = 0 ∨ d = 1 ∨ d = -1) (hb : optB K = true)
    (hn : ndB K = true) (hg : genCheck K.pair = true) (hcons : K.pair.rom.Consistent) (hl : K.pair.rom.gx.length = K.pair.rom.P.n ∧ K.pair.rom.gy.length = K.pair.rom.P.n)
    {S : (curve2 K.pair).Point} {U : (Ecp.curve K.pair.rom).Point} (hS : IsPoint2 K.pair 2 (Ecp2.generator K.pair) S) (hU : IsPoint K.pair.rom (Ecp.generator K.pair.rom) U)
    (h0 : S ≠ 0) (hr : rN K.pair • S = 0) (hs : psi hf.fr.six S = (K.pair.rom.p : Int) • S) : optAte K hf.fr.six (digs K (lbits K - 2)) S U ≠ 1 := by
  obtain ⟨hh, hgen⟩ := gen_sound K.pair hf.tw hg
  obtain ⟨hh1, hgen1⟩ := Props.C48_generator hf.g1.wc hcons hl
  have eS := Curve.Denotes.inj hS.2 hgen.2
  have eU := Curve.Denotes.inj hU.2 hgen1.2
  have hgc := hg
  unfold genCheck at hgc
  simp only [Bool.and_eq_true] at hgc
  obtain ⟨⟨⟨⟨g1, g2⟩, g3⟩, g4⟩, _⟩ := hgc
  have nn : ∀ {x : Limbs C}, repB K.pair.rom.P K.pair.rom.p x = true → 0 ≤ limbsVal K.pair.rom.P.b x := fun h => by
    rw [(repB_sound h).1.val]; exact Int.natCast_nonneg _
  have ex : castN2 K.pair.rom.p (nv K.pair.rom.P.b K.pair.pxa, nv K.pair.rom.P.b K.pair.pxb) = ⟨(K.pair.rom.val K.pair.pxa : ZMod K.pair.rom.p), (K.pair.rom.val K.pair.pxb : ZMod K.pair.rom.p)⟩ :=
    castN2_toNat (nn g1) (nn g2)
  have ey : castN2 K.pair.rom.p (nv K.pair.rom.P.b K.pair.pya, nv K.pair.rom.P.b K.pair.pyb) = ⟨(K.pair.rom.val K.pair.pya : ZMod K.pair.rom.p), (K.pair.rom.val K.pair.pyb : ZMod K.pair.rom.p)⟩ :=
    castN2_toNat (nn g3) (nn g4)
  have hh' := hh
  rw [← ex, ← ey] at hh'
  have e : Affine.Point.some _ _ hh' = Affine.Point.some _ _ hh := some_congr _ _ ex ey
  obtain ⟨_, _, r1, r2, r3, r4⟩ := hcons.ranges
  rw [eU]
  refine nd_ok hf hdv hd hb hn (S := S) (by rw [eS, ← e]; exact one_denotes hh') h0 hr hs ?_ ?_
  · exact nv_cast r1
  · exact nv_cast r3
end Verif.Ate
