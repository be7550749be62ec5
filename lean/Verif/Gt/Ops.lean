import Verif.Gt.Mul
import Verif.Gt.Model
import Verif.Tower.Hist
import Verif.Spec.Gt
/- The operations of `fp12.rs` on the cyclotomic subgroup, with the counters exponentiation needs. -/
namespace Verif.Gt
open Verif.Big Verif.Fp Verif.Prog Verif.Tower Spec
set_option linter.unusedVariables false
set_option linter.unusedSectionVars false

/-- `FP12::conj` componentwise -/
theorem conj12_eq {C : Nat} (P : Params C) (x : Fp12 C) : Fp12.conj P x =
    ⟨⟨Fp2.norm P x.a.a, Fp2.norm P (Fp2.neg P x.a.b)⟩, ⟨Fp2.norm P (Fp2.neg P x.b.a), Fp2.norm P x.b.b⟩, ⟨Fp2.norm P x.c.a, Fp2.norm P (Fp2.neg P x.c.b)⟩, x.stype⟩ := rfl

attribute [local irreducible] Fp4.norm Fp4.neg Fp4.add Fp4.sub Fp4.dbl Fp4.reduce Fp4.mul Fp4.sqr Fp4.imul Fp4.div2 Fp4.inverse Fp4.timesI Fp4.pmul Fp4.padd Fp4.zero
attribute [local irreducible] Fp2.norm Fp2.neg Fp2.add Fp2.sub Fp2.dbl Fp2.reduce Fp2.mul Fp2.sqr Fp2.imul Fp2.div2 Fp2.inverse Fp2.conj Fp2.timesI Fp2.divIp Fp2.divIp2 Fp2.zero

variable {C : Nat} {P : Params C} {p : Nat} [hp : Fact p.Prime]

theorem least_reduce (h : TowerOk P p) {l k : Nat} {a : Fp C} {v : ZMod p} (ha : Elem P p l k a v) : Least P p (Fp.reduce P a) := by
  obtain ⟨_, _, _, r4⟩ := reduce_ok h.toConsts ha.valid ha.room
  have hpz : (0 : Int) < p := by exact_mod_cast h.ppos
  constructor <;> rw [r4]
  · exact Int.emod_nonneg _ hpz.ne'
  · exact Int.emod_lt_of_pos _ hpz

theorem least2_reduce (h : TowerOk P p) {K : Nat} {x : Fp2 C} {v : F2 p} (hx : Std2 P p K x v) : Least2 P p (Fp2.reduce P x) := by
  unfold Fp2.reduce
  exact ⟨least_reduce h hx.1.1, least_reduce h hx.2.1⟩

theorem least4_reduce (h : TowerOk P p) {K : Nat} {x : Fp4 C} {v : F4 p} (hx : Std4 P p K x v) : Least4 P p (Fp4.reduce P x) := by
  unfold Fp4.reduce
  exact ⟨least2_reduce h hx.1, least2_reduce h hx.2⟩

/-- `FP12::reduce` -/
theorem canon12_reduce (h : TowerOk P p) {K : Nat} {x : Fp12 C} {v : F12 p} (hx : Std12 P p K x v) : Canon12 P p (Fp12.reduce P x) v :=
  ⟨reduce12_ok h hx, least4_reduce h hx.1, least4_reduce h hx.2.1, least4_reduce h hx.2.2⟩

/-- The base of `FP12::pow` during the loop: the components `conj` negates have slack with one power of two, the others none. -/
structure Sl12 (P : Params C) (p t : Nat) (x : Fp12 C) (v : F12 p) : Prop where
  a : Sl4 P p ⟨0, 1, 0, t⟩ ⟨0, 1, 1, t⟩ x.a v.a
  b : Sl4 P p ⟨0, 1, 1, t⟩ ⟨0, 1, 0, t⟩ x.b v.b
  c : Sl4 P p ⟨0, 1, 0, t⟩ ⟨0, 1, 1, t⟩ x.c v.c

/-- abstract run of `FP12::mul` with slack in the second factor -/
def slRun (K t : Nat) : Option (R12 → D4) :=
  absRun absD4 Fp12.mulProg (Fp12.init (.lz (lv 1)) (.lz (lv K)) (.lz (lv K)) (.lz (lv K)) (.sl ⟨0, 1, 0, t⟩ ⟨0, 1, 1, t⟩) (.sl ⟨0, 1, 1, t⟩ ⟨0, 1, 0, t⟩) (.sl ⟨0, 1, 0, t⟩ ⟨0, 1, 1, t⟩))

/-- at most `lv M` -/
def D4.fine (M : Nat) : D4 → Bool
  | .lz d => decide (d.le (lv M))
  | .sl _ _ => false

theorem slRun_fine : ∃ t', slRun 2800 16383 = some t' ∧ D4.fine 2800 (t' .xa) = true ∧ D4.fine 2800 (t' .xb) = true ∧ D4.fine 2800 (t' .xc) = true := by
  have : ((slRun 2800 16383).map fun t' => D4.fine 2800 (t' .xa) && (D4.fine 2800 (t' .xb) && D4.fine 2800 (t' .xc))) = some true := by decide +kernel
  obtain ⟨t', h1, h2⟩ := Option.map_eq_some_iff.1 this
  simp only [Bool.and_eq_true] at h2
  exact ⟨t', h1, h2.1, h2.2.1, h2.2.2⟩

variable (h : TowerOk P p)
include h

theorem Sl12.mono {t t' : Nat} {x : Fp12 C} {v : F12 p} (hx : Sl12 P p t x v) (ht : t ≤ t') : Sl12 P p t' x v :=
  ⟨⟨hx.a.re.mono h le_rfl ht, hx.a.im.mono h le_rfl ht⟩, ⟨hx.b.re.mono h le_rfl ht, hx.b.im.mono h le_rfl ht⟩, ⟨hx.c.re.mono h le_rfl ht, hx.c.im.mono h le_rfl ht⟩⟩

theorem Sl12.of {K t : Nat} {x : Fp12 C} {v : F12 p} (hx : Std12 P p K x v) (ht : K ≤ t) : Sl12 P p t x v :=
  ⟨⟨.of h hx.1.1 ht, (Sl2.of h hx.1.2 ht).mono h (by omega) le_rfl⟩, ⟨(Sl2.of h hx.2.1.1 ht).mono h (by omega) le_rfl, .of h hx.2.1.2 ht⟩,
    ⟨.of h hx.2.2.1 ht, (Sl2.of h hx.2.2.2 ht).mono h (by omega) le_rfl⟩⟩

theorem fine_ok {M : Nat} {d : D4} {x : Fp4 C} {v : F4 p} (hd : D4.fine M d = true) (hx : RelD4 P p d x v) : Std4 P p M x v := by
  cases d with
  | sl _ _ => cases hd
  | lz d => exact std4_iff.2 (Rel4.mono h hx (of_decide_eq_true hd))

/-- `FP12::mul` by the base -/
theorem mul12_sl {x y : Fp12 C} {v w : F12 p} {t : Nat} (hx : Std12 P p 2800 x v) (hy : Sl12 P p t y w) (ht : t ≤ 16383) :
    Std12 P p 2800 (Fp12.mul P x y) (v * w) := by
  obtain ⟨t', h0, h1, h2, h3⟩ := slRun_fine
  have hy := hy.mono h ht
  have hz : RelD4 P p (.lz (lv 1)) (Fp4.zero P) 0 := zero4_ok h
  have q1 : RelD4 P p (.lz (lv 2800)) x.a v.a := std4_iff.1 hx.1
  have q2 : RelD4 P p (.lz (lv 2800)) x.b v.b := std4_iff.1 hx.2.1
  have q3 : RelD4 P p (.lz (lv 2800)) x.c v.c := std4_iff.1 hx.2.2
  have r1 : RelD4 P p (.sl ⟨0, 1, 0, 16383⟩ ⟨0, 1, 1, 16383⟩) y.a w.a := hy.a
  have r2 : RelD4 P p (.sl ⟨0, 1, 1, 16383⟩ ⟨0, 1, 0, 16383⟩) y.b w.b := hy.b
  have r3 : RelD4 P p (.sl ⟨0, 1, 0, 16383⟩ ⟨0, 1, 1, 16383⟩) y.c w.c := hy.c
  have := run_sound (absD4_sound h) Fp12.mulProg (by intro i hi; fin_cases hi <;> exact trivial)
    (s := Fp12.init (Fp4.zero P) x.a x.b x.c y.a y.b y.c) (v := Fp12.init 0 v.a v.b v.c w.a w.b w.c)
    (fun r => by cases r <;> first | exact q1 | exact q2 | exact q3 | exact r1 | exact r2 | exact r3 | exact hz) h0
  have a1 := fine_ok h h1 (this .xa)
  have a2 := fine_ok h h2 (this .xb)
  have a3 := fine_ok h h3 (this .xc)
  rw [mul12_a ext4_om] at a1
  rw [mul12_b ext4_om] at a2
  rw [mul12_c ext4_om] at a3
  exact ⟨a1, a2, a3⟩

/-- `FP12::conj` of the base -/
theorem conj12_sl {x : Fp12 C} {v : F12 p} {t : Nat} (hx : Sl12 P p t x v) : Sl12 P p (t + 1) (Fp12.conj P x) (conj12 v) := by
  have n : ∀ {y : Fp2 C} {w : F2 p}, Sl2 P p ⟨0, 1, 0, t⟩ y w → Sl2 P p ⟨0, 1, 0, t + 1⟩ (Fp2.norm P y) w := fun hy => (Sl2.norm h hy).mono h le_rfl (Nat.le_succ t)
  rw [conj12_eq]
  exact ⟨⟨n hx.a.re, Sl2.neg h hx.a.im⟩, ⟨Sl2.neg h hx.b.re, n hx.b.im⟩, ⟨n hx.c.re, Sl2.neg h hx.c.im⟩⟩

/-- `FP12::mul`: the first factor may be lazier -/
theorem mul12_gen {x y : Fp12 C} {v w : F12 p} (hx : Std12 P p 150000 x v) (hy : Std12 P p 32767 y w) : Std12 P p 2800 (Fp12.mul P x y) (v * w) := by
  refine run12_ok h (L := 32767) (K := 150000) (by decide +kernel) (by intro i hi; fin_cases hi <;> exact trivial) hx hy _ ?_ ?_ ?_
  · rw [mul12_a ext4_om]; rfl
  · rw [mul12_b ext4_om]; rfl
  · rw [mul12_c ext4_om]; rfl

/-- `FP12::usqr` -/
theorem usqr12_gen {x : Fp12 C} {v : F12 p} (hx : Std12 P p 19184 x v) : Std12 P p 1 (Fp12.usqr P x) (usq v) := by
  refine run12_ok h (L := 19184) (K := 19184) (by decide +kernel) (by intro i hi; fin_cases hi <;> exact trivial) hx hx _ ?_ ?_ ?_
  · rw [usqr12_a ext4_om _ (fun _ => rfl)]; simp only [Fp12.init, ext4, usq]
  · rw [usqr12_b ext4_om _ (fun _ => rfl)]; simp only [Fp12.init, ext4, usq]
  · rw [usqr12_c ext4_om _ (fun _ => rfl)]; simp only [Fp12.init, ext4, usq]

/-- `FP12::conj` -/
theorem conj12_gen {K L : Nat} {x : Fp12 C} {v : F12 p} (hx : Std12 P p K x v) (hL : negE (2 * K) + K ≤ L) : Std12 P p L (Fp12.conj P x) (conj12 v) := by
  have ok : fp4Abs.un 1 (lv K) = some ⟨⟨0, 1, K⟩, ⟨0, 1, negE (2 * K) + K⟩⟩ := rfl
  have ok' : fp4Abs.un 2 (lv K) = some ⟨⟨0, 1, negE (2 * K) + K⟩, ⟨0, 1, K⟩⟩ := rfl
  have m : ∀ {y : Fp4 C} {w : F4 p} {d : Lz4}, d.a.l = 0 → d.a.k = 1 → d.b.l = 0 → d.b.k = 1 → d.a.e ≤ L → d.b.e ≤ L → Rel4 P p d y w → Std4 P p L y w := by
    intro y w d e1 e2 e3 e4 e5 e6 hy
    exact std4_iff.2 (hy.mono h ⟨⟨⟨e1.le, e2.le, e5⟩, ⟨e3.le, e4.le, e6⟩⟩, by simp, by simp, by simp, by simp⟩)
  exact ⟨m rfl rfl rfl rfl (by dsimp only; omega) hL (conj4_ok h ok (std4_iff.1 hx.1)), m rfl rfl rfl rfl hL (by dsimp only; omega) (nconj4_ok h ok' (std4_iff.1 hx.2.1)),
    m rfl rfl rfl rfl (by dsimp only; omega) hL (conj4_ok h ok (std4_iff.1 hx.2.2))⟩

/-- `FP12::frob`: only the counters of one component survive -/
theorem frob12_gen {K M L : Nat} {x : Fp12 C} {f : Fp2 C} {v : F12 p} {g : F2 p} (hx : Std12 P p M x v) (ha : Std2 P p K x.a.a v.a.re) (hf : Std2 P p 3 f g)
    (hL : max (negE K) K ≤ L) (h3 : 3 ≤ L) :
    Std12 P p L (Fp12.frob P x f)
      ⟨⟨conj2 v.a.re, conj2 v.a.im * (g * g ^ 2)⟩, ⟨conj2 v.b.re, conj2 v.b.im * (g * g ^ 2)⟩ * ⟨g, 0⟩, ⟨conj2 v.c.re, conj2 v.c.im * (g * g ^ 2)⟩ * ⟨g ^ 2, 0⟩⟩ := by
  have f1 := std2_iff.1 hf
  have f2 := (fp2_sound h).sqr (r := ⟨0, 1, 2⟩) (by simp [fp2Abs]) f1
  have f3 := mul2_ok h f1 f2 (by simp) (by simp) (by simp) (by simp) (by decide)
  have a := frob4_ok h hx.1 f3
  have b := pmul4_ok h (frob4_ok h hx.2.1 f3) f1 ⟨by simp, by simp⟩ ⟨by simp, by simp⟩ ⟨by simp, by simp, by decide⟩
  have c := pmul4_ok h (frob4_ok h hx.2.2 f3) f2 ⟨by simp, by simp⟩ ⟨by simp, by simp⟩ ⟨by simp, by simp, by decide⟩
  have ar := conj2_std h ha
  have l3 : Lz4.le (lv 3) (lv L) := ⟨⟨⟨le_rfl, le_rfl, h3⟩, ⟨le_rfl, le_rfl, h3⟩⟩, by simp [lv], by simp [lv], by simp [lv], by simp [lv]⟩
  refine ⟨⟨std2_iff.2 (Rel2.mono h ar ⟨le_rfl, le_rfl, hL⟩ (by simp) (by simp)), std2_iff.2 (Rel2.mono h a.im ⟨le_rfl, le_rfl, h3⟩ (by simp) (by simp))⟩, ?_, ?_⟩
  · exact std4_iff.2 (b.mono h l3)
  · exact std4_iff.2 (c.mono h l3)

theorem norm12_ok {K : Nat} {x : Fp12 C} {v : F12 p} (hx : Std12 P p K x v) : Std12 P p K (Fp12.norm P x) v :=
  ⟨std4_iff.2 (norm4_ok h (std4_iff.1 hx.1)), std4_iff.2 (norm4_ok h (std4_iff.1 hx.2.1)), std4_iff.2 (norm4_ok h (std4_iff.1 hx.2.2))⟩

end Verif.Gt
