import Verif.Tower.Field4
import Verif.Tower.Eval12
/- `FP12` as an implementation of `F4[v]`, `v³ = w`. -/
namespace Verif.Tower
open Verif.Big Verif.Fp Verif.Prog Spec
set_option linter.unusedVariables false

attribute [local irreducible] Fp4.norm Fp4.neg Fp4.add Fp4.sub Fp4.dbl Fp4.reduce Fp4.mul Fp4.sqr Fp4.imul Fp4.div2 Fp4.inverse Fp4.conj Fp4.nconj Fp4.timesI Fp4.pmul Fp4.padd Fp4.zero
attribute [local irreducible] Fp2.norm Fp2.neg Fp2.add Fp2.sub Fp2.dbl Fp2.reduce Fp2.mul Fp2.sqr Fp2.imul Fp2.div2 Fp2.inverse Fp2.conj Fp2.timesI Fp2.divIp Fp2.divIp2 Fp2.zero

variable {C : Nat} {P : Params C} {p : Nat} [hp : Fact p.Prime]

/-- normalised, counters at most `K` -/
abbrev lv (K : Nat) : Lz4 := ⟨⟨0, 1, K⟩, ⟨0, 1, K⟩⟩

omit hp in
theorem std2_iff {K : Nat} {x : Fp2 C} {v : F2 p} : Std2 P p K x v ↔ Rel2 P p ⟨0, 1, K⟩ x v :=
  ⟨fun h => ⟨⟨h.1.1, h.1.2⟩, ⟨h.2.1, h.2.2⟩⟩, fun h => ⟨⟨h.re.el, h.re.xes⟩, ⟨h.im.el, h.im.xes⟩⟩⟩

omit hp in
theorem std4_iff {K : Nat} {x : Fp4 C} {v : F4 p} : Std4 P p K x v ↔ Rel4 P p (lv K) x v :=
  ⟨fun h => ⟨std2_iff.1 h.1, std2_iff.1 h.2⟩, fun h => ⟨std2_iff.2 h.re, std2_iff.2 h.im⟩⟩

/-- `d` is normalised with counters at most `K` -/
abbrev Lz4.under (d : Lz4) (K : Nat) : Prop := d.le (lv K)

/-- abstract run of a program of `FP12` -/
def abs12 (pr : List (Ins R12)) (K L : Nat) : Option (Lz4 × Lz4 × Lz4) :=
  (absRun fp4Abs pr (Fp12.init (lv 1) (lv K) (lv K) (lv K) (lv L) (lv L) (lv L))).map (fun t => (t .xa, t .xb, t .xc))

/-- the abstract run succeeds, and the results have counters at most `M` -/
def Fine12 (pr : List (Ins R12)) (K L M : Nat) : Prop :=
  match abs12 pr K L with
  | none => False
  | some (a, b, c) => a.under M ∧ b.under M ∧ c.under M

instance (pr : List (Ins R12)) (K L M : Nat) : Decidable (Fine12 pr K L M) := by
  unfold Fine12
  split <;> infer_instance

variable (h : TowerOk P p)
include h

theorem run12_ok {pr : List (Ins R12)} {K L M : Nat} (ha : Fine12 pr K L M) (hg : ∀ i ∈ pr, i.Good (small P)) {x y : Fp12 C} {v w : F12 p}
    (hx : Std12 P p K x v) (hy : Std12 P p L y w) (t : Nat) {r : F12 p}
    (r1 : run (ringOps (F4 p) (ext4 p) (bin4 p)) pr (Fp12.init 0 v.a v.b v.c w.a w.b w.c) .xa = r.a)
    (r2 : run (ringOps (F4 p) (ext4 p) (bin4 p)) pr (Fp12.init 0 v.a v.b v.c w.a w.b w.c) .xb = r.b)
    (r3 : run (ringOps (F4 p) (ext4 p) (bin4 p)) pr (Fp12.init 0 v.a v.b v.c w.a w.b w.c) .xc = r.c) :
    Std12 P p M (Fp12.runOn P pr x y t) r := by
  unfold Fine12 abs12 at ha
  split at ha
  · exact ha.elim
  rename_i a b c hh
  obtain ⟨t', ht, e⟩ := Option.map_eq_some_iff.1 hh
  have hz := zero4_ok h
  have := run_sound (fp4_sound h) pr hg (s := Fp12.init (Fp4.zero P) x.a x.b x.c y.a y.b y.c) (v := Fp12.init 0 v.a v.b v.c w.a w.b w.c)
    (t := Fp12.init (lv 1) (lv K) (lv K) (lv K) (lv L) (lv L) (lv L))
    (fun r => by
      cases r <;> first
        | exact std4_iff.1 hx.1 | exact std4_iff.1 hx.2.1 | exact std4_iff.1 hx.2.2 | exact std4_iff.1 hy.1 | exact std4_iff.1 hy.2.1 | exact std4_iff.1 hy.2.2 | exact hz) ht
  obtain ⟨ha, hb, hc⟩ := ha
  simp only [Prod.mk.injEq] at e
  obtain ⟨rfl, rfl, rfl⟩ := e
  exact ⟨std4_iff.2 (((this .xa).mono h ha).to r1), std4_iff.2 (((this .xb).mono h hb).to r2), std4_iff.2 (((this .xc).mono h hc).to r3)⟩

omit h in
theorem ext4_om (v : F4 p) : ext4 p 0 v = v * om p := rfl

theorem mul12_ok {x y : Fp12 C} {v w : F12 p} (hx : Std12 P p 32767 x v) (hy : Std12 P p 32767 y w) : Std12 P p 2800 (Fp12.mul P x y) (v * w) := by
  refine run12_ok h (L := 32767) (K := 32767) (by decide +kernel) (by intro i hi; fin_cases hi <;> exact trivial) hx hy _ ?_ ?_ ?_
  · rw [mul12_a ext4_om]; rfl
  · rw [mul12_b ext4_om]; rfl
  · rw [mul12_c ext4_om]; rfl

theorem usqr12_ok {x : Fp12 C} {v : F12 p} (hx : Std12 P p 8000 x v) : Std12 P p 1 (Fp12.usqr P x)
    ⟨3 * v.a ^ 2 + 2 * ⟨-v.a.re, v.a.im⟩, 3 * (om p * v.c ^ 2) + 2 * ⟨v.b.re, -v.b.im⟩, 3 * v.b ^ 2 + 2 * ⟨-v.c.re, v.c.im⟩⟩ := by
  refine run12_ok h (L := 8000) (K := 8000) (by decide +kernel) (by intro i hi; fin_cases hi <;> exact trivial) hx hx _ ?_ ?_ ?_
  · rw [usqr12_a ext4_om _ (fun _ => rfl)]; simp only [Fp12.init, ext4]
  · rw [usqr12_b ext4_om _ (fun _ => rfl)]; simp only [Fp12.init, ext4]
  · rw [usqr12_c ext4_om _ (fun _ => rfl)]; simp only [Fp12.init, ext4]

theorem sqr12_run {x : Fp12 C} {v : F12 p} (hx : Std12 P p 8000 x v) (t : Nat) : Std12 P p 2800 (Fp12.runOn P Fp12.sqrProg x x t) (v ^ 2) := by
  rw [pow_two v]
  refine run12_ok h (L := 8000) (K := 8000) (by decide +kernel) (by intro i hi; fin_cases hi <;> exact trivial) hx hx _ ?_ ?_ ?_
  · rw [sqr12_a ext4_om]; rfl
  · rw [sqr12_b ext4_om]; rfl
  · rw [sqr12_c ext4_om]; rfl

/-- the numerator of the inverse -/
def adj12 {p : Nat} (v : F12 p) : F12 p := ⟨v.a ^ 2 - om p * (v.b * v.c), om p * v.c ^ 2 - v.a * v.b, v.b ^ 2 - v.a * v.c⟩
/-- the norm to `F4` -/
def norm12 {p : Nat} (v : F12 p) : F4 p := v.a * (adj12 v).a + om p * (v.c * (adj12 v).b + v.b * (adj12 v).c)

theorem inverse12_ok {x : Fp12 C} {v : F12 p} (hx : Std12 P p 2800 x v) : Std12 P p 41 (Fp12.inverse P x)
    ⟨(adj12 v).a * inv4 (norm12 v), (adj12 v).b * inv4 (norm12 v), (adj12 v).c * inv4 (norm12 v)⟩ := by
  refine run12_ok h (L := 2800) (K := 2800) (by decide +kernel) (by intro i hi; fin_cases hi <;> exact trivial) hx hx _ ?_ ?_ ?_
  · rw [inv12_a ext4_om]; simp only [Fp12.init, ext4, adj12, norm12]
  · rw [inv12_b ext4_om]; simp only [Fp12.init, ext4, adj12, norm12]
  · rw [inv12_c ext4_om]; simp only [Fp12.init, ext4, adj12, norm12]

omit h in
theorem k_M33 {v w : F4 p} (hx : v.re = 0) (hy : w.re = 0) : ext4 p 0 (bin4 p 3 v w) = v * w := by
  ext1 <;> simp [ext4, bin4, hx, hy]
  ring
omit h in
theorem k_M43 {v w : F4 p} (hy : w.re = 0) : ext4 p 0 (bin4 p 1 v w) = v * w := by
  ext1 <;> simp [ext4, bin4, hy]
  ring
omit h in
theorem k_M34 {v w : F4 p} (hx : v.re = 0) : ext4 p 0 (bin4 p 4 v w) = v * w := by
  ext1 <;> simp [ext4, bin4, hx]
  ring
omit h in
theorem k_D33 {v w : F4 p} (hx : v.im = 0) (hy : w.im = 0) : bin4 p 5 v w = v * w := by
  ext1 <;> simp [bin4, hx, hy]
omit h in
theorem k_D43 {v w : F4 p} (hy : w.im = 0) : bin4 p 0 v w = v * w := by
  ext1 <;> simp [bin4, hy]
omit h in
theorem k_D34 {v w : F4 p} (hx : v.im = 0) : bin4 p 6 v w = v * w := by
  ext1 <;> simp [bin4, hx]

theorem ssM33_ok {x y : Fp12 C} {v w : F12 p} (hx : Std12 P p 2800 x v) (hy : Std12 P p 2800 y w) (h1 : v.b.re = 0) (h2 : w.b.re = 0) (t : Nat) :
    Std12 P p 2800 (Fp12.runOn P (Fp12.ssDense true 3 3) x y t) (v * w) := by
  refine run12_ok h (L := 2800) (K := 2800) (by decide +kernel) (by intro i hi; fin_cases hi <;> exact trivial) hx hy _ ?_ ?_ ?_
  · rw [ssM33_a ext4_om _ (k_M33 h1 h2)]; rfl
  · rw [ssM33_b ext4_om _ (k_M33 h1 h2)]; rfl
  · rw [ssM33_c ext4_om _ (k_M33 h1 h2)]; rfl

theorem ssM34_ok {x y : Fp12 C} {v w : F12 p} (hx : Std12 P p 2800 x v) (hy : Std12 P p 2800 y w) (h1 : v.b.re = 0) (t : Nat) :
    Std12 P p 2800 (Fp12.runOn P (Fp12.ssDense true 3 4) x y t) (v * w) := by
  refine run12_ok h (L := 2800) (K := 2800) (by decide +kernel) (by intro i hi; fin_cases hi <;> exact trivial) hx hy _ ?_ ?_ ?_
  · rw [ssM34_a ext4_om _ (k_M34 h1)]; rfl
  · rw [ssM34_b ext4_om _ (k_M34 h1)]; rfl
  · rw [ssM34_c ext4_om _ (k_M34 h1)]; rfl

theorem ssM43_ok {x y : Fp12 C} {v w : F12 p} (hx : Std12 P p 2800 x v) (hy : Std12 P p 2800 y w) (h2 : w.b.re = 0) (t : Nat) :
    Std12 P p 2800 (Fp12.runOn P (Fp12.ssDense true 4 3) x y t) (v * w) := by
  refine run12_ok h (L := 2800) (K := 2800) (by decide +kernel) (by intro i hi; fin_cases hi <;> exact trivial) hx hy _ ?_ ?_ ?_
  · rw [ssM43_a ext4_om _ (k_M43 h2)]; rfl
  · rw [ssM43_b ext4_om _ (k_M43 h2)]; rfl
  · rw [ssM43_c ext4_om _ (k_M43 h2)]; rfl

theorem ssM44_ok {x y : Fp12 C} {v w : F12 p} (hx : Std12 P p 2800 x v) (hy : Std12 P p 2800 y w) (t : Nat) :
    Std12 P p 2800 (Fp12.runOn P (Fp12.ssDense true 4 4) x y t) (v * w) := by
  refine run12_ok h (L := 2800) (K := 2800) (by decide +kernel) (by intro i hi; fin_cases hi <;> exact trivial) hx hy _ ?_ ?_ ?_
  · rw [ssM44_a ext4_om _]; rfl
  · rw [ssM44_b ext4_om _]; rfl
  · rw [ssM44_c ext4_om _]; rfl

theorem ssD33_ok {x y : Fp12 C} {v w : F12 p} (hx : Std12 P p 2800 x v) (hy : Std12 P p 2800 y w) (h1 : v.c.im = 0) (h2 : w.c.im = 0) (t : Nat) :
    Std12 P p 2800 (Fp12.runOn P (Fp12.ssDense false 3 3) x y t) (v * w) := by
  refine run12_ok h (L := 2800) (K := 2800) (by decide +kernel) (by intro i hi; fin_cases hi <;> exact trivial) hx hy _ ?_ ?_ ?_
  · rw [ssD33_a ext4_om _ (k_D33 h1 h2)]; rfl
  · rw [ssD33_b ext4_om _ (k_D33 h1 h2)]; rfl
  · rw [ssD33_c ext4_om _ (k_D33 h1 h2)]; rfl

theorem ssD34_ok {x y : Fp12 C} {v w : F12 p} (hx : Std12 P p 2800 x v) (hy : Std12 P p 2800 y w) (h1 : v.c.im = 0) (t : Nat) :
    Std12 P p 2800 (Fp12.runOn P (Fp12.ssDense false 3 4) x y t) (v * w) := by
  refine run12_ok h (L := 2800) (K := 2800) (by decide +kernel) (by intro i hi; fin_cases hi <;> exact trivial) hx hy _ ?_ ?_ ?_
  · rw [ssD34_a ext4_om _ (k_D34 h1)]; rfl
  · rw [ssD34_b ext4_om _ (k_D34 h1)]; rfl
  · rw [ssD34_c ext4_om _ (k_D34 h1)]; rfl

theorem ssD43_ok {x y : Fp12 C} {v w : F12 p} (hx : Std12 P p 2800 x v) (hy : Std12 P p 2800 y w) (h2 : w.c.im = 0) (t : Nat) :
    Std12 P p 2800 (Fp12.runOn P (Fp12.ssDense false 4 3) x y t) (v * w) := by
  refine run12_ok h (L := 2800) (K := 2800) (by decide +kernel) (by intro i hi; fin_cases hi <;> exact trivial) hx hy _ ?_ ?_ ?_
  · rw [ssD43_a ext4_om _ (k_D43 h2)]; rfl
  · rw [ssD43_b ext4_om _ (k_D43 h2)]; rfl
  · rw [ssD43_c ext4_om _ (k_D43 h2)]; rfl

theorem ssD44_ok {x y : Fp12 C} {v w : F12 p} (hx : Std12 P p 2800 x v) (hy : Std12 P p 2800 y w) (t : Nat) :
    Std12 P p 2800 (Fp12.runOn P (Fp12.ssDense false 4 4) x y t) (v * w) := by
  refine run12_ok h (L := 2800) (K := 2800) (by decide +kernel) (by intro i hi; fin_cases hi <;> exact trivial) hx hy _ ?_ ?_ ?_
  · rw [ssD44_a ext4_om _]; rfl
  · rw [ssD44_b ext4_om _]; rfl
  · rw [ssD44_c ext4_om _]; rfl

theorem ssM2_ok {x y : Fp12 C} {v w : F12 p} (hx : Std12 P p 2800 x v) (hy : Std12 P p 2800 y w) (h1 : w.b = 0) (h2 : w.c.re = 0) (t : Nat) :
    Std12 P p 2800 (Fp12.runOn P Fp12.ssM x y t) (v * w) := by
  have k : w.c = (⟨w.c.im, 0⟩ : F4 p) * om p := by ext1 <;> simp [h2]
  refine run12_ok h (L := 2800) (K := 2800) (by decide +kernel) (by intro i hi; fin_cases hi <;> exact trivial) hx hy _ ?_ ?_ ?_
  · rw [ssM2_a ext4_om _ h1 k (fun _ => rfl)]; rfl
  · rw [ssM2_b ext4_om _ h1 k (fun _ => rfl)]; rfl
  · rw [ssM2_c ext4_om _ h1 k (fun _ => rfl)]; rfl

theorem ssD2_ok {x y : Fp12 C} {v w : F12 p} (hx : Std12 P p 2800 x v) (hy : Std12 P p 2800 y w) (h1 : w.b.im = 0) (h2 : w.c = 0) (t : Nat) :
    Std12 P p 2800 (Fp12.runOn P Fp12.ssD x y t) (v * w) := by
  have k : (⟨w.b.re, 0⟩ : F4 p) = w.b := by ext1 <;> simp [h1]
  have k1 : ∀ u : F4 p, bin4 p 0 u w.b = u * w.b := fun u => by simp only [bin4]; rw [k]
  have k2 : ∀ u : F4 p, bin4 p 2 u w.b = u + w.b := fun u => by simp only [bin4]; rw [k]
  refine run12_ok h (L := 2800) (K := 2800) (by decide +kernel) (by intro i hi; fin_cases hi <;> exact trivial) hx hy _ ?_ ?_ ?_
  · rw [ssD2_a ext4_om _ h2 k1 k2]; rfl
  · rw [ssD2_b ext4_om _ h2 k1 k2]; rfl
  · rw [ssD2_c ext4_om _ h2 k1 k2]; rfl

end Verif.Tower
