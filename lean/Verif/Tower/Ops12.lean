import Verif.Tower.Field12
/- The operations of `fp12.rs` with their sparsity tags. -/
namespace Verif.Tower
open Verif.Big Verif.Fp Verif.Prog Spec
set_option linter.unusedVariables false
set_option linter.unusedSimpArgs false
set_option linter.unusedSectionVars false

attribute [local irreducible] Fp4.norm Fp4.neg Fp4.add Fp4.sub Fp4.dbl Fp4.reduce Fp4.mul Fp4.sqr Fp4.imul Fp4.div2 Fp4.inverse Fp4.conj Fp4.nconj Fp4.timesI Fp4.pmul Fp4.padd Fp4.zero
attribute [local irreducible] Fp2.norm Fp2.neg Fp2.add Fp2.sub Fp2.dbl Fp2.reduce Fp2.mul Fp2.sqr Fp2.imul Fp2.div2 Fp2.inverse Fp2.conj Fp2.timesI Fp2.divIp Fp2.divIp2 Fp2.zero

variable {C : Nat} {P : Params C} {p : Nat} [hp : Fact p.Prime]
variable (h : TowerOk P p)
include h

theorem Std2.mono {K L : Nat} {x : Fp2 C} {v : F2 p} (hx : Std2 P p K x v) (hK : K ≤ L) : Std2 P p L x v :=
  ⟨⟨hx.1.1, hx.1.2.trans hK⟩, ⟨hx.2.1, hx.2.2.trans hK⟩⟩
theorem Std4.mono {K L : Nat} {x : Fp4 C} {v : F4 p} (hx : Std4 P p K x v) (hK : K ≤ L) : Std4 P p L x v := ⟨hx.1.mono h hK, hx.2.mono h hK⟩
theorem Std12.mono {K L : Nat} {x : Fp12 C} {v : F12 p} (hx : Std12 P p K x v) (hK : K ≤ L) : Std12 P p L x v :=
  ⟨hx.1.mono h hK, hx.2.1.mono h hK, hx.2.2.mono h hK⟩

theorem zero4_std {K : Nat} (hK : 1 ≤ K) : Std4 P p K (Fp4.zero P) 0 := (std4_iff.2 (zero4_ok h)).mono h hK

/-- The shape the tags "zero" and "sparser" promise. -/
theorem smul_ok {mt : Bool} {x y : Fp12 C} {v w : F12 p} (hx : Std12 P p 2800 x v) (hy : Std12 P p 2800 y w)
    (h1 : if mt then v.b = 0 ∧ v.c.re = 0 else v.b.im = 0 ∧ v.c = 0) (h2 : if mt then w.b = 0 ∧ w.c.re = 0 else w.b.im = 0 ∧ w.c = 0) :
    Std12 P p 2800 (Fp12.smul P mt x y) (v * w) ∧ Tagged mt (Fp12.smul P mt x y).stype (v * w) := by
  have hz := zero2_ok h
  have e2 : ∀ u : F2 p, ext2 p 0 u = u * xi p := fun _ => rfl
  obtain ⟨xa, xb, xc⟩ := hx
  obtain ⟨ya, yb, yc⟩ := hy
  cases mt
  · simp only [Bool.false_eq_true, if_false] at h1 h2
    obtain ⟨v1, v2⟩ := h1
    obtain ⟨w1, w2⟩ := h2
    have hr : ∃ t', absRun fp2Abs Fp12.smD (Fp12.init6 ⟨0, 1, 1⟩ ⟨0, 1, 2800⟩ ⟨0, 1, 2800⟩ ⟨0, 1, 2800⟩ ⟨0, 1, 2800⟩ ⟨0, 1, 2800⟩ ⟨0, 1, 2800⟩) = some t' ∧
        (t' .w1).le ⟨0, 1, 2800⟩ ∧ (t' .tc).le ⟨0, 1, 2800⟩ ∧ (t' .td).le ⟨0, 1, 2800⟩ ∧ (t' .te).le ⟨0, 1, 2800⟩ ∧ (t' .w3).le ⟨0, 1, 2800⟩ :=
      ⟨_, rfl, by decide +kernel, by decide +kernel, by decide +kernel, by decide +kernel, by decide +kernel⟩
    obtain ⟨t', ht, l1, l2, l3, l4, l5⟩ := hr
    have := run_sound (fp2_sound h) Fp12.smD (by intro i hi; fin_cases hi <;> exact trivial)
      (s := Fp12.init6 (Fp2.zero P) x.a.a x.a.b x.b.a y.a.a y.a.b y.b.a) (v := Fp12.init6 0 v.a.re v.a.im v.b.re w.a.re w.a.im w.b.re)
      (fun r => by cases r <;> first | exact std2_iff.1 xa.1 | exact std2_iff.1 xa.2 | exact std2_iff.1 xb.1 | exact std2_iff.1 ya.1 | exact std2_iff.1 ya.2 | exact std2_iff.1 yb.1 | exact hz) ht
    have a1 := (this .w1).mono h l1 (by simp) (by simp)
    have a2 := (this .tc).mono h l2 (by simp) (by simp)
    have a3 := (this .td).mono h l3 (by simp) (by simp)
    have a4 := (this .te).mono h l4 (by simp) (by simp)
    have a5 := (this .w3).mono h l5 (by simp) (by simp)
    rw [smD_w1 e2] at a1; rw [smD_tc e2] at a2; rw [smD_td e2] at a3; rw [smD_te e2] at a4; rw [smD_w3 e2] at a5
    simp only [Fp12.init6] at a1 a2 a3 a4 a5
    refine ⟨⟨⟨std2_iff.2 (a1.to ?_), std2_iff.2 (a2.to ?_)⟩, ⟨std2_iff.2 (a3.to ?_), std2_iff.2 (a4.to ?_)⟩, ⟨std2_iff.2 (a5.to ?_), (std2_iff.2 (hz.to ?_)).mono h (by norm_num)⟩⟩, ?_⟩
    · simp [v1, v2, w1, w2]; ring
    · simp [v1, v2, w1, w2]
    · simp [v1, v2, w1, w2]
    · simp [v1, v2, w1, w2]
    · simp [v1, v2, w1, w2]
    · simp [v1, v2, w1, w2]
    · refine Or.inr (Or.inr (Or.inr (Or.inl ⟨rfl, ?_⟩)))
      simp [v1, v2, w1, w2]
  · simp only [if_true] at h1 h2
    obtain ⟨v1, v2⟩ := h1
    obtain ⟨w1, w2⟩ := h2
    have hr : ∃ t', absRun fp2Abs Fp12.smM (Fp12.init6 ⟨0, 1, 1⟩ ⟨0, 1, 2800⟩ ⟨0, 1, 2800⟩ ⟨0, 1, 2800⟩ ⟨0, 1, 2800⟩ ⟨0, 1, 2800⟩ ⟨0, 1, 2800⟩) = some t' ∧
        (t' .w1).le ⟨0, 1, 2800⟩ ∧ (t' .tc).le ⟨0, 1, 2800⟩ ∧ (t' .td).le ⟨0, 1, 2800⟩ ∧ (t' .te).le ⟨0, 1, 2800⟩ ∧ (t' .w3).le ⟨0, 1, 2800⟩ :=
      ⟨_, rfl, by decide +kernel, by decide +kernel, by decide +kernel, by decide +kernel, by decide +kernel⟩
    obtain ⟨t', ht, l1, l2, l3, l4, l5⟩ := hr
    have := run_sound (fp2_sound h) Fp12.smM (by intro i hi; fin_cases hi <;> exact trivial)
      (s := Fp12.init6 (Fp2.zero P) x.a.a x.a.b x.c.b y.a.a y.a.b y.c.b) (v := Fp12.init6 0 v.a.re v.a.im v.c.im w.a.re w.a.im w.c.im)
      (fun r => by cases r <;> first | exact std2_iff.1 xa.1 | exact std2_iff.1 xa.2 | exact std2_iff.1 xc.2 | exact std2_iff.1 ya.1 | exact std2_iff.1 ya.2 | exact std2_iff.1 yc.2 | exact hz) ht
    have a1 := (this .w1).mono h l1 (by simp) (by simp)
    have a2 := (this .tc).mono h l2 (by simp) (by simp)
    have a3 := (this .td).mono h l3 (by simp) (by simp)
    have a4 := (this .te).mono h l4 (by simp) (by simp)
    have a5 := (this .w3).mono h l5 (by simp) (by simp)
    rw [smM_w1 e2] at a1; rw [smM_tc e2] at a2; rw [smM_td e2] at a3; rw [smM_te e2] at a4; rw [smM_w3 e2] at a5
    simp only [Fp12.init6] at a1 a2 a3 a4 a5
    refine ⟨⟨⟨std2_iff.2 (a1.to ?_), std2_iff.2 (a2.to ?_)⟩, ⟨(std2_iff.2 (hz.to ?_)).mono h (by norm_num), std2_iff.2 (a5.to ?_)⟩, ⟨std2_iff.2 (a4.to ?_), std2_iff.2 (a3.to ?_)⟩⟩, ?_⟩
    · simp [v1, v2, w1, w2]; ring
    · simp [v1, v2, w1, w2]
    · simp [v1, v2, w1, w2]
    · simp [v1, v2, w1, w2]; ring
    · simp [v1, v2, w1, w2]; ring
    · simp [v1, v2, w1, w2]
    · refine Or.inr (Or.inr (Or.inr (Or.inl ⟨rfl, ?_⟩)))
      simp [v1, v2, w1, w2]

omit h in
theorem tagged_shape {mt : Bool} {t : Nat} {v : F12 p} (ht : Tagged mt t v) (h1 : t ≠ 1) (h2 : ¬t ≥ 3) :
    if mt then v.b = 0 ∧ v.c.re = 0 else v.b.im = 0 ∧ v.c = 0 := by
  rcases ht with ⟨h, rfl⟩ | ⟨h, _⟩ | ⟨h, hh⟩ | ⟨h, _⟩ | h
  · cases mt <;> simp
  · omega
  · exact hh
  · omega
  · omega

omit h in
theorem ssDense_eq (mt : Bool) {t u : Nat} (ht : t ≠ 3) (hu : u ≠ 3) (sx sy : Nat) :
    Fp12.ssDense mt t sy = Fp12.ssDense mt 4 sy ∧ Fp12.ssDense mt sx u = Fp12.ssDense mt sx 4 := by
  unfold Fp12.ssDense Fp12.ssZ2 Fp12.ssT0
  constructor
  · simp [tSPARSE, ht]
  · simp [tSPARSE, hu]

/-- `ssmul` multiplies, and the tag of the product is right. -/
theorem ssmul_ok {mt : Bool} {x y : Fp12 C} {v w : F12 p} (hx : Std12 P p 2800 x v) (hy : Std12 P p 2800 y w) (tx : Tagged mt x.stype v) (ty : Tagged mt y.stype w) :
    Std12 P p 2800 (Fp12.ssmul P mt x y) (v * w) ∧ Tagged mt (Fp12.ssmul P mt x y).stype (v * w) := by
  unfold Fp12.ssmul
  by_cases c1 : x.stype = tONE
  · rw [if_pos c1]
    have : v = 1 := by
      rcases tx with ⟨h, _⟩ | ⟨_, h⟩ | ⟨h, _⟩ | ⟨h, _⟩ | h
      · rw [h] at c1; cases c1
      · exact h
      · rw [h] at c1; cases c1
      · rw [h] at c1; cases c1
      · rw [h] at c1; cases c1
    rw [this, one_mul]
    exact ⟨hy, ty⟩
  rw [if_neg c1]
  by_cases c2 : y.stype = tONE
  · rw [if_pos c2]
    have : w = 1 := by
      rcases ty with ⟨h, _⟩ | ⟨_, h⟩ | ⟨h, _⟩ | ⟨h, _⟩ | h
      · rw [h] at c2; cases c2
      · exact h
      · rw [h] at c2; cases c2
      · rw [h] at c2; cases c2
      · rw [h] at c2; cases c2
    rw [this, mul_one]
    exact ⟨hx, tx⟩
  rw [if_neg c2]
  by_cases c3 : y.stype ≥ tSPARSE
  · rw [if_pos c3]
    refine ⟨?_, Or.inr (Or.inr (Or.inr (Or.inr rfl)))⟩
    by_cases cx : x.stype = 3 <;> by_cases cy : y.stype = 3
    · rw [cx, cy]
      cases mt
      · have q1 : v.c.im = 0 := by rcases tx with ⟨h, _⟩ | ⟨h, _⟩ | ⟨h, _⟩ | ⟨_, h⟩ | h <;> first | omega | exact h
        have q2 : w.c.im = 0 := by rcases ty with ⟨h, _⟩ | ⟨h, _⟩ | ⟨h, _⟩ | ⟨_, h⟩ | h <;> first | omega | exact h
        exact ssD33_ok h hx hy q1 q2 _
      · have q1 : v.b.re = 0 := by rcases tx with ⟨h, _⟩ | ⟨h, _⟩ | ⟨h, _⟩ | ⟨_, h⟩ | h <;> first | omega | exact h
        have q2 : w.b.re = 0 := by rcases ty with ⟨h, _⟩ | ⟨h, _⟩ | ⟨h, _⟩ | ⟨_, h⟩ | h <;> first | omega | exact h
        exact ssM33_ok h hx hy q1 q2 _
    · rw [cx, (ssDense_eq mt cy cy 3 4).2]
      cases mt
      · have q1 : v.c.im = 0 := by rcases tx with ⟨h, _⟩ | ⟨h, _⟩ | ⟨h, _⟩ | ⟨_, h⟩ | h <;> first | omega | exact h
        exact ssD34_ok h hx hy q1 _
      · have q1 : v.b.re = 0 := by rcases tx with ⟨h, _⟩ | ⟨h, _⟩ | ⟨h, _⟩ | ⟨_, h⟩ | h <;> first | omega | exact h
        exact ssM34_ok h hx hy q1 _
    · rw [cy, (ssDense_eq mt cx cx 4 3).1]
      cases mt
      · have q2 : w.c.im = 0 := by rcases ty with ⟨h, _⟩ | ⟨h, _⟩ | ⟨h, _⟩ | ⟨_, h⟩ | h <;> first | omega | exact h
        exact ssD43_ok h hx hy q2 _
      · have q2 : w.b.re = 0 := by rcases ty with ⟨h, _⟩ | ⟨h, _⟩ | ⟨h, _⟩ | ⟨_, h⟩ | h <;> first | omega | exact h
        exact ssM43_ok h hx hy q2 _
    · rw [(ssDense_eq mt cx cx 4 y.stype).1, (ssDense_eq mt cy cy 4 4).2]
      cases mt
      · exact ssD44_ok h hx hy _
      · exact ssM44_ok h hx hy _
  rw [if_neg c3]
  have sy := tagged_shape ty c2 c3
  by_cases c4 : x.stype = tSPARSER
  · rw [if_pos c4]
    exact smul_ok h hx hy (tagged_shape tx c1 (by rw [c4]; decide)) sy
  rw [if_neg c4]
  refine ⟨?_, Or.inr (Or.inr (Or.inr (Or.inr rfl)))⟩
  cases mt
  · exact ssD2_ok h hx hy sy.1 sy.2 _
  · exact ssM2_ok h hx hy sy.1 sy.2 _

/-- `sqr` squares, and the tag of the square is right. -/
theorem sqr12_ok {mt : Bool} {x : Fp12 C} {v : F12 p} (hx : Std12 P p 8000 x v) (tx : Tagged mt x.stype v) :
    Std12 P p 8000 (Fp12.sqr P x) (v ^ 2) ∧ Tagged mt (Fp12.sqr P x).stype (v ^ 2) := by
  unfold Fp12.sqr
  by_cases c1 : x.stype = tONE
  · rw [if_pos c1]
    have : v = 1 := by
      rcases tx with ⟨h, _⟩ | ⟨_, h⟩ | ⟨h, _⟩ | ⟨h, _⟩ | h
      · rw [h] at c1; cases c1
      · exact h
      · rw [h] at c1; cases c1
      · rw [h] at c1; cases c1
      · rw [h] at c1; cases c1
    rw [this] at hx tx ⊢
    rw [one_pow]
    exact ⟨hx, tx⟩
  rw [if_neg c1]
  refine ⟨(sqr12_run h hx _).mono h (by norm_num), ?_⟩
  by_cases c2 : x.stype = tSPARSER
  · have sh := tagged_shape tx c1 (by rw [c2]; decide)
    refine Or.inr (Or.inr (Or.inr (Or.inl ⟨if_pos c2, ?_⟩)))
    rw [pow_two v]
    cases mt
    · simp only [Bool.false_eq_true, if_false] at sh ⊢
      simp [sh.1, sh.2]
    · simp only [if_true] at sh ⊢
      simp [sh.1, sh.2]
  · exact Or.inr (Or.inr (Or.inr (Or.inr (if_neg c2))))

/-- `a + b v + c v² ↦ conj a - conj b v + conj c v²` -/
def conj12 {p : Nat} (v : F12 p) : F12 p := ⟨⟨v.a.re, -v.a.im⟩, ⟨-v.b.re, v.b.im⟩, ⟨v.c.re, -v.c.im⟩⟩

theorem conj12_ok {mt : Bool} {x : Fp12 C} {v : F12 p} (hx : Std12 P p 2800 x v) (tx : Tagged mt x.stype v) :
    Std12 P p 32767 (Fp12.conj P x) (conj12 v) ∧ Tagged mt (Fp12.conj P x).stype (conj12 v) := by
  refine ⟨⟨?_, ?_, ?_⟩, ?_⟩
  · exact std4_iff.2 ((conj4_ok h (r := ⟨⟨0, 1, 2800⟩, ⟨0, 1, 19184⟩⟩) (by decide +kernel) (std4_iff.1 hx.1)).mono h (by decide))
  · exact std4_iff.2 ((nconj4_ok h (r := ⟨⟨0, 1, 19184⟩, ⟨0, 1, 2800⟩⟩) (by decide +kernel) (std4_iff.1 hx.2.1)).mono h (by decide))
  · exact std4_iff.2 ((conj4_ok h (r := ⟨⟨0, 1, 2800⟩, ⟨0, 1, 19184⟩⟩) (by decide +kernel) (std4_iff.1 hx.2.2)).mono h (by decide))
  · have e : (Fp12.conj P x).stype = x.stype := rfl
    rw [e]
    rcases tx with ⟨h, rfl⟩ | ⟨h, rfl⟩ | ⟨h, hh⟩ | ⟨h, hh⟩ | h
    · exact Or.inl ⟨h, by ext1 <;> ext1 <;> simp [conj12]⟩
    · refine Or.inr (Or.inl ⟨h, ?_⟩)
      have i1 : (1 : F4 p).im = 0 := rfl
      ext1 <;> ext1 <;> simp [conj12, i1]
    · refine Or.inr (Or.inr (Or.inl ⟨h, ?_⟩))
      cases mt
      · simp only [Bool.false_eq_true, if_false] at hh ⊢
        simp only [conj12, hh.1, hh.2]
        exact ⟨trivial, by ext1 <;> simp⟩
      · simp only [if_true] at hh ⊢
        simp only [conj12, hh.1, hh.2]
        exact ⟨by ext1 <;> simp, trivial⟩
    · refine Or.inr (Or.inr (Or.inr (Or.inl ⟨h, ?_⟩)))
      cases mt
      · simp only [Bool.false_eq_true, if_false] at hh ⊢
        simp only [conj12, hh, neg_zero]
      · simp only [if_true] at hh ⊢
        simp only [conj12, hh, neg_zero]
    · exact Or.inr (Or.inr (Or.inr (Or.inr h)))

/-- complex conjugation of `F2` -/
def conj2 {p : Nat} (v : F2 p) : F2 p := ⟨v.re, -v.im⟩

theorem conj2_std {K : Nat} {x : Fp2 C} {v : F2 p} (hx : Std2 P p K x v) : Rel2 P p ⟨0, 1, max (negE K) K⟩ (Fp2.conj P x) (conj2 v) := by
  have q := std2_iff.1 hx
  have n := (q.im.neg h.toConsts h.hC (room2 h (by simp) (by simp))).norm h.toConsts
  unfold Fp2.conj
  exact Rel2.mk' (v := conj2 v) (q.re.mono le_rfl le_rfl (le_max_right _ _) (room2 h (by simp) (by simp)))
    (n.mono le_rfl le_rfl (le_max_left _ _) (room2 h (by simp) (by simp)))

theorem frob4_ok {K : Nat} {x : Fp4 C} {f : Fp2 C} {v : F4 p} {w : F2 p} (hx : Std4 P p K x v) (hf : Rel2 P p ⟨0, 1, 3⟩ f w) :
    Rel4 P p ⟨⟨0, 1, max (negE K) K⟩, ⟨0, 1, 3⟩⟩ (Fp4.frob P x f) ⟨conj2 v.re, conj2 v.im * w⟩ := by
  unfold Fp4.frob
  exact Rel4.mk' (v := ⟨conj2 v.re, conj2 v.im * w⟩) (conj2_std h hx.1) (mul2_ok h (conj2_std h hx.2) hf (by simp) (by simp) (by simp) (by simp) (by decide))

theorem pmul4_ok {d : Lz4} {e : Lz} {x : Fp4 C} {s : Fp2 C} {v : F4 p} {w : F2 p} (hx : Rel4 P p d x v) (hs : Rel2 P p e s w) (h1 : d.a.l ≤ 1 ∧ d.a.k ≤ 1)
    (h2 : d.b.l ≤ 1 ∧ d.b.k ≤ 1) (h3 : e.l ≤ 1 ∧ e.k ≤ 1 ∧ e.e ≤ T) : Rel4 P p (lv 3) (Fp4.pmul P x s) (v * ⟨w, 0⟩) := by
  have a := (mul2_ok h hx.re hs h1.1 h1.2 h3.1 h3.2.1 h3.2.2).to (w := (v * (⟨w, 0⟩ : F4 p)).re) (by simp)
  have b := (mul2_ok h hx.im hs h2.1 h2.2 h3.1 h3.2.1 h3.2.2).to (w := (v * (⟨w, 0⟩ : F4 p)).im) (by simp)
  have e : Fp4.pmul P x s = ⟨Fp2.mul P x.a s, Fp2.mul P x.b s⟩ := by unfold Fp4.pmul; rfl
  rw [e]
  exact Rel4.mk' a b

/-- `frob` with the constant `f` -/
theorem frob12_ok {K : Nat} (hK : K ≤ 2800) {x : Fp12 C} {f : Fp2 C} {v : F12 p} {g : F2 p} (hx : Std12 P p K x v) (hf : Std2 P p 3 f g) :
    Std12 P p 16384 (Fp12.frob P x f)
      ⟨⟨conj2 v.a.re, conj2 v.a.im * (g * g ^ 2)⟩, ⟨conj2 v.b.re, conj2 v.b.im * (g * g ^ 2)⟩ * ⟨g, 0⟩, ⟨conj2 v.c.re, conj2 v.c.im * (g * g ^ 2)⟩ * ⟨g ^ 2, 0⟩⟩ := by
  have hx := hx.mono h hK
  have f1 := std2_iff.1 hf
  have f2 := (fp2_sound h).sqr (r := ⟨0, 1, 2⟩) (by simp [fp2Abs]) f1
  have f3 := mul2_ok h f1 f2 (by simp) (by simp) (by simp) (by simp) (by decide)
  have a := frob4_ok h hx.1 f3
  have b := pmul4_ok h (frob4_ok h hx.2.1 f3) f1 ⟨by simp, by simp⟩ ⟨by simp, by simp⟩ ⟨by simp, by simp, by decide⟩
  have c := pmul4_ok h (frob4_ok h hx.2.2 f3) f2 ⟨by simp, by simp⟩ ⟨by simp, by simp⟩ ⟨by simp, by simp, by decide⟩
  exact ⟨std4_iff.2 (a.mono h (by decide +kernel)), std4_iff.2 (b.mono h (by decide)), std4_iff.2 (c.mono h (by decide))⟩

end Verif.Tower
