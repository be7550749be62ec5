import Verif.Tower.Ops12
/- The products of `fp12.rs` with a lazier first factor, as they occur after `conj` at the end of the Miller loop. -/
namespace Verif.Tower
open Verif.Big Verif.Fp Verif.Prog
variable {C : Nat} {P : Params C} {p : Nat} [hp : Fact p.Prime] (h : TowerOk P p)
include h

/-- `inverse` of a lazier element -/
theorem inverse12_wide {x : Fp12 C} {v : F12 p} (hx : Std12 P p 32767 x v) : Std12 P p 41 (Fp12.inverse P x)
    ⟨(adj12 v).a * inv4 (norm12 v), (adj12 v).b * inv4 (norm12 v), (adj12 v).c * inv4 (norm12 v)⟩ := by
  refine run12_ok h (L := 32767) (K := 32767) (by decide +kernel) (by intro i hi; fin_cases hi <;> exact trivial) hx hx _ ?_ ?_ ?_
  · rw [inv12_a ext4_om]; simp only [Fp12.init, ext4, adj12, norm12]
  · rw [inv12_b ext4_om]; simp only [Fp12.init, ext4, adj12, norm12]
  · rw [inv12_c ext4_om]; simp only [Fp12.init, ext4, adj12, norm12]

/-- `mul` with a much lazier first factor -/
theorem mul12_wide {x y : Fp12 C} {v w : F12 p} (hx : Std12 P p 400000 x v) (hy : Std12 P p 41 y w) : Std12 P p 2800 (Fp12.mul P x y) (v * w) := by
  refine run12_ok h (L := 41) (K := 400000) (by decide +kernel) (by intro i hi; fin_cases hi <;> exact trivial) hx hy _ ?_ ?_ ?_
  · rw [mul12_a ext4_om]; rfl
  · rw [mul12_b ext4_om]; rfl
  · rw [mul12_c ext4_om]; rfl

/-- `sqr` keeps the bound of the Miller loop -/
theorem sqr12_std {mt : Bool} {x : Fp12 C} {v : F12 p} (hx : Std12 P p 2800 x v) (tx : Tagged mt x.stype v) :
    Std12 P p 2800 (Fp12.sqr P x) (v ^ 2) ∧ Tagged mt (Fp12.sqr P x).stype (v ^ 2) := by
  refine ⟨?_, (sqr12_ok h (hx.mono h (by norm_num)) tx).2⟩
  unfold Fp12.sqr
  by_cases c1 : x.stype = tONE
  · rw [if_pos c1]
    have : v = 1 := by
      rcases tx with ⟨h, _⟩ | ⟨_, h⟩ | ⟨h, _⟩ | ⟨h, _⟩ | h
      · rw [h] at c1; cases c1
      · exact h
      · rw [h] at c1; cases c1
      · rw [h] at c1; cases c1
      · rw [h] at c1; cases c1
    rw [this] at hx ⊢
    rw [one_pow]
    exact hx
  rw [if_neg c1]
  exact sqr12_run h (hx.mono h (by norm_num)) _

theorem ssM33_wide {x y : Fp12 C} {v w : F12 p} (hx : Std12 P p 32767 x v) (hy : Std12 P p 2800 y w) (h1 : v.b.re = 0) (h2 : w.b.re = 0) (t : Nat) :
    Std12 P p 2800 (Fp12.runOn P (Fp12.ssDense true 3 3) x y t) (v * w) := by
  refine run12_ok h (L := 2800) (K := 32767) (by decide +kernel) (by intro i hi; fin_cases hi <;> exact trivial) hx hy _ ?_ ?_ ?_
  · rw [ssM33_a ext4_om _ (k_M33 h1 h2)]; rfl
  · rw [ssM33_b ext4_om _ (k_M33 h1 h2)]; rfl
  · rw [ssM33_c ext4_om _ (k_M33 h1 h2)]; rfl

theorem ssM34_wide {x y : Fp12 C} {v w : F12 p} (hx : Std12 P p 32767 x v) (hy : Std12 P p 2800 y w) (h1 : v.b.re = 0) (t : Nat) :
    Std12 P p 2800 (Fp12.runOn P (Fp12.ssDense true 3 4) x y t) (v * w) := by
  refine run12_ok h (L := 2800) (K := 32767) (by decide +kernel) (by intro i hi; fin_cases hi <;> exact trivial) hx hy _ ?_ ?_ ?_
  · rw [ssM34_a ext4_om _ (k_M34 h1)]; rfl
  · rw [ssM34_b ext4_om _ (k_M34 h1)]; rfl
  · rw [ssM34_c ext4_om _ (k_M34 h1)]; rfl

theorem ssM43_wide {x y : Fp12 C} {v w : F12 p} (hx : Std12 P p 32767 x v) (hy : Std12 P p 2800 y w) (h2 : w.b.re = 0) (t : Nat) :
    Std12 P p 2800 (Fp12.runOn P (Fp12.ssDense true 4 3) x y t) (v * w) := by
  refine run12_ok h (L := 2800) (K := 32767) (by decide +kernel) (by intro i hi; fin_cases hi <;> exact trivial) hx hy _ ?_ ?_ ?_
  · rw [ssM43_a ext4_om _ (k_M43 h2)]; rfl
  · rw [ssM43_b ext4_om _ (k_M43 h2)]; rfl
  · rw [ssM43_c ext4_om _ (k_M43 h2)]; rfl

theorem ssM44_wide {x y : Fp12 C} {v w : F12 p} (hx : Std12 P p 32767 x v) (hy : Std12 P p 2800 y w) (t : Nat) :
    Std12 P p 2800 (Fp12.runOn P (Fp12.ssDense true 4 4) x y t) (v * w) := by
  refine run12_ok h (L := 2800) (K := 32767) (by decide +kernel) (by intro i hi; fin_cases hi <;> exact trivial) hx hy _ ?_ ?_ ?_
  · rw [ssM44_a ext4_om _]; rfl
  · rw [ssM44_b ext4_om _]; rfl
  · rw [ssM44_c ext4_om _]; rfl

theorem ssD33_wide {x y : Fp12 C} {v w : F12 p} (hx : Std12 P p 32767 x v) (hy : Std12 P p 2800 y w) (h1 : v.c.im = 0) (h2 : w.c.im = 0) (t : Nat) :
    Std12 P p 2800 (Fp12.runOn P (Fp12.ssDense false 3 3) x y t) (v * w) := by
  refine run12_ok h (L := 2800) (K := 32767) (by decide +kernel) (by intro i hi; fin_cases hi <;> exact trivial) hx hy _ ?_ ?_ ?_
  · rw [ssD33_a ext4_om _ (k_D33 h1 h2)]; rfl
  · rw [ssD33_b ext4_om _ (k_D33 h1 h2)]; rfl
  · rw [ssD33_c ext4_om _ (k_D33 h1 h2)]; rfl

theorem ssD34_wide {x y : Fp12 C} {v w : F12 p} (hx : Std12 P p 32767 x v) (hy : Std12 P p 2800 y w) (h1 : v.c.im = 0) (t : Nat) :
    Std12 P p 2800 (Fp12.runOn P (Fp12.ssDense false 3 4) x y t) (v * w) := by
  refine run12_ok h (L := 2800) (K := 32767) (by decide +kernel) (by intro i hi; fin_cases hi <;> exact trivial) hx hy _ ?_ ?_ ?_
  · rw [ssD34_a ext4_om _ (k_D34 h1)]; rfl
  · rw [ssD34_b ext4_om _ (k_D34 h1)]; rfl
  · rw [ssD34_c ext4_om _ (k_D34 h1)]; rfl

theorem ssD43_wide {x y : Fp12 C} {v w : F12 p} (hx : Std12 P p 32767 x v) (hy : Std12 P p 2800 y w) (h2 : w.c.im = 0) (t : Nat) :
    Std12 P p 2800 (Fp12.runOn P (Fp12.ssDense false 4 3) x y t) (v * w) := by
  refine run12_ok h (L := 2800) (K := 32767) (by decide +kernel) (by intro i hi; fin_cases hi <;> exact trivial) hx hy _ ?_ ?_ ?_
  · rw [ssD43_a ext4_om _ (k_D43 h2)]; rfl
  · rw [ssD43_b ext4_om _ (k_D43 h2)]; rfl
  · rw [ssD43_c ext4_om _ (k_D43 h2)]; rfl

theorem ssD44_wide {x y : Fp12 C} {v w : F12 p} (hx : Std12 P p 32767 x v) (hy : Std12 P p 2800 y w) (t : Nat) :
    Std12 P p 2800 (Fp12.runOn P (Fp12.ssDense false 4 4) x y t) (v * w) := by
  refine run12_ok h (L := 2800) (K := 32767) (by decide +kernel) (by intro i hi; fin_cases hi <;> exact trivial) hx hy _ ?_ ?_ ?_
  · rw [ssD44_a ext4_om _]; rfl
  · rw [ssD44_b ext4_om _]; rfl
  · rw [ssD44_c ext4_om _]; rfl

theorem ssM2_wide {x y : Fp12 C} {v w : F12 p} (hx : Std12 P p 32767 x v) (hy : Std12 P p 2800 y w) (h1 : w.b = 0) (h2 : w.c.re = 0) (t : Nat) :
    Std12 P p 2800 (Fp12.runOn P Fp12.ssM x y t) (v * w) := by
  have k : w.c = (⟨w.c.im, 0⟩ : F4 p) * om p := by ext1 <;> simp [h2]
  refine run12_ok h (L := 2800) (K := 32767) (by decide +kernel) (by intro i hi; fin_cases hi <;> exact trivial) hx hy _ ?_ ?_ ?_
  · rw [ssM2_a ext4_om _ h1 k (fun _ => rfl)]; rfl
  · rw [ssM2_b ext4_om _ h1 k (fun _ => rfl)]; rfl
  · rw [ssM2_c ext4_om _ h1 k (fun _ => rfl)]; rfl

theorem ssD2_wide {x y : Fp12 C} {v w : F12 p} (hx : Std12 P p 32767 x v) (hy : Std12 P p 2800 y w) (h1 : w.b.im = 0) (h2 : w.c = 0) (t : Nat) :
    Std12 P p 2800 (Fp12.runOn P Fp12.ssD x y t) (v * w) := by
  have k : (⟨w.b.re, 0⟩ : F4 p) = w.b := by ext1 <;> simp [h1]
  have k1 : ∀ u : F4 p, bin4 p 0 u w.b = u * w.b := fun u => by simp only [bin4]; rw [k]
  have k2 : ∀ u : F4 p, bin4 p 2 u w.b = u + w.b := fun u => by simp only [bin4]; rw [k]
  refine run12_ok h (L := 2800) (K := 32767) (by decide +kernel) (by intro i hi; fin_cases hi <;> exact trivial) hx hy _ ?_ ?_ ?_
  · rw [ssD2_a ext4_om _ h2 k1 k2]; rfl
  · rw [ssD2_b ext4_om _ h2 k1 k2]; rfl
  · rw [ssD2_c ext4_om _ h2 k1 k2]; rfl

theorem smul_wide {mt : Bool} {x y : Fp12 C} {v w : F12 p} (hx : Std12 P p 32767 x v) (hy : Std12 P p 2800 y w)
    (h1 : if mt then v.b = 0 ∧ v.c.re = 0 else v.b.im = 0 ∧ v.c = 0) (h2 : if mt then w.b = 0 ∧ w.c.re = 0 else w.b.im = 0 ∧ w.c = 0) :
    Std12 P p 2800 (Fp12.smul P mt x y) (v * w) ∧ Tagged mt (Fp12.smul P mt x y).stype (v * w) := by
  have hz := zero2_ok h
  have e2 : ∀ u : F2 p, ext2 p 0 u = u * xi p := fun _ => rfl
  obtain ⟨xa, xb, xc⟩ := hx
  obtain ⟨ya, yb, yc⟩ := hy
  cases mt
  · simp only [Bool.false_eq_true, if_false] at h1 h2
    obtain ⟨v1, v2⟩ := h1
    obtain ⟨w1, w2⟩ := h2
    have hr : ∃ t', absRun fp2Abs Fp12.smD (Fp12.init6 ⟨0, 1, 1⟩ ⟨0, 1, 32767⟩ ⟨0, 1, 32767⟩ ⟨0, 1, 32767⟩ ⟨0, 1, 2800⟩ ⟨0, 1, 2800⟩ ⟨0, 1, 2800⟩) = some t' ∧
        (t' .w1).le ⟨0, 1, 2800⟩ ∧ (t' .tc).le ⟨0, 1, 2800⟩ ∧ (t' .td).le ⟨0, 1, 2800⟩ ∧ (t' .te).le ⟨0, 1, 2800⟩ ∧ (t' .w3).le ⟨0, 1, 2800⟩ :=
      ⟨_, rfl, by decide +kernel, by decide +kernel, by decide +kernel, by decide +kernel, by decide +kernel⟩
    obtain ⟨t', ht, l1, l2, l3, l4, l5⟩ := hr
    have := run_sound (fp2_sound h) Fp12.smD (by intro i hi; fin_cases hi <;> exact trivial)
      (s := Fp12.init6 (Fp2.zero P) x.a.a x.a.b x.b.a y.a.a y.a.b y.b.a) (v := Fp12.init6 0 v.a.re v.a.im v.b.re w.a.re w.a.im w.b.re)
      (fun r => by cases r <;> first | exact std2_iff.1 xa.1 | exact std2_iff.1 xa.2 | exact std2_iff.1 xb.1 | exact std2_iff.1 ya.1 | exact std2_iff.1 ya.2 | exact std2_iff.1 yb.1 | exact hz) ht
    have a1 := (this .w1).mono h l1 (by simp) (by simp)
    have a2 := (this .tc).mono h l2 (by simp) (by simp)
    have a3 := (this .td).mono h l3 (by simp) (by simp)
    have a4 := (this .te).mono h l4 (by simp) (by simp)
    have a5 := (this .w3).mono h l5 (by simp) (by simp)
    rw [smD_w1 e2] at a1; rw [smD_tc e2] at a2; rw [smD_td e2] at a3; rw [smD_te e2] at a4; rw [smD_w3 e2] at a5
    simp only [Fp12.init6] at a1 a2 a3 a4 a5
    refine ⟨⟨⟨std2_iff.2 (a1.to ?_), std2_iff.2 (a2.to ?_)⟩, ⟨std2_iff.2 (a3.to ?_), std2_iff.2 (a4.to ?_)⟩, ⟨std2_iff.2 (a5.to ?_), (std2_iff.2 (hz.to ?_)).mono h (by norm_num)⟩⟩, ?_⟩
    · simp [v1, v2, w1, w2]; ring
    · simp [v1, v2, w1, w2]
    · simp [v1, v2, w1, w2]
    · simp [v1, v2, w1, w2]
    · simp [v1, v2, w1, w2]
    · simp [v1, v2, w1, w2]
    · refine Or.inr (Or.inr (Or.inr (Or.inl ⟨rfl, ?_⟩)))
      simp [v1, v2, w1, w2]
  · simp only [if_true] at h1 h2
    obtain ⟨v1, v2⟩ := h1
    obtain ⟨w1, w2⟩ := h2
    have hr : ∃ t', absRun fp2Abs Fp12.smM (Fp12.init6 ⟨0, 1, 1⟩ ⟨0, 1, 32767⟩ ⟨0, 1, 32767⟩ ⟨0, 1, 32767⟩ ⟨0, 1, 2800⟩ ⟨0, 1, 2800⟩ ⟨0, 1, 2800⟩) = some t' ∧
        (t' .w1).le ⟨0, 1, 2800⟩ ∧ (t' .tc).le ⟨0, 1, 2800⟩ ∧ (t' .td).le ⟨0, 1, 2800⟩ ∧ (t' .te).le ⟨0, 1, 2800⟩ ∧ (t' .w3).le ⟨0, 1, 2800⟩ :=
      ⟨_, rfl, by decide +kernel, by decide +kernel, by decide +kernel, by decide +kernel, by decide +kernel⟩
    obtain ⟨t', ht, l1, l2, l3, l4, l5⟩ := hr
    have := run_sound (fp2_sound h) Fp12.smM (by intro i hi; fin_cases hi <;> exact trivial)
      (s := Fp12.init6 (Fp2.zero P) x.a.a x.a.b x.c.b y.a.a y.a.b y.c.b) (v := Fp12.init6 0 v.a.re v.a.im v.c.im w.a.re w.a.im w.c.im)
      (fun r => by cases r <;> first | exact std2_iff.1 xa.1 | exact std2_iff.1 xa.2 | exact std2_iff.1 xc.2 | exact std2_iff.1 ya.1 | exact std2_iff.1 ya.2 | exact std2_iff.1 yc.2 | exact hz) ht
    have a1 := (this .w1).mono h l1 (by simp) (by simp)
    have a2 := (this .tc).mono h l2 (by simp) (by simp)
    have a3 := (this .td).mono h l3 (by simp) (by simp)
    have a4 := (this .te).mono h l4 (by simp) (by simp)
    have a5 := (this .w3).mono h l5 (by simp) (by simp)
    rw [smM_w1 e2] at a1; rw [smM_tc e2] at a2; rw [smM_td e2] at a3; rw [smM_te e2] at a4; rw [smM_w3 e2] at a5
    simp only [Fp12.init6] at a1 a2 a3 a4 a5
    refine ⟨⟨⟨std2_iff.2 (a1.to ?_), std2_iff.2 (a2.to ?_)⟩, ⟨(std2_iff.2 (hz.to ?_)).mono h (by norm_num), std2_iff.2 (a5.to ?_)⟩, ⟨std2_iff.2 (a4.to ?_), std2_iff.2 (a3.to ?_)⟩⟩, ?_⟩
    · simp [v1, v2, w1, w2]; ring
    · simp [v1, v2, w1, w2]
    · simp [v1, v2, w1, w2]
    · simp [v1, v2, w1, w2]; ring
    · simp [v1, v2, w1, w2]; ring
    · simp [v1, v2, w1, w2]
    · refine Or.inr (Or.inr (Or.inr (Or.inl ⟨rfl, ?_⟩)))
      simp [v1, v2, w1, w2]
theorem ssmul_wide {mt : Bool} {x y : Fp12 C} {v w : F12 p} (hx : Std12 P p 32767 x v) (hy : Std12 P p 2800 y w) (tx : Tagged mt x.stype v) (ty : Tagged mt y.stype w) :
    Std12 P p 32767 (Fp12.ssmul P mt x y) (v * w) ∧ Tagged mt (Fp12.ssmul P mt x y).stype (v * w) := by
  unfold Fp12.ssmul
  by_cases c1 : x.stype = tONE
  · rw [if_pos c1]
    have : v = 1 := by
      rcases tx with ⟨h, _⟩ | ⟨_, h⟩ | ⟨h, _⟩ | ⟨h, _⟩ | h
      · rw [h] at c1; cases c1
      · exact h
      · rw [h] at c1; cases c1
      · rw [h] at c1; cases c1
      · rw [h] at c1; cases c1
    rw [this, one_mul]
    exact ⟨hy.mono h (by norm_num), ty⟩
  rw [if_neg c1]
  by_cases c2 : y.stype = tONE
  · rw [if_pos c2]
    have : w = 1 := by
      rcases ty with ⟨h, _⟩ | ⟨_, h⟩ | ⟨h, _⟩ | ⟨h, _⟩ | h
      · rw [h] at c2; cases c2
      · exact h
      · rw [h] at c2; cases c2
      · rw [h] at c2; cases c2
      · rw [h] at c2; cases c2
    rw [this, mul_one]
    exact ⟨hx, tx⟩
  rw [if_neg c2]
  by_cases c3 : y.stype ≥ tSPARSE
  · rw [if_pos c3]
    refine ⟨?_, Or.inr (Or.inr (Or.inr (Or.inr rfl)))⟩
    by_cases cx : x.stype = 3 <;> by_cases cy : y.stype = 3
    · rw [cx, cy]
      cases mt
      · have q1 : v.c.im = 0 := by rcases tx with ⟨h, _⟩ | ⟨h, _⟩ | ⟨h, _⟩ | ⟨_, h⟩ | h <;> first | omega | exact h
        have q2 : w.c.im = 0 := by rcases ty with ⟨h, _⟩ | ⟨h, _⟩ | ⟨h, _⟩ | ⟨_, h⟩ | h <;> first | omega | exact h
        exact (ssD33_wide h hx hy q1 q2 _).mono h (by norm_num)
      · have q1 : v.b.re = 0 := by rcases tx with ⟨h, _⟩ | ⟨h, _⟩ | ⟨h, _⟩ | ⟨_, h⟩ | h <;> first | omega | exact h
        have q2 : w.b.re = 0 := by rcases ty with ⟨h, _⟩ | ⟨h, _⟩ | ⟨h, _⟩ | ⟨_, h⟩ | h <;> first | omega | exact h
        exact (ssM33_wide h hx hy q1 q2 _).mono h (by norm_num)
    · rw [cx, (ssDense_eq mt cy cy 3 4).2]
      cases mt
      · have q1 : v.c.im = 0 := by rcases tx with ⟨h, _⟩ | ⟨h, _⟩ | ⟨h, _⟩ | ⟨_, h⟩ | h <;> first | omega | exact h
        exact (ssD34_wide h hx hy q1 _).mono h (by norm_num)
      · have q1 : v.b.re = 0 := by rcases tx with ⟨h, _⟩ | ⟨h, _⟩ | ⟨h, _⟩ | ⟨_, h⟩ | h <;> first | omega | exact h
        exact (ssM34_wide h hx hy q1 _).mono h (by norm_num)
    · rw [cy, (ssDense_eq mt cx cx 4 3).1]
      cases mt
      · have q2 : w.c.im = 0 := by rcases ty with ⟨h, _⟩ | ⟨h, _⟩ | ⟨h, _⟩ | ⟨_, h⟩ | h <;> first | omega | exact h
        exact (ssD43_wide h hx hy q2 _).mono h (by norm_num)
      · have q2 : w.b.re = 0 := by rcases ty with ⟨h, _⟩ | ⟨h, _⟩ | ⟨h, _⟩ | ⟨_, h⟩ | h <;> first | omega | exact h
        exact (ssM43_wide h hx hy q2 _).mono h (by norm_num)
    · rw [(ssDense_eq mt cx cx 4 y.stype).1, (ssDense_eq mt cy cy 4 4).2]
      cases mt
      · exact (ssD44_wide h hx hy _).mono h (by norm_num)
      · exact (ssM44_wide h hx hy _).mono h (by norm_num)
  rw [if_neg c3]
  have sy := tagged_shape ty c2 c3
  by_cases c4 : x.stype = tSPARSER
  · rw [if_pos c4]
    obtain ⟨q1, q2⟩ := smul_wide h hx hy (tagged_shape tx c1 (by rw [c4]; decide)) sy
    exact ⟨q1.mono h (by norm_num), q2⟩
  rw [if_neg c4]
  refine ⟨?_, Or.inr (Or.inr (Or.inr (Or.inr rfl)))⟩
  cases mt
  · exact (ssD2_wide h hx hy sy.1 sy.2 _).mono h (by norm_num)
  · exact (ssM2_wide h hx hy sy.1 sy.2 _).mono h (by norm_num)


end Verif.Tower
