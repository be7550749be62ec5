import Verif.Ate.Value
/-
The multi-pairing: `initmp`, `another` for each pair, `miller`.
-/
namespace Verif.Ate
open Verif.Big Verif.Fp Verif.Prog Verif.Rom Verif.Curve Verif.Tower Verif.Ecp2 Verif.Pair Spec WeierstrassCurve

set_option linter.unusedSectionVars false
set_option linter.unusedVariables false

variable {C : Nat} {K : GlsRom C} [hp : Fact K.pair.rom.p.Prime] [h4 : Fact (K.pair.rom.p % 4 = 3)]
variable {P NP : Pt2 C} {S : (curve2 K.pair).Point} {qx qy : Fp C} {x y : ZMod K.pair.rom.p}

/-- the array of the accumulated lines: `ab` entries, the `i`-th of value `R i` -/
def Arr (K : GlsRom C) (ab : Nat) (r : List (Fp12 C)) (R : Nat → F12 K.pair.rom.p) : Prop := r.length = ab ∧ ∀ i < ab, ∃ z, r[i]? = some z ∧ Val K.pair 2800 z (R i)

theorem Arr.congr {ab : Nat} {r : List (Fp12 C)} {R R' : Nat → F12 K.pair.rom.p} (h : Arr K ab r R) (e : ∀ i < ab, R i = R' i) : Arr K ab r R' :=
  ⟨h.1, fun i hi => by obtain ⟨z, z1, z2⟩ := h.2 i hi; exact ⟨z, z1, e i hi ▸ z2⟩⟩

theorem initmp_ok (ht : TowerOk K.pair.rom.P K.pair.rom.p) (ab : Nat) : Arr K ab (initmp K ab) (fun _ => 1) := by
  refine ⟨by simp [initmp], fun i hi => ⟨_, ?_, one_val ht⟩⟩
  simp [initmp, hi]

theorem mulAt_ok (ht : TowerOk K.pair.rom.P K.pair.rom.p) {ab : Nat} {r : List (Fp12 C)} {R : Nat → F12 K.pair.rom.p} (hr : Arr K ab r R) {i : Nat} (hi : i < ab) {l : Fp12 C}
    {v : F12 K.pair.rom.p} (hl : Val K.pair 2800 l v) : ∃ r', mulAt K r i l = some r' ∧ Arr K ab r' (fun j => if j = i then R i * v else R j) := by
  obtain ⟨z, z1, z2⟩ := hr.2 i hi
  unfold mulAt
  rw [z1]
  refine ⟨_, rfl, by simp [hr.1], fun j hj => ?_⟩
  by_cases e : j = i
  · subst e
    refine ⟨_, ?_, by simp only [if_pos rfl]; exact ssmul_val ht z2 hl⟩
    simp [hr.1, hj]
  · obtain ⟨w, w1, w2⟩ := hr.2 j hj
    refine ⟨w, ?_, by simp only [if_neg e]; exact w2⟩
    rw [List.getElem?_set_ne (Ne.symm e)]
    exact w1

theorem anotherLoop_ok (hb : Base K P NP S qx qy x y) {ab : Nat} : ∀ (k : Nat) (hk : k < ab) {A : Pt2 C} {T : (curve2 K.pair).Point} {r : List (Fp12 C)} {R : Nat → F12 K.pair.rom.p},
    IsPoint2 K.pair 1820 A T → Arr K ab r R → ∃ r', anotherLoop K P NP qx qy k (A, r) = some (endPt K P NP qx qy k A, r') ∧
      Arr K ab r' (fun i => if 1 ≤ i ∧ i ≤ k then R i * vl K (lineFn K P NP qx qy k A i) else R i)
  | 0, hk, A, T, r, R, hA, hr => ⟨r, rfl, hr.congr fun i _ => by rw [if_neg (by omega)]⟩
  | k + 1, hk, A, T, r, R, hA, hr => by
    obtain ⟨l1, l2⟩ := lineStep_ok hb hA (k + 1)
    obtain ⟨r1, e1, a1⟩ := mulAt_ok hb.tc.tower hr hk l2
    obtain ⟨r2, e2, a2⟩ := anotherLoop_ok hb k (by omega) l1 a1
    refine ⟨r2, ?_, a2.congr fun i hi => ?_⟩
    · unfold anotherLoop
      simp only [e1, Option.bind_some]
      exact e2
    · simp only [lineFn]
      by_cases c1 : i = k + 1
      · rw [if_neg (by omega), if_pos c1, if_pos (by omega), if_pos c1, l2.eq, c1]
      · rw [if_neg c1, if_neg c1]
        by_cases c2 : 1 ≤ i ∧ i ≤ k
        · rw [if_pos c2, if_pos (by omega)]
        · rw [if_neg c2, if_neg (by omega)]

/-- the factor a pair contributes to entry `i` of the array -/
noncomputable def entry (K : GlsRom C) [Fact K.pair.rom.p.Prime] [Fact (K.pair.rom.p % 4 = 3)] (P1 : Pt2 C) (Q1 : Ecp.Pt C) (i : Nat) : F12 K.pair.rom.p :=
  let P := Ecp2.affine K.pair P1
  let Q := Ecp.affine K.pair.rom Q1
  if i = 0 then fx K P (endPt K P (Ecp2.neg K.pair P) Q.x Q.y (lbits K - 2) P) (Ecp.coords K.pair.rom Q).x (Ecp.coords K.pair.rom Q).y
  else if i ≤ lbits K - 2 then vl K (lineFn K P (Ecp2.neg K.pair P) Q.x Q.y (lbits K - 2) P i) else 1

theorem another_ok (h : AteRom K) {ab : Nat} (hab : lbits K ≤ ab + 1) (hab0 : 0 < ab) {P1 : Pt2 C} {S : (curve2 K.pair).Point} {Q1 : Ecp.Pt C} {U : (Ecp.curve K.pair.rom).Point}
    (hP : IsPoint2 K.pair 1820 P1 S) (hQ : Ecp.IsPoint K.pair.rom Q1 U) {r : List (Fp12 C)} {R : Nat → F12 K.pair.rom.p} (hr : Arr K ab r R) :
    ∃ r', another K r P1 Q1 = some r' ∧ Arr K ab r' (fun i => R i * entry K P1 Q1 i) := by
  have hb := base_of h hP hQ
  obtain ⟨r1, e1, a1⟩ := anotherLoop_ok hb (lbits K - 2) (by omega) hb.pos hr
  obtain ⟨V, hV⟩ := endPt_ok hb (lbits K - 2) hb.pos
  have hx := fixup_ok hb h.fr hV
  obtain ⟨r2, e2, a2⟩ := mulAt_ok h.tc.tower a1 hab0 hx
  unfold another
  simp only [if_neg h.nb, e1, Option.bind_some]
  cases hbn : K.bn
  · simp only [Bool.false_eq_true, if_false]
    refine ⟨r1, rfl, a1.congr fun i hi => ?_⟩
    unfold entry fx
    simp only [hbn, Bool.false_eq_true, if_false]
    by_cases c0 : i = 0
    · rw [if_neg (by omega), if_pos c0, mul_one]
    · rw [if_neg c0]
      by_cases c1 : i ≤ lbits K - 2
      · rw [if_pos (by omega), if_pos c1]
      · rw [if_neg (by omega), if_neg c1, mul_one]
  · simp only [if_true]
    refine ⟨r2, e2, a2.congr fun i hi => ?_⟩
    unfold entry fx
    simp only [hbn, if_true]
    by_cases c0 : i = 0
    · rw [if_pos c0, if_neg (by omega), if_pos c0, c0]
    · rw [if_neg c0, if_neg c0]
      by_cases c1 : i ≤ lbits K - 2
      · rw [if_pos (by omega), if_pos c1]
      · rw [if_neg (by omega), if_neg c1, mul_one]

theorem millerLoop_ok (ht : TowerOk K.pair.rom.P K.pair.rom.p) {ab : Nat} {r : List (Fp12 C)} {R : Nat → F12 K.pair.rom.p} (hr : Arr K ab r R) :
    ∀ (k : Nat) (hk : k < ab) {s : Fp12 C} {v : F12 K.pair.rom.p}, Val K.pair 2800 s v → ∃ s', millerLoop K r k s = some s' ∧ Val K.pair 2800 s' (horner R k v)
  | 0, hk, s, v, hs => ⟨s, rfl, hs⟩
  | k + 1, hk, s, v, hs => by
    obtain ⟨z, z1, z2⟩ := hr.2 (k + 1) hk
    obtain ⟨s', e, hs'⟩ := millerLoop_ok ht hr k (by omega) (ssmul_val ht (sqr_val ht hs) z2)
    refine ⟨s', ?_, hs'⟩
    unfold millerLoop
    rw [z1]
    exact e

theorem miller_ok (ht : TowerOk K.pair.rom.P K.pair.rom.p) {ab : Nat} (hab0 : 0 < ab) {r : List (Fp12 C)} {R : Nat → F12 K.pair.rom.p} (hr : Arr K ab r R) :
    ∃ s, miller K ab r = some s ∧ Val K.pair 32767 s (cj K (horner R (ab - 1) 1) * R 0) := by
  obtain ⟨s, e, hs⟩ := millerLoop_ok ht hr (ab - 1) (by omega) (one_val ht)
  obtain ⟨z, z1, z2⟩ := hr.2 0 hab0
  unfold miller
  simp only [e, Option.bind_some, z1, Option.map_some]
  exact ⟨_, rfl, ssmul_val' ht (cj_val ht hs) z2⟩

theorem foldl_ok (h : AteRom K) {ab : Nat} (hab : lbits K ≤ ab + 1) (hab0 : 0 < ab) : ∀ (l : List (Pt2 C × Ecp.Pt C)) {r : List (Fp12 C)} {R : Nat → F12 K.pair.rom.p},
    (∀ a ∈ l, (∃ S, IsPoint2 K.pair 1820 a.1 S) ∧ ∃ U, Ecp.IsPoint K.pair.rom a.2 U) → Arr K ab r R →
    ∃ r', l.foldlM (fun r a => another K r a.1 a.2) r = some r' ∧ Arr K ab r' (fun i => R i * (l.map fun a => entry K a.1 a.2 i).prod)
  | [], r, R, hl, hr => ⟨r, rfl, hr.congr fun i _ => by simp⟩
  | a :: l, r, R, hl, hr => by
    obtain ⟨⟨S, hS⟩, U, hU⟩ := hl a (by simp)
    obtain ⟨r1, e1, a1⟩ := another_ok h hab hab0 hS hU hr
    obtain ⟨r2, e2, a2⟩ := foldl_ok h hab hab0 l (fun b hb => hl b (by simp [hb])) a1
    refine ⟨r2, ?_, a2.congr fun i _ => ?_⟩
    · rw [List.foldlM_cons, e1]
      exact e2
    · simp only [List.map_cons, List.prod_cons, mul_assoc]

theorem entry_ate (h : AteRom K) {ab : Nat} (hab : lbits K ≤ ab + 1) (hab0 : 0 < ab) (P1 : Pt2 C) (Q1 : Ecp.Pt C) :
    cj K (horner (entry K P1 Q1) (ab - 1) 1) * entry K P1 Q1 0 = ateV K P1 Q1 := by
  have e : horner (entry K P1 Q1) (ab - 1) 1 = horner (entry K P1 Q1) (lbits K - 2) 1 := by
    have := horner_pad (entry K P1 Q1) (lbits K - 2) (ab - 1 - (lbits K - 2)) (fun i hi => by
      unfold entry
      simp only
      rw [if_neg (by omega), if_neg (by omega)])
    rwa [show lbits K - 2 + (ab - 1 - (lbits K - 2)) = ab - 1 by omega] at this
  rw [e]
  unfold ateV
  simp only
  congr 1
  congr 1
  have aux : ∀ (k : Nat) (f : F12 K.pair.rom.p) (L M : Nat → F12 K.pair.rom.p), (∀ i, 1 ≤ i → i ≤ k → L i = M i) → horner L k f = horner M k f := by
    intro k
    induction k with
    | zero => intros; rfl
    | succ k ih =>
      intro f L M hh
      unfold horner
      rw [hh (k + 1) (by omega) le_rfl]
      exact ih _ _ _ fun i h1 h2 => hh i h1 (by omega)
  apply aux
  intro i h1 h2
  unfold entry
  simp only
  rw [if_neg (by omega), if_pos h2]

theorem horner_prod {F : Type} [CommRing F] {α : Type} (g : α → Nat → F) (k : Nat) : ∀ l : List α, horner (fun i => (l.map fun a => g a i).prod) k 1 = (l.map fun a => horner (g a) k 1).prod
  | [] => by simp only [List.map_nil, List.prod_nil]; exact horner_one k
  | a :: l => by
    simp only [List.map_cons, List.prod_cons]
    rw [← horner_prod g k l, ← horner_mul, one_mul]

theorem cj_prod {α : Type} (g : α → F12 K.pair.rom.p) : ∀ l : List α, cj K (l.map g).prod = (l.map fun a => cj K (g a)).prod
  | [] => by simp only [List.map_nil, List.prod_nil]; exact cj_one
  | a :: l => by simp only [List.map_cons, List.prod_cons]; rw [cj_mul, cj_prod g l]

/-- the multi-pairing is the product of the single ones -/
theorem multi_ok (h : AteRom K) {ab : Nat} (hab : lbits K ≤ ab + 1) (hab0 : 0 < ab) {l : List (Pt2 C × Ecp.Pt C)}
    (hl : ∀ a ∈ l, (∃ S, IsPoint2 K.pair 1820 a.1 S) ∧ ∃ U, Ecp.IsPoint K.pair.rom a.2 U) :
    ∃ r, multi K ab l = some r ∧ Val K.pair 32767 r (l.map fun a => ateV K a.1 a.2).prod := by
  obtain ⟨r, e, a⟩ := foldl_ok h hab hab0 l hl (initmp_ok h.tc.tower ab)
  obtain ⟨s, e', hs⟩ := miller_ok h.tc.tower hab0 a
  refine ⟨s, ?_, ?_⟩
  · unfold multi
    rw [e]
    exact e'
  · simp only [one_mul] at hs
    rw [horner_prod, cj_prod, ← List.prod_map_mul] at hs
    simpa only [entry_ate h hab hab0] using hs

end Verif.Ate
