import Verif.Ate.Loop
/-
The values of `ate`, `ate2`, `another`, `miller`.
-/
namespace Verif.Ate
open Verif.Big Verif.Fp Verif.Prog Verif.Rom Verif.Curve Verif.Tower Verif.Ecp2 Verif.Pair Spec WeierstrassCurve

set_option linter.unusedSectionVars false
set_option linter.unusedVariables false

variable {C : Nat} {K : GlsRom C} [hp : Fact K.pair.rom.p.Prime] [h4 : Fact (K.pair.rom.p % 4 = 3)]
variable {P NP : Pt2 C} {S : (curve2 K.pair).Point} {qx qy : Fp C} {x y : ZMod K.pair.rom.p}

theorem conj12_mul {p : Nat} (v w : F12 p) : conj12 (v * w) = conj12 v * conj12 w := by
  ext1 <;> ext1 <;> simp [conj12] <;> ring

/-- the conjugation for a negative parameter -/
def cj (K : GlsRom C) (v : F12 K.pair.rom.p) : F12 K.pair.rom.p := if K.pair.negx then conj12 v else v

theorem cj_mul (v w : F12 K.pair.rom.p) : cj K (v * w) = cj K v * cj K w := by
  unfold cj; split_ifs
  · exact conj12_mul v w
  · rfl

theorem cj_one : cj K 1 = 1 := by
  unfold cj; split_ifs
  · have i1 : (1 : F4 K.pair.rom.p).im = 0 := rfl
    ext1 <;> ext1 <;> simp [conj12, i1]
  · rfl

theorem cj_val (ht : TowerOk K.pair.rom.P K.pair.rom.p) {r : Fp12 C} {v : F12 K.pair.rom.p} (hr : Val K.pair 2800 r v) :
    Val K.pair 32767 (if K.pair.negx then Fp12.conj K.pair.rom.P r else r) (cj K v) := by
  unfold cj; split_ifs
  · exact conj12_ok ht hr.1 hr.2
  · exact hr.mono ht (by norm_num)

/-- the value of the fix-up lines -/
def fixVal (K : PairRom C) [Fact K.rom.p.Prime] [Fact (K.rom.p % 4 = 3)] (P A : Pt2 C) (x y : ZMod K.rom.p) : F12 K.rom.p :=
  let A := if K.negx then Ecp2.neg K A else A
  let Q := Ecp2.frob K P (frobC K)
  addVal K (coords2 K A) (coords2 K Q) x y * addVal K (coords2 K (Ecp2.add K A Q)) (coords2 K (Ecp2.neg K (Ecp2.frob K Q (frobC K)))) x y

theorem fixup_ok (hb : Base K P NP S qx qy x y) (hf : FrobOk K.pair) {A : Pt2 C} {U : (curve2 K.pair).Point} (hA : IsPoint2 K.pair 1820 A U) :
    Val K.pair 2800 (fixup K.pair P A qx qy) (fixVal K.pair P A x y) := by
  have hc := frobC_ok hb.tc hf.rel
  have q1 := frob_ok hb.tc hf.six hc hb.pos
  have q2 := Ecp2.neg_ok hb.tc (frob_ok hb.tc hf.six hc q1) (by norm_num)
  have a := sgn_point2 hb.tc hA (by norm_num) K.pair.negx
  obtain ⟨l1, l2⟩ := lineadd_ok hb.tc a q1 (by norm_num) (by norm_num) hb.x hb.y
  obtain ⟨m1, m2⟩ := lineadd_ok hb.tc l1 q2 (by norm_num) (by norm_num) hb.x hb.y
  unfold fixup fixVal
  exact smul_val hb.tc.tower l2 m2

/-- the factor of the fix-up -/
def fx (K : GlsRom C) [Fact K.pair.rom.p.Prime] [Fact (K.pair.rom.p % 4 = 3)] (P A : Pt2 C) (x y : ZMod K.pair.rom.p) : F12 K.pair.rom.p := if K.bn then fixVal K.pair P A x y else 1

theorem coord_of (hw : Ecp.WCurve K.pair.rom) {Q : Ecp.Pt C} {U : (Ecp.curve K.pair.rom).Point} (hQ : Ecp.IsPoint K.pair.rom Q U) :
    Coord K.pair (Ecp.affine K.pair.rom Q).x (Ecp.coords K.pair.rom (Ecp.affine K.pair.rom Q)).x ∧
    Coord K.pair (Ecp.affine K.pair.rom Q).y (Ecp.coords K.pair.rom (Ecp.affine K.pair.rom Q)).y := by
  obtain ⟨e1, e2, _⟩ := (Ecp.affine_ok hw hQ).1.1.elems
  have f := fexcess_le hw.arith.toConsts hw.word
  have r := room4 hw.arith.toConsts (show 1 ≤ 4 by norm_num) (show 1 ≤ 4 by norm_num)
  exact ⟨Ex.mono ⟨e1, e1.valid.xes2.trans f⟩ (by norm_num) le_rfl le_rfl r, ⟨e2, e2.valid.xes2.trans f⟩⟩

/-- the value `ate` computes -/
noncomputable def ateV (K : GlsRom C) [Fact K.pair.rom.p.Prime] [Fact (K.pair.rom.p % 4 = 3)] (P1 : Pt2 C) (Q1 : Ecp.Pt C) : F12 K.pair.rom.p :=
  let P := Ecp2.affine K.pair P1
  let Q := Ecp.affine K.pair.rom Q1
  cj K (horner (fun i => vl K (lineFn K P (Ecp2.neg K.pair P) Q.x Q.y (lbits K - 2) P i)) (lbits K - 2) 1) *
    fx K P (endPt K P (Ecp2.neg K.pair P) Q.x Q.y (lbits K - 2) P) (Ecp.coords K.pair.rom Q).x (Ecp.coords K.pair.rom Q).y

/-- what the loops need of a ROM file -/
structure AteRom (K : GlsRom C) [Fact K.pair.rom.p.Prime] [Fact (K.pair.rom.p % 4 = 3)] : Prop where
  tc : TCurve K.pair
  wc : Ecp.WCurve K.pair.rom
  fr : FrobOk K.pair
  nb : lbits K ≠ 0

theorem base_of (h : AteRom K) {P1 : Pt2 C} {S : (curve2 K.pair).Point} {Q1 : Ecp.Pt C} {U : (Ecp.curve K.pair.rom).Point} (hP : IsPoint2 K.pair 1820 P1 S)
    (hQ : Ecp.IsPoint K.pair.rom Q1 U) : Base K (Ecp2.affine K.pair P1) (Ecp2.neg K.pair (Ecp2.affine K.pair P1)) S (Ecp.affine K.pair.rom Q1).x (Ecp.affine K.pair.rom Q1).y
      (Ecp.coords K.pair.rom (Ecp.affine K.pair.rom Q1)).x (Ecp.coords K.pair.rom (Ecp.affine K.pair.rom Q1)).y := by
  obtain ⟨a1, _⟩ := Ecp2.affine_ok h.tc.tower hP (by norm_num)
  obtain ⟨c1, c2⟩ := coord_of h.wc hQ
  exact ⟨h.tc, a1, (Ecp2.neg_ok h.tc a1 (by norm_num)).mono (by norm_num), c1, c2⟩

/-- the value of `ate` -/
theorem ate_ok (h : AteRom K) {P1 : Pt2 C} {S : (curve2 K.pair).Point} {Q1 : Ecp.Pt C} {U : (Ecp.curve K.pair.rom).Point} (hP : IsPoint2 K.pair 1820 P1 S)
    (hQ : Ecp.IsPoint K.pair.rom Q1 U) : ∃ r, ate K P1 Q1 = some r ∧ Val K.pair 32767 r (ateV K P1 Q1) := by
  have hb := base_of h hP hQ
  obtain ⟨l1, l2⟩ := ateLoop_ok hb (lbits K - 2) hb.pos (one_val h.tc.tower)
  obtain ⟨U, hU⟩ := endPt_ok hb (lbits K - 2) hb.pos
  have hc := cj_val h.tc.tower l2
  have hx := fixup_ok hb h.fr hU
  unfold ate ateV fx
  simp only [if_neg h.nb, l1]
  refine ⟨_, rfl, ?_⟩
  cases K.bn
  · simp only [Bool.false_eq_true, if_false, mul_one]; exact hc
  · simp only [if_true]; exact ssmul_val' h.tc.tower hc hx

theorem step_ring1 {p : Nat} (v w a b : F12 p) : v ^ 2 * a * (w ^ 2 * b) = (v * w) ^ 2 * (a * b) := by ring

theorem step_ring2 {p : Nat} (v w a b c d : F12 p) : v ^ 2 * (a * c) * (w ^ 2 * (b * d)) = (v * w) ^ 2 * (a * b) * (c * d) := by ring

theorem linedbl_fst (k : PairRom C) (A : Pt2 C) (qx qy : Fp C) : (linedbl k A qx qy).1 = Ecp2.dbl k A := rfl

theorem dd_val (ht : TowerOk K.pair.rom.P K.pair.rom.p) {a b : Fp12 C} {c c' : Proj (F2 K.pair.rom.p)} {x y x' y' : ZMod K.pair.rom.p} (ha : Val K.pair 2800 a (dblVal K.pair c x y))
    (hb : Val K.pair 2800 b (dblVal K.pair c' x' y')) :
    Val K.pair 2800 (Fp12.smul K.pair.rom.P K.pair.mtype a b) (dblVal K.pair c x y * dblVal K.pair c' x' y') := smul_val ht ha hb

theorem aa_val (ht : TowerOk K.pair.rom.P K.pair.rom.p) {a b : Fp12 C} {c c' d d' : Proj (F2 K.pair.rom.p)} {x y x' y' : ZMod K.pair.rom.p} (ha : Val K.pair 2800 a (addVal K.pair c d x y))
    (hb : Val K.pair 2800 b (addVal K.pair c' d' x' y')) :
    Val K.pair 2800 (Fp12.smul K.pair.rom.P K.pair.mtype a b) (addVal K.pair c d x y * addVal K.pair c' d' x' y') := smul_val ht ha hb

section
attribute [local irreducible] dblVal addVal lineVal linedbl lineadd Fp12.smul Fp12.ssmul Fp12.sqr

/-- one round of `ate2` -/
theorem ate2Step_ok {R NR : Pt2 C} {S' : (curve2 K.pair).Point} {sx sy : Fp C} {x' y' : ZMod K.pair.rom.p} (hb : Base K P NP S qx qy x y) (hb' : Base K R NR S' sx sy x' y') (i : Nat)
    {A B : Pt2 C} {T T' : (curve2 K.pair).Point} {r : Fp12 C} {v w : F12 K.pair.rom.p} (hA : IsPoint2 K.pair 1820 A T) (hB : IsPoint2 K.pair 1820 B T') (hr : Val K.pair 2800 r (v * w)) :
    ∃ r', ate2Step K P NP R NR qx qy sx sy (A, B, r) i = ((lineStep K P NP qx qy A i).1, (lineStep K R NR sx sy B i).1, r') ∧
      Val K.pair 2800 r' (v ^ 2 * stepVal K P NP x y A i * (w ^ 2 * stepVal K R NR x' y' B i)) := by
  have ht := hb.tc.tower
  obtain ⟨a1, a2⟩ := linedbl_ok hb.tc hA (by norm_num) hb.x hb.y
  obtain ⟨b1, b2⟩ := linedbl_ok hb'.tc hB (by norm_num) hb'.x hb'.y
  have d := ssmul_val ht (sqr_val ht hr) (dd_val ht a2 b2)
  unfold ate2Step lineStep stepVal
  rcases digit_cases K i with e | e | e
  · simp only [e, show ¬ ((0 : Int) = 1) by norm_num, show ¬ ((0 : Int) = -1) by norm_num, if_false, mul_one]
    refine ⟨_, rfl, ?_⟩
    rw [step_ring1]
    exact d
  · simp only [e, if_true, ← linedbl_fst K.pair A qx qy, ← linedbl_fst K.pair B sx sy]
    obtain ⟨p1, p2⟩ := lineadd_ok hb.tc a1 hb.pos (by norm_num) (by norm_num) hb.x hb.y
    obtain ⟨q1, q2⟩ := lineadd_ok hb'.tc b1 hb'.pos (by norm_num) (by norm_num) hb'.x hb'.y
    refine ⟨_, rfl, ?_⟩
    have := ssmul_val ht d (aa_val ht p2 q2)
    rw [step_ring2]
    exact this
  · simp only [e, show ¬ ((-1 : Int) = 1) by norm_num, if_false, if_true, ← linedbl_fst K.pair A qx qy, ← linedbl_fst K.pair B sx sy]
    obtain ⟨p1, p2⟩ := lineadd_ok hb.tc a1 hb.neg (by norm_num) le_rfl hb.x hb.y
    obtain ⟨q1, q2⟩ := lineadd_ok hb'.tc b1 hb'.neg (by norm_num) le_rfl hb'.x hb'.y
    refine ⟨_, rfl, ?_⟩
    have := ssmul_val ht d (aa_val ht p2 q2)
    rw [step_ring2]
    exact this
end

section
attribute [local irreducible] ate2Step lineStep stepVal

/-- the loop of `ate2` -/
theorem ate2Loop_ok {R NR : Pt2 C} {S' : (curve2 K.pair).Point} {sx sy : Fp C} {x' y' : ZMod K.pair.rom.p} (hb : Base K P NP S qx qy x y) (hb' : Base K R NR S' sx sy x' y') :
    ∀ (k : Nat) {A B : Pt2 C} {T T' : (curve2 K.pair).Point} {r : Fp12 C} {v w : F12 K.pair.rom.p}, IsPoint2 K.pair 1820 A T → IsPoint2 K.pair 1820 B T' → Val K.pair 2800 r (v * w) →
      (ate2Loop K P NP R NR qx qy sx sy k (A, B, r)).1 = endPt K P NP qx qy k A ∧ (ate2Loop K P NP R NR qx qy sx sy k (A, B, r)).2.1 = endPt K R NR sx sy k B ∧
      Val K.pair 2800 (ate2Loop K P NP R NR qx qy sx sy k (A, B, r)).2.2
        (horner (fun i => vl K (lineFn K P NP qx qy k A i)) k v * horner (fun i => vl K (lineFn K R NR sx sy k B i)) k w)
  | 0, A, B, T, T', r, v, w, hA, hB, hr => ⟨rfl, rfl, hr⟩
  | k + 1, A, B, T, T', r, v, w, hA, hB, hr => by
    obtain ⟨l1, l2⟩ := lineStep_ok hb hA (k + 1)
    obtain ⟨m1, m2⟩ := lineStep_ok hb' hB (k + 1)
    obtain ⟨r', e, hr'⟩ := ate2Step_ok hb hb' (k + 1) hA hB hr
    obtain ⟨i1, i2, i3⟩ := ate2Loop_ok hb hb' k l1 m1 hr'
    unfold ate2Loop
    rw [e]
    refine ⟨i1, i2, ?_⟩
    unfold horner
    rw [horner_congr (L := fun i => vl K (lineFn K P NP qx qy (k + 1) A i)) (M := fun i => vl K (lineFn K P NP qx qy k (lineStep K P NP qx qy A (k + 1)).1 i)) k _ (fun i hi => by
      simp only [lineFn, if_neg (show ¬ i = k + 1 by omega)]),
      horner_congr (L := fun i => vl K (lineFn K R NR sx sy (k + 1) B i)) (M := fun i => vl K (lineFn K R NR sx sy k (lineStep K R NR sx sy B (k + 1)).1 i)) k _ (fun i hi => by
      simp only [lineFn, if_neg (show ¬ i = k + 1 by omega)])]
    simp only [lineFn, if_true, l2.eq, m2.eq]
    exact i3
end

/-- the value of `ate2` -/
theorem ate2_ok (h : AteRom K) {P1 R1 : Pt2 C} {S S' : (curve2 K.pair).Point} {Q1 S1 : Ecp.Pt C} {U U' : (Ecp.curve K.pair.rom).Point} (hP : IsPoint2 K.pair 1820 P1 S)
    (hQ : Ecp.IsPoint K.pair.rom Q1 U) (hR : IsPoint2 K.pair 1820 R1 S') (hS : Ecp.IsPoint K.pair.rom S1 U') :
    ∃ r, ate2 K P1 Q1 R1 S1 = some r ∧ Val K.pair 32767 r (ateV K P1 Q1 * ateV K R1 S1) := by
  have hb := base_of h hP hQ
  have hb' := base_of h hR hS
  obtain ⟨l1, l1', l2⟩ := ate2Loop_ok hb hb' (lbits K - 2) hb.pos hb'.pos (r := Fp12.newInt K.pair.rom.P 1) (v := 1) (w := 1) (by rw [one_mul]; exact one_val h.tc.tower)
  obtain ⟨U, hU⟩ := endPt_ok hb (lbits K - 2) hb.pos
  obtain ⟨U', hU'⟩ := endPt_ok hb' (lbits K - 2) hb'.pos
  have hc := cj_val h.tc.tower l2
  rw [cj_mul] at hc
  have hx := fixup_ok hb h.fr hU
  have hx' := fixup_ok hb' h.fr hU'
  unfold ate2 ateV fx
  simp only [if_neg h.nb, l1, l1']
  refine ⟨_, rfl, ?_⟩
  have cm : ∀ a b c d : F12 K.pair.rom.p, a * b * (c * d) = a * c * b * d := by intros; ring
  rw [cm]
  cases K.bn
  · simp only [Bool.false_eq_true, if_false, mul_one]; exact hc
  · simp only [if_true]; exact ssmul_val' h.tc.tower (ssmul_val' h.tc.tower hc hx) hx'

end Verif.Ate
