import Verif.Ate.Geom
import Verif.Gt.Curve
/-
The Miller loop computes the textbook function, up to factors the final exponentiation removes.
-/
namespace Verif.Ate
open Verif.Big Verif.Fp Verif.Rom Verif.Curve Verif.Tower Verif.Ecp2 Verif.Pair Spec WeierstrassCurve
set_option linter.unusedSectionVars false
set_option linter.unusedVariables false

variable {C : Nat} {K : GlsRom C} [hp : Fact K.pair.rom.p.Prime] [h4 : Fact (K.pair.rom.p % 4 = 3)]
variable {P NP : Pt2 C} {S : (curve2 K.pair).Point} {qx qy : Fp C} {q : ZMod K.pair.rom.p × ZMod K.pair.rom.p}

/-- the digits of the rounds `k, …, 1` -/
def digs (K : GlsRom C) : Nat → List Int
  | 0 => []
  | k + 1 => digit K (k + 1) :: digs K k

/-- the lines of all rounds are defined -/
def LoopOk (K : PairRom C) [Fact K.rom.p.Prime] [Fact (K.rom.p % 4 = 3)] (x : ZMod K.rom.p) (S : (curve2 K).Point) : List Int → (curve2 K).Point → Prop
  | [], _ => True
  | d :: ds, T => (d ≠ 0 → AddOk K x (T + T) (d • S)) ∧ LoopOk K x S ds (T + T + d • S)

/-- finite points have third coordinate 1 -/
def ZOne (K : PairRom C) [Fact K.rom.p.Prime] [Fact (K.rom.p % 4 = 3)] (P : Pt2 C) (S : (curve2 K).Point) : Prop := S ≠ 0 → (coords2 K P).z = 1

theorem mul_swap {p : Nat} (c a d b : F12 p) : c * a * (d * b) = c * d * (a * b) := by ring
theorem sq_swap {p : Nat} (c f d b : F12 p) : (c * f) ^ 2 * (d * b) = c ^ 2 * d * (f ^ 2 * b) := by ring

/-- the value of one round -/
noncomputable def rnd (K : GlsRom C) [Fact K.pair.rom.p.Prime] [Fact (K.pair.rom.p % 4 = 3)] (q : ZMod K.pair.rom.p × ZMod K.pair.rom.p) (S T : (curve2 K.pair).Point) (i : Nat) : F12 K.pair.rom.p :=
  tangent K.pair q T * if digit K i = 0 then 1 else chord K.pair q (T + T) (digit K i • S)

theorem m1_smul (S : (curve2 K.pair).Point) : (-1 : Int) • S = -S := neg_one_zsmul S

set_option maxHeartbeats 1000000 in
theorem step_text (hb : Base K P NP S qx qy q.1 q.2) (t : TowerPrime K.pair.rom.p) (hz : ZOne K.pair P S) (hn : ZOne K.pair NP (-S)) {A : Pt2 C} {T : (curve2 K.pair).Point}
    (hA : IsPoint2 K.pair 1820 A T) (i : Nat) (ho : digit K i ≠ 0 → AddOk K.pair q.1 (T + T) (digit K i • S)) :
    ∃ c, Kill K.pair.rom.p c ∧ stepVal K P NP q.1 q.2 A i = c * rnd K q S T i := by
  obtain ⟨c, hc, e⟩ := dbl_line hb.tc t hA.2 q
  have hd := Ecp2.dbl_ok hb.tc hA (by norm_num)
  unfold stepVal rnd
  rw [e]
  rcases digit_cases K i with e | e | e
  · rw [e, if_neg (by norm_num), if_neg (by norm_num), if_pos rfl, mul_one, mul_one]
    exact ⟨c, hc, rfl⟩
  · rw [e, if_pos rfl, if_neg (by norm_num), one_zsmul]
    rw [e, one_zsmul] at ho
    obtain ⟨d, hd, e⟩ := add_line hb.tc t hd.2 hb.pos.2 hz (ho (by norm_num))
    refine ⟨c * d, hc.mul t hd, ?_⟩
    rw [e, mul_swap]
  · rw [e, if_neg (by norm_num), if_pos rfl, if_neg (by norm_num), m1_smul]
    rw [e, m1_smul] at ho
    obtain ⟨d, hd, e⟩ := add_line (S := -S) hb.tc t hd.2 hb.neg.2 hn (ho (by norm_num))
    refine ⟨c * d, hc.mul t hd, ?_⟩
    rw [e, mul_swap]

theorem round_rnd (q : ZMod K.pair.rom.p × ZMod K.pair.rom.p) (S T : (curve2 K.pair).Point) (f : F12 K.pair.rom.p) (k : Nat) :
    millerRound K.pair q S (T, f) (digit K (k + 1)) = (T + T + digit K (k + 1) • S, f ^ 2 * rnd K q S T (k + 1)) := by
  unfold millerRound rnd
  dsimp only

theorem millerF_rnd (q : ZMod K.pair.rom.p × ZMod K.pair.rom.p) (S T : (curve2 K.pair).Point) (f : F12 K.pair.rom.p) (k : Nat) :
    millerF K.pair q S (digs K (k + 1)) (T, f) = millerF K.pair q S (digs K k) (T + T + digit K (k + 1) • S, f ^ 2 * rnd K q S T (k + 1)) := by
  unfold millerF
  rw [digs, List.foldl_cons, round_rnd]

theorem horner_line (k : Nat) (A : Pt2 C) (v : F12 K.pair.rom.p) :
    horner (fun i => vl K (lineFn K P NP qx qy (k + 1) A i)) (k + 1) v =
      horner (fun i => vl K (lineFn K P NP qx qy k (lineStep K P NP qx qy A (k + 1)).1 i)) k (v ^ 2 * vl K (lineStep K P NP qx qy A (k + 1)).2) := by
  rw [horner]
  rw [horner_congr (L := fun i => vl K (lineFn K P NP qx qy (k + 1) A i)) (M := fun i => vl K (lineFn K P NP qx qy k (lineStep K P NP qx qy A (k + 1)).1 i)) k _ (fun i hi => by
      simp only [lineFn, if_neg (show ¬ i = k + 1 by omega)])]
  simp only [lineFn, if_true]

section
attribute [local irreducible] lineStep stepVal millerRound horner lineFn

theorem loop_text (hb : Base K P NP S qx qy q.1 q.2) (t : TowerPrime K.pair.rom.p) (hz : ZOne K.pair P S) (hn : ZOne K.pair NP (-S)) (k : Nat) :
    ∀ {A : Pt2 C} {T : (curve2 K.pair).Point} {c f : F12 K.pair.rom.p}, IsPoint2 K.pair 1820 A T → Kill K.pair.rom.p c → LoopOk K.pair q.1 S (digs K k) T →
      (∃ c', Kill K.pair.rom.p c' ∧ horner (fun i => vl K (lineFn K P NP qx qy k A i)) k (c * f) = c' * (millerF K.pair q S (digs K k) (T, f)).2) ∧
      IsPoint2 K.pair 1820 (endPt K P NP qx qy k A) (millerF K.pair q S (digs K k) (T, f)).1 := by
  induction k with
  | zero =>
    intro A T c f hA hc ho
    unfold millerF
    rw [digs, List.foldl_nil, horner]
    exact ⟨⟨c, hc, rfl⟩, hA⟩
  | succ k ih =>
    intro A T c f hA hc ho
    obtain ⟨l1, l2⟩ := lineStep_ok hb hA (k + 1)
    obtain ⟨d, hd, e⟩ := step_text hb t hz hn hA (k + 1) ho.1
    obtain ⟨⟨c', hc', i1⟩, i2⟩ := ih (c := c ^ 2 * d) (f := f ^ 2 * rnd K q S T (k + 1)) l1 ((hc.pow t 2).mul t hd) ho.2
    rw [horner_line, l2.eq, e, sq_swap, millerF_rnd, i1]
    exact ⟨⟨c', hc', rfl⟩, i2⟩
end

theorem frob_zc (s : Pt2 C) (f : Fp2 C) : (coords2 K.pair (Ecp2.frob K.pair s f)).z = res2 K.pair.rom.P K.pair.rom.p (Fp2.reduce K.pair.rom.P (Fp2.conj K.pair.rom.P s.z)) := by
  unfold coords2 Ecp2.frob
  dsimp only

theorem conj_one {p : Nat} : (⟨(1 : F2 p).re, -(1 : F2 p).im⟩ : F2 p) = 1 := by
  have e1 : (1 : F2 p).re = 1 := rfl
  have e2 : (1 : F2 p).im = 0 := rfl
  rw [e1, e2, neg_zero]
  rfl

theorem frob_z (h : TCurve K.pair) {f : Fp2 C} {e : Nat} {s : Pt2 C} {T : (curve2 K.pair).Point} (hs : IsPoint2 K.pair e s T) (hz : (coords2 K.pair s).z = 1) :
    (coords2 K.pair (Ecp2.frob K.pair s f)).z = 1 := by
  obtain ⟨s1, s2, s3⟩ := hs.1.rels h.tower.toConsts
  have cz := reduce2_ok h.tower (conj2_ok h.tower s3 (by simp) (by simp))
  rw [frob_zc, rel_res2 cz, hz, conj_one]

theorem neg_z (s : Pt2 C) : (coords2 K.pair (Ecp2.neg K.pair s)).z = (coords2 K.pair s).z := by
  have e : ∀ (a : Fp2 C), (coords2 K.pair { s with y := a }).z = (coords2 K.pair s).z := fun a => by rw [coords2.eq_1, coords2.eq_1]
  exact e _

/-- the fix-up of the BN curves -/
theorem fix_text (hb : Base K P NP S qx qy q.1 q.2) (hf : FrobOk K.pair) (t : TowerPrime K.pair.rom.p) (hz : ZOne K.pair P S) {A : Pt2 C} {T : (curve2 K.pair).Point}
    (hA : IsPoint2 K.pair 1820 A T)
    (h1 : AddOk K.pair q.1 (if K.pair.negx = true then -T else T) (psi hf.six S))
    (h2 : AddOk K.pair q.1 ((if K.pair.negx = true then -T else T) + psi hf.six S) (-(psi hf.six (psi hf.six S)))) :
    ∃ c, Kill K.pair.rom.p c ∧ fixVal K.pair P A q.1 q.2 = c * lastLines K hf.six q S (if K.pair.negx = true then -T else T) := by
  have hc := frobC_ok hb.tc hf.rel
  have q1 := frob_ok hb.tc hf.six hc hb.pos
  have q2 := frob_ok hb.tc hf.six hc q1
  have q3 := Ecp2.neg_ok hb.tc q2 (by norm_num)
  have a := sgn_point2 hb.tc hA (by norm_num) K.pair.negx
  have b := Ecp2.add_ok hb.tc a q1 (by norm_num) (by norm_num)
  have z1 : psi hf.six S ≠ 0 → (coords2 K.pair (Ecp2.frob K.pair P (frobC K.pair))).z = 1 := fun h => frob_z hb.tc hb.pos (hz fun e => h (by rw [e, map_zero]))
  obtain ⟨c, hc, e1⟩ := add_line hb.tc t a.2 q1.2 z1 h1
  obtain ⟨d, hd, e2⟩ := add_line hb.tc t b.2 q3.2 (fun h => by
    rw [neg_z]
    have h' : psi hf.six (psi hf.six S) ≠ 0 := fun e => h (by rw [e, neg_zero])
    exact frob_z hb.tc q1 (z1 fun e => h' (by rw [e, map_zero]))) h2
  refine ⟨c * d, hc.mul t hd, ?_⟩
  unfold fixVal lastLines
  simp only
  rw [e1, e2, mul_swap]

end Verif.Ate
