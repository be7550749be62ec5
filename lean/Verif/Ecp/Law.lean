import Verif.Ecp.Abs
import Verif.Ecp.Eval
import Verif.Ecp.WindowOk
import Verif.Spec.CurveRom
/- `ECP::dbl`, `add`, `neg`, `cmove` on Weierstrass curves implement the group law. -/
namespace Verif.Ecp
open Verif.Big Verif.Fp Verif.Rom Verif.Curve Verif.Prog Spec

set_option linter.unusedSectionVars false
variable {C : Nat} {K : Rom C} [hp : Fact K.p.Prime]

theorem Elem.to {P : Params C} {p l k : Nat} {a : Fp C} {v w : ZMod p} (h : Elem P p l k a v) (e : v = w) : Elem P p l k a w := e ▸ h

theorem homogeneous {F : Type} [Field F] [DecidableEq F] {A B : F} {P : Proj F} {T : (short A B).Point} (h : Denotes P T) :
    P.y ^ 2 * P.z = P.x ^ 3 + A * P.x * P.z ^ 2 + B * P.z ^ 3 := by
  rcases h.zero_or with ⟨_, h1, _, h3⟩ | ⟨x, y, hh, _, _, h2, h3⟩
  · rw [h1, h3]; ring
  · have e := short_eq.mp hh.1
    rw [h2, h3]
    linear_combination P.z ^ 3 * e

/-- legal coordinates are the residues -/
theorem Legal.elems {s : Pt C} (h : Legal K s) :
    Elem K.P K.p 0 1 s.x (coords K s).x ∧ Elem K.P K.p 1 1 s.y (coords K s).y ∧ Elem K.P K.p 0 1 s.z (coords K s).z := by
  obtain ⟨⟨a, ha⟩, ⟨b, hb⟩, ⟨c, hc⟩⟩ := h
  refine ⟨?_, ?_, ?_⟩
  · rw [coords, ha.res]; exact ha
  · rw [coords, hb.res]; exact hb
  · rw [coords, hc.res]; exact hc

theorem Legal.of {s : Pt C} {a b c : ZMod K.p} (ha : Elem K.P K.p 0 1 s.x a) (hb : Elem K.P K.p 1 1 s.y b) (hc : Elem K.P K.p 0 1 s.z c) :
    Legal K s ∧ coords K s = ⟨a, b, c⟩ := by
  refine ⟨⟨⟨a, ha⟩, ⟨b, hb⟩, ⟨c, hc⟩⟩, ?_⟩
  rw [coords, ha.res, hb.res, hc.res]

/-- field values of the variables at the start of a formula -/
def initV (K : Rom C) (P Q : Proj (ZMod K.p)) (w B : ZMod K.p) : Reg → ZMod K.p
  | .x => P.x | .y => P.y | .z => P.z | .qx => Q.x | .qy => Q.y | .qz => Q.z | .wx => w
  | .b => B | .bb => B | _ => 0

theorem elem_zero (h : Arith K.P K.p) : Elem K.P K.p 0 1 (zero K.P) 0 := .of_normed h.toConsts (zero_ok h.toConsts)

theorem elem_bv (h : Arith K.P K.p) (hb : ∃ B : Nat, Rep K.P.b K.P.n K.bv B ∧ B < K.p) : Elem K.P K.p 0 1 (newBig K.P K.bv) (Bcoef K) := by
  obtain ⟨B, hr, hlt⟩ := hb
  have := h.newBig_ok K.bv B hr hlt
  refine .of_normed h.toConsts ⟨this.1, this.2.trans ?_⟩
  rw [Bcoef, hr.val]; simp

/-- the program computes on `ECP` values what it computes in the field -/
theorem prog_ok (h : Arith K.P K.p) (hC : C ≤ 64) (hb : ∃ B : Nat, Rep K.P.b K.P.n K.bv B ∧ B < K.p) {pr : List (Ins Reg)} (hg : ∀ i ∈ pr, i.Good (small K.P))
    {dx dy dz : Nat × Nat} (ha : absOut (absRun fpAbs pr absInit) = some (dx, dy, dz)) {s q : Pt C} {wx : Fp C} {w : ZMod K.p} (hs : Legal K s) (hq : Legal K q)
    (hw : Elem K.P K.p 0 1 wx w) :
    let v := run (ringOps (ZMod K.p) fun _ a => a) pr (initV K (coords K s) (coords K q) w (Bcoef K))
    let r := result (run (fpOps K.P) pr (init K s q wx))
    Elem K.P K.p dx.1 dx.2 r.x (v .x) ∧ Elem K.P K.p dy.1 dy.2 r.y (v .y) ∧ Elem K.P K.p dz.1 dz.2 r.z (v .z) := by
  intro v r
  unfold absOut at ha
  rw [Option.map_eq_some_iff] at ha
  obtain ⟨t, ht, e⟩ := ha
  cases e
  have key := run_sound (fp_sound h hC) pr hg (s := init K s q wx) (v := initV K (coords K s) (coords K q) w (Bcoef K)) (t := absInit) ?_ ht
  · exact ⟨key .x, key .y, key .z⟩
  · obtain ⟨s1, s2, s3⟩ := hs.elems
    obtain ⟨q1, q2, q3⟩ := hq.elems
    have z := elem_zero h
    have bb := elem_bv h hb
    intro r
    cases r <;> first | exact s1 | exact s2 | exact s3 | exact q1 | exact q2 | exact q3 | exact hw | exact bb | exact z

theorem small_bI (h : WCurve K) (hb : K.bI ≠ 0) : small K.P (3 * K.bI) ∧ small K.P K.bI := by
  have h1 := h.bIs
  refine ⟨⟨by omega, h1⟩, hb, lt_of_le_of_lt ?_ h1⟩
  rw [abs_mul]; norm_num
  have := abs_nonneg K.bI
  omega

theorem elem11 (h : Arith K.P K.p) {a : Fp C} {v : ZMod K.p} (ha : Elem K.P K.p 0 1 a v) : Elem K.P K.p 1 1 a v :=
  ha.mono (by omega) (by omega) ((room_one h.toConsts).mono (by omega))

theorem good_A0 (h : WCurve K) (hb : K.bI ≠ 0) : (∀ i ∈ dblA0 K.bI, i.Good (small K.P)) ∧ ∀ i ∈ addA0 K.bI, i.Good (small K.P) := by
  have := (small_bI h hb).1
  constructor <;> simp only [dblA0, addA0, List.forall_mem_cons, Ins.Good, List.not_mem_nil, true_and, false_imp_iff, implies_true, this]

theorem good_A3 (h : WCurve K) : (∀ i ∈ dblA3 K.bI, i.Good (small K.P)) ∧ ∀ i ∈ addA3 K.bI, i.Good (small K.P) := by
  by_cases hb : K.bI = 0
  · constructor <;> simp only [dblA3, addA3, List.forall_mem_cons, Ins.Good, mulB, hb, if_pos, List.not_mem_nil, true_and, false_imp_iff, implies_true]
  · have := (small_bI h hb).2
    constructor <;> simp only [dblA3, addA3, List.forall_mem_cons, Ins.Good, mulB, if_neg hb, List.not_mem_nil, true_and, false_imp_iff, implies_true, this]

theorem isPoint_of (h : Arith K.P K.p) {s : Pt C} {P : Proj (ZMod K.p)} {T : (curve K).Point} (h1 : Elem K.P K.p 0 1 s.x P.x) (h2 : Elem K.P K.p 0 1 s.y P.y)
    (h3 : Elem K.P K.p 0 1 s.z P.z) (hd : Denotes P T) : IsPoint K s T := by
  obtain ⟨l, e⟩ := Legal.of h1 (elem11 h h2) h3
  exact ⟨l, by rw [e]; exact hd⟩

/-- `ECP::dbl` doubles -/
theorem dbl_ok (h : WCurve K) {s : Pt C} {T : (curve K).Point} (hs : IsPoint K s T) : IsPoint K (dbl K s) (T + T) := by
  obtain ⟨hl, hd⟩ := hs
  have hr := rcb_add h.noTwo (two_ne_zero' h.arith.toConsts) hd hd
  have e := homogeneous hd
  have hz := elem_zero h.arith
  rcases h.a with ⟨ha, hb⟩ | ha
  · have hpr : dblProg K = dblA0 K.bI := by simp [dblProg, h.type, ha]
    have key := prog_ok h.arith h.word h.bv (good_A0 h hb).1 (abs_dblA0 K.bI) hl hl hz
    rw [← hpr] at key
    have hB := h.bI hb
    have e1 := dblA0_x K.bI (initV K (coords K s) (coords K s) 0 (Bcoef K)) (fun _ a => a)
    have e2 := dblA0_y K.bI (initV K (coords K s) (coords K s) 0 (Bcoef K)) (fun _ a => a)
    have e3 := dblA0_z K.bI (initV K (coords K s) (coords K s) 0 (Bcoef K)) (fun _ a => a)
    rw [← hpr] at e1 e2 e3
    have hA : ((K.a : Int) : ZMod K.p) = 0 := by rw [ha]; simp
    refine isPoint_of h.arith (P := rcb (K.a : ZMod K.p) (Bcoef K) (coords K s) (coords K s)) ?_ ?_ ?_ hr
    · refine Elem.to key.1 (e1.trans ?_)
      simp only [rcb, hA, hB, initV]; ring
    · refine Elem.to key.2.1 (e2.trans ?_)
      simp only [rcb, hA, hB, initV]; rw [hA] at e; linear_combination (18 * Bcoef K * (coords K s).z) * e
    · refine Elem.to key.2.2 (e3.trans ?_)
      simp only [rcb, hA, initV]; rw [hA] at e; linear_combination (6 * (coords K s).y) * e
  · have hpr : dblProg K = dblA3 K.bI := by simp [dblProg, h.type, ha]
    have key := prog_ok h.arith h.word h.bv (good_A3 h).1 (abs_dblA3 K.bI) hl hl hz
    rw [← hpr] at key
    have hA : ((K.a : Int) : ZMod K.p) = -3 := by rw [ha]; simp
    by_cases hb : K.bI = 0
    · have e1 := dblA3z_x (initV K (coords K s) (coords K s) 0 (Bcoef K)) (fun _ a => a)
      have e2 := dblA3z_y (initV K (coords K s) (coords K s) 0 (Bcoef K)) (fun _ a => a)
      have e3 := dblA3z_z (initV K (coords K s) (coords K s) 0 (Bcoef K)) (fun _ a => a)
      rw [← hb, ← hpr] at e1 e2 e3
      refine isPoint_of h.arith (P := rcb (K.a : ZMod K.p) (Bcoef K) (coords K s) (coords K s)) ?_ ?_ ?_ hr
      · refine Elem.to key.1 (e1.trans ?_)
        simp only [rcb, hA, initV]; ring
      · refine Elem.to key.2.1 (e2.trans ?_)
        simp only [rcb, hA, initV]; ring
      · refine Elem.to key.2.2 (e3.trans ?_)
        simp only [rcb, hA, initV]; rw [hA] at e; linear_combination (6 * (coords K s).y) * e
    · have hB := h.bI hb
      have e1 := dblA3i_x K.bI hb (initV K (coords K s) (coords K s) 0 (Bcoef K)) (fun _ a => a)
      have e2 := dblA3i_y K.bI hb (initV K (coords K s) (coords K s) 0 (Bcoef K)) (fun _ a => a)
      have e3 := dblA3i_z K.bI hb (initV K (coords K s) (coords K s) 0 (Bcoef K)) (fun _ a => a)
      rw [← hpr] at e1 e2 e3
      refine isPoint_of h.arith (P := rcb (K.a : ZMod K.p) (Bcoef K) (coords K s) (coords K s)) ?_ ?_ ?_ hr
      · refine Elem.to key.1 (e1.trans ?_)
        simp only [rcb, hA, hB, initV]; ring
      · refine Elem.to key.2.1 (e2.trans ?_)
        simp only [rcb, hA, hB, initV]; ring
      · refine Elem.to key.2.2 (e3.trans ?_)
        simp only [rcb, hA, initV]; rw [hA] at e; linear_combination (6 * (coords K s).y) * e

/-- `ECP::add` adds -/
theorem add_ok (h : WCurve K) {s q : Pt C} {S T : (curve K).Point} (hs : IsPoint K s S) (hq : IsPoint K q T) : IsPoint K (add K s q) (S + T) := by
  obtain ⟨hl, hd⟩ := hs
  obtain ⟨hl', hd'⟩ := hq
  have hr := rcb_add h.noTwo (two_ne_zero' h.arith.toConsts) hd hd'
  have hz := elem_zero h.arith
  rcases h.a with ⟨ha, hb⟩ | ha
  · have hpr : addProg K = addA0 K.bI := by simp [addProg, h.type, ha]
    have key := prog_ok h.arith h.word h.bv (good_A0 h hb).2 (abs_addA0 K.bI) hl hl' hz
    rw [← hpr] at key
    have hB := h.bI hb
    have e1 := addA0_x K.bI (initV K (coords K s) (coords K q) 0 (Bcoef K)) (fun _ a => a)
    have e2 := addA0_y K.bI (initV K (coords K s) (coords K q) 0 (Bcoef K)) (fun _ a => a)
    have e3 := addA0_z K.bI (initV K (coords K s) (coords K q) 0 (Bcoef K)) (fun _ a => a)
    rw [← hpr] at e1 e2 e3
    have hA : ((K.a : Int) : ZMod K.p) = 0 := by rw [ha]; simp
    refine isPoint_of h.arith (P := rcb (K.a : ZMod K.p) (Bcoef K) (coords K s) (coords K q)) ?_ ?_ ?_ hr
    · have := key.1; rw [e1, hB] at this; rw [hA]; exact this
    · have := key.2.1; rw [e2, hB] at this; rw [hA]; exact this
    · have := key.2.2; rw [e3, hB] at this; rw [hA]; exact this
  · have hpr : addProg K = addA3 K.bI := by simp [addProg, h.type, ha]
    have key := prog_ok h.arith h.word h.bv (good_A3 h).2 (abs_addA3 K.bI) hl hl' hz
    rw [← hpr] at key
    have hA : ((K.a : Int) : ZMod K.p) = -3 := by rw [ha]; simp
    by_cases hb : K.bI = 0
    · have e1 := addA3z_x (initV K (coords K s) (coords K q) 0 (Bcoef K)) (fun _ a => a)
      have e2 := addA3z_y (initV K (coords K s) (coords K q) 0 (Bcoef K)) (fun _ a => a)
      have e3 := addA3z_z (initV K (coords K s) (coords K q) 0 (Bcoef K)) (fun _ a => a)
      rw [← hb, ← hpr] at e1 e2 e3
      refine isPoint_of h.arith (P := rcb (K.a : ZMod K.p) (Bcoef K) (coords K s) (coords K q)) ?_ ?_ ?_ hr
      · have := key.1; rw [e1] at this; rw [hA]; exact this
      · have := key.2.1; rw [e2] at this; rw [hA]; exact this
      · have := key.2.2; rw [e3] at this; rw [hA]; exact this
    · have hB := h.bI hb
      have e1 := addA3i_x K.bI hb (initV K (coords K s) (coords K q) 0 (Bcoef K)) (fun _ a => a)
      have e2 := addA3i_y K.bI hb (initV K (coords K s) (coords K q) 0 (Bcoef K)) (fun _ a => a)
      have e3 := addA3i_z K.bI hb (initV K (coords K s) (coords K q) 0 (Bcoef K)) (fun _ a => a)
      rw [← hpr] at e1 e2 e3
      refine isPoint_of h.arith (P := rcb (K.a : ZMod K.p) (Bcoef K) (coords K s) (coords K q)) ?_ ?_ ?_ hr
      · have := key.1; rw [e1, hB] at this; rw [hA]; exact this
      · have := key.2.1; rw [e2, hB] at this; rw [hA]; exact this
      · have := key.2.2; rw [e3, hB] at this; rw [hA]; exact this

theorem Denotes.neg' {F : Type} [Field F] [DecidableEq F] {A B : F} {P : Proj F} {T : (short A B).Point} (h : Denotes P T) : Denotes ⟨P.x, -P.y, P.z⟩ (-T) := by
  rcases h.zero_or with ⟨rfl, h1, h2, h3⟩ | ⟨x, y, hh, rfl, h1, h2, h3⟩
  · rw [neg_zero]; exact ⟨h1, neg_ne_zero.mpr h2, h3⟩
  · rw [WeierstrassCurve.Affine.Point.neg_some]
    refine ⟨h1, h2, ?_⟩
    simp only [h3, short_negY]; ring

/-- `ECP::neg` -/
theorem neg_ok (h : WCurve K) {s : Pt C} {T : (curve K).Point} (hs : IsPoint K s T) : IsPoint K (neg K s) (-T) := by
  obtain ⟨hl, hd⟩ := hs
  obtain ⟨s1, s2, s3⟩ := hl.elems
  have e : neg K s = { s with y := Fp.norm K.P (Fp.neg K.P s.y) } := by simp [neg, h.type]
  rw [e]
  have hn := Elem.norm h.arith.toConsts (Elem.neg h.arith.toConsts h.word s2 ((room_one h.arith.toConsts).mono (by decide)))
  exact isPoint_of h.arith (P := ⟨(coords K s).x, -(coords K s).y, (coords K s).z⟩) s1 hn s3 (Denotes.neg' hd)

theorem cmove_ok (h : WCurve K) {s q : Pt C} {S T : (curve K).Point} (hs : IsPoint K s S) (hq : IsPoint K q T) :
    cmove K s q 0 = s ∧ cmove K s q 1 = q := by
  obtain ⟨s1, s2, s3⟩ := hs.1.elems
  obtain ⟨q1, q2, q3⟩ := hq.1.elems
  have lx := s1.valid.len.trans q1.valid.len.symm
  have ly := s2.valid.len.trans q2.valid.len.symm
  have lz := s3.valid.len.trans q3.valid.len.symm
  constructor
  · simp [cmove, h.type, Fp.cmove_ok lx 0 (.inl rfl), Fp.cmove_ok ly 0 (.inl rfl), Fp.cmove_ok lz 0 (.inl rfl)]
  · simp [cmove, h.type, Fp.cmove_ok lx 1 (.inr rfl), Fp.cmove_ok ly 1 (.inr rfl), Fp.cmove_ok lz 1 (.inr rfl)]

/-- the operations implement the group -/
theorem ptSound (h : WCurve K) : PtSound (ptOps K) (IsPoint K) (IsPoint K) where
  low := id
  dbl := dbl_ok h
  add := add_ok h
  neg := neg_ok h
  cmove0 hx hy := (cmove_ok h hx hy).1
  cmove1 hx hy := (cmove_ok h hx hy).2

end Verif.Ecp
