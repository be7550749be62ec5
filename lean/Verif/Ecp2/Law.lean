import Verif.Ecp2.Eval
import Verif.Spec.Curve2
import Verif.Ecp.Law
/- Point doubling, addition, negation of `ecp2.rs` compute the group law of the twist. -/
namespace Verif.Ecp2
open Verif.Big Verif.Fp Verif.Rom Verif.Curve Verif.Tower Verif.Prog Spec WeierstrassCurve

set_option linter.unusedSectionVars false
variable {C : Nat} {K : PairRom C} [hp : Fact K.rom.p.Prime] [h4 : Fact (K.rom.p % 4 = 3)]

theorem Red.ex (h : Consts K.rom.P K.rom.p) {e : Nat} {a : Fp C} (ha : Red K.rom.P K.rom.p e a) : Ex K.rom.P K.rom.p 0 1 e a (residue K.rom.P K.rom.p a) :=
  ⟨.of_normed h ⟨ha.valid, rfl⟩, ha.xes⟩

theorem ex_red {e : Nat} {a : Fp C} {v : ZMod K.rom.p} (ha : Ex K.rom.P K.rom.p 0 1 e a v) : Red K.rom.P K.rom.p e a := ⟨ha.el.normed, ha.xes⟩

theorem Red.mono {e f : Nat} {a : Fp C} (ha : Red K.rom.P K.rom.p e a) (hf : e ≤ f) : Red K.rom.P K.rom.p f a := ⟨ha.valid, ha.xes.trans hf⟩

theorem Legal2.mono {e f : Nat} {s : Pt2 C} (h : Legal2 K e s) (hf : e ≤ f) : Legal2 K f s :=
  ⟨h.xa.mono hf, h.xb.mono hf, h.ya.mono hf, h.yb.mono hf, h.za.mono hf, h.zb.mono hf⟩

theorem Legal2.rels (hc : Consts K.rom.P K.rom.p) {e : Nat} {s : Pt2 C} (h : Legal2 K e s) :
    Rel2 K.rom.P K.rom.p ⟨0, 1, e⟩ s.x (coords2 K s).x ∧ Rel2 K.rom.P K.rom.p ⟨0, 1, e⟩ s.y (coords2 K s).y ∧
      Rel2 K.rom.P K.rom.p ⟨0, 1, e⟩ s.z (coords2 K s).z :=
  ⟨⟨h.xa.ex hc, h.xb.ex hc⟩, ⟨h.ya.ex hc, h.yb.ex hc⟩, ⟨h.za.ex hc, h.zb.ex hc⟩⟩

theorem rel_res2 {d : Lz} {x : Fp2 C} {v : F2 K.rom.p} (h : Rel2 K.rom.P K.rom.p d x v) : res2 K.rom.P K.rom.p x = v := by
  unfold res2
  rw [h.re.el.res, h.im.el.res]

theorem rel_mono (h : TowerOk K.rom.P K.rom.p) {e f : Nat} {x : Fp2 C} {v : F2 K.rom.p} (hx : Rel2 K.rom.P K.rom.p ⟨0, 1, e⟩ x v) (hf : e ≤ f) :
    Rel2 K.rom.P K.rom.p ⟨0, 1, f⟩ x v :=
  ⟨hx.re.mono le_rfl le_rfl hf (room2 h (by simp) (by simp)), hx.im.mono le_rfl le_rfl hf (room2 h (by simp) (by simp))⟩

theorem isPoint2_of {e : Nat} {s : Pt2 C} {P : Proj (F2 K.rom.p)} {T : (curve2 K).Point} (h1 : Rel2 K.rom.P K.rom.p ⟨0, 1, e⟩ s.x P.x)
    (h2 : Rel2 K.rom.P K.rom.p ⟨0, 1, e⟩ s.y P.y) (h3 : Rel2 K.rom.P K.rom.p ⟨0, 1, e⟩ s.z P.z) (hd : Denotes P T) : IsPoint2 K e s T := by
  refine ⟨⟨ex_red h1.re, ex_red h1.im, ex_red h2.re, ex_red h2.im, ex_red h3.re, ex_red h3.im⟩, ?_⟩
  have : coords2 K s = P := by unfold coords2; rw [rel_res2 h1, rel_res2 h2, rel_res2 h3]
  rw [this]; exact hd

theorem IsPoint2.mono {e f : Nat} {s : Pt2 C} {T : (curve2 K).Point} (h : IsPoint2 K e s T) (hf : e ≤ f) : IsPoint2 K f s T := ⟨h.1.mono hf, h.2⟩

theorem xi_ne : xi K.rom.p ≠ 0 := by
  intro h
  have := congrArg QuadraticAlgebra.re h
  simp at this

theorem zero_rel (h : TowerOk K.rom.P K.rom.p) {e : Nat} (he : 1 ≤ e) : Rel2 K.rom.P K.rom.p ⟨0, 1, e⟩ (Fp2.zero K.rom.P) 0 :=
  rel_mono h (e := 1) ⟨zero_ex h.toConsts, zero_ex h.toConsts⟩ he

/-- excess counters at the start: at most 16384 -/
def absInit : Reg → Lz := fun _ => ⟨0, 1, 16384⟩

def absOut (t : Option (Reg → Lz)) : Option (Lz × Lz × Lz) := t.map fun t => (t .x, t .y, t .z)

theorem abs_dbl : ∀ mt, ∀ bI ∈ [(2 : Int), 3, 4, 9, 15], absOut (absRun fp2Abs (dblP mt bI) absInit) = some (⟨0, 1, 6⟩, ⟨0, 1, 6⟩, ⟨0, 1, 3⟩) := by decide +kernel
theorem abs_add : ∀ mt, ∀ bI ∈ [(2 : Int), 3, 4, 9, 15], absOut (absRun fp2Abs (addP mt bI) absInit) = some (⟨0, 1, 22⟩, ⟨0, 1, 6⟩, ⟨0, 1, 6⟩) := by decide +kernel

/-- field variables at the start, as field elements -/
def initV (P Q : Proj (F2 K.rom.p)) : Reg → F2 K.rom.p
  | .x => P.x | .y => P.y | .z => P.z | .qx => Q.x | .qy => Q.y | .qz => Q.z
  | _ => 0

theorem prog_ok (h : TowerOk K.rom.P K.rom.p) {pr : List (Ins Reg)} (hg : ∀ i ∈ pr, i.Good (small K.rom.P)) {dx dy dz : Lz}
    (ha : absOut (absRun fp2Abs pr absInit) = some (dx, dy, dz)) {s q : Pt2 C} (hs : Legal2 K 16384 s) (hq : Legal2 K 16384 q) :
    Rel2 K.rom.P K.rom.p dx (result (run (fp2Ops K.rom.P) pr (init K s q))).x (run (ringOps (F2 K.rom.p) (ext2 K.rom.p)) pr (initV (coords2 K s) (coords2 K q)) .x) ∧
    Rel2 K.rom.P K.rom.p dy (result (run (fp2Ops K.rom.P) pr (init K s q))).y (run (ringOps (F2 K.rom.p) (ext2 K.rom.p)) pr (initV (coords2 K s) (coords2 K q)) .y) ∧
    Rel2 K.rom.P K.rom.p dz (result (run (fp2Ops K.rom.P) pr (init K s q))).z (run (ringOps (F2 K.rom.p) (ext2 K.rom.p)) pr (initV (coords2 K s) (coords2 K q)) .z) := by
  unfold absOut at ha
  rw [Option.map_eq_some_iff] at ha
  obtain ⟨t', ht, e⟩ := ha
  cases e
  have key := run_sound (fp2_sound h) pr hg (s := init K s q) (v := initV (coords2 K s) (coords2 K q)) (t := absInit) ?_ ht
  · exact ⟨key .x, key .y, key .z⟩
  · obtain ⟨s1, s2, s3⟩ := hs.rels h.toConsts
    obtain ⟨q1, q2, q3⟩ := hq.rels h.toConsts
    have z := zero_rel (K := K) h (e := 16384) (by norm_num)
    intro r
    cases r <;> first | exact s1 | exact s2 | exact s3 | exact q1 | exact q2 | exact q3 | exact z

theorem small3 (h : TCurve K) : small K.rom.P (3 * K.rom.bI) := by
  have hb := h.tower.toConsts.ok.hb
  have : (2 : Int) ^ 9 ≤ 2 ^ K.rom.P.b := pow_le_pow_right₀ (by norm_num) (by omega)
  have hs := h.small
  simp only [List.mem_cons, List.not_mem_nil, or_false] at hs
  rcases hs with e | e | e | e | e <;> rw [e] <;> exact ⟨by norm_num, lt_of_lt_of_le (by norm_num) this⟩

theorem good_dbl (h : TCurve K) : ∀ i ∈ dblP K.mtype K.rom.bI, i.Good (small K.rom.P) := by
  have := small3 h
  cases K.mtype <;> simp only [dblP, List.cons_append, List.nil_append, List.forall_mem_cons, Ins.Good, List.not_mem_nil, true_and, false_imp_iff, implies_true, this, if_true, if_false, Bool.false_eq_true]

theorem good_add (h : TCurve K) : ∀ i ∈ addP K.mtype K.rom.bI, i.Good (small K.rom.P) := by
  have := small3 h
  cases K.mtype <;> simp only [addP, List.cons_append, List.nil_append, List.forall_mem_cons, Ins.Good, List.not_mem_nil, true_and, false_imp_iff, implies_true, this, if_true, if_false, Bool.false_eq_true]

theorem bI_val (h : TCurve K) : ((K.rom.bI : Int) : F2 K.rom.p) = ⟨Ecp.Bcoef K.rom, 0⟩ := by
  rw [← h.bI]; ext <;> simp

theorem btw_M (h : TCurve K) (hm : K.mtype = true) : Btw K = (K.rom.bI : F2 K.rom.p) * xi K.rom.p := by
  unfold Btw; rw [bI_val h, hm]; rfl
theorem btw_D (h : TCurve K) (hm : K.mtype = false) : (K.rom.bI : F2 K.rom.p) = Btw K * xi K.rom.p := by
  unfold Btw; rw [bI_val h, hm]
  exact (div_mul_cancel₀ _ xi_ne).symm

theorem two_ne2 (h : TCurve K) : (2 : F2 K.rom.p) ≠ 0 := by
  intro e
  have := congrArg QuadraticAlgebra.re e
  refine two_ne_zero' h.tower.toConsts (Eq.trans ?_ this)
  rw [← one_add_one_eq_two, ← one_add_one_eq_two, QuadraticAlgebra.re_add]; rfl

/-- `ECP2::dbl` doubles -/
theorem dbl_ok (h : TCurve K) {e : Nat} {s : Pt2 C} {T : (curve2 K).Point} (hs : IsPoint2 K e s T) (he : e ≤ 16384) : IsPoint2 K 6 (dbl K s) (T + T) := by
  obtain ⟨hl, hd⟩ := hs
  have hl := hl.mono he
  have hr := rcb_add h.noTwo (two_ne2 h) hd hd
  have ho := Ecp.homogeneous hd
  obtain ⟨k1, k2, k3⟩ := prog_ok h.tower (good_dbl h) (abs_dbl K.mtype _ h.small) hl hl
  have k3 := rel_mono h.tower k3 (show 3 ≤ 6 by norm_num)
  cases hm : K.mtype with
  | true =>
    have hB := btw_M h hm
    rw [hm] at k1 k2 k3
    have e1 := dblM_x K.rom.bI (initV (coords2 K s) (coords2 K s)) (ext2 K.rom.p) (fun _ a _ => a) (fun _ => rfl) hB
    have e2 := dblM_y K.rom.bI (initV (coords2 K s) (coords2 K s)) (ext2 K.rom.p) (fun _ a _ => a) (fun _ => rfl) hB
    have e3 := dblM_z K.rom.bI (initV (coords2 K s) (coords2 K s)) (ext2 K.rom.p) (fun _ a _ => a) (fun _ => rfl) hB
    unfold dbl
    rw [hm]
    refine isPoint2_of (P := rcb 0 (Btw K) (coords2 K s) (coords2 K s)) (k1.to (e1.trans ?_)) (k2.to (e2.trans ?_)) (k3.to (e3.trans ?_)) hr
    · simp only [rcb, initV]; ring
    · simp only [rcb, initV]; linear_combination (18 * Btw K * (coords2 K s).z) * ho
    · simp only [rcb, initV]; linear_combination (6 * (coords2 K s).y) * ho
  | false =>
    have hB := btw_D h hm
    rw [hm] at k1 k2 k3
    have e1 := dblD_x K.rom.bI (initV (coords2 K s) (coords2 K s)) (ext2 K.rom.p) (fun _ a _ => a) (fun _ => rfl) hB
    have e2 := dblD_y K.rom.bI (initV (coords2 K s) (coords2 K s)) (ext2 K.rom.p) (fun _ a _ => a) (fun _ => rfl) hB
    have e3 := dblD_z K.rom.bI (initV (coords2 K s) (coords2 K s)) (ext2 K.rom.p) (fun _ a _ => a) (fun _ => rfl) hB
    unfold dbl
    rw [hm]
    have hx : xi K.rom.p ^ 2 ≠ 0 := pow_ne_zero _ xi_ne
    generalize xi K.rom.p = X at e1 e2 e3 hx
    have hr' : Denotes (⟨(rcb 0 (Btw K) (coords2 K s) (coords2 K s)).x * X ^ 2, (rcb 0 (Btw K) (coords2 K s) (coords2 K s)).y * X ^ 2,
      (rcb 0 (Btw K) (coords2 K s) (coords2 K s)).z * X ^ 2⟩ : Proj (F2 K.rom.p)) (T + T) := hr.scale hx rfl rfl rfl
    refine isPoint2_of (P := ⟨_, _, _⟩) (k1.to (e1.trans ?_)) (k2.to (e2.trans ?_)) (k3.to (e3.trans ?_)) hr'
    · simp only [rcb, initV]; ring
    · simp only [rcb, initV]; linear_combination (18 * Btw K * (coords2 K s).z * X ^ 2) * ho
    · simp only [rcb, initV]; linear_combination (6 * (coords2 K s).y * X ^ 2) * ho

/-- `ECP2::add` adds -/
theorem add_ok (h : TCurve K) {e f : Nat} {s q : Pt2 C} {S T : (curve2 K).Point} (hs : IsPoint2 K e s S) (hq : IsPoint2 K f q T) (he : e ≤ 16384) (hf : f ≤ 16384) :
    IsPoint2 K 22 (add K s q) (S + T) := by
  obtain ⟨hl, hd⟩ := hs
  obtain ⟨hl', hd'⟩ := hq
  have hr := rcb_add h.noTwo (two_ne2 h) hd hd'
  obtain ⟨k1, k2, k3⟩ := prog_ok h.tower (good_add h) (abs_add K.mtype _ h.small) (hl.mono he) (hl'.mono hf)
  have k2 := rel_mono h.tower k2 (show 6 ≤ 22 by norm_num)
  have k3 := rel_mono h.tower k3 (show 6 ≤ 22 by norm_num)
  cases hm : K.mtype with
  | true =>
    have hB := btw_M h hm
    rw [hm] at k1 k2 k3
    have e1 := addM_x K.rom.bI (initV (coords2 K s) (coords2 K q)) (ext2 K.rom.p) (fun _ a _ => a) (fun _ => rfl) hB
    have e2 := addM_y K.rom.bI (initV (coords2 K s) (coords2 K q)) (ext2 K.rom.p) (fun _ a _ => a) (fun _ => rfl) hB
    have e3 := addM_z K.rom.bI (initV (coords2 K s) (coords2 K q)) (ext2 K.rom.p) (fun _ a _ => a) (fun _ => rfl) hB
    unfold add
    rw [hm]
    exact isPoint2_of (P := rcb 0 (Btw K) (coords2 K s) (coords2 K q)) (k1.to e1) (k2.to e2) (k3.to e3) hr
  | false =>
    have hB := btw_D h hm
    rw [hm] at k1 k2 k3
    have e1 := addD_x K.rom.bI (initV (coords2 K s) (coords2 K q)) (ext2 K.rom.p) (fun _ a _ => a) (fun _ => rfl) hB
    have e2 := addD_y K.rom.bI (initV (coords2 K s) (coords2 K q)) (ext2 K.rom.p) (fun _ a _ => a) (fun _ => rfl) hB
    have e3 := addD_z K.rom.bI (initV (coords2 K s) (coords2 K q)) (ext2 K.rom.p) (fun _ a _ => a) (fun _ => rfl) hB
    unfold add
    rw [hm]
    exact isPoint2_of (P := ⟨_, _, _⟩) (k1.to e1) (k2.to e2) (k3.to e3) (hr.scale (pow_ne_zero 2 xi_ne) rfl rfl rfl)

theorem negE9 (e : Nat) (h1 : 1 ≤ e) : negE (2 * e) + e ≤ 9 * e := by
  unfold negE
  split
  · omega
  · have h : 2 ^ (Nat.log2 (2 * e - 1)) ≤ 2 * e - 1 := Nat.log2_self_le (by omega)
    rw [Nat.pow_add]; omega

/-- `ECP2::neg` -/
theorem neg_ok (h : TCurve K) {e : Nat} {s : Pt2 C} {T : (curve2 K).Point} (hs : IsPoint2 K e s T) (h1 : 1 ≤ e) : IsPoint2 K (9 * e) (neg K s) (-T) := by
  obtain ⟨hl, hd⟩ := hs
  obtain ⟨s1, s2, s3⟩ := hl.rels h.tower.toConsts
  have hn := norm2_ok h.tower (neg2_ok h.tower (norm2_ok h.tower s2) (by simp [negLz]) (by simp [negLz]))
  unfold neg
  exact isPoint2_of (P := ⟨(coords2 K s).x, -(coords2 K s).y, (coords2 K s).z⟩) (rel_mono h.tower s1 (by omega)) (rel_mono h.tower hn (negE9 e h1))
    (rel_mono h.tower s3 (by omega)) (Ecp.Denotes.neg' hd)

theorem cmove2_ok {a c : Fp2 C} (h1 : a.a.x.length = c.a.x.length) (h2 : a.b.x.length = c.b.x.length) : Fp2.cmove a c 0 = a ∧ Fp2.cmove a c 1 = c := by
  constructor
  · simp [Fp2.cmove, Fp.cmove_ok h1 0 (.inl rfl), Fp.cmove_ok h2 0 (.inl rfl)]
  · simp [Fp2.cmove, Fp.cmove_ok h1 1 (.inr rfl), Fp.cmove_ok h2 1 (.inr rfl)]

theorem cmove_ok {e f : Nat} {s q : Pt2 C} (hs : Legal2 K e s) (hq : Legal2 K f q) : cmove s q 0 = s ∧ cmove s q 1 = q := by
  have l : ∀ {e f : Nat} {a c : Fp C}, Red K.rom.P K.rom.p e a → Red K.rom.P K.rom.p f c → a.x.length = c.x.length :=
    fun ha hc => ha.valid.valid.len.trans hc.valid.valid.len.symm
  have x := cmove2_ok (l hs.xa hq.xa) (l hs.xb hq.xb)
  have y := cmove2_ok (l hs.ya hq.ya) (l hs.yb hq.yb)
  have z := cmove2_ok (l hs.za hq.za) (l hs.zb hq.zb)
  constructor
  · simp [cmove, x.1, y.1, z.1]
  · simp [cmove, x.2, y.2, z.2]

/-- the operations implement the group -/
theorem ptSound (h : TCurve K) : Ecp.PtSound (ptOps K) (IsPoint2 K 1820) (IsPoint2 K 16384) where
  low hx := hx.mono (by norm_num)
  dbl hx := (dbl_ok h hx le_rfl).mono (by norm_num)
  add hx hy := (add_ok h hx hy le_rfl le_rfl).mono (by norm_num)
  neg hx := (neg_ok h hx (by norm_num)).mono (by norm_num)
  cmove0 hx hy := (cmove_ok hx.1 hy.1).1
  cmove1 hx hy := (cmove_ok hx.1 hy.1).2

end Verif.Ecp2
