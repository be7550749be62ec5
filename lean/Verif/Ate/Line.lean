import Verif.Ate.Model
import Verif.Ecp2.Points
import Verif.Ecp.Points
import Verif.Tower.Wide12
/-
The line functions `linedbl` and `lineadd` of `pair.rs`: their values, and the points they leave in `A`.
-/
namespace Verif.Ate
open Verif.Big Verif.Fp Verif.Prog Verif.Rom Verif.Curve Verif.Tower Verif.Ecp2 Verif.Pair Spec WeierstrassCurve

set_option linter.unusedSectionVars false
set_option linter.unusedVariables false
set_option linter.unusedSimpArgs false
set_option maxRecDepth 4000

attribute [local irreducible] Fp2.norm Fp2.neg Fp2.add Fp2.sub Fp2.dbl Fp2.reduce Fp2.mul Fp2.sqr Fp2.imul Fp2.div2 Fp2.inverse Fp2.conj Fp2.timesI Fp2.divIp Fp2.divIp2 Fp2.zero Fp2.pmul Fp2.mulIp

section Eval
variable {F : Type} [Field F] {B X Y : F} {c : F → F}

theorem dblLM (bI : Int) (s : LReg → F) (ex) (bn) (hex : ∀ v, ex 0 v = v * X) (hbn : ∀ a b, bn 0 a b = a * c b) (hB : B = bI * X) :
    run (ringOps F ex bn) (dblL true bI) s .yz = -4 * (s .yy * s .zz) * c (s .qy) * X ∧
    run (ringOps F ex bn) (dblL true bI) s .zz = 6 * B * s .zz ^ 2 - 2 * s .yy ^ 2 ∧
    run (ringOps F ex bn) (dblL true bI) s .xx = 6 * s .xx ^ 2 * c (s .qx) := by
  refine ⟨?_, ?_, ?_⟩
  · change ex 0 (bn 0 (-(((4 : Int) : F) * (s .yy * s .zz))) (s .qy)) = _
    rw [hex, hbn]; push_cast; ring
  · change (ex 0 (((3 * bI : Int) : F) * s .zz ^ 2) + ex 0 (((3 * bI : Int) : F) * s .zz ^ 2)) - (s .yy ^ 2 + s .yy ^ 2) = _
    rw [hex, hB]; push_cast; ring
  · change bn 0 (((6 : Int) : F) * s .xx ^ 2) (s .qx) = _
    rw [hbn]; push_cast; ring

theorem dblLD (bI : Int) (s : LReg → F) (ex) (bn) (hex : ∀ v, ex 4 v = v * Y) (hbn : ∀ a b, bn 0 a b = a * c b) (hB : (bI : F) * Y = 2 * B) :
    run (ringOps F ex bn) (dblL false bI) s .yz = -4 * (s .yy * s .zz) * c (s .qy) ∧
    run (ringOps F ex bn) (dblL false bI) s .zz = 6 * B * s .zz ^ 2 - 2 * s .yy ^ 2 ∧
    run (ringOps F ex bn) (dblL false bI) s .xx = 6 * s .xx ^ 2 * c (s .qx) := by
  refine ⟨?_, ?_, ?_⟩
  · change bn 0 (-(((4 : Int) : F) * (s .yy * s .zz))) (s .qy) = _
    rw [hbn]; push_cast; ring
  · change ex 4 (((3 * bI : Int) : F) * s .zz ^ 2) - (s .yy ^ 2 + s .yy ^ 2) = _
    rw [hex]; push_cast; linear_combination (3 * s .zz ^ 2) * hB
  · change bn 0 (((6 : Int) : F) * s .xx ^ 2) (s .qx) = _
    rw [hbn]; push_cast; ring

theorem addLM (s : LReg → F) (ex) (bn) (hex : ∀ v, ex 0 v = v * X) (hbn : ∀ a b, bn 0 a b = a * c b) :
    run (ringOps F ex bn) (addL true) s .x1 = (s .x1 - s .t2 * s .bx) * c (s .qy) * X ∧
    run (ringOps F ex bn) (addL true) s .t2 = (s .y1 - s .t1 * s .by') * s .bx - (s .x1 - s .t2 * s .bx) * s .by' ∧
    run (ringOps F ex bn) (addL true) s .y1 = -((s .y1 - s .t1 * s .by') * c (s .qx)) := by
  refine ⟨?_, ?_, ?_⟩
  · change ex 0 (bn 0 (s .x1 - s .t2 * s .bx) (s .qy)) = _
    rw [hex, hbn]
  · rfl
  · change -(bn 0 (s .y1 - s .t1 * s .by') (s .qx)) = _
    rw [hbn]

theorem addLD (s : LReg → F) (ex) (bn) (hbn : ∀ a b, bn 0 a b = a * c b) :
    run (ringOps F ex bn) (addL false) s .x1 = (s .x1 - s .t2 * s .bx) * c (s .qy) ∧
    run (ringOps F ex bn) (addL false) s .t2 = (s .y1 - s .t1 * s .by') * s .bx - (s .x1 - s .t2 * s .bx) * s .by' ∧
    run (ringOps F ex bn) (addL false) s .y1 = -((s .y1 - s .t1 * s .by') * c (s .qx)) := by
  refine ⟨?_, ?_, ?_⟩
  · change bn 0 (s .x1 - s .t2 * s .bx) (s .qy) = _
    rw [hbn]
  · rfl
  · change -(bn 0 (s .y1 - s .t1 * s .by') (s .qx)) = _
    rw [hbn]

end Eval

/-- rules for `pmul`: both operands normalised up to sign -/
def lineAbs : AbsOps Lz := { fp2Abs with bin := fun _ d e => if d.l ≤ 1 ∧ d.k ≤ 1 ∧ e.l ≤ 1 ∧ e.k ≤ 1 then some ⟨0, 1, 2⟩ else none }

/-- the real part, as an element of `F2` -/
def reP {p : Nat} (w : F2 p) : F2 p := ⟨w.re, 0⟩

section
variable {C : Nat} {P : Params C} {p : Nat} [hp : Fact p.Prime]

theorem pmul2_ok (h : TowerOk P p) {d e : Lz} {x s : Fp2 C} {v w : F2 p} (hx : Rel2 P p d x v) (hs : Rel2 P p e s w) (h1 : d.l ≤ 1 ∧ d.k ≤ 1) (h2 : e.l ≤ 1 ∧ e.k ≤ 1) :
    Rel2 P p ⟨0, 1, 2⟩ (Fp2.pmul P x s.a) (v * reP w) := by
  have a := Ex.mul h.arith.toFieldOk hx.re hs.re h1 h2
  have b := Ex.mul h.arith.toFieldOk hx.im hs.re h1 h2
  have e : Fp2.pmul P x s.a = ⟨Fp.mul P x.a s.a, Fp.mul P x.b s.a⟩ := by unfold Fp2.pmul; rfl
  rw [e]
  exact Rel2.mk' (a.to (by simp [reP])) (b.to (by simp [reP]))

theorem line_sound (h : TowerOk P p) : Sound (lineOps P) (ringOps (F2 p) (ext2 p) (fun _ v w => v * reP w)) lineAbs (small P) (Rel2 P p) where
  mul := (fp2_sound h).mul
  sqr := (fp2_sound h).sqr
  add := (fp2_sound h).add
  sub := (fp2_sound h).sub
  rsub := (fp2_sound h).rsub
  dbl := (fp2_sound h).dbl
  neg := (fp2_sound h).neg
  norm := (fp2_sound h).norm
  imul := (fp2_sound h).imul
  un := (fp2_sound h).un
  bin := by
    intro i d e r a c v w hr ha hc
    simp only [lineAbs] at hr
    split_ifs at hr with hh
    cases hr
    exact pmul2_ok h ha hc ⟨hh.1, hh.2.1⟩ ⟨hh.2.2.1, hh.2.2.2⟩
end

/-- counters at the start: coordinates of points at most 16384, the other point's coordinates anything legal -/
def absQ : LReg → Lz
  | .qx => ⟨1, 1, 2 ^ 32⟩ | .qy => ⟨1, 1, 2 ^ 32⟩ | _ => ⟨0, 1, 16384⟩

def le3 (M : Nat) (a b c : LReg) (t : Option (LReg → Lz)) : Bool :=
  match t with
  | none => false
  | some t => decide ((t a).le ⟨0, 1, M⟩ ∧ (t b).le ⟨0, 1, M⟩ ∧ (t c).le ⟨0, 1, M⟩)

theorem abs_dblL : ∀ mt, ∀ bI ∈ [(2 : Int), 3, 4, 9, 15], le3 2800 .yz .zz .xx (absRun lineAbs (dblL mt bI) absQ) = true := by decide +kernel
theorem abs_addL : ∀ mt, le3 2800 .x1 .t2 .y1 (absRun lineAbs (addL mt) absQ) = true := by decide +kernel

/-- the element of `F12` with the coefficients of a line -/
def lineVal {p : Nat} (mt : Bool) (u v w : F2 p) : F12 p := if mt then ⟨⟨u, v⟩, 0, ⟨0, w⟩⟩ else ⟨⟨u, v⟩, ⟨w, 0⟩, 0⟩

/-- `x` stores `v` as the Miller loop does: normalised, with small counters, and with a right tag -/
def Val {C : Nat} (K : PairRom C) (M : Nat) (x : Fp12 C) (v : F12 K.rom.p) : Prop := Std12 K.rom.P K.rom.p M x v ∧ Tagged K.mtype x.stype v

variable {C : Nat} {K : PairRom C} [hp : Fact K.rom.p.Prime] [h4 : Fact (K.rom.p % 4 = 3)]

theorem mkLine_ok (h : TowerOk K.rom.P K.rom.p) {u v w : Fp2 C} {a b c : F2 K.rom.p} (hu : Std2 K.rom.P K.rom.p 2800 u a) (hv : Std2 K.rom.P K.rom.p 2800 v b)
    (hw : Std2 K.rom.P K.rom.p 2800 w c) : Std12 K.rom.P K.rom.p 2800 (mkLine K u v w) (lineVal K.mtype a b c) := by
  have z := zero2_ok h
  have hz := (std2_iff.2 z).mono h (show 1 ≤ 2800 by norm_num)
  unfold mkLine lineVal
  cases K.mtype
  · exact ⟨⟨hu, hv⟩, ⟨hw, hz⟩, zero4_std h (by norm_num)⟩
  · refine ⟨⟨hu, hv⟩, zero4_std h (by norm_num), ?_⟩
    have := (fp4_sound h).un (i := 0) (d := ⟨⟨0, 1, 2800⟩, ⟨0, 1, 1⟩⟩) (r := _) (a := Fp4.ofFp2 K.rom.P w) (v := ⟨c, 0⟩) rfl (Rel4.mk' (std2_iff.1 hw) z)
    refine (std4_iff.2 (this.mono h (by decide)) : Std4 _ _ 2800 _ _) |> fun q => ?_
    have e : ext4 K.rom.p 0 ⟨c, 0⟩ = ⟨0, c⟩ := by ext1 <;> simp [ext4]
    change Std4 _ _ 2800 _ (ext4 K.rom.p 0 ⟨c, 0⟩) at q
    rw [e] at q
    exact q

theorem mkLine_val (h : TowerOk K.rom.P K.rom.p) {u v w : Fp2 C} {a b c : F2 K.rom.p} (hu : Std2 K.rom.P K.rom.p 2800 u a) (hv : Std2 K.rom.P K.rom.p 2800 v b)
    (hw : Std2 K.rom.P K.rom.p 2800 w c) : Val K 2800 (mkLine K u v w) (lineVal K.mtype a b c) := by
  refine ⟨mkLine_ok h hu hv hw, Or.inr (Or.inr (Or.inl ⟨rfl, ?_⟩))⟩
  unfold lineVal
  cases K.mtype <;> simp

theorem line_shape (mt : Bool) {p : Nat} (a b c : F2 p) :
    if mt then (lineVal mt a b c).b = 0 ∧ (lineVal mt a b c).c.re = 0 else (lineVal mt a b c).b.im = 0 ∧ (lineVal mt a b c).c = 0 := by
  cases mt <;> simp [lineVal]

/-- variables at the start, as field elements -/
def initDV (A : Proj (F2 K.rom.p)) (x y : ZMod K.rom.p) : LReg → F2 K.rom.p
  | .xx => A.x | .yy => A.y | .zz => A.z | .qx => ⟨x, 0⟩ | .qy => ⟨y, 0⟩
  | _ => 0
/-- variables at the start, as field elements -/
def initAV (A B : Proj (F2 K.rom.p)) (x y : ZMod K.rom.p) : LReg → F2 K.rom.p
  | .x1 => A.x | .y1 => A.y | .t1 => A.z | .t2 => A.z | .bx => B.x | .by' => B.y | .qx => ⟨x, 0⟩ | .qy => ⟨y, 0⟩
  | _ => 0

/-- a coordinate of the point of the first group -/
def Coord (K : PairRom C) (a : Fp C) (x : ZMod K.rom.p) : Prop := Ex K.rom.P K.rom.p 1 1 (2 ^ 32) a x

theorem lift_rel (h : TowerOk K.rom.P K.rom.p) {a : Fp C} {x : ZMod K.rom.p} (ha : Coord K a x) : Rel2 K.rom.P K.rom.p ⟨1, 1, 2 ^ 32⟩ (lift K.rom.P a) ⟨x, 0⟩ :=
  ⟨ha, (zero_ex h.toConsts).mono (by norm_num) le_rfl (by norm_num) (room2 h (by simp) (by simp))⟩

theorem le3_run (h : TowerOk K.rom.P K.rom.p) {pr : List (Ins LReg)} (hg : ∀ i ∈ pr, i.Good (small K.rom.P)) {a b c : LReg} (ha : le3 2800 a b c (absRun lineAbs pr absQ) = true)
    {s : LReg → Fp2 C} {v : LReg → F2 K.rom.p} (hs : ∀ r, Rel2 K.rom.P K.rom.p (absQ r) (s r) (v r)) {x y z : F2 K.rom.p}
    (e : run (ringOps (F2 K.rom.p) (ext2 K.rom.p) (fun _ v w => v * reP w)) pr v a = x ∧ run (ringOps (F2 K.rom.p) (ext2 K.rom.p) (fun _ v w => v * reP w)) pr v b = y ∧
      run (ringOps (F2 K.rom.p) (ext2 K.rom.p) (fun _ v w => v * reP w)) pr v c = z) :
    Val K 2800 (mkLine K (run (lineOps K.rom.P) pr s a) (run (lineOps K.rom.P) pr s b) (run (lineOps K.rom.P) pr s c)) (lineVal K.mtype x y z) := by
  unfold le3 at ha
  split at ha
  · cases ha
  rename_i t ht
  obtain ⟨l1, l2, l3⟩ := of_decide_eq_true ha
  have key := run_sound (line_sound h) pr hg hs ht
  obtain ⟨rfl, rfl, rfl⟩ := e
  have m : ∀ r, (t r).le ⟨0, 1, 2800⟩ → Std2 K.rom.P K.rom.p 2800 (run (lineOps K.rom.P) pr s r) (run (ringOps (F2 K.rom.p) (ext2 K.rom.p) (fun _ v w => v * reP w)) pr v r) :=
    fun r hr => std2_iff.2 ((key r).mono h hr (by simp) (by simp))
  exact mkLine_val h (m a l1) (m b l2) (m c l3)

theorem small_lt (h : TowerOk K.rom.P K.rom.p) {c : Int} (h0 : c ≠ 0) (hc : |c| < 2 ^ 9) : small K.rom.P c := by
  have hb := h.toConsts.ok.hb
  exact ⟨h0, lt_of_lt_of_le hc (pow_le_pow_right₀ (by norm_num) (by omega))⟩

/-- the value of the tangent line -/
def dblVal (K : PairRom C) [Fact K.rom.p.Prime] [Fact (K.rom.p % 4 = 3)] (A : Proj (F2 K.rom.p)) (x y : ZMod K.rom.p) : F12 K.rom.p :=
  lineVal K.mtype (-4 * (A.y * A.z) * ⟨y, 0⟩ * (if K.mtype then xi K.rom.p else 1)) (6 * Btw K * A.z ^ 2 - 2 * A.y ^ 2) (6 * A.x ^ 2 * ⟨x, 0⟩)

/-- the value of the line through two points -/
def addVal (K : PairRom C) [Fact K.rom.p.Prime] [Fact (K.rom.p % 4 = 3)] (A B : Proj (F2 K.rom.p)) (x y : ZMod K.rom.p) : F12 K.rom.p :=
  lineVal K.mtype ((A.x - A.z * B.x) * ⟨y, 0⟩ * (if K.mtype then xi K.rom.p else 1)) ((A.y - A.z * B.y) * B.x - (A.x - A.z * B.x) * B.y) (-((A.y - A.z * B.y) * ⟨x, 0⟩))

theorem linedbl_ok (h : TCurve K) {e : Nat} {A : Pt2 C} {T : (curve2 K).Point} (hA : IsPoint2 K e A T) (he : e ≤ 16384) {qx qy : Fp C} {x y : ZMod K.rom.p}
    (hx : Coord K qx x) (hy : Coord K qy y) :
    IsPoint2 K 6 (linedbl K A qx qy).1 (T + T) ∧ Val K 2800 (linedbl K A qx qy).2 (dblVal K (coords2 K A) x y) := by
  refine ⟨dbl_ok h hA he, ?_⟩
  obtain ⟨s1, s2, s3⟩ := (hA.1.mono he).rels h.tower.toConsts
  have z := zero_rel (K := K) h.tower (e := 16384) (by norm_num)
  have hg : ∀ i ∈ dblL K.mtype K.rom.bI, i.Good (small K.rom.P) := by
    have q1 := small3 h
    have q2 : small K.rom.P 4 := small_lt h.tower (by norm_num) (by norm_num)
    have q3 : small K.rom.P 6 := small_lt h.tower (by norm_num) (by norm_num)
    cases K.mtype <;> simp only [dblL, List.cons_append, List.nil_append, List.forall_mem_cons, Ins.Good, List.not_mem_nil, true_and, false_imp_iff, implies_true, q1, q2, q3, if_true, if_false, Bool.false_eq_true]
  refine le3_run h.tower hg (abs_dblL K.mtype _ h.small) (s := initD K A qx qy) (v := initDV (coords2 K A) x y) ?_ ?_
  · intro r
    cases r <;> first | exact s1 | exact s2 | exact s3 | exact lift_rel h.tower hx | exact lift_rel h.tower hy | exact z
  · cases hm : K.mtype
    · have hB : ((K.rom.bI : Int) : F2 K.rom.p) * ⟨1, -1⟩ = 2 * Btw K := by
        rw [btw_D h hm, mul_assoc, mul_comm]
        congr 1
        rw [← one_add_one_eq_two]
        have i1 : (1 : F2 K.rom.p).re = 1 := rfl
        have i2 : (1 : F2 K.rom.p).im = 0 := rfl
        ext <;> simp [i1, i2]
      have := dblLD K.rom.bI (initDV (coords2 K A) x y) (ext2 K.rom.p) (fun _ v w => v * reP w) (Y := ⟨1, -1⟩) (fun _ => rfl) (c := reP) (fun _ _ => rfl) hB
      simp only [Bool.false_eq_true, if_false, mul_one]
      exact this
    · have := dblLM K.rom.bI (initDV (coords2 K A) x y) (ext2 K.rom.p) (fun _ v w => v * reP w) (X := xi K.rom.p) (fun _ => rfl) (c := reP) (fun _ _ => rfl) (btw_M h hm)
      simp only [if_true]
      exact this

theorem lineadd_ok (h : TCurve K) {e f : Nat} {A B : Pt2 C} {S T : (curve2 K).Point} (hA : IsPoint2 K e A S) (hB : IsPoint2 K f B T) (he : e ≤ 16384) (hf : f ≤ 16384)
    {qx qy : Fp C} {x y : ZMod K.rom.p} (hx : Coord K qx x) (hy : Coord K qy y) :
    IsPoint2 K 22 (lineadd K A B qx qy).1 (S + T) ∧ Val K 2800 (lineadd K A B qx qy).2 (addVal K (coords2 K A) (coords2 K B) x y) := by
  refine ⟨add_ok h hA hB he hf, ?_⟩
  obtain ⟨s1, s2, s3⟩ := (hA.1.mono he).rels h.tower.toConsts
  obtain ⟨q1, q2, q3⟩ := (hB.1.mono hf).rels h.tower.toConsts
  have z := zero_rel (K := K) h.tower (e := 16384) (by norm_num)
  have hg : ∀ i ∈ addL K.mtype, i.Good (small K.rom.P) := by
    cases K.mtype <;> simp only [addL, List.cons_append, List.nil_append, List.forall_mem_cons, Ins.Good, List.not_mem_nil, true_and, false_imp_iff, implies_true, if_true, if_false, Bool.false_eq_true]
  refine le3_run h.tower hg (abs_addL K.mtype) (s := initA K A B qx qy) (v := initAV (coords2 K A) (coords2 K B) x y) ?_ ?_
  · intro r
    cases r <;> first | exact s1 | exact s2 | exact s3 | exact q1 | exact q2 | exact lift_rel h.tower hx | exact lift_rel h.tower hy | exact z
  · cases hm : K.mtype
    · have := addLD (initAV (coords2 K A) (coords2 K B) x y) (ext2 K.rom.p) (fun _ v w => v * reP w) (c := reP) (fun _ _ => rfl)
      simp only [Bool.false_eq_true, if_false, mul_one]
      exact this
    · have := addLM (initAV (coords2 K A) (coords2 K B) x y) (ext2 K.rom.p) (fun _ v w => v * reP w) (X := xi K.rom.p) (fun _ => rfl) (c := reP) (fun _ _ => rfl)
      simp only [if_true]
      exact this

end Verif.Ate
