import Verif.Ate.Line
import Verif.Pair.G2
import Verif.Tower.Top
import Verif.Gt.Ops
/-
The Miller loops of `pair.rs`: their values are built from the values of the lines, which depend on the points only.
-/
namespace Verif.Ate
open Verif.Big Verif.Fp Verif.Prog Verif.Rom Verif.Curve Verif.Tower Verif.Ecp2 Verif.Pair Spec WeierstrassCurve

set_option linter.unusedSectionVars false
set_option linter.unusedVariables false

variable {C : Nat} {K : GlsRom C} [hp : Fact K.pair.rom.p.Prime] [h4 : Fact (K.pair.rom.p % 4 = 3)]

/-- the element an `FP12` denotes -/
abbrev vl (K : GlsRom C) (x : Fp12 C) : F12 K.pair.rom.p := val12 K.pair.rom.P K.pair.rom.p x

theorem Val.eq {M : Nat} {x : Fp12 C} {v : F12 K.pair.rom.p} (h : Val K.pair M x v) : vl K x = v := h.1.val
theorem Val.self {M : Nat} {x : Fp12 C} {v : F12 K.pair.rom.p} (h : Val K.pair M x v) : Val K.pair M x (vl K x) := h.eq ▸ h
theorem Val.mono (ht : TowerOk K.pair.rom.P K.pair.rom.p) {M N : Nat} {x : Fp12 C} {v : F12 K.pair.rom.p} (h : Val K.pair M x v) (hM : M ≤ N) : Val K.pair N x v := ⟨h.1.mono ht hM, h.2⟩

/-- the value of the lines of one round -/
def stepVal (K : GlsRom C) [Fact K.pair.rom.p.Prime] [Fact (K.pair.rom.p % 4 = 3)] (P NP : Pt2 C) (x y : ZMod K.pair.rom.p) (A : Pt2 C) (i : Nat) : F12 K.pair.rom.p :=
  dblVal K.pair (coords2 K.pair A) x y *
    (if digit K i = 1 then addVal K.pair (coords2 K.pair (Ecp2.dbl K.pair A)) (coords2 K.pair P) x y
     else if digit K i = -1 then addVal K.pair (coords2 K.pair (Ecp2.dbl K.pair A)) (coords2 K.pair NP) x y else 1)

/-- what a loop is given: the base point, its negative, and the coordinates of the other point -/
structure Base (K : GlsRom C) [Fact K.pair.rom.p.Prime] [Fact (K.pair.rom.p % 4 = 3)] (P NP : Pt2 C) (S : (curve2 K.pair).Point) (qx qy : Fp C) (x y : ZMod K.pair.rom.p) : Prop where
  tc : TCurve K.pair
  pos : IsPoint2 K.pair 1820 P S
  neg : IsPoint2 K.pair 16384 NP (-S)
  x : Coord K.pair qx x
  y : Coord K.pair qy y

/-- the digits are -1, 0, 1 -/
theorem digit_cases (K : GlsRom C) (i : Nat) : digit K i = 0 ∨ digit K i = 1 ∨ digit K i = -1 := by
  unfold digit bit
  split_ifs <;> norm_num

variable {P NP : Pt2 C} {S : (curve2 K.pair).Point} {qx qy : Fp C} {x y : ZMod K.pair.rom.p}

theorem smul_val (ht : TowerOk K.pair.rom.P K.pair.rom.p) {a b : Fp12 C} {u1 u2 u3 w1 w2 w3 : F2 K.pair.rom.p} (ha : Val K.pair 2800 a (lineVal K.pair.mtype u1 u2 u3))
    (hb : Val K.pair 2800 b (lineVal K.pair.mtype w1 w2 w3)) :
    Val K.pair 2800 (Fp12.smul K.pair.rom.P K.pair.mtype a b) (lineVal K.pair.mtype u1 u2 u3 * lineVal K.pair.mtype w1 w2 w3) := smul_ok ht ha.1 hb.1 (line_shape _ _ _ _) (line_shape _ _ _ _)

theorem ssmul_val (ht : TowerOk K.pair.rom.P K.pair.rom.p) {a b : Fp12 C} {u w : F12 K.pair.rom.p} (ha : Val K.pair 2800 a u) (hb : Val K.pair 2800 b w) :
    Val K.pair 2800 (Fp12.ssmul K.pair.rom.P K.pair.mtype a b) (u * w) := ssmul_ok ht ha.1 hb.1 ha.2 hb.2

theorem ssmul_val' (ht : TowerOk K.pair.rom.P K.pair.rom.p) {a b : Fp12 C} {u w : F12 K.pair.rom.p} (ha : Val K.pair 32767 a u) (hb : Val K.pair 2800 b w) :
    Val K.pair 32767 (Fp12.ssmul K.pair.rom.P K.pair.mtype a b) (u * w) := ssmul_wide ht ha.1 hb.1 ha.2 hb.2

theorem sqr_val (ht : TowerOk K.pair.rom.P K.pair.rom.p) {a : Fp12 C} {u : F12 K.pair.rom.p} (ha : Val K.pair 2800 a u) :
    Val K.pair 2800 (Fp12.sqr K.pair.rom.P a) (u ^ 2) := sqr12_std ht ha.1 ha.2

theorem one_val (ht : TowerOk K.pair.rom.P K.pair.rom.p) : Val K.pair 2800 (Fp12.newInt K.pair.rom.P 1) 1 := by
  have z := zero4_std ht (K := 2800) (by norm_num)
  have z2 := (std2_iff.2 (zero2_ok ht)).mono ht (show 1 ≤ 2800 by norm_num)
  have o := (std2_iff.2 (int_rel (K := K.pair) ht)).mono ht (show 2 ≤ 2800 by norm_num)
  exact ⟨⟨⟨o, z2⟩, z, z⟩, Or.inr (Or.inl ⟨rfl, rfl⟩)⟩

theorem lineStep_ok (hb : Base K P NP S qx qy x y) {A : Pt2 C} {T : (curve2 K.pair).Point} (hA : IsPoint2 K.pair 1820 A T) (i : Nat) :
    IsPoint2 K.pair 1820 (lineStep K P NP qx qy A i).1 (T + T + digit K i • S) ∧ Val K.pair 2800 (lineStep K P NP qx qy A i).2 (stepVal K P NP x y A i) := by
  obtain ⟨d1, d2⟩ := linedbl_ok hb.tc hA (by norm_num) hb.x hb.y
  obtain ⟨p1, p2⟩ := lineadd_ok hb.tc d1 hb.pos (by norm_num) (by norm_num) hb.x hb.y
  obtain ⟨n1, n2⟩ := lineadd_ok hb.tc d1 hb.neg (by norm_num) le_rfl hb.x hb.y
  unfold lineStep stepVal
  rcases digit_cases K i with e | e | e
  · simp only [e, show ¬ ((0 : Int) = 1) by norm_num, show ¬ ((0 : Int) = -1) by norm_num, if_false, zero_zsmul, add_zero, mul_one]
    exact ⟨d1.mono (by norm_num), d2⟩
  · simp only [e, if_true, one_zsmul]
    exact ⟨p1.mono (by norm_num), smul_val hb.tc.tower d2 p2⟩
  · simp only [e, show ¬ ((-1 : Int) = 1) by norm_num, if_false, if_true, neg_zsmul, one_zsmul]
    exact ⟨n1.mono (by norm_num), smul_val hb.tc.tower d2 n2⟩

/-- the point after the rounds `k, …, 1` -/
def endPt (K : GlsRom C) (P NP : Pt2 C) (qx qy : Fp C) : Nat → Pt2 C → Pt2 C
  | 0, A => A
  | i + 1, A => endPt K P NP qx qy i (lineStep K P NP qx qy A (i + 1)).1

/-- the line of round `i`, when the rounds `k, …, 1` start at `A` -/
def lineFn (K : GlsRom C) (P NP : Pt2 C) (qx qy : Fp C) : Nat → Pt2 C → Nat → Fp12 C
  | 0, _, _ => Fp12.newInt K.pair.rom.P 1
  | k + 1, A, i => let t := lineStep K P NP qx qy A (k + 1); if i = k + 1 then t.2 else lineFn K P NP qx qy k t.1 i

/-- squarings and multiplications by the factors `L k, …, L 1` -/
def horner {F : Type} [CommRing F] (L : Nat → F) : Nat → F → F
  | 0, f => f
  | i + 1, f => horner L i (f ^ 2 * L (i + 1))

theorem horner_congr {F : Type} [CommRing F] {L M : Nat → F} : ∀ (k : Nat) (f : F), (∀ i, i ≤ k → L i = M i) → horner L k f = horner M k f
  | 0, f, _ => rfl
  | k + 1, f, h => by
    unfold horner
    rw [h (k + 1) le_rfl]
    exact horner_congr k _ fun i hi => h i (by omega)

theorem horner_mul {F : Type} [CommRing F] (L M : Nat → F) : ∀ (k : Nat) (f g : F), horner (fun i => L i * M i) k (f * g) = horner L k f * horner M k g
  | 0, f, g => rfl
  | k + 1, f, g => by
    unfold horner
    rw [← horner_mul L M k]
    congr 1
    ring

theorem horner_one {F : Type} [CommRing F] : ∀ (k : Nat), horner (fun _ => (1 : F)) k 1 = 1
  | 0 => rfl
  | k + 1 => by unfold horner; rw [one_pow, one_mul]; exact horner_one k

/-- leading factors 1 make no difference -/
theorem horner_pad {F : Type} [CommRing F] (L : Nat → F) (k : Nat) : ∀ j, (∀ i, k < i → L i = 1) → horner L (k + j) 1 = horner L k 1
  | 0, _ => rfl
  | j + 1, h => by
    show horner L (k + j) (1 ^ 2 * L (k + j + 1)) = _
    rw [h _ (by omega), one_pow, one_mul]
    exact horner_pad L k j h

theorem endPt_ok (hb : Base K P NP S qx qy x y) : ∀ (k : Nat) {A : Pt2 C} {T : (curve2 K.pair).Point}, IsPoint2 K.pair 1820 A T → ∃ U, IsPoint2 K.pair 1820 (endPt K P NP qx qy k A) U
  | 0, A, T, hA => ⟨T, hA⟩
  | k + 1, A, T, hA => endPt_ok hb k (lineStep_ok hb hA (k + 1)).1

theorem lineFn_ok (hb : Base K P NP S qx qy x y) : ∀ (k : Nat) {A : Pt2 C} {T : (curve2 K.pair).Point}, IsPoint2 K.pair 1820 A T →
    ∀ i, Val K.pair 2800 (lineFn K P NP qx qy k A i) (vl K (lineFn K P NP qx qy k A i))
  | 0, A, T, hA => fun i => (one_val hb.tc.tower).self
  | k + 1, A, T, hA => fun i => by
    obtain ⟨l1, l2⟩ := lineStep_ok hb hA (k + 1)
    unfold lineFn
    simp only
    split_ifs
    · exact l2.self
    · exact lineFn_ok hb k l1 i

/-- the loop of `ate` -/
theorem ateLoop_ok (hb : Base K P NP S qx qy x y) : ∀ (k : Nat) {A : Pt2 C} {T : (curve2 K.pair).Point} {r : Fp12 C} {v : F12 K.pair.rom.p}, IsPoint2 K.pair 1820 A T →
    Val K.pair 2800 r v → (ateLoop K P NP qx qy k (A, r)).1 = endPt K P NP qx qy k A ∧
      Val K.pair 2800 (ateLoop K P NP qx qy k (A, r)).2 (horner (fun i => vl K (lineFn K P NP qx qy k A i)) k v)
  | 0, A, T, r, v, hA, hr => ⟨rfl, hr⟩
  | k + 1, A, T, r, v, hA, hr => by
    obtain ⟨l1, l2⟩ := lineStep_ok hb hA (k + 1)
    obtain ⟨i1, i2⟩ := ateLoop_ok hb k l1 (ssmul_val hb.tc.tower (sqr_val hb.tc.tower hr) l2)
    refine ⟨i1, ?_⟩
    unfold ateLoop horner
    rw [horner_congr (M := fun i => vl K (lineFn K P NP qx qy k (lineStep K P NP qx qy A (k + 1)).1 i)) k _ (fun i hi => by
      simp only [lineFn, if_neg (show ¬ i = k + 1 by omega)])]
    simp only [lineFn, if_true, l2.eq]
    exact i2

end Verif.Ate
