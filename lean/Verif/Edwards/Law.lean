import Verif.Spec.EdwardsRom
import Verif.Ecp.Codec
/- `ECP::dbl`, `add`, `neg`, `equals`, `affine`, `mul`, `mul2`, `pinmul` on Edwards curves implement the group. -/
namespace Verif.Ecp
open Verif.Big Verif.Fp Verif.Rom Verif.Curve Verif.Prog Spec

set_option linter.unusedSectionVars false
variable {C : Nat} {K : Rom C} [hp : Fact K.p.Prime] [hc : Fact (EdComplete K)]

theorem isPointE_of (h : Arith K.P K.p) {s : Pt C} {P : Proj (ZMod K.p)} {T : EdPoint K} (h1 : Elem K.P K.p 0 1 s.x P.x) (h2 : Elem K.P K.p 0 1 s.y P.y)
    (h3 : Elem K.P K.p 0 1 s.z P.z) (hd : EdDenotes P T) : IsPointE K s T := by
  obtain ⟨l, e⟩ := Legal.of h1 (elem11 h h2) h3
  exact ⟨l, by rw [e]; exact hd⟩

section field
variable {F : Type} [Field F] {a d : F} [hcF : Fact (Edwards.Complete a d)]

/-- the doubling formula -/
theorem edDbl {P : Proj F} {T : Edwards.Point a d} (h : EdDenotes P T) :
    EdDenotes ⟨2 * P.x * P.y * ((a * P.x ^ 2 + P.y ^ 2) - 2 * P.z ^ 2), (a * P.x ^ 2 + P.y ^ 2) * (a * P.x ^ 2 - P.y ^ 2),
      (a * P.x ^ 2 + P.y ^ 2) * ((a * P.x ^ 2 + P.y ^ 2) - 2 * P.z ^ 2)⟩ (T + T) := by
  obtain ⟨hz, hx, hy⟩ := h
  have hp := Edwards.denomP hcF.out T.on T.on
  have hm := Edwards.denomM hcF.out T.on T.on
  have he : a * T.x ^ 2 + T.y ^ 2 = 1 + d * T.x ^ 2 * T.y ^ 2 := T.on
  have e1 : a * P.x ^ 2 + P.y ^ 2 = P.z ^ 2 * (1 + d * T.x * T.x * T.y * T.y) := by rw [hx, hy]; linear_combination P.z ^ 2 * he
  have e2 : a * P.x ^ 2 + P.y ^ 2 - 2 * P.z ^ 2 = -(P.z ^ 2 * (1 - d * T.x * T.x * T.y * T.y)) := by rw [e1]; ring
  rw [e2, e1]
  refine ⟨?_, ?_, ?_⟩
  · exact mul_ne_zero (mul_ne_zero (pow_ne_zero 2 hz) hp) (neg_ne_zero.mpr (mul_ne_zero (pow_ne_zero 2 hz) hm))
  · rw [Edwards.add_x, Edwards.sumX, div_mul_eq_mul_div, eq_div_iff hp]
    simp only [hx, hy]; ring
  · rw [Edwards.add_y, Edwards.sumY, div_mul_eq_mul_div, eq_div_iff hm]
    simp only [hx, hy]; ring

/-- the addition formula -/
theorem edAdd {P Q : Proj F} {S T : Edwards.Point a d} (h : EdDenotes P S) (h' : EdDenotes Q T) :
    EdDenotes ⟨P.z * Q.z * ((P.z * Q.z) ^ 2 - d * (P.x * Q.x) * (P.y * Q.y)) * (P.x * Q.y + Q.x * P.y),
      P.z * Q.z * ((P.z * Q.z) ^ 2 + d * (P.x * Q.x) * (P.y * Q.y)) * (P.y * Q.y - a * (P.x * Q.x)),
      ((P.z * Q.z) ^ 2 - d * (P.x * Q.x) * (P.y * Q.y)) * ((P.z * Q.z) ^ 2 + d * (P.x * Q.x) * (P.y * Q.y))⟩ (S + T) := by
  obtain ⟨hz, hx, hy⟩ := h
  obtain ⟨hz', hx', hy'⟩ := h'
  have hp := Edwards.denomP hcF.out S.on T.on
  have hm := Edwards.denomM hcF.out S.on T.on
  have hzz : (P.z * Q.z) ^ 2 ≠ 0 := pow_ne_zero 2 (mul_ne_zero hz hz')
  have e1 : (P.z * Q.z) ^ 2 - d * (P.x * Q.x) * (P.y * Q.y) = (P.z * Q.z) ^ 2 * (1 - d * S.x * T.x * S.y * T.y) := by rw [hx, hy, hx', hy']; ring
  have e2 : (P.z * Q.z) ^ 2 + d * (P.x * Q.x) * (P.y * Q.y) = (P.z * Q.z) ^ 2 * (1 + d * S.x * T.x * S.y * T.y) := by rw [hx, hy, hx', hy']; ring
  rw [e1, e2]
  refine ⟨?_, ?_, ?_⟩
  · exact mul_ne_zero (mul_ne_zero hzz hm) (mul_ne_zero hzz hp)
  · rw [Edwards.add_x, Edwards.sumX, div_mul_eq_mul_div, eq_div_iff hp]
    simp only [hx, hy, hx', hy']; ring
  · rw [Edwards.add_y, Edwards.sumY, div_mul_eq_mul_div, eq_div_iff hm]
    simp only [hx, hy, hx', hy']; ring

end field

theorem good_Ed (n : Bool) : (∀ i ∈ dblEd n, i.Good (small K.P)) ∧ ∀ i ∈ addEd n, i.Good (small K.P) := by
  cases n <;> constructor <;>
    simp [dblEd, addEd, Ins.Good]

/-- `ECP::dbl` doubles -/
theorem dblE_ok (h : EdCurve K) {s : Pt C} {T : EdPoint K} (hs : IsPointE K s T) : IsPointE K (dbl K s) (T + T) := by
  obtain ⟨hl, hd⟩ := hs
  have hr := edDbl hd
  have hz := elem_zero h.arith
  rcases h.a with ha | ha
  · have hpr : dblProg K = dblEd false := by simp [dblProg, h.type, ha]
    have key := prog_ok h.arith h.word h.bv (good_Ed false).1 (abs_dblEd false) hl hl hz
    rw [← hpr] at key
    have e1 := dblEdP_x (initV K (coords K s) (coords K s) 0 (Bcoef K)) (fun _ a => a)
    have e2 := dblEdP_y (initV K (coords K s) (coords K s) 0 (Bcoef K)) (fun _ a => a)
    have e3 := dblEdP_z (initV K (coords K s) (coords K s) 0 (Bcoef K)) (fun _ a => a)
    rw [← hpr] at e1 e2 e3
    have hA : ((K.a : Int) : ZMod K.p) = 1 := by rw [ha]; simp
    refine isPointE_of h.arith (Elem.to key.1 (e1.trans ?_)) (Elem.to key.2.1 (e2.trans ?_)) (Elem.to key.2.2 (e3.trans ?_)) hr <;>
      simp only [initV, hA]
  · have hpr : dblProg K = dblEd true := by simp [dblProg, h.type, ha]
    have key := prog_ok h.arith h.word h.bv (good_Ed true).1 (abs_dblEd true) hl hl hz
    rw [← hpr] at key
    have e1 := dblEdN_x (initV K (coords K s) (coords K s) 0 (Bcoef K)) (fun _ a => a)
    have e2 := dblEdN_y (initV K (coords K s) (coords K s) 0 (Bcoef K)) (fun _ a => a)
    have e3 := dblEdN_z (initV K (coords K s) (coords K s) 0 (Bcoef K)) (fun _ a => a)
    rw [← hpr] at e1 e2 e3
    have hA : ((K.a : Int) : ZMod K.p) = -1 := by rw [ha]; simp
    refine isPointE_of h.arith (Elem.to key.1 (e1.trans ?_)) (Elem.to key.2.1 (e2.trans ?_)) (Elem.to key.2.2 (e3.trans ?_)) hr <;>
      simp only [initV, hA]

/-- `ECP::add` adds -/
theorem addE_ok (h : EdCurve K) {s q : Pt C} {S T : EdPoint K} (hs : IsPointE K s S) (hq : IsPointE K q T) : IsPointE K (add K s q) (S + T) := by
  obtain ⟨hl, hd⟩ := hs
  obtain ⟨hl', hd'⟩ := hq
  have hr := edAdd hd hd'
  have hz := elem_zero h.arith
  rcases h.a with ha | ha
  · have hpr : addProg K = addEd false := by simp [addProg, h.type, ha]
    have key := prog_ok h.arith h.word h.bv (good_Ed false).2 (abs_addEd false) hl hl' hz
    rw [← hpr] at key
    have e1 := addEdP_x (initV K (coords K s) (coords K q) 0 (Bcoef K)) (fun _ a => a)
    have e2 := addEdP_y (initV K (coords K s) (coords K q) 0 (Bcoef K)) (fun _ a => a)
    have e3 := addEdP_z (initV K (coords K s) (coords K q) 0 (Bcoef K)) (fun _ a => a)
    rw [← hpr] at e1 e2 e3
    have hA : ((K.a : Int) : ZMod K.p) = 1 := by rw [ha]; simp
    refine isPointE_of h.arith (Elem.to key.1 (e1.trans ?_)) (Elem.to key.2.1 (e2.trans ?_)) (Elem.to key.2.2 (e3.trans ?_)) hr <;>
      simp only [initV, hA]
  · have hpr : addProg K = addEd true := by simp [addProg, h.type, ha]
    have key := prog_ok h.arith h.word h.bv (good_Ed true).2 (abs_addEd true) hl hl' hz
    rw [← hpr] at key
    have e1 := addEdN_x (initV K (coords K s) (coords K q) 0 (Bcoef K)) (fun _ a => a)
    have e2 := addEdN_y (initV K (coords K s) (coords K q) 0 (Bcoef K)) (fun _ a => a)
    have e3 := addEdN_z (initV K (coords K s) (coords K q) 0 (Bcoef K)) (fun _ a => a)
    rw [← hpr] at e1 e2 e3
    have hA : ((K.a : Int) : ZMod K.p) = -1 := by rw [ha]; simp
    refine isPointE_of h.arith (Elem.to key.1 (e1.trans ?_)) (Elem.to key.2.1 (e2.trans ?_)) (Elem.to key.2.2 (e3.trans ?_)) hr <;>
      simp only [initV, hA]

/-- `ECP::neg` -/
theorem negE_ok (h : EdCurve K) {s : Pt C} {T : EdPoint K} (hs : IsPointE K s T) : IsPointE K (neg K s) (-T) := by
  obtain ⟨hl, hd⟩ := hs
  obtain ⟨s1, s2, s3⟩ := hl.elems
  have e : neg K s = { s with x := Fp.norm K.P (Fp.neg K.P s.x) } := by simp [neg, h.type]
  rw [e]
  have hn := Elem.norm h.arith.toConsts (Elem.neg h.arith.toConsts h.word s1 ((room_one h.arith.toConsts).mono (by decide)))
  obtain ⟨l, ec⟩ := Legal.of (s := { s with x := Fp.norm K.P (Fp.neg K.P s.x) }) hn s2 s3
  refine ⟨l, ?_⟩
  rw [ec]
  obtain ⟨h1, h2, h3⟩ := hd
  refine ⟨h1, ?_, h3⟩
  simp only [h2, Edwards.neg_x, neg_mul]

theorem cmoveE_ok (h : EdCurve K) {s q : Pt C} {S T : EdPoint K} (hs : IsPointE K s S) (hq : IsPointE K q T) :
    cmove K s q 0 = s ∧ cmove K s q 1 = q := by
  obtain ⟨s1, s2, s3⟩ := hs.1.elems
  obtain ⟨q1, q2, q3⟩ := hq.1.elems
  have lx := s1.valid.len.trans q1.valid.len.symm
  have ly := s2.valid.len.trans q2.valid.len.symm
  have lz := s3.valid.len.trans q3.valid.len.symm
  constructor
  · simp [cmove, h.type, Fp.cmove_ok lx 0 (.inl rfl), Fp.cmove_ok ly 0 (.inl rfl), Fp.cmove_ok lz 0 (.inl rfl)]
  · simp [cmove, h.type, Fp.cmove_ok lx 1 (.inr rfl), Fp.cmove_ok ly 1 (.inr rfl), Fp.cmove_ok lz 1 (.inr rfl)]

/-- the operations implement the group -/
theorem ptSoundE (h : EdCurve K) : PtSound (ptOps K) (IsPointE K) (IsPointE K) where
  low := id
  dbl := dblE_ok h
  add := addE_ok h
  neg := negE_ok h
  cmove0 hx hy := (cmoveE_ok h hx hy).1
  cmove1 hx hy := (cmoveE_ok h hx hy).2

theorem subE_ok (h : EdCurve K) {s q : Pt C} {S T : EdPoint K} (hs : IsPointE K s S) (hq : IsPointE K q T) : IsPointE K (sub K s q) (S - T) :=
  (ptSoundE h).sub hs hq

theorem newE_ok (h : EdCurve K) : IsPointE K (new K) 0 := by
  have e : new K = ⟨zero K.P, newInt K.P 1, one K.P⟩ := by simp [new, pnew, h.type]
  rw [e]
  exact isPointE_of h.arith (P := ⟨0, 1, 1⟩) (elem_zero h.arith) (elem_int1 h.arith) (elem_one h.arith) ⟨one_ne_zero, by simp, by simp⟩

theorem infE_ok (h : EdCurve K) (s : Pt C) : IsPointE K (inf K s) 0 := by
  have e : inf K s = ⟨zero K.P, one K.P, one K.P⟩ := by simp [inf, h.type]
  rw [e]
  exact isPointE_of h.arith (P := ⟨0, 1, 1⟩) (elem_zero h.arith) (elem_one h.arith) (elem_one h.arith) ⟨one_ne_zero, by simp, by simp⟩

/-- `is_infinity` is true of the neutral element only -/
theorem isInfinityE_ok (h : EdCurve K) {s : Pt C} {T : EdPoint K} (hs : IsPointE K s T) : isInfinity K s = true ↔ T = 0 := by
  obtain ⟨s1, s2, s3⟩ := hs.1.elems
  have e : isInfinity K s = (Fp.iszilch K.P s.x && Fp.equals K.P s.y s.z) := by simp [isInfinity, h.type]
  rw [e, Bool.and_eq_true, elem_iszilch h.arith s1, elem_equals h.arith s2 s3]
  obtain ⟨h1, h2, h3⟩ := hs.2
  rw [h2, h3]
  constructor
  · rintro ⟨a, b⟩
    refine Edwards.Point.ext ?_ ?_
    · exact (mul_eq_zero.mp a).resolve_right h1
    · exact mul_right_cancel₀ h1 (by rw [b]; simp)
  · rintro rfl
    simp

/-- `equals` -/
theorem equalsE_ok (h : EdCurve K) {s q : Pt C} {S T : EdPoint K} (hs : IsPointE K s S) (hq : IsPointE K q T) : equals K s q = true ↔ S = T := by
  obtain ⟨s1, s2, s3⟩ := hs.1.elems
  obtain ⟨q1, q2, q3⟩ := hq.1.elems
  have e1 := elem_equals h.arith (Elem.mul h.arith.toFieldOk s1 q3 (by omega) (by omega)) (Elem.mul h.arith.toFieldOk q1 s3 (by omega) (by omega))
  have e2 := elem_equals h.arith (Elem.mul h.arith.toFieldOk s2 q3 (by omega) (by omega)) (Elem.mul h.arith.toFieldOk q2 s3 (by omega) (by omega))
  have e : equals K s q = true ↔ (coords K s).x * (coords K q).z = (coords K q).x * (coords K s).z ∧ (coords K s).y * (coords K q).z = (coords K q).y * (coords K s).z := by
    rw [← e1, ← e2]
    simp only [equals, h.type]
    cases Fp.equals K.P (Fp.mul K.P s.x q.z) (Fp.mul K.P q.x s.z) <;> cases Fp.equals K.P (Fp.mul K.P s.y q.z) (Fp.mul K.P q.y s.z) <;> simp
  rw [e]
  obtain ⟨h1, h2, h3⟩ := hs.2
  obtain ⟨k1, k2, k3⟩ := hq.2
  have hz : (coords K s).z * (coords K q).z ≠ 0 := mul_ne_zero h1 k1
  rw [h2, h3, k2, k3]
  constructor
  · rintro ⟨a, b⟩
    exact Edwards.Point.ext (mul_right_cancel₀ hz (by linear_combination a)) (mul_right_cancel₀ hz (by linear_combination b))
  · rintro rfl
    exact ⟨by ring, by ring⟩

/-- `affine`: the same point; the third coordinate is 1 unless the point is neutral -/
theorem affineE_ok (h : EdCurve K) {s : Pt C} {T : EdPoint K} (hs : IsPointE K s T) :
    IsPointE K (affine K s) T ∧ (T ≠ 0 → coords K (affine K s) = ⟨T.x, T.y, 1⟩) := by
  obtain ⟨s1, s2, s3⟩ := hs.1.elems
  have hi := isInfinityE_ok h hs
  have h1 := elem_int1 h.arith
  obtain ⟨k1, k2, k3⟩ := hs.2
  have e : affine K s = if isInfinity K s then s else if Fp.equals K.P s.z (newInt K.P 1) then s else
      { x := Fp.reduce K.P (Fp.mul K.P s.x (Fp.inverse K.P s.z)), y := Fp.reduce K.P (Fp.mul K.P s.y (Fp.inverse K.P s.z)), z := newInt K.P 1 } := by
    simp [affine, h.type]
  rw [e]
  by_cases c1 : isInfinity K s = true
  · rw [if_pos c1]; exact ⟨hs, fun hT => absurd (hi.mp c1) hT⟩
  rw [if_neg c1]
  by_cases c2 : Fp.equals K.P s.z (newInt K.P 1) = true
  · rw [if_pos c2]
    have hz := (elem_equals h.arith s3 h1).mp c2
    refine ⟨hs, fun _ => ?_⟩
    rw [hz, mul_one] at k2 k3
    cases hc' : coords K s with
    | mk a b c => rw [hc'] at hz k2 k3; simp only at hz k2 k3; rw [hz, k2, k3]
  · rw [if_neg c2]
    obtain ⟨i1, i2⟩ := h.arith.inverse_ok _ _ s3.valid s3.room (fun _ => s3.normed)
    have hi' : Elem K.P K.p 0 1 (Fp.inverse K.P s.z) (coords K s).z⁻¹ := .of_normed h.arith.toConsts ⟨i1, i2.trans (by rw [s3.res])⟩
    have mx := Elem.reduce h.arith.toConsts (Elem.mul h.arith.toFieldOk s1 hi' (by omega) (by omega))
    have my := Elem.reduce h.arith.toConsts (Elem.mul h.arith.toFieldOk s2 hi' (by omega) (by omega))
    have ex : (coords K s).x * (coords K s).z⁻¹ = T.x := by rw [k2]; field_simp
    have ey : (coords K s).y * (coords K s).z⁻¹ = T.y := by rw [k3]; field_simp
    rw [ex] at mx
    rw [ey] at my
    obtain ⟨l, ec⟩ := Legal.of (s := { x := Fp.reduce K.P (Fp.mul K.P s.x (Fp.inverse K.P s.z)), y := Fp.reduce K.P (Fp.mul K.P s.y (Fp.inverse K.P s.z)), z := newInt K.P 1 })
      mx (elem11 h.arith my) h1
    exact ⟨⟨l, by rw [ec]; exact ⟨one_ne_zero, by simp, by simp⟩⟩, fun _ => ec⟩

theorem mulE_ok (h : EdCurve K) {s : Pt C} {T : EdPoint K} (hs : IsPointE K s T) {e : Limbs C} {E : Nat} (he : Scalar K e E) :
    ∃ r, mul K s e = some r ∧ IsPointE K r (E • T) := by
  unfold mul
  by_cases c1 : (Big.iszilch e || isInfinity K s) = true
  · rw [if_pos c1]
    refine ⟨_, rfl, ?_⟩
    have : E • T = 0 := by
      rw [Bool.or_eq_true] at c1
      rcases c1 with c | c
      · have : (E : Int) = 0 := (he.1.iszilch).mp c
        have : E = 0 := by exact_mod_cast this
        rw [this]; exact zero_nsmul T
      · rw [(isInfinityE_ok h hs).mp c]; exact nsmul_zero E
    rw [this]; exact newE_ok h
  · rw [if_neg c1, if_neg (by rw [h.type]; decide)]
    obtain ⟨r, hr, hrel⟩ := mulWin_spec (ptSoundE h) h.arith.ok h.arith.hn hs he.1 he.2 (bn8 h.arith.toConsts)
    rw [natCast_zsmul] at hrel
    exact ⟨affine K r, by rw [hr]; rfl, (affineE_ok h hrel).1⟩

theorem mul2E_ok (h : EdCurve K) {s q : Pt C} {S T : EdPoint K} (hs : IsPointE K s S) (hq : IsPointE K q T) {e f : Limbs C} {E F : Nat}
    (he : Scalar K e E) (hf : Scalar K f F) : ∃ r, mul2 K s e q f = some r ∧ IsPointE K r (E • S + F • T) := by
  obtain ⟨r, hr, hrel⟩ := mul2Win_spec (ptSoundE h) h.arith.ok h.arith.hn hs hq he.1 hf.1 he.2 hf.2 (bn8 h.arith.toConsts)
  rw [natCast_zsmul, natCast_zsmul] at hrel
  exact ⟨affine K r, by rw [mul2, hr]; rfl, (affineE_ok h hrel).1⟩

/-- right-hand side of the curve equation, `(a x^2 - 1) / (d x^2 - 1)` -/
theorem rhsE_ok (h : EdCurve K) {x : Fp C} {v : ZMod K.p} (hx : Elem K.P K.p 0 1 x v) :
    Elem K.P K.p 0 1 (rhs K x) ((K.a * v ^ 2 - 1) * (Bcoef K * v ^ 2 - 1)⁻¹) ∧ limbsVal K.P.b (rhs K x).x < K.p := by
  have hco := h.arith.toConsts
  have r4 := room_one hco
  have hbv := elem_bv h.arith h.bv
  have h1 := elem_int1 h.arith
  have hs := Elem.sqr h.arith.toFieldOk hx (by omega)
  have fin : ∀ {l k : Nat} {a : Fp C} {w : ZMod K.p}, Elem K.P K.p l k a w →
      Elem K.P K.p 0 1 (Fp.reduce K.P a) w ∧ limbsVal K.P.b (Fp.reduce K.P a).x < K.p := by
    intro l k a w ha
    refine ⟨Elem.reduce hco ha, ?_⟩
    obtain ⟨_, _, _, r4⟩ := reduce_ok hco ha.valid ha.room
    rw [r4]; exact Int.emod_lt_of_pos _ (by exact_mod_cast hco.ppos)
  have hb := Elem.norm hco (Elem.sub hco h.word (Elem.mul h.arith.toFieldOk hbv hs (by omega) (by omega)) h1 (r4.mono (by decide)))
  obtain ⟨i1, i2⟩ := h.arith.inverse_ok _ _ hb.valid hb.room (fun _ => hb.normed)
  have hi : Elem K.P K.p 0 1 (Fp.inverse K.P _) _ := .of_normed hco ⟨i1, i2.trans (by rw [hb.res])⟩
  rcases h.a with ha | ha
  · have e : rhs K x = Fp.reduce K.P (Fp.mul K.P (Fp.norm K.P (Fp.sub K.P (Fp.sqr K.P x) (newInt K.P 1)))
        (Fp.inverse K.P (Fp.norm K.P (Fp.sub K.P (Fp.mul K.P (newBig K.P K.bv) (Fp.sqr K.P x)) (newInt K.P 1))))) := by simp [rhs, h.type, ha]
    have hn := Elem.norm hco (Elem.sub hco h.word hs h1 (r4.mono (by decide)))
    have := fin (Elem.mul h.arith.toFieldOk hn hi (by omega) (by omega))
    rw [e]
    exact ⟨Elem.to this.1 (by rw [ha]; push_cast; ring), this.2⟩
  · have e : rhs K x = Fp.reduce K.P (Fp.mul K.P (Fp.norm K.P (Fp.sub K.P (Fp.neg K.P (Fp.sqr K.P x)) (newInt K.P 1)))
        (Fp.inverse K.P (Fp.norm K.P (Fp.sub K.P (Fp.mul K.P (newBig K.P K.bv) (Fp.sqr K.P x)) (newInt K.P 1))))) := by simp [rhs, h.type, ha]
    have hn := Elem.norm hco (Elem.sub hco h.word (Elem.neg hco h.word hs (r4.mono (by decide))) h1 (r4.mono (by decide)))
    have := fin (Elem.mul h.arith.toFieldOk hn hi (by omega) (by omega))
    rw [e]
    exact ⟨Elem.to this.1 (by rw [ha]; push_cast; ring), this.2⟩

/-- `d x^2 - 1` is never zero -/
theorem den_ne (x : ZMod K.p) : Bcoef K * x ^ 2 - 1 ≠ 0 := by
  intro h0
  have hx : x ≠ 0 := by rintro rfl; simp at h0
  refine hc.out.d ⟨x⁻¹, ?_⟩
  rw [inv_pow, inv_eq_of_mul_eq_one_left]
  linear_combination h0

theorem onCurveE (x y : ZMod K.p) : Edwards.OnCurve (K.a : ZMod K.p) (Bcoef K) x y ↔ y ^ 2 = (K.a * x ^ 2 - 1) * (Bcoef K * x ^ 2 - 1)⁻¹ := by
  have hd := den_ne (K := K) x
  rw [← div_eq_mul_inv, eq_div_iff hd]
  unfold Edwards.OnCurve
  constructor <;> intro h <;> linear_combination -h

theorem isPointE_finite {s : Pt C} {T : EdPoint K} (h1 : Elem K.P K.p 0 1 s.x T.x) (h2 : Elem K.P K.p 1 1 s.y T.y)
    (h3 : Elem K.P K.p 0 1 s.z 1) : IsPointE K s T := by
  obtain ⟨l, e⟩ := Legal.of h1 h2 h3
  exact ⟨l, by rw [e]; exact ⟨one_ne_zero, by simp, by simp⟩⟩

/-- `new_bigs` -/
theorem newBigsE_ok (h : EdCurve K) {ix iy : Limbs C} {X Y : Nat} (hx : Rep K.P.b K.P.n ix X) (hX : X < K.p) (hy : Rep K.P.b K.P.n iy Y) (hY : Y < K.p) :
    (∀ T : EdPoint K, T.x = (X : ZMod K.p) → T.y = (Y : ZMod K.p) → IsPointE K (newBigs K ix iy) T) ∧
      (¬ Edwards.OnCurve (K.a : ZMod K.p) (Bcoef K) X Y → IsPointE K (newBigs K ix iy) 0) := by
  have ex := Elem.norm h.arith.toConsts (elem_newBig h.arith hx hX)
  have ey := elem_newBig h.arith hy hY
  obtain ⟨er, hlt⟩ := rhsE_ok h ex
  have e2 := Elem.sqr h.arith.toFieldOk ey (by omega)
  have hq := elem_equals h.arith e2 er
  rw [← pow_two, ← onCurveE] at hq
  have e : newBigs K ix iy = if Fp.equals K.P (Fp.sqr K.P (newBig K.P iy)) (rhs K (Fp.norm K.P (newBig K.P ix))) then
      ⟨Fp.norm K.P (newBig K.P ix), newBig K.P iy, one K.P⟩ else inf K ⟨Fp.norm K.P (newBig K.P ix), newBig K.P iy, one K.P⟩ := by
    simp [newBigs, h.type]
  rw [e]
  constructor
  · intro T tx ty
    rw [if_pos (hq.mpr (tx ▸ ty ▸ T.on))]
    refine isPointE_finite ?_ ?_ (elem_one h.arith)
    · rw [tx]; exact ex
    · rw [ty]; exact elem11 h.arith ey
  · intro hn
    rw [if_neg (fun hh => hn (hq.mp hh))]
    exact infE_ok h _

end Verif.Ecp
