import Verif.Ecp.Law
import Verif.Props.Fp
/- Constructors, comparison, conversion to affine coordinates and scalar multiplication on Weierstrass curves. -/
namespace Verif.Ecp
open Verif.Big Verif.Fp Verif.Rom Verif.Curve Verif.Prog Spec WeierstrassCurve

set_option linter.unusedSectionVars false
variable {C : Nat} {K : Rom C} [hp : Fact K.p.Prime]

theorem elem_one (h : Arith K.P K.p) : Elem K.P K.p 0 1 (one K.P) 1 := .of_normed h.toConsts h.one_ok

theorem one_lt_b (h : Consts K.P K.p) : (1 : Int) < 2 ^ K.P.b := one_lt_pow₀ (by norm_num) (by have := h.ok.hb; omega)

theorem elem_int1 (h : Arith K.P K.p) : Elem K.P K.p 0 1 (newInt K.P 1) 1 := by
  have := h.newInt_ok 1 (by simpa using one_lt_b h.toConsts)
  exact .of_normed h.toConsts ⟨this.1, by simpa using this.2⟩

/-- any legal `(0 : y : 0)`, `y ≠ 0` is the point at infinity -/
theorem isPoint_zero (h : Arith K.P K.p) {s : Pt C} {y : ZMod K.p} (h1 : Elem K.P K.p 0 1 s.x 0) (h2 : Elem K.P K.p 0 1 s.y y)
    (h3 : Elem K.P K.p 0 1 s.z 0) (hy : y ≠ 0) : IsPoint K s 0 :=
  isPoint_of h (P := ⟨0, y, 0⟩) h1 h2 h3 ⟨rfl, hy, rfl⟩

theorem new_ok (h : WCurve K) : IsPoint K (new K) 0 := by
  have e : new K = pnew K := by simp [new, h.type]
  rw [e]
  exact isPoint_zero h.arith (elem_zero h.arith) (elem_int1 h.arith) (elem_zero h.arith) one_ne_zero

theorem inf_ok (h : WCurve K) (s : Pt C) : IsPoint K (inf K s) 0 := by
  have e : inf K s = ⟨zero K.P, one K.P, zero K.P⟩ := by simp [inf, h.type]
  rw [e]
  exact isPoint_zero h.arith (elem_zero h.arith) (elem_one h.arith) (elem_zero h.arith) one_ne_zero

theorem elem_iszilch (h : Arith K.P K.p) {l k : Nat} {a : Fp C} {v : ZMod K.p} (ha : Elem K.P K.p l k a v) : Fp.iszilch K.P a = true ↔ v = 0 := by
  rw [iszilch_ok h.toConsts ha.valid ha.room, ha.res]

theorem elem_equals (h : Arith K.P K.p) {l k l' k' : Nat} {a c : Fp C} {v w : ZMod K.p} (ha : Elem K.P K.p l k a v) (hc : Elem K.P K.p l' k' c w) :
    Fp.equals K.P a c = true ↔ v = w := by
  rw [Fp.equals_ok h.toConsts ha.valid hc.valid ha.room hc.room, ha.res, hc.res]

/-- `is_infinity` -/
theorem isInfinity_ok (h : WCurve K) {s : Pt C} {T : (curve K).Point} (hs : IsPoint K s T) : isInfinity K s = true ↔ T = 0 := by
  obtain ⟨s1, s2, s3⟩ := hs.1.elems
  have e : isInfinity K s = (Fp.iszilch K.P s.x && Fp.iszilch K.P s.z) := by simp [isInfinity, h.type]
  rw [e, Bool.and_eq_true, elem_iszilch h.arith s1, elem_iszilch h.arith s3]
  rcases hs.2.zero_or with ⟨rfl, h1, h2, h3⟩ | ⟨x, y, hh, rfl, h1, h2, h3⟩
  · simp [h1, h3]
  · simp [h1]

/-- `equals` -/
theorem equals_ok (h : WCurve K) {s q : Pt C} {S T : (curve K).Point} (hs : IsPoint K s S) (hq : IsPoint K q T) : equals K s q = true ↔ S = T := by
  obtain ⟨s1, s2, s3⟩ := hs.1.elems
  obtain ⟨q1, q2, q3⟩ := hq.1.elems
  have e1 := elem_equals h.arith (Elem.mul h.arith.toFieldOk s1 q3 (by omega) (by omega)) (Elem.mul h.arith.toFieldOk q1 s3 (by omega) (by omega))
  have e2 := elem_equals h.arith (Elem.mul h.arith.toFieldOk s2 q3 (by omega) (by omega)) (Elem.mul h.arith.toFieldOk q2 s3 (by omega) (by omega))
  have e : equals K s q = true ↔ (coords K s).x * (coords K q).z = (coords K q).x * (coords K s).z ∧ (coords K s).y * (coords K q).z = (coords K q).y * (coords K s).z := by
    rw [← e1, ← e2]
    simp only [equals, h.type]
    cases Fp.equals K.P (Fp.mul K.P s.x q.z) (Fp.mul K.P q.x s.z) <;> cases Fp.equals K.P (Fp.mul K.P s.y q.z) (Fp.mul K.P q.y s.z) <;> simp
  rw [e]
  rcases hs.2.zero_or with ⟨rfl, h1, h2, h3⟩ | ⟨x, y, hh, rfl, h1, h2, h3⟩
  · rcases hq.2.zero_or with ⟨rfl, k1, k2, k3⟩ | ⟨x', y', hh', rfl, k1, k2, k3⟩
    · simp [h1, h3, k1, k3]
    · have : ¬(coords K s).y * (coords K q).z = 0 := mul_ne_zero h2 k1
      simp only [h1, h3, mul_zero, zero_mul, true_and, this]
      constructor
      · exact False.elim
      · intro hc; cases hc
  · rcases hq.2.zero_or with ⟨rfl, k1, k2, k3⟩ | ⟨x', y', hh', rfl, k1, k2, k3⟩
    · have : ¬0 = (coords K q).y * (coords K s).z := fun hc => mul_ne_zero k2 h1 hc.symm
      simp only [k1, k3, mul_zero, zero_mul, true_and, this]
      constructor
      · exact False.elim
      · intro hc; cases hc
    · rw [h2, h3, k2, k3]
      constructor
      · rintro ⟨a, b⟩
        have hz : (coords K s).z * (coords K q).z ≠ 0 := mul_ne_zero h1 k1
        have ex : x = x' := mul_right_cancel₀ hz (by linear_combination a)
        have ey : y = y' := mul_right_cancel₀ hz (by linear_combination b)
        subst ex ey; rfl
      · intro hc
        cases hc
        exact ⟨by ring, by ring⟩

/-- `affine`: the same point; a finite one gets third coordinate 1 -/
theorem affine_ok (h : WCurve K) {s : Pt C} {T : (curve K).Point} (hs : IsPoint K s T) :
    IsPoint K (affine K s) T ∧ (T ≠ 0 → (coords K (affine K s)).z = 1) := by
  obtain ⟨s1, s2, s3⟩ := hs.1.elems
  have hi := isInfinity_ok h hs
  have h1 := elem_int1 h.arith
  have e : affine K s = if isInfinity K s then s else if Fp.equals K.P s.z (newInt K.P 1) then s else
      { x := Fp.reduce K.P (Fp.mul K.P s.x (Fp.inverse K.P s.z)), y := Fp.reduce K.P (Fp.mul K.P s.y (Fp.inverse K.P s.z)), z := newInt K.P 1 } := by
    simp [affine, h.type]
  rw [e]
  split_ifs with c1 c2
  · exact ⟨hs, fun hT => absurd (hi.mp c1) hT⟩
  · exact ⟨hs, fun _ => (elem_equals h.arith s3 h1).mp c2⟩
  · have hT : T ≠ 0 := fun hT => c1 (hi.mpr hT)
    rcases hs.2.zero_or with ⟨rfl, _⟩ | ⟨x, y, hh, rfl, k1, k2, k3⟩
    · exact absurd rfl hT
    obtain ⟨i1, i2⟩ := h.arith.inverse_ok _ _ s3.valid s3.room (fun _ => s3.normed)
    have hi' : Elem K.P K.p 0 1 (Fp.inverse K.P s.z) (coords K s).z⁻¹ := .of_normed h.arith.toConsts ⟨i1, i2.trans (by rw [s3.res])⟩
    have mx := Elem.reduce h.arith.toConsts (Elem.mul h.arith.toFieldOk s1 hi' (by omega) (by omega))
    have my := Elem.reduce h.arith.toConsts (Elem.mul h.arith.toFieldOk s2 hi' (by omega) (by omega))
    have := isPoint_of (s := { x := Fp.reduce K.P (Fp.mul K.P s.x (Fp.inverse K.P s.z)), y := Fp.reduce K.P (Fp.mul K.P s.y (Fp.inverse K.P s.z)), z := newInt K.P 1 })
      (T := Affine.Point.some x y hh) h.arith (P := ⟨(coords K s).x * (coords K s).z⁻¹, (coords K s).y * (coords K s).z⁻¹, 1⟩) mx my h1
      ⟨one_ne_zero, by simp only [k2]; field_simp, by simp only [k3]; field_simp⟩
    exact ⟨this, fun _ => h1.res⟩

/-- after `affine` the coordinates of a finite point are its affine coordinates -/
theorem affine_coords (h : WCurve K) {s : Pt C} {x y : ZMod K.p} {hh} (hs : IsPoint K s (Affine.Point.some x y hh)) :
    coords K (affine K s) = ⟨x, y, 1⟩ := by
  obtain ⟨h1, h2⟩ := affine_ok h hs
  have hz := h2 (by intro hc; cases hc)
  obtain ⟨k1, k2, k3⟩ := h1.2
  rw [hz, mul_one] at k2 k3
  cases hc : coords K (affine K s) with
  | mk a b c => rw [hc] at hz k2 k3; simp only at hz k2 k3; rw [hz, k2, k3]

/-! ### scalar multiplication -/

/-- scalars the window code accepts: at least four spare bits -/
def Scalar (K : Rom C) (e : Limbs C) (E : Nat) : Prop := Rep K.P.b K.P.n e E ∧ E + 2 < 2 ^ (K.P.b * K.P.n - 4)

theorem bn8 (h : Consts K.P K.p) : 8 ≤ K.P.b * K.P.n := by
  have := h.ok.hb; have := h.hn
  calc 8 ≤ 9 * 2 := by norm_num
    _ ≤ K.P.b * K.P.n := Nat.mul_le_mul (by omega) (by omega)

theorem mul_ok (h : WCurve K) {s : Pt C} {T : (curve K).Point} (hs : IsPoint K s T) {e : Limbs C} {E : Nat} (he : Scalar K e E) :
    ∃ r, mul K s e = some r ∧ IsPoint K r ((E : Int) • T) := by
  unfold mul
  split_ifs with c1 c2
  · refine ⟨_, rfl, ?_⟩
    have : (E : Int) • T = 0 := by
      rw [Bool.or_eq_true] at c1
      rcases c1 with c | c
      · have : (E : Int) = 0 := (he.1.iszilch).mp c
        rw [this]; exact zero_zsmul T
      · rw [(isInfinity_ok h hs).mp c]; exact zsmul_zero _
    rw [this]; exact new_ok h
  · exact absurd c2 (by rw [h.type]; decide)
  · obtain ⟨r, hr, hrel⟩ := mulWin_spec (ptSound h) h.arith.ok h.arith.hn hs he.1 he.2 (bn8 h.arith.toConsts)
    exact ⟨affine K r, by rw [hr]; rfl, (affine_ok h hrel).1⟩

theorem mul2_ok (h : WCurve K) {s q : Pt C} {S T : (curve K).Point} (hs : IsPoint K s S) (hq : IsPoint K q T) {e f : Limbs C} {E F : Nat}
    (he : Scalar K e E) (hf : Scalar K f F) : ∃ r, mul2 K s e q f = some r ∧ IsPoint K r ((E : Int) • S + (F : Int) • T) := by
  obtain ⟨r, hr, hrel⟩ := mul2Win_spec (ptSound h) h.arith.ok h.arith.hn hs hq he.1 hf.1 he.2 hf.2 (bn8 h.arith.toConsts)
  exact ⟨affine K r, by rw [mul2, hr]; rfl, (affine_ok h hrel).1⟩

theorem fcswap_ok {a c : Fp C} (hl : a.x.length = c.x.length) : Fp.cswap a c 0 = (a, c) ∧ Fp.cswap a c 1 = (c, a) := by
  constructor
  · simp [Fp.cswap, cswap_zero _ _ hl]
  · simp [Fp.cswap, cswap_one _ _ hl]

theorem cswap_ok (h : WCurve K) {s q : Pt C} {S T : (curve K).Point} (hs : IsPoint K s S) (hq : IsPoint K q T) :
    cswap K s q 0 = (s, q) ∧ cswap K s q 1 = (q, s) := by
  obtain ⟨s1, s2, s3⟩ := hs.1.elems
  obtain ⟨q1, q2, q3⟩ := hq.1.elems
  have lx := fcswap_ok (s1.valid.len.trans q1.valid.len.symm)
  have ly := fcswap_ok (s2.valid.len.trans q2.valid.len.symm)
  have lz := fcswap_ok (s3.valid.len.trans q3.valid.len.symm)
  constructor
  · simp [cswap, h.type, lx.1, ly.1, lz.1]
  · simp [cswap, h.type, lx.2, ly.2, lz.2]

theorem pinStep_ok (h : WCurve K) {R : Pt C × Pt C} {T : (curve K).Point} {m : Nat} (h0 : IsPoint K R.1 ((m : Int) • T)) (h1 : IsPoint K R.2 ((m + 1 : Int) • T))
    (b : Nat) (hb : b = 0 ∨ b = 1) :
    IsPoint K (pinStep K R b).1 ((2 * m + b : Int) • T) ∧ IsPoint K (pinStep K R b).2 ((2 * m + b + 1 : Int) • T) := by
  have ha := add_ok h h1 h0
  rcases hb with rfl | rfl
  · have e1 := (cswap_ok h h0 h1).1
    have hd := dbl_ok h h0
    have e2 := (cswap_ok h hd ha).1
    simp only [pinStep, e1, e2]
    constructor
    · convert hd using 1; refine Eq.trans ?_ (add_zsmul T _ _); congr 1; push_cast; ring
    · convert ha using 1; refine Eq.trans ?_ (add_zsmul T _ _); congr 1; push_cast; ring
  · have e1 := (cswap_ok h h0 h1).2
    have hd := dbl_ok h h1
    have e2 := (cswap_ok h hd ha).2
    simp only [pinStep, e1, e2]
    constructor
    · convert ha using 1; refine Eq.trans ?_ (add_zsmul T _ _); congr 1; push_cast; ring
    · convert hd using 1; refine Eq.trans ?_ (add_zsmul T _ _); congr 1; push_cast; ring

theorem bit_i32 (e : BitVec 32) (i : Nat) (hi : i < 32) : ((e.sshiftRight i) &&& 1).toNat = e.toNat / 2 ^ i % 2 := by
  have : (e.sshiftRight i) &&& 1 = (e >>> i) &&& 1 := by
    ext j hj
    simp only [BitVec.getElem_and, BitVec.getElem_sshiftRight, BitVec.getElem_ushiftRight]
    rcases Nat.eq_zero_or_pos j with rfl | hj0
    · simp [hi]
    · have : (1 : BitVec 32)[j] = false := by
        rw [BitVec.getElem_eq_testBit_toNat]
        show Nat.testBit 1 j = false
        rw [Nat.testBit_one_eq_true_iff_self_eq_zero.not.mpr (by omega) |> Bool.eq_false_iff.mpr]
      rw [this]; simp
  rw [this, BitVec.toNat_and, BitVec.toNat_ushiftRight, Nat.shiftRight_eq_div_pow]
  exact Nat.and_one_is_mod _

/-- ladder of `pinmul`: the low `bts` bits of `e` -/
theorem pinmul_ok (h : WCurve K) {s : Pt C} {T : (curve K).Point} (hs : IsPoint K s T) (e : BitVec 32) (bts : Nat) (hb : bts ≤ 32) :
    ∃ r, pinmul K s e bts = some r ∧ IsPoint K r (((e.toNat % 2 ^ bts : Nat) : Int) • T) := by
  have key : ∀ m, m ≤ bts → IsPoint K (((List.range bts).reverse.take m).foldl (fun R i => pinStep K R ((e.sshiftRight i) &&& 1).toNat) (new K, s)).1
        (((e.toNat % 2 ^ bts / 2 ^ (bts - m) : Nat) : Int) • T) ∧
      IsPoint K (((List.range bts).reverse.take m).foldl (fun R i => pinStep K R ((e.sshiftRight i) &&& 1).toNat) (new K, s)).2
        (((e.toNat % 2 ^ bts / 2 ^ (bts - m) : Nat) + 1 : Int) • T) := by
    intro m
    induction m with
    | zero =>
      intro _
      have : e.toNat % 2 ^ bts / 2 ^ (bts - 0) = 0 := Nat.div_eq_of_lt (Nat.mod_lt _ (by positivity))
      rw [this]
      simp only [List.take_zero, List.foldl_nil, Nat.cast_zero, zero_add, one_smul]
      exact ⟨new_ok h, hs⟩
    | succ m ih =>
      intro hm
      obtain ⟨i1, i2⟩ := ih (by omega)
      have hlen : m < (List.range bts).reverse.length := by simp; omega
      rw [List.take_succ_eq_append_getElem hlen, List.foldl_append, List.foldl_cons, List.foldl_nil]
      have hget : (List.range bts).reverse[m] = bts - 1 - m := by simp
      rw [hget]
      have hbit := bit_i32 e (bts - 1 - m) (by omega)
      have hb01 : ((e.sshiftRight (bts - 1 - m)) &&& 1).toNat = 0 ∨ ((e.sshiftRight (bts - 1 - m)) &&& 1).toNat = 1 := by rw [hbit]; omega
      have := pinStep_ok h i1 i2 _ hb01
      have harith : e.toNat % 2 ^ bts / 2 ^ (bts - (m + 1)) = 2 * (e.toNat % 2 ^ bts / 2 ^ (bts - m)) + e.toNat / 2 ^ (bts - 1 - m) % 2 := by
        have h1 : bts - (m + 1) = bts - 1 - m := by omega
        have h2 : bts - m = (bts - 1 - m) + 1 := by omega
        rw [h1, h2, pow_succ, ← Nat.div_div_eq_div_mul]
        have h3 : e.toNat % 2 ^ bts / 2 ^ (bts - 1 - m) % 2 = e.toNat / 2 ^ (bts - 1 - m) % 2 := by
          have e4 : (2 : Nat) ^ bts = 2 ^ (bts - 1 - m) * 2 ^ (m + 1) := by rw [← pow_add]; congr 1; omega
          rw [e4, Nat.mod_mul_right_div_self, Nat.mod_mod_of_dvd _ (dvd_pow_self 2 (by omega))]
        omega
      rw [harith]
      rw [hbit] at this ⊢
      push_cast at this ⊢
      exact this
  have hfin := (key bts le_rfl).1
  rw [List.take_of_length_le (by simp), Nat.sub_self, pow_zero, Nat.div_one] at hfin
  refine ⟨_, ?_, (affine_ok h hfin).1⟩
  simp [pinmul, h.type]

end Verif.Ecp
