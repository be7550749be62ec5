import Verif.Montgomery.Field
import Verif.Ecp.Codec
import Verif.Edwards.Codec
/- `ECP::dbl`, `dadd`, `mul`, `affine`, `cfp` and the codecs on Montgomery curves. -/
namespace Verif.Ecp
open WeierstrassCurve
open Verif.Big Verif.Fp Verif.Rom Verif.Curve Verif.Prog Spec

set_option linter.unusedSectionVars false
variable {C : Nat} {K : Rom C} [hp : Fact K.p.Prime]

theorem good_Mo (h : MoCurve K) : (∀ i ∈ dblMo ((K.a + 2) / 4), i.Good (small K.P)) ∧ ∀ i ∈ daddProg, i.Good (small K.P) := by
  have h4 := h.a4
  obtain ⟨s1, s2⟩ := h.small
  have hb := one_lt_b h.arith.toConsts
  have : small K.P ((K.a + 2) / 4) := ⟨by omega, by rw [abs_of_nonneg (by omega)]; omega⟩
  constructor
  · simp [dblMo, Ins.Good, this]
  · simp [daddProg, Ins.Good]

/-- `ECP::dbl` doubles -/
theorem dblM_ok (h : MoCurve K) {s : Pt C} {T : MoPoint K} (hs : IsPointM K s T) : IsPointM K (dbl K s) (T + T) ∧ (Strict K s → Strict K (dbl K s)) := by
  obtain ⟨hl, hd⟩ := hs
  have h2 := two_ne_zero' h.arith.toConsts
  have h4 : (4 : ZMod K.p) * (((K.a + 2) / 4 : Int) : ZMod K.p) = (K.a : ZMod K.p) + 2 := by
    have e : (4 : Int) * ((K.a + 2) / 4) = K.a + 2 := by have := h.a4; omega
    have := congrArg (Int.cast (R := ZMod K.p)) e
    push_cast at this
    exact this
  have hr := xDbl h2 h.ne h4 hd
  have hz := elem_zero h.arith
  have hpr : dblProg K = dblMo ((K.a + 2) / 4) := by simp [dblProg, h.type]
  have key := prog_ok h.arith h.word h.bv (good_Mo h).1 (abs_dblMo _) hl hl hz
  rw [← hpr] at key
  have e1 := dblMo_x ((K.a + 2) / 4) (initV K (coords K s) (coords K s) 0 (Bcoef K)) (fun _ a => a)
  have e3 := dblMo_z ((K.a + 2) / 4) (initV K (coords K s) (coords K s) 0 (Bcoef K)) (fun _ a => a)
  rw [← hpr] at e1 e3
  obtain ⟨l, ec⟩ := Legal.of (s := dbl K s) (Elem.to key.1 e1) key.2.1 (Elem.to key.2.2 e3)
  refine ⟨⟨l, ?_⟩, ?_⟩
  · rw [ec]; exact hr.1
  · intro hh
    unfold Strict
    rw [ec]
    exact hr.2 hh

/-- `ECP::dadd` adds points of known difference -/
theorem daddM_ok (h : MoCurve K) {s q w : Pt C} {S T D : MoPoint K} (hs : IsPointM K s S) (hq : IsPointM K q T) (ns : Strict K s) (nq : Strict K q)
    (hw : IsPointM K w D) (hw1 : (coords K w).z = 1) (hw0 : (coords K w).x ≠ 0) (hD : S - T = D) :
    IsPointM K (dadd K s q w) (S + T) ∧ Strict K (dadd K s q w) := by
  obtain ⟨hl, hd⟩ := hs
  obtain ⟨hl', hd'⟩ := hq
  obtain ⟨w1, _, _⟩ := hw.1.elems
  have h2 := two_ne_zero' h.arith.toConsts
  have hr := xAdd h2 h.ne hd hd' ns nq hw0 hD (by rw [← hw1]; exact hw.2)
  have key := prog_ok h.arith h.word h.bv (good_Mo h).2 abs_dadd hl hl' w1
  have e1 := dadd_x (initV K (coords K s) (coords K q) (coords K w).x (Bcoef K)) (fun _ a => a)
  have e3 := dadd_z (initV K (coords K s) (coords K q) (coords K w).x (Bcoef K)) (fun _ a => a)
  obtain ⟨l, ec⟩ := Legal.of (s := dadd K s q w) (Elem.to key.1 e1) key.2.1 (Elem.to key.2.2 e3)
  unfold IsPointM Strict
  rw [ec]
  exact ⟨⟨l, hr.1⟩, hr.2⟩

/-- `new` and `inf` are the point at infinity -/
theorem newM_ok (h : MoCurve K) : IsPointM K (new K) 0 := by
  have e : new K = ⟨zero K.P, newInt K.P 1, zero K.P⟩ := by simp [new, pnew, h.type]
  obtain ⟨l, ec⟩ := Legal.of (s := new K) (by rw [e]; exact elem_zero h.arith) (by rw [e]; exact elem11 h.arith (elem_int1 h.arith)) (by rw [e]; exact elem_zero h.arith)
  exact ⟨l, by rw [ec]; rfl⟩

theorem infM_ok (h : MoCurve K) {s : Pt C} {v : ZMod K.p} (hy : Elem K.P K.p 1 1 s.y v) : IsPointM K (inf K s) 0 := by
  have e : inf K s = ⟨zero K.P, s.y, zero K.P⟩ := by simp [inf, h.type]
  obtain ⟨l, ec⟩ := Legal.of (s := inf K s) (by rw [e]; exact elem_zero h.arith) (by rw [e]; exact hy) (by rw [e]; exact elem_zero h.arith)
  exact ⟨l, by rw [ec]; rfl⟩

theorem isInfinityM_ok (h : MoCurve K) {s : Pt C} {T : MoPoint K} (hs : IsPointM K s T) : isInfinity K s = true ↔ T = 0 := by
  obtain ⟨s1, s2, s3⟩ := hs.1.elems
  have e : isInfinity K s = Fp.iszilch K.P s.z := by simp [isInfinity, h.type]
  rw [e, elem_iszilch h.arith s3]
  have hd := hs.2
  cases T with
  | zero => exact ⟨fun _ => rfl, fun _ => hd⟩
  | some x y hn => exact ⟨fun c => absurd c hd.1, fun c => absurd c (by rw [Affine.Point.zero_def]; simp)⟩

/-- `affine`: the same point; finite points get third coordinate 1 -/
theorem affineM_ok (h : MoCurve K) {s : Pt C} {T : MoPoint K} (hs : IsPointM K s T) :
    IsPointM K (affine K s) T ∧ (T ≠ 0 → (coords K (affine K s)).x = absc T ∧ (coords K (affine K s)).z = 1) := by
  obtain ⟨s1, s2, s3⟩ := hs.1.elems
  have hi := isInfinityM_ok h hs
  have h1 := elem_int1 h.arith
  have hd := hs.2
  have e : affine K s = if isInfinity K s then s else if Fp.equals K.P s.z (newInt K.P 1) then s else
      { x := Fp.reduce K.P (Fp.mul K.P s.x (Fp.inverse K.P s.z)), y := s.y, z := newInt K.P 1 } := by
    simp [affine, h.type]
  rw [e]
  by_cases c1 : isInfinity K s = true
  · rw [if_pos c1]; exact ⟨hs, fun hT => absurd (hi.mp c1) hT⟩
  rw [if_neg c1]
  have hT : T ≠ 0 := fun hT => c1 (hi.mpr hT)
  cases T with
  | zero => exact absurd rfl hT
  | some x y hn =>
    obtain ⟨k1, k2⟩ := hd
    by_cases c2 : Fp.equals K.P s.z (newInt K.P 1) = true
    · rw [if_pos c2]
      have hz := (elem_equals h.arith s3 h1).mp c2
      refine ⟨hs, fun _ => ⟨?_, hz⟩⟩
      rw [hz, mul_one] at k2
      exact k2
    · rw [if_neg c2]
      obtain ⟨i1, i2⟩ := h.arith.inverse_ok _ _ s3.valid s3.room (fun _ => s3.normed)
      have hi' : Elem K.P K.p 0 1 (Fp.inverse K.P s.z) (coords K s).z⁻¹ := .of_normed h.arith.toConsts ⟨i1, i2.trans (by rw [s3.res])⟩
      have mx := Elem.reduce h.arith.toConsts (Elem.mul h.arith.toFieldOk s1 hi' (by omega) (by omega))
      have ex : (coords K s).x * (coords K s).z⁻¹ = x := by rw [k2]; field_simp
      rw [ex] at mx
      obtain ⟨l, ec⟩ := Legal.of (s := { x := Fp.reduce K.P (Fp.mul K.P s.x (Fp.inverse K.P s.z)), y := s.y, z := newInt K.P 1 }) mx s2 h1
      refine ⟨⟨l, ?_⟩, fun _ => ?_⟩
      · rw [ec]; exact ⟨one_ne_zero, by simp⟩
      · rw [ec]; exact ⟨rfl, rfl⟩

theorem cswapM_ok (h : MoCurve K) {s q : Pt C} (hs : Legal K s) (hq : Legal K q) :
    cswap K s q 0 = (s, q) ∧ (cswap K s q 1).1.x = q.x ∧ (cswap K s q 1).1.z = q.z ∧ (cswap K s q 1).1.y = s.y ∧
      (cswap K s q 1).2.x = s.x ∧ (cswap K s q 1).2.z = s.z ∧ (cswap K s q 1).2.y = q.y := by
  obtain ⟨s1, s2, s3⟩ := hs.elems
  obtain ⟨q1, q2, q3⟩ := hq.elems
  have lx := fcswap_ok (s1.valid.len.trans q1.valid.len.symm)
  have lz := fcswap_ok (s3.valid.len.trans q3.valid.len.symm)
  constructor
  · simp [cswap, h.type, lx.1, lz.1]
  · simp [cswap, h.type, lx.2, lz.2]

/-- the ordinate does not matter -/
theorem IsPointM.of_xz {s q : Pt C} {T : MoPoint K} (hs : IsPointM K s T) (hq : Legal K q) (hx : s.x = q.x) (hz : s.z = q.z) : IsPointM K q T := by
  refine ⟨hq, ?_⟩
  have := hs.2
  simp only [coords] at this ⊢
  rw [← hx, ← hz]; exact this

theorem Strict.of_xz {s q : Pt C} (hs : Strict K s) (hx : s.x = q.x) (hz : s.z = q.z) : Strict K q := by
  unfold Strict coords at *
  rw [← hx, ← hz]; exact hs

/-- what the ladder keeps of a point -/
def Good (K : Rom C) [Fact K.p.Prime] (s : Pt C) (T : MoPoint K) : Prop := IsPointM K s T ∧ Strict K s

theorem cswapM_good (h : MoCurve K) {s q : Pt C} {S T : MoPoint K} (hs : Good K s S) (hq : Good K q T) :
    (Good K (cswap K s q 0).1 S ∧ Good K (cswap K s q 0).2 T) ∧ Good K (cswap K s q 1).1 T ∧ Good K (cswap K s q 1).2 S := by
  obtain ⟨c0, c1, c2, c3, c4, c5, c6⟩ := cswapM_ok h hs.1.1 hq.1.1
  rw [c0]
  refine ⟨⟨hs, hq⟩, ⟨hq.1.of_xz ⟨?_, ?_, ?_⟩ c1.symm c2.symm, hq.2.of_xz c1.symm c2.symm⟩, ⟨hs.1.of_xz ⟨?_, ?_, ?_⟩ c4.symm c5.symm, hs.2.of_xz c4.symm c5.symm⟩⟩
  · rw [c1]; exact hq.1.1.x
  · rw [c3]; exact hs.1.1.y
  · rw [c2]; exact hq.1.1.z
  · rw [c4]; exact hs.1.1.x
  · rw [c6]; exact hq.1.1.y
  · rw [c5]; exact hs.1.1.z

theorem ladder_ok (h : MoCurve K) {R : Pt C × Pt C} {D : Pt C} {T : MoPoint K} {m : Nat} (hD : IsPointM K D T) (hD1 : (coords K D).z = 1) (hD0 : (coords K D).x ≠ 0)
    (h0 : Good K R.1 ((m : Int) • T)) (h1 : Good K R.2 ((m + 1 : Int) • T)) (b : Nat) (hb : b = 0 ∨ b = 1) :
    Good K (ladderStep K D R b).1 ((2 * m + b : Int) • T) ∧ Good K (ladderStep K D R b).2 ((2 * m + b + 1 : Int) • T) := by
  have ha : Good K (dadd K R.2 R.1 D) _ := daddM_ok h h1.1 h0.1 h1.2 h0.2 hD hD1 hD0 (by
    rw [add_zsmul T _ _, one_zsmul, add_sub_cancel_left])
  have es : ∀ a c d : Int, a + c = d → a • T + c • T = d • T := fun a c d hh => by rw [← hh]; exact (add_zsmul T _ _).symm
  have hadd : ((m : Int) + 1) • T + (m : Int) • T = (2 * m + 1 : Int) • T := es _ _ _ (by ring)
  rw [hadd] at ha
  obtain ⟨s0, s1⟩ := cswapM_good h h0 h1
  have dd : ∀ {s : Pt C} {S : MoPoint K}, Good K s S → Good K (dbl K s) (S + S) := fun hh => ⟨(dblM_ok h hh.1).1, (dblM_ok h hh.1).2 hh.2⟩
  rcases hb with rfl | rfl
  · have hd := dd s0.1
    rw [es _ _ (2 * m) (by ring)] at hd
    have := (cswapM_good h hd ha).1
    have e1 : (2 * m + (0 : Nat) : Int) = 2 * m := by simp
    rw [e1]
    exact this
  · have hd := dd s1.1
    rw [es _ _ (2 * m + 1 + 1) (by ring)] at hd
    have := (cswapM_good h hd ha).2
    have e1 : (2 * m + (1 : Nat) : Int) = 2 * m + 1 := by simp
    rw [e1]
    exact this

/-- the Montgomery branch of `mul` for points with non-zero abscissa -/
theorem mulMont_ok (h : MoCurve K) {s : Pt C} {T : MoPoint K} (hs : IsPointM K s T) (hT : T ≠ 0) (hx : absc T ≠ 0) {e : Limbs C} {E : Nat} (he : Rep K.P.b K.P.n e E)
    (hE0 : 0 < E) (hE : (E : Int) < 2 ^ (K.P.b * K.P.n)) : IsPointM K (mulMont K s e) (E • T) := by
  have ok := h.arith.ok
  have hn := h.arith.hn
  have hdig := he.digits (by positivity) hE
  obtain ⟨a1, a2⟩ := affineM_ok h hs
  obtain ⟨a2, a3⟩ := a2 hT
  have hnr := Digits.norm_rep ok (he.ne_nil (by omega)) hdig
  rw [he.len, he.val] at hnr
  obtain ⟨n1, n2, _⟩ := nbits_spec ok e hnr (by positivity)
  obtain ⟨n2, n3⟩ := n2 (by exact_mod_cast hE0.ne')
  unfold mulMont
  dsimp only
  generalize hnb : nbits K.P.b e = nb at *
  have n1 : E < 2 ^ nb := by exact_mod_cast n1
  have n3 : 2 ^ (nb - 1) ≤ E := by exact_mod_cast n3
  have hst : Strict K s := by
    unfold Strict
    have hd := hs.2
    cases T with
    | zero => exact absurd rfl hT
    | some x y hn => exact .inr hd.1
  have hg : Good K s ((1 : Nat) • T) := by rw [one_nsmul]; exact ⟨hs, hst⟩
  have hnbb : nb ≤ K.P.b * K.P.n := by
    by_contra hc
    have : (2 : Int) ^ (K.P.b * K.P.n) ≤ 2 ^ (nb - 1) := pow_le_pow_right₀ (by norm_num) (by omega)
    have : (2 : Int) ^ (nb - 1) ≤ E := by exact_mod_cast n3
    omega
  have key : ∀ m, m ≤ nb - 1 →
      Good K (((List.range (nb - 1)).reverse.take m).foldl (fun R i => ladderStep K (affine K s) R (bit K.P.b e i).toNat) (s, dbl K s)).1 (((E / 2 ^ (nb - 1 - m) : Nat) : Int) • T) ∧
      Good K (((List.range (nb - 1)).reverse.take m).foldl (fun R i => ladderStep K (affine K s) R (bit K.P.b e i).toNat) (s, dbl K s)).2 (((E / 2 ^ (nb - 1 - m) : Nat) + 1 : Int) • T) := by
    intro m
    induction m with
    | zero =>
      intro _
      have : E / 2 ^ (nb - 1 - 0) = 1 := by
        rw [Nat.sub_zero]
        apply Nat.div_eq_of_lt_le
        · rw [one_mul]; exact n3
        · have : nb = nb - 1 + 1 := by omega
          rw [this, pow_succ] at n1
          omega
      rw [this]
      simp only [List.take_zero, List.foldl_nil, Nat.cast_one, one_smul]
      refine ⟨⟨hs, hst⟩, ?_⟩
      have h2 : (1 + 1 : Int) • T = T + T := by norm_num [two_zsmul]
      rw [h2]
      exact ⟨(dblM_ok h hs).1, (dblM_ok h hs).2 hst⟩
    | succ m ih =>
      intro hm
      obtain ⟨i1, i2⟩ := ih (by omega)
      have hlen : m < (List.range (nb - 1)).reverse.length := by simp; omega
      rw [List.take_succ_eq_append_getElem hlen, List.foldl_append, List.foldl_cons, List.foldl_nil]
      have hget : (List.range (nb - 1)).reverse[m] = nb - 1 - 1 - m := by simp
      rw [hget]
      have hbit := bit_spec ok hdig (nb - 1 - 1 - m) (by rw [he.len]; exact Nat.div_lt_of_lt_mul (by omega))
      rw [he.val] at hbit
      have hbit' : (bit K.P.b e (nb - 1 - 1 - m)).toNat = E / 2 ^ (nb - 1 - 1 - m) % 2 := by
        rw [hbit]
        have : ((E : Int) / 2 ^ (nb - 1 - 1 - m) % 2) = ((E / 2 ^ (nb - 1 - 1 - m) % 2 : Nat) : Int) := by push_cast; rfl
        rw [this, Int.toNat_natCast]
      have hb01 : (bit K.P.b e (nb - 1 - 1 - m)).toNat = 0 ∨ (bit K.P.b e (nb - 1 - 1 - m)).toNat = 1 := by rw [hbit']; omega
      have := ladder_ok h a1 a3 (by rw [a2]; exact hx) i1 i2 _ hb01
      have harith : E / 2 ^ (nb - 1 - (m + 1)) = 2 * (E / 2 ^ (nb - 1 - m)) + E / 2 ^ (nb - 1 - 1 - m) % 2 := by
        have h1 : nb - 1 - (m + 1) = nb - 1 - 1 - m := by omega
        have h2 : nb - 1 - m = (nb - 1 - 1 - m) + 1 := by omega
        rw [h1, h2, pow_succ, ← Nat.div_div_eq_div_mul]
        omega
      rw [harith]
      rw [hbit'] at this ⊢
      push_cast at this ⊢
      exact this
  have hfin := (key (nb - 1) le_rfl).1
  rw [List.take_of_length_le (by simp), Nat.sub_self, pow_zero, Nat.div_one, natCast_zsmul] at hfin
  exact hfin.1

theorem mulM_ok (h : MoCurve K) {s : Pt C} {T : MoPoint K} (hs : IsPointM K s T) (hx : T ≠ 0 → absc T ≠ 0) {e : Limbs C} {E : Nat} (he : Rep K.P.b K.P.n e E)
    (hE : (E : Int) < 2 ^ (K.P.b * K.P.n)) : ∃ r, mul K s e = some r ∧ IsPointM K r (E • T) := by
  unfold mul
  by_cases c1 : (Big.iszilch e || isInfinity K s) = true
  · rw [if_pos c1]
    refine ⟨_, rfl, ?_⟩
    have : E • T = 0 := by
      rw [Bool.or_eq_true] at c1
      rcases c1 with c | c
      · have : (E : Int) = 0 := (he.iszilch).mp c
        have : E = 0 := by exact_mod_cast this
        rw [this]; exact zero_nsmul T
      · rw [(isInfinityM_ok h hs).mp c]; exact nsmul_zero E
    rw [this]; exact newM_ok h
  · rw [if_neg c1, if_pos h.type]
    rw [Bool.or_eq_true, not_or] at c1
    have hT : T ≠ 0 := fun hT => c1.2 ((isInfinityM_ok h hs).mpr hT)
    have hE0 : 0 < E := by
      rcases Nat.eq_zero_or_pos E with h0 | h0
      · exact absurd ((he.iszilch).mpr (by exact_mod_cast h0)) c1.1
      · exact h0
    exact ⟨_, rfl, (affineM_ok h (mulMont_ok h hs hT (hx hT) he hE0 hE)).1⟩

end Verif.Ecp
