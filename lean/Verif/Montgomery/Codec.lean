import Verif.Montgomery.Law
/- Constructors, encodings, comparison and cofactor multiplication on Montgomery curves. -/
namespace Verif.Ecp
open WeierstrassCurve
open Verif.Big Verif.Fp Verif.Rom Verif.Curve Verif.Prog Spec

set_option linter.unusedSectionVars false
variable {C : Nat} {K : Rom C} [hp : Fact K.p.Prime]

/-- `rhs` is `x^3 + A x^2 + x`, fully reduced -/
theorem rhsM_ok (h : MoCurve K) {x : Fp C} {v : ZMod K.p} (hx : Elem K.P K.p 0 1 x v) :
    Elem K.P K.p 0 1 (rhs K x) (v ^ 3 + K.a * v ^ 2 + v) ∧ limbsVal K.P.b (rhs K x).x < K.p := by
  have hc := h.arith.toConsts
  have r4 := room_one hc
  have hsq := Elem.sqr h.arith.toFieldOk hx (by omega)
  have hcube := Elem.mul h.arith.toFieldOk hsq hx (by omega) (by omega)
  have hA : Elem K.P K.p 0 1 (Fp.imul K.P (Fp.sqr K.P x) K.a) (v * v * K.a) := by
    have := h.arith.imul_ok (Fp.sqr K.P x) K.a hsq.normed h.small.1.ne' (by rw [abs_of_pos h.small.1]; exact h.small.2)
    exact .of_normed hc ⟨this.1, by rw [this.2, hsq.res]⟩
  have h5 := Elem.add hc (Elem.add hc hA hcube (r4.mono (by decide))) hx (r4.mono (by decide))
  have e : rhs K x = Fp.reduce K.P (Fp.add K.P (Fp.add K.P (Fp.imul K.P (Fp.sqr K.P x) K.a) (Fp.mul K.P (Fp.sqr K.P x) x)) x) := by
    simp [rhs, h.type]
  rw [e]
  refine ⟨Elem.to (Elem.reduce hc h5) (by ring), ?_⟩
  obtain ⟨_, _, _, q⟩ := reduce_ok hc h5.valid h5.room
  rw [q]; exact Int.emod_lt_of_pos _ (by exact_mod_cast hc.ppos)

theorem norm_newBigM (h : Arith K.P K.p) {ix : Limbs C} {X : Nat} (hx : Rep K.P.b K.P.n ix X) (hX : X < K.p) : Fp.norm K.P (newBig K.P ix) = newBig K.P ix := by
  have hn := (h.newBig_ok ix X hx hX).1
  have hr := hn.rep
  have hne := hr.ne_nil (by have := h.hn; omega)
  have hd := Digits.norm_rep h.ok hne hn.digits
  rw [hr.len] at hd
  have : Big.norm K.P.b (newBig K.P ix).x = (newBig K.P ix).x := normal_unique _ _ (by rw [hd.len, hr.len]) hd.low hr.low hd.val
  unfold Fp.norm
  rw [this]

/-- the square test rejects zero -/
theorem isSquare_zero (h : Arith K.P K.p) {r : Fp C} (hr : Elem K.P K.p 0 1 r 0) (hlt : limbsVal K.P.b r.x < K.p) : isSquare K r = false := by
  have hc := h.toConsts
  have hn := hc.hn
  have hrep := h.redc_ok r hr.normed hlt
  rw [hr.res, ZMod.val_zero] at hrep
  have hcp := cap_pos C K.P.b K.P.n
  have hcg := cap_ge (n := K.P.n) hc.ok (by omega)
  have hpR : (2 : Int) ^ 1 * K.p ≤ 2 ^ K.P.sh * K.p :=
    mul_le_mul_of_nonneg_right (pow_le_pow_right₀ (by norm_num) (by have := hc.sh5; omega)) (by positivity)
  have hpS := hc.p_sh
  have hnr := Digits.norm_rep hc.ok (hrep.ne_nil (by omega)) (hrep.digits (by positivity) (by push_cast; positivity))
  rw [hrep.len, hrep.val] at hnr
  have hj := jacobi_spec hc.ok hn (fuel K) (by unfold fuel; omega) (X := 0) (P := K.p) hnr hc.md_rep (by push_cast; omega) hp.out.one_lt
    (by have := hp.out.eq_two_or_odd; have := hc.two_lt; omega) (by omega)
  have e : Fp.jacobi K.P (fuel K) r = Big.jacobi K.P.b (fuel K) (redc K.P r) K.P.md := rfl
  rw [isSquare, e, hj]
  have : jacobiSym ((0 : Nat) : Int) K.p = 0 := by
    have : ((0 : Nat) : Int) = 0 := rfl
    rw [this]; exact jacobiSym.zero_left hp.out.one_lt
  rw [this]; decide

theorem isSquare_iff (h : Arith K.P K.p) {r : Fp C} {v : ZMod K.p} (hr : Elem K.P K.p 0 1 r v) (hlt : limbsVal K.P.b r.x < K.p) :
    isSquare K r = true ↔ v ≠ 0 ∧ IsSquare v := by
  by_cases hv : v = 0
  · subst hv
    rw [isSquare_zero h hr hlt]; simp
  · rw [isSquare_ok h hr hlt hv]; simp [hv]

/-- a root of the curve equation is a point -/
theorem onCurveM (h : MoCurve K) {x y : ZMod K.p} (e : y ^ 2 = x ^ 3 + K.a * x ^ 2 + x) : (mont (K.a : ZMod K.p)).Nonsingular x y :=
  mont_nonsingular (two_ne_zero' h.arith.toConsts) h.ne (mont_eq.mpr e)

/-- `new_big`: the abscissa is accepted exactly when a point with non-zero ordinate has it -/
theorem newBigXM_ok (h : MoCurve K) {ix : Limbs C} {X : Nat} (hx : Rep K.P.b K.P.n ix X) (hX : X < K.p) :
    (∀ T : MoPoint K, T ≠ 0 → absc T = (X : ZMod K.p) → T ≠ -T → IsPointM K (newBigX K ix) T ∧ PrintsX K (newBigX K ix) (absc T) ∧ (coords K (newBigX K ix)).z = 1) ∧
    ((∀ T : MoPoint K, T ≠ 0 → absc T = (X : ZMod K.p) → T = -T) → IsPointM K (newBigX K ix) 0 ∧ newBigX K ix = inf K (new K)) := by
  have hc := h.arith.toConsts
  have ex := Elem.norm hc (elem_newBig h.arith hx hX)
  obtain ⟨er, hlt⟩ := rhsM_ok h ex
  have hq := isSquare_iff h.arith er hlt
  have h2 := two_ne_zero' hc
  have hny : (new K).y = newInt K.P 1 := by simp [new, pnew, h.type]
  have ey := elem11 h.arith (elem_int1 h.arith)
  have e : newBigX K ix = if isSquare K (rhs K (Fp.norm K.P (newBig K.P ix))) then
      ⟨Fp.norm K.P (newBig K.P ix), (new K).y, one K.P⟩ else inf K ⟨Fp.norm K.P (newBig K.P ix), (new K).y, one K.P⟩ := by
    simp [newBigX, h.type]
  have pt : ∀ T : MoPoint K, T ≠ 0 → absc T = (X : ZMod K.p) → T ≠ -T → ((X : ZMod K.p) ^ 3 + K.a * (X : ZMod K.p) ^ 2 + X ≠ 0 ∧ IsSquare ((X : ZMod K.p) ^ 3 + K.a * (X : ZMod K.p) ^ 2 + X)) := by
    intro T hT ha hn
    cases T with
    | zero => exact absurd rfl hT
    | some x y hh =>
      have ha' : x = (X : ZMod K.p) := ha
      have hy : y ≠ 0 := by
        rintro rfl
        exact hn (by rw [Affine.Point.neg_some]; simp only [mont_negY, neg_zero])
      have := mont_eq.mp hh.1
      rw [← ha', ← this]
      exact ⟨pow_ne_zero 2 hy, y, by ring⟩
  constructor
  · intro T hT ha hn
    rw [e, if_pos (hq.mpr (pt T hT ha hn))]
    obtain ⟨l, ec⟩ := Legal.of (s := ⟨Fp.norm K.P (newBig K.P ix), (new K).y, one K.P⟩) ex (by rw [hny]; exact ey) (elem_one h.arith)
    refine ⟨⟨l, ?_⟩, fun _ => ?_, ?_⟩
    · rw [ec]
      cases T with
      | zero => exact absurd rfl hT
      | some x y hh => exact ⟨one_ne_zero, by rw [mul_one]; exact ha.symm⟩
    · show Rep _ _ (redc K.P (Fp.norm K.P (newBig K.P ix))) _
      rw [ha, zcast_val hX, norm_newBigM h.arith hx hX]
      exact h.arith.nres_redc _ _ hx hX
    · rw [ec]
  · intro hall
    have hno : ¬ isSquare K (rhs K (Fp.norm K.P (newBig K.P ix))) = true := by
      intro hsq
      obtain ⟨h0, y, hy⟩ := hq.mp hsq
      have hn := onCurveM h (x := (X : ZMod K.p)) (y := y) (by rw [← hy.symm]; ring)
      have := hall (.some _ y hn) (some_ne_zero' hn).symm rfl
      rw [Affine.Point.neg_some] at this
      injection this with _ hyy
      rw [mont_negY] at hyy
      have : 2 * y = 0 := by linear_combination hyy
      rcases mul_eq_zero.mp this with c | c
      · exact h2 c
      · exact h0 (by rw [hy, c, mul_zero])
    rw [e, if_neg hno]
    refine ⟨infM_ok h (by rw [hny]; exact ey), ?_⟩
    simp [inf, h.type]

/-- `affine` prints the reduced abscissa -/
theorem affineM_redc (h : MoCurve K) {s : Pt C} {T : MoPoint K} (hs : IsPointM K s T) (hT : T ≠ 0) (hpr : PrintsX K s (absc T)) :
    Rep K.P.b K.P.n (redc K.P (affine K s).x) ((absc T).val : Int) := by
  have hco := h.arith.toConsts
  obtain ⟨s1, s2, s3⟩ := hs.1.elems
  have hi : ¬ isInfinity K s = true := fun hc => hT ((isInfinityM_ok h hs).mp hc)
  obtain ⟨hcx, _⟩ := (affineM_ok h hs).2 hT
  have e : affine K s = if Fp.equals K.P s.z (newInt K.P 1) then s else
      { x := Fp.reduce K.P (Fp.mul K.P s.x (Fp.inverse K.P s.z)), y := s.y, z := newInt K.P 1 } := by
    simp [affine, h.type, hi]
  have h1 := elem_equals h.arith s3 (elem_int1 h.arith)
  by_cases c : Fp.equals K.P s.z (newInt K.P 1) = true
  · rw [e, if_pos c]; exact hpr (h1.mp c)
  · have hcx : residue K.P K.p (affine K s).x = absc T := hcx
    rw [e, if_neg c] at hcx ⊢
    obtain ⟨i1, i2⟩ := h.arith.inverse_ok _ _ s3.valid s3.room (fun _ => s3.normed)
    have hi' : Elem K.P K.p 0 1 (Fp.inverse K.P s.z) (coords K s).z⁻¹ := .of_normed hco ⟨i1, i2.trans (by rw [s3.res])⟩
    have hm := Elem.mul h.arith.toFieldOk s1 hi' (by omega) (by omega)
    obtain ⟨r1, _, _, r4⟩ := reduce_ok hco hm.valid hm.room
    have kx := h.arith.redc_ok _ r1 (by rw [r4]; exact Int.emod_lt_of_pos _ (by exact_mod_cast hco.ppos))
    dsimp only at hcx
    rw [hcx] at kx
    exact kx

theorem tobytesM_ok (h : MoCurve K) {s : Pt C} {T : MoPoint K} (hs : IsPointM K s T) (hT : T ≠ 0) (hpr : PrintsX K s (absc T)) (buf : List (BitVec 8)) (c : Bool)
    (hl : K.modbytes + 1 ≤ buf.length) : tobytes K s buf c = some (sec1M K (absc T) ++ buf.drop (K.modbytes + 1)) := by
  have bx := toBytes_rep h.arith.toConsts (affineM_redc h hs hT hpr)
  have c1 : ¬ buf.length < K.modbytes + 1 := by omega
  simp [tobytes, h.type, bx, c1, sec1M]

/-- `frombytes`: everything but the first byte matters; the abscissae of points with non-zero ordinate are accepted -/
theorem frombytesM_ok (h : MoCurve K) (hb : BytesOk K) (bs : List (BitVec 8)) (hl : K.modbytes + 1 ≤ bs.length) :
    ∃ r, frombytes K bs = some r ∧ (∀ T : MoPoint K, T ≠ 0 → T ≠ -T → beBytes K.modbytes (absc T).val <+: bs.drop 1 → IsPointM K r T ∧ PrintsX K r (absc T)) ∧
      ((∀ T : MoPoint K, T ≠ 0 → T ≠ -T → ¬ beBytes K.modbytes (absc T).val <+: bs.drop 1) → IsPointM K r 0) := by
  have hco := h.arith.toConsts
  have e0 : ¬ bs.length < K.modbytes + 1 := by omega
  have hdl : K.modbytes ≤ (bs.drop 1).length := by simp; omega
  have hpx := Props.C12_frombytes (C := C) hco.ok hco.hn K.modbytes hb.room ((bs.drop 1).take K.modbytes)
  rw [List.take_take, min_self] at hpx
  have hcomp1 := Rep.comp_ge hpx hco.md_rep
  simp only [frombytes, e0, if_false]
  have hpre : ∀ x : ZMod K.p, beBytes K.modbytes x.val <+: bs.drop 1 ↔ beNat ((bs.drop 1).take K.modbytes) = x.val := fun x =>
    take_eq_beBytes hdl (lt_of_lt_of_le (ZMod.val_lt x) hb.fits.le)
  generalize fromBytes (C := C) K.P.b K.P.n K.modbytes ((bs.drop 1).take K.modbytes) = px at *
  by_cases c1 : comp px K.P.md ≥ 0
  · rw [if_pos c1]
    refine ⟨_, rfl, fun T _ _ hT => ?_, fun _ => newM_ok h⟩
    have h1 := hcomp1.mp c1
    have h2 := ZMod.val_lt (absc T)
    rw [(hpre _).mp hT] at h1
    exact absurd h2 (by exact_mod_cast not_lt.mpr h1)
  rw [if_neg c1, if_pos h.type]
  have hX : beNat ((bs.drop 1).take K.modbytes) < K.p := by
    by_contra hcon
    exact c1 (hcomp1.mpr (by exact_mod_cast not_lt.mp hcon))
  obtain ⟨k1, k2⟩ := newBigXM_ok h hpx hX
  refine ⟨_, rfl, fun T h0 hn hT => ?_, fun hn => ?_⟩
  · obtain ⟨a, b, _⟩ := k1 T h0 ((eq_cast_iff hX _).mpr ((hpre _).mp hT)) hn
    exact ⟨a, b⟩
  · refine (k2 fun T h0 ha => ?_).1
    by_contra hne
    exact hn T h0 hne ((hpre _).mpr ((eq_cast_iff hX _).mp ha))

/-- `equals` compares points up to sign, unless one of them is the representative `(0 : 0)` of infinity -/
theorem equalsM_ok (h : MoCurve K) {s q : Pt C} {S T : MoPoint K} (hs : IsPointM K s S) (hq : IsPointM K q T) :
    (Strict K s → Strict K q → (equals K s q = true ↔ S = T ∨ S = -T)) ∧ (¬ Strict K s ∨ ¬ Strict K q → equals K s q = true) := by
  obtain ⟨s1, _, s3⟩ := hs.1.elems
  obtain ⟨q1, _, q3⟩ := hq.1.elems
  have e : equals K s q = Fp.equals K.P (Fp.mul K.P s.x q.z) (Fp.mul K.P q.x s.z) := by
    simp [equals, h.type]
  have m1 := Elem.mul h.arith.toFieldOk s1 q3 (by omega) (by omega)
  have m2 := Elem.mul h.arith.toFieldOk q1 s3 (by omega) (by omega)
  rw [e, elem_equals h.arith m1 m2]
  have hd := hs.2
  have hd' := hq.2
  constructor
  · intro hS hQ
    cases S with
    | zero =>
      have z0 : (coords K s).z = 0 := hd
      have x0 : (coords K s).x ≠ 0 := hS.resolve_right (fun c => c z0)
      rw [z0, mul_zero, mul_eq_zero]
      cases T with
      | zero => exact ⟨fun _ => .inl rfl, fun _ => .inr hd'⟩
      | some x y hn =>
        constructor
        · rintro (c | c)
          · exact absurd c x0
          · exact absurd c hd'.1
        · rintro (c | c)
          · exact absurd c (some_ne_zero' hn)
          · have : Affine.Point.some x y hn = 0 := by
              rw [← neg_neg (Affine.Point.some x y hn), ← c]; rfl
            exact absurd this.symm (some_ne_zero' hn)
    | some x y hn =>
      obtain ⟨k1, k2⟩ := hd
      cases T with
      | zero =>
        have z0 : (coords K q).z = 0 := hd'
        have x0 : (coords K q).x ≠ 0 := hQ.resolve_right (fun c => c z0)
        rw [z0, mul_zero]
        constructor
        · intro c; exact absurd c.symm (mul_ne_zero x0 k1)
        · rintro (c | c)
          · exact absurd c.symm (some_ne_zero' hn)
          · exact absurd (c.trans (by rfl : -(0 : MoPoint K) = 0)).symm (some_ne_zero' hn)
      | some x' y' hn' =>
        obtain ⟨k3, k4⟩ := hd'
        rw [k2, k4]
        have : x * (coords K s).z * (coords K q).z = x' * (coords K q).z * (coords K s).z ↔ x = x' := by
          constructor
          · intro c
            have : (x - x') * ((coords K s).z * (coords K q).z) = 0 := by linear_combination c
            rcases mul_eq_zero.mp this with c | c
            · exact sub_eq_zero.mp c
            · exact absurd c (mul_ne_zero k1 k3)
          · rintro rfl; ring
        rw [this]
        constructor
        · rintro rfl
          have e1 := mont_eq.mp hn.1
          have e2 := mont_eq.mp hn'.1
          have : (y - y') * (y + y') = 0 := by linear_combination e1 - e2
          rcases mul_eq_zero.mp this with c | c
          · left
            have : y = y' := sub_eq_zero.mp c
            subst this; rfl
          · right
            rw [Affine.Point.neg_some]
            have : y = -y' := eq_neg_of_add_eq_zero_left c
            subst this
            simp only [mont_negY]
        · rintro (c | c)
          · injection c
          · rw [Affine.Point.neg_some] at c
            injection c
  · intro hh
    have nz : ∀ r : Pt C, ¬ Strict K r → (coords K r).x = 0 ∧ (coords K r).z = 0 := fun r hr => by
      unfold Strict at hr; push Not at hr; exact hr
    rcases hh with c | c
    · obtain ⟨a, b⟩ := nz _ c
      rw [a, b, zero_mul, mul_zero]
    · obtain ⟨a, b⟩ := nz _ c
      rw [a, b, zero_mul, mul_zero]

theorem cfpM_ok (h : MoCurve K) {s : Pt C} {T : MoPoint K} (hs : IsPointM K s T) (hk : K.cofI = 1 ∨ K.cofI = 4 ∨ K.cofI = 8) :
    ∃ r, cfp K s = some r ∧ IsPointM K r (K.cofI • T) := by
  have d : ∀ {s : Pt C} {T : MoPoint K}, IsPointM K s T → IsPointM K (Ecp.dbl K s) ((2 : ℤ) • T) := fun hs => by rw [two_zsmul]; exact (dblM_ok h hs).1
  unfold cfp
  rcases hk with c | c | c
  · rw [if_pos c, c, one_zsmul]; exact ⟨s, rfl, hs⟩
  · rw [if_neg (by omega), if_pos c, c]
    exact ⟨_, rfl, by have := d (d hs); rwa [← mul_zsmul] at this⟩
  · rw [if_neg (by omega), if_neg (by omega), if_pos c, c]
    exact ⟨_, rfl, by have := d (d (d hs)); rwa [← mul_zsmul, ← mul_zsmul] at this⟩

end Verif.Ecp
