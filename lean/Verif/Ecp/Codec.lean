import Verif.Ecp.Points
import Verif.Props.Big
/- Points from coordinates, and the octet encoding, on Weierstrass curves. -/
namespace Verif.Ecp
open Verif.Big Verif.Fp Verif.Rom Verif.Curve Verif.Prog Spec WeierstrassCurve

set_option linter.unusedSectionVars false
variable {C : Nat} {K : Rom C} [hp : Fact K.p.Prime]

/-- right-hand side of the curve equation -/
theorem rhs_ok (h : WCurve K) {x : Fp C} {v : ZMod K.p} (hx : Elem K.P K.p 0 1 x v) :
    Elem K.P K.p 0 1 (rhs K x) (v ^ 3 + K.a * v + Bcoef K) ∧ limbsVal K.P.b (rhs K x).x < K.p := by
  have hc := h.arith.toConsts
  have r4 := room_one hc
  have hbv := elem_bv h.arith h.bv
  have hcube := Elem.mul h.arith.toFieldOk (Elem.sqr h.arith.toFieldOk hx (by omega)) hx (by omega) (by omega)
  have fin : ∀ {l k : Nat} {a : Fp C} {w : ZMod K.p}, Elem K.P K.p l k a w →
      Elem K.P K.p 0 1 (Fp.reduce K.P a) w ∧ limbsVal K.P.b (Fp.reduce K.P a).x < K.p := by
    intro l k a w ha
    refine ⟨Elem.reduce hc ha, ?_⟩
    obtain ⟨_, _, _, r4⟩ := reduce_ok hc ha.valid ha.room
    rw [r4]; exact Int.emod_lt_of_pos _ (by exact_mod_cast hc.ppos)
  rcases h.a with ⟨ha, _⟩ | ha
  · have e : rhs K x = Fp.reduce K.P (Fp.add K.P (Fp.mul K.P (Fp.sqr K.P x) x) (newBig K.P K.bv)) := by simp [rhs, h.type, ha]
    have := fin (Elem.add hc hcube hbv (r4.mono (by decide)))
    rw [e]
    exact ⟨Elem.to this.1 (by rw [ha]; push_cast; ring), this.2⟩
  · have e : rhs K x = Fp.reduce K.P (Fp.add K.P (Fp.add K.P (Fp.mul K.P (Fp.sqr K.P x) x) (Fp.norm K.P (Fp.neg K.P (Fp.imul K.P x 3)))) (newBig K.P K.bv)) := by
      simp [rhs, h.type, ha]
    have h3 : Elem K.P K.p 0 1 (Fp.imul K.P x 3) (v * 3) := by
      have hb3 : |(3 : Int)| < 2 ^ K.P.b := by
        have hb := hc.ok.hb
        calc |(3 : Int)| < 2 ^ 2 := by norm_num
          _ ≤ 2 ^ K.P.b := pow_le_pow_right₀ (by norm_num) (by omega)
      have := h.arith.imul_ok x 3 hx.normed (by norm_num) hb3
      exact .of_normed hc ⟨this.1, by rw [this.2, hx.res]; norm_num⟩
    have hn := Elem.norm hc (Elem.neg hc h.word h3 (r4.mono (by decide)))
    have h5 := Elem.add hc hcube hn (r4.mono (by decide))
    have := fin (Elem.add hc h5 hbv (r4.mono (by decide)))
    rw [e]
    exact ⟨Elem.to this.1 (by rw [ha]; push_cast; ring), this.2⟩

/-- the square test on a reduced element -/
theorem isSquare_ok (h : Arith K.P K.p) {r : Fp C} {v : ZMod K.p} (hr : Elem K.P K.p 0 1 r v) (hlt : limbsVal K.P.b r.x < K.p) (hv : v ≠ 0) :
    isSquare K r = true ↔ IsSquare v := by
  have hc := h.toConsts
  have hn := hc.hn
  have hrep := h.redc_ok r hr.normed hlt
  rw [hr.res] at hrep
  have hcg := cap_ge (n := K.P.n) hc.ok (by omega)
  have hpR : (2 : Int) ^ 1 * K.p ≤ 2 ^ K.P.sh * K.p :=
    mul_le_mul_of_nonneg_right (pow_le_pow_right₀ (by norm_num) (by have := hc.sh5; omega)) (by positivity)
  have hpS := hc.p_sh
  have hcp := cap_pos C K.P.b K.P.n
  have hvlt : (v.val : Int) < K.p := by exact_mod_cast ZMod.val_lt v
  have hnr := Digits.norm_rep hc.ok (hrep.ne_nil (by omega)) (hrep.digits (by positivity) (by omega))
  rw [hrep.len, hrep.val] at hnr
  have hv' : ((v.val : Nat) : ZMod K.p) = v := ZMod.natCast_zmod_val v
  have key := Props.C11_residuosity hc.ok hn (fuel K) (by unfold fuel; omega) (X := v.val) hnr hc.md_rep (by omega) (by omega)
    (by have := hc.two_lt; omega) (by rw [hv']; exact hv)
  rw [hv'] at key
  rw [← key, isSquare, beq_iff_eq]; rfl

/-- a solution of the curve equation is a point -/
theorem onCurve (h : WCurve K) {x y : ZMod K.p} (e : y ^ 2 = x ^ 3 + K.a * x + Bcoef K) : (curve K).Nonsingular x y := by
  have heq : (curve K).Equation x y := short_eq.mpr e
  refine (Affine.nonsingular_iff _ _).mpr ⟨heq, Or.inr ?_⟩
  have hy := y_ne h.noTwo heq
  have h2 := two_ne_zero' h.arith.toConsts
  simp only [curve, short]
  intro hh
  have : 2 * y = 0 := by linear_combination hh
  exact (mul_ne_zero h2 hy) this

theorem elem_newBig (h : Arith K.P K.p) {x : Limbs C} {X : Nat} (hx : Rep K.P.b K.P.n x X) (hX : X < K.p) : Elem K.P K.p 0 1 (newBig K.P x) (X : ZMod K.p) :=
  .of_normed h.toConsts (h.newBig_ok x X hx hX)

/-- legal `(x : y : 1)` with a solution of the equation -/
theorem isPoint_finite (_h : WCurve K) {s : Pt C} {x y : ZMod K.p} (h1 : Elem K.P K.p 0 1 s.x x) (h2 : Elem K.P K.p 1 1 s.y y)
    (h3 : Elem K.P K.p 0 1 s.z 1) (hh : (curve K).Nonsingular x y) : IsPoint K s (Affine.Point.some x y hh) := by
  obtain ⟨l, e⟩ := Legal.of h1 h2 h3
  refine ⟨l, ?_⟩
  rw [e]
  exact ⟨one_ne_zero, by simp, by simp⟩

theorem some_ne_zero' {F : Type} [Field F] {W : Affine F} {x y : F} (hh : W.Nonsingular x y) : (0 : W.Point) ≠ Affine.Point.some x y hh := by
  intro hc; cases hc

/-- `new_bigs` -/
theorem newBigs_ok (h : WCurve K) {ix iy : Limbs C} {X Y : Nat} (hx : Rep K.P.b K.P.n ix X) (hX : X < K.p) (hy : Rep K.P.b K.P.n iy Y) (hY : Y < K.p) :
    ∃ T, IsPoint K (newBigs K ix iy) T ∧ ∀ x y hh, T = Affine.Point.some x y hh ↔ x = (X : ZMod K.p) ∧ y = (Y : ZMod K.p) := by
  have ex := Elem.norm h.arith.toConsts (elem_newBig h.arith hx hX)
  have ey := elem_newBig h.arith hy hY
  obtain ⟨er, hlt⟩ := rhs_ok h ex
  have e2 := Elem.sqr h.arith.toFieldOk ey (by omega)
  have hq := elem_equals h.arith e2 er
  have e : newBigs K ix iy = if Fp.equals K.P (Fp.sqr K.P (newBig K.P iy)) (rhs K (Fp.norm K.P (newBig K.P ix))) then
      ⟨Fp.norm K.P (newBig K.P ix), newBig K.P iy, one K.P⟩ else inf K ⟨Fp.norm K.P (newBig K.P ix), newBig K.P iy, one K.P⟩ := by
    simp [newBigs, h.type]
  rw [e]
  split_ifs with c
  · have eq := hq.mp c
    have hh := onCurve h (x := (X : ZMod K.p)) (y := (Y : ZMod K.p)) (by linear_combination eq)
    refine ⟨_, isPoint_finite h ex (elem11 h.arith ey) (elem_one h.arith) hh, ?_⟩
    intro x y hh'
    simp only [Affine.Point.some.injEq]
    exact ⟨fun a => ⟨a.1.symm, a.2.symm⟩, fun a => ⟨a.1.symm, a.2.symm⟩⟩
  · refine ⟨0, inf_ok h _, ?_⟩
    intro x y hh'
    constructor
    · intro hc; exact absurd hc (some_ne_zero' hh')
    · rintro ⟨rfl, rfl⟩
      exact absurd (hq.mpr (by have := short_eq.mp hh'.1; linear_combination this)) c

theorem neg_parity (hodd : K.p % 2 = 1) {v : ZMod K.p} (hv : v ≠ 0) : (-v).val % 2 = 1 - v.val % 2 := by
  have : NeZero v := ⟨hv⟩
  have hlt := ZMod.val_lt v
  rw [ZMod.val_neg_of_ne_zero]
  omega

/-- the root computed in `new_bigint` -/
def rootOf (K : Rom C) (ix : Limbs C) : Fp C := Fp.sqrt K.P (rhs K (Fp.norm K.P (newBig K.P ix)))

/-- `new_bigint`: the printed root decides which root is taken -/
theorem newBigint_gen (h : WCurve K) (hs : SqrtOk K.P K.p) {ix : Limbs C} {X : Nat} (hx : Rep K.P.b K.P.n ix X) (hX : X < K.p) (s : Nat) :
    (¬ IsSquare ((X : ZMod K.p) ^ 3 + K.a * X + Bcoef K) ∧ IsPoint K (newBigint K ix s) 0) ∨
    ∃ (R : ZMod K.p), Elem K.P K.p 0 1 (rootOf K ix) R ∧ R ^ 2 = (X : ZMod K.p) ^ 3 + K.a * X + Bcoef K ∧
      newBigint K ix s = ⟨Fp.norm K.P (newBig K.P ix), if parity (redc K.P (rootOf K ix)) ≠ s then Fp.neg K.P (rootOf K ix) else rootOf K ix, one K.P⟩ ∧
      ∃ hh, IsPoint K (newBigint K ix s) (Affine.Point.some (X : ZMod K.p) (if parity (redc K.P (rootOf K ix)) ≠ s then -R else R) hh) := by
  have hc := h.arith.toConsts
  have ex := Elem.norm hc (elem_newBig h.arith hx hX)
  obtain ⟨er, hlt⟩ := rhs_ok h ex
  have hv := h.noTwo (X : ZMod K.p)
  have hq := isSquare_ok h.arith er hlt hv
  unfold newBigint
  dsimp only
  by_cases c : isSquare K (rhs K (Fp.norm K.P (newBig K.P ix))) = true
  · right
    simp only [if_pos c]
    have hsq := hq.mp c
    obtain ⟨n1, n2⟩ := hs 1 _ er.normed.valid ((room_one hc).mono (by omega)) (by rw [er.res]; exact hsq)
    have en : Elem K.P K.p 0 1 (Fp.sqrt K.P (rhs K (Fp.norm K.P (newBig K.P ix)))) (residue K.P K.p (Fp.sqrt K.P (rhs K (Fp.norm K.P (newBig K.P ix))))) :=
      .of_normed hc ⟨n1, rfl⟩
    rw [er.res] at n2
    change Elem K.P K.p 0 1 (rootOf K ix) _ at en
    refine ⟨_, en, by rw [pow_two]; exact n2, rfl, ?_⟩
    unfold rootOf at *
    generalize Fp.sqrt K.P (rhs K (Fp.norm K.P (newBig K.P ix))) = ny at *
    generalize residue K.P K.p ny = R at *
    by_cases hpar : parity (redc K.P ny) ≠ s
    · have hh := onCurve h (x := (X : ZMod K.p)) (y := -R) (by linear_combination n2)
      simp only [if_pos hpar]
      exact ⟨hh, isPoint_finite h ex (Elem.neg hc h.word en ((room_one hc).mono (by decide))) (elem_one h.arith) hh⟩
    · have hh := onCurve h (x := (X : ZMod K.p)) (y := R) (by linear_combination n2)
      simp only [if_neg hpar]
      exact ⟨hh, isPoint_finite h ex (elem11 h.arith en) (elem_one h.arith) hh⟩
  · simp only [if_neg c]
    exact Or.inl ⟨fun hh => c (hq.mpr hh), inf_ok h _⟩

/-- `new_bigint` with a Montgomery modulus: the root of the requested parity -/
theorem newBigint_ok (h : WCurve K) (hm : MontConsts K.P K.p) (hs : SqrtOk K.P K.p) {ix : Limbs C} {X : Nat} (hx : Rep K.P.b K.P.n ix X) (hX : X < K.p)
    (s : Nat) (hs2 : s < 2) :
    ∃ T, IsPoint K (newBigint K ix s) T ∧ ∀ x y hh, T = Affine.Point.some x y hh ↔ x = (X : ZMod K.p) ∧ y.val % 2 = s := by
  have hodd := odd_of_prime h.arith.toConsts
  rcases newBigint_gen h hs hx hX s with ⟨hns, h0⟩ | ⟨R, en, hR, _, hh, hpt⟩
  · refine ⟨0, h0, ?_⟩
    intro x y hh'
    constructor
    · intro hc; exact absurd hc (some_ne_zero' hh')
    · rintro ⟨rfl, _⟩
      exact absurd ⟨y, by have := short_eq.mp hh'.1; linear_combination -this⟩ hns
  · have hR0 : R ≠ 0 := by
      rintro rfl
      exact h.noTwo (X : ZMod K.p) (by rw [← hR]; ring)
    have hrd := redc_signed hm en.normed.valid
    rw [en.res, if_neg (by simp [hR0])] at hrd
    have hpar : parity (redc K.P (rootOf K ix)) = ((R.val % 2 : Nat) : Int) := by rw [hrd.parity hm.ok hm.hn]; push_cast; rfl
    refine ⟨_, hpt, ?_⟩
    have hval : (if parity (redc K.P (rootOf K ix)) ≠ s then -R else R).val % 2 = s := by
      split_ifs with c
      · rw [neg_parity hodd hR0]
        rw [hpar] at c
        have : R.val % 2 ≠ s := by exact_mod_cast c
        omega
      · rw [hpar] at c
        have : R.val % 2 = s := by simp only [ne_eq, not_not] at c; exact_mod_cast c
        exact this
    have hsq : (if parity (redc K.P (rootOf K ix)) ≠ s then -R else R) ^ 2 = (X : ZMod K.p) ^ 3 + K.a * X + Bcoef K := by
      split_ifs
      · linear_combination hR
      · exact hR
    have hne : (if parity (redc K.P (rootOf K ix)) ≠ s then -R else R) ≠ 0 := by
      intro hc; rw [hc] at hsq; exact h.noTwo (X : ZMod K.p) (by rw [← hsq]; ring)
    generalize (if parity (redc K.P (rootOf K ix)) ≠ s then -R else R) = Y at *
    intro x y hh'
    simp only [Affine.Point.some.injEq]
    constructor
    · rintro ⟨rfl, rfl⟩; exact ⟨rfl, hval⟩
    · rintro ⟨rfl, hy⟩
      refine ⟨rfl, ?_⟩
      have hy2 : Y ^ 2 = y ^ 2 := by rw [hsq, short_eq.mp hh'.1]
      rcases sq_eq_sq_iff_eq_or_eq_neg.mp hy2 with e | e
      · exact e
      · exfalso
        have hy0 : y ≠ 0 := y_ne h.noTwo hh'.1
        rw [e, neg_parity hodd hy0] at hval
        omega

/-! ### encoding -/

theorem toBytes_rep (h : Consts K.P K.p) {w : Limbs C} {v : ZMod K.p} (hw : Rep K.P.b K.P.n w (v.val : Int)) :
    toBytes K.P.b K.modbytes w = beBytes K.modbytes v.val := by
  have hn := h.hn
  have hvlt : (v.val : Int) < K.p := by exact_mod_cast ZMod.val_lt v
  have hpS := h.p_sh
  have hpR : (2 : Int) ^ 1 * K.p ≤ 2 ^ K.P.sh * K.p :=
    mul_le_mul_of_nonneg_right (pow_le_pow_right₀ (by norm_num) (by have := h.sh5; omega)) (by positivity)
  have hnr := Digits.norm_rep h.ok (hw.ne_nil (by omega)) (hw.digits (by positivity) (by omega))
  rw [hw.len, hw.val] at hnr
  exact Props.C12_tobytes h.ok K.modbytes w hnr

/-- coordinates printed after `affine` -/
theorem affine_redc (h : WCurve K) {s : Pt C} {x y : ZMod K.p} {hh} (hs : IsPoint K s (Affine.Point.some x y hh))
    (hx : (coords K s).z = 1 → Rep K.P.b K.P.n (redc K.P s.x) (x.val : Int)) (hy : (coords K s).z = 1 → Rep K.P.b K.P.n (redc K.P s.y) (y.val : Int)) :
    Rep K.P.b K.P.n (redc K.P (affine K s).x) (x.val : Int) ∧ Rep K.P.b K.P.n (redc K.P (affine K s).y) (y.val : Int) := by
  have hc := h.arith.toConsts
  obtain ⟨s1, s2, s3⟩ := hs.1.elems
  have hi : ¬ isInfinity K s = true := fun hc => (some_ne_zero' hh) ((isInfinity_ok h hs).mp hc).symm
  have hco := affine_coords h hs
  have e : affine K s = if Fp.equals K.P s.z (newInt K.P 1) then s else
      { x := Fp.reduce K.P (Fp.mul K.P s.x (Fp.inverse K.P s.z)), y := Fp.reduce K.P (Fp.mul K.P s.y (Fp.inverse K.P s.z)), z := newInt K.P 1 } := by
    simp [affine, h.type, hi]
  have h1 := elem_equals h.arith s3 (elem_int1 h.arith)
  by_cases c : Fp.equals K.P s.z (newInt K.P 1) = true
  · rw [e, if_pos c]
    exact ⟨hx (h1.mp c), hy (h1.mp c)⟩
  · have hcx : residue K.P K.p (affine K s).x = x := congrArg Proj.x hco
    have hcy : residue K.P K.p (affine K s).y = y := congrArg Proj.y hco
    rw [e, if_neg c] at hcx hcy ⊢
    obtain ⟨i1, i2⟩ := h.arith.inverse_ok _ _ s3.valid s3.room (fun _ => s3.normed)
    have hi' : Elem K.P K.p 0 1 (Fp.inverse K.P s.z) (coords K s).z⁻¹ := .of_normed hc ⟨i1, i2.trans (by rw [s3.res])⟩
    have key : ∀ {a : Fp C} {w : ZMod K.p}, Elem K.P K.p 0 1 a w → Rep K.P.b K.P.n (redc K.P (Fp.reduce K.P a)) (((residue K.P K.p (Fp.reduce K.P a))).val : Int) := by
      intro a w ha
      obtain ⟨r1, _, _, r4⟩ := reduce_ok hc ha.valid ha.room
      exact h.arith.redc_ok _ r1 (by rw [r4]; exact Int.emod_lt_of_pos _ (by exact_mod_cast hc.ppos))
    have kx := key (Elem.mul h.arith.toFieldOk s1 hi' (by omega) (by omega))
    have ky := key (Elem.mul h.arith.toFieldOk s2 hi' (by omega) (by omega))
    dsimp only at hcx hcy
    rw [hcx] at kx
    rw [hcy] at ky
    exact ⟨kx, ky⟩

theorem tobytes_gen (h : WCurve K) {s : Pt C} {x y : ZMod K.p}
    (hx : Rep K.P.b K.P.n (redc K.P (affine K s).x) (x.val : Int)) (hy : Rep K.P.b K.P.n (redc K.P (affine K s).y) (y.val : Int)) (buf : List (BitVec 8)) :
    (2 * K.modbytes + 1 ≤ buf.length → tobytes K s buf false = some (sec1U K x y ++ buf.drop (2 * K.modbytes + 1))) ∧
    (K.modbytes + 1 ≤ buf.length → tobytes K s buf true = some (sec1C K x y ++ buf.drop (K.modbytes + 1))) := by
  have hc := h.arith.toConsts
  have bx := toBytes_rep hc hx
  have hby := toBytes_rep hc hy
  have hpar := hy.parity hc.ok hc.hn
  constructor
  · intro hl
    have c1 : ¬ buf.length < K.modbytes + 1 := by omega
    have c2 : ¬ buf.length < 2 * K.modbytes + 1 := by omega
    simp [tobytes, h.type, bx, hby, c1, c2, sec1U]
  · intro hl
    have c1 : ¬ buf.length < K.modbytes + 1 := by omega
    have : (parity (redc K.P (affine K s).y) = 1) ↔ y.val % 2 = 1 := by rw [hpar]; omega
    simp [tobytes, h.type, bx, c1, sec1C, this]

/-- Montgomery moduli: printed coordinates.  `x = 0` held as a non-zero multiple of `p` is the only exception (C17). -/
theorem mont_redc (h : WCurve K) (hm : MontConsts K.P K.p) {s : Pt C} {x y : ZMod K.p} {hh} (hs : IsPoint K s (Affine.Point.some x y hh))
    (hx0 : x = 0 → (coords K s).z = 1 → limbsVal K.P.b s.x.x = 0) :
    Rep K.P.b K.P.n (redc K.P (affine K s).x) (x.val : Int) ∧ Rep K.P.b K.P.n (redc K.P (affine K s).y) (y.val : Int) := by
  obtain ⟨s1, s2, s3⟩ := hs.1.elems
  have hd : (coords K s).z ≠ 0 ∧ (coords K s).x = x * (coords K s).z ∧ (coords K s).y = y * (coords K s).z := hs.2
  obtain ⟨_, k2, k3⟩ := hd
  refine affine_redc h hs ?_ ?_
  · intro hz
    rw [hz, mul_one] at k2
    have := redc_signed hm s1.normed.valid
    rw [s1.res, k2] at this
    rwa [if_neg (by rintro ⟨a, b⟩; exact b (hx0 a hz))] at this
  · intro hz
    rw [hz, mul_one] at k3
    have := redc_signed hm (Elem.one s2 (by omega) (by omega))
    rw [s2.res, k3] at this
    rwa [if_neg (by rintro ⟨a, _⟩; exact y_ne h.noTwo hh.1 a)] at this

/-! ### decoding -/

theorem take_eq_beBytes {mb : Nat} {l : List (BitVec 8)} (hl : mb ≤ l.length) {V : Nat} (hV : V < 256 ^ mb) : beBytes mb V <+: l ↔ beNat (l.take mb) = V := by
  rw [List.prefix_iff_eq_take, beBytes_length]
  constructor
  · intro e; rw [← e, beNat_beBytes, Nat.mod_eq_of_lt hV]
  · intro e
    have h1 : (l.take mb).length = mb := by simp [hl]
    have h2 := beBytes_beNat (l.take mb)
    rw [h1, e] at h2
    exact h2

theorem prefix_append_iff {α : Type} [DecidableEq α] (a b l : List α) : a ++ b <+: l ↔ a <+: l ∧ b <+: l.drop a.length := by
  constructor
  · rintro ⟨t, rfl⟩
    refine ⟨⟨b ++ t, by simp⟩, ⟨t, by simp⟩⟩
  · rintro ⟨⟨t, rfl⟩, ⟨u, hu⟩⟩
    refine ⟨u, ?_⟩
    simp only [List.drop_left] at hu
    rw [List.append_assoc, hu]

theorem zcast_val {X : Nat} (hX : X < K.p) : ((X : ZMod K.p)).val = X := ZMod.val_natCast_of_lt hX

theorem eq_cast_iff {X : Nat} (hX : X < K.p) (x : ZMod K.p) : x = (X : ZMod K.p) ↔ X = x.val := by
  constructor
  · rintro rfl; exact (zcast_val hX).symm
  · intro e; rw [e]; exact (ZMod.natCast_zmod_val x).symm

theorem sec1C_prefix (hb : BytesOk K) {t : BitVec 8} {bs : List (BitVec 8)} (hl : K.modbytes ≤ bs.length) (x y : ZMod K.p) :
    sec1C K x y <+: t :: bs ↔ t = (if y.val % 2 = 1 then 0x03#8 else 0x02#8) ∧ beNat (bs.take K.modbytes) = x.val := by
  rw [sec1C, List.cons_prefix_cons, take_eq_beBytes hl (lt_trans (ZMod.val_lt x) hb.fits)]
  constructor <;> (rintro ⟨a, b⟩; exact ⟨a.symm, b⟩)

theorem sec1U_prefix (hb : BytesOk K) {t : BitVec 8} {bs : List (BitVec 8)} (hl : 2 * K.modbytes ≤ bs.length) (x y : ZMod K.p) :
    sec1U K x y <+: t :: bs ↔ t = 0x04#8 ∧ beNat (bs.take K.modbytes) = x.val ∧ beNat ((bs.drop K.modbytes).take K.modbytes) = y.val := by
  rw [sec1U, List.cons_prefix_cons, prefix_append_iff, beBytes_length, take_eq_beBytes (by omega) (lt_trans (ZMod.val_lt x) hb.fits),
    take_eq_beBytes (by rw [List.length_drop]; omega) (lt_trans (ZMod.val_lt y) hb.fits)]
  constructor <;> (rintro ⟨a, b⟩; exact ⟨a.symm, b⟩)

theorem sec1U_head {K : Rom C} {x y : ZMod K.p} {t : BitVec 8} {bs : List (BitVec 8)} (h : sec1U K x y <+: t :: bs) : t = 0x04#8 :=
  ((List.cons_prefix_cons.mp h).1).symm

theorem sec1C_head {K : Rom C} {x y : ZMod K.p} {t : BitVec 8} {bs : List (BitVec 8)} (h : sec1C K x y <+: t :: bs) :
    t = if y.val % 2 = 1 then 0x03#8 else 0x02#8 := ((List.cons_prefix_cons.mp h).1).symm

/-- `frombytes` decodes exactly the SEC 1 encodings; every other string gives the point at infinity.  The property
of the compressed branch is a parameter. -/
theorem frombytes_gen (h : WCurve K) (hb : BytesOk K) (bs : List (BitVec 8)) (hl : K.modbytes + 1 ≤ bs.length)
    (hl4 : bs.headD 0 = 0x04#8 → 2 * K.modbytes + 1 ≤ bs.length)
    (hcomp : ∀ (ix : Limbs C) (X s : Nat), Rep K.P.b K.P.n ix X → X < K.p → s < 2 → bs.headD 0 = 2 ∨ bs.headD 0 = 3 → ∃ T, IsPoint K (newBigint K ix s) T ∧
      ∀ x y hh, T = Affine.Point.some x y hh ↔ x = (X : ZMod K.p) ∧ y.val % 2 = s) :
    ∃ r T, frombytes K bs = some r ∧ IsPoint K r T ∧ ∀ x y hh, T = Affine.Point.some x y hh ↔ (sec1U K x y <+: bs ∨ sec1C K x y <+: bs) := by
  have hc := h.arith.toConsts
  cases bs with
  | nil => simp at hl
  | cons t bs =>
    simp only [List.length_cons] at hl hl4
    simp only [List.headD_cons] at hl4 hcomp
    have hlen : K.modbytes ≤ bs.length := by omega
    have hpx := Props.C12_frombytes (C := C) hc.ok hc.hn K.modbytes hb.room (bs.take K.modbytes)
    rw [List.take_take, min_self] at hpx
    have hcomp1 := Rep.comp_ge hpx hc.md_rep
    have none_of : ∀ {x y : ZMod K.p}, (sec1U K x y <+: t :: bs ∨ sec1C K x y <+: t :: bs) → beNat (bs.take K.modbytes) = x.val := by
      rintro x y (hu | hc')
      · have := sec1U_head hu
        exact ((sec1U_prefix hb (by have := hl4 this; omega) x y).mp hu).2.1
      · exact ((sec1C_prefix hb hlen x y).mp hc').2
    have e0 : ¬ (t :: bs).length < K.modbytes + 1 := by simp; omega
    simp only [frombytes, e0, if_false, List.drop_succ_cons, List.drop_zero, List.headD_cons]
    generalize fromBytes (C := C) K.P.b K.P.n K.modbytes (bs.take K.modbytes) = px at *
    by_cases c1 : comp px K.P.md ≥ 0
    · rw [if_pos c1]
      refine ⟨_, 0, rfl, new_ok h, fun x y hh => ⟨fun e => absurd e (some_ne_zero' hh), fun e => ?_⟩⟩
      have := none_of e
      have h1 := hcomp1.mp c1
      have h2 := ZMod.val_lt x
      rw [this] at h1
      exact absurd h2 (by exact_mod_cast not_lt.mpr h1)
    · rw [if_neg c1]
      have hX : beNat (bs.take K.modbytes) < K.p := by
        by_contra hcon
        exact c1 (hcomp1.mpr (by exact_mod_cast not_lt.mp hcon))
      have hty : ¬ K.ctype = .montgomery := by rw [h.type]; decide
      rw [if_neg hty]
      by_cases c2 : t = 0x04#8
      · have hl2 := hl4 c2
        have e1 : ¬ (t :: bs).length < 2 * K.modbytes + 1 := by simp; omega
        rw [if_pos c2, if_neg e1]
        have hpy := Props.C12_frombytes (C := C) hc.ok hc.hn K.modbytes hb.room ((bs.drop K.modbytes).take K.modbytes)
        rw [List.take_take, min_self] at hpy
        have hcomp2 := Rep.comp_ge hpy hc.md_rep
        generalize fromBytes (C := C) K.P.b K.P.n K.modbytes ((bs.drop K.modbytes).take K.modbytes) = py at *
        have hC : ∀ x y : ZMod K.p, ¬ sec1C K x y <+: t :: bs := by
          intro x y hcc
          have := sec1C_head hcc
          rw [c2] at this
          split_ifs at this <;> exact absurd this (by decide)
        have hU := fun x y => sec1U_prefix hb (t := t) (bs := bs) (by omega) x y
        by_cases c3 : comp py K.P.md ≥ 0
        · rw [if_pos c3]
          refine ⟨_, 0, rfl, new_ok h, fun x y hh => ⟨fun e => absurd e (some_ne_zero' hh), fun e => ?_⟩⟩
          have e := e.resolve_right (hC x y)
          have := ((hU x y).mp e).2.2
          have h1 := hcomp2.mp c3
          have h2 := ZMod.val_lt y
          rw [this] at h1
          exact absurd h2 (by exact_mod_cast not_lt.mpr h1)
        · rw [if_neg c3]
          have hY : beNat ((bs.drop K.modbytes).take K.modbytes) < K.p := by
            by_contra hcon
            exact c3 (hcomp2.mpr (by exact_mod_cast not_lt.mp hcon))
          obtain ⟨T, hT, hall⟩ := newBigs_ok h hpx hX hpy hY
          refine ⟨_, T, rfl, hT, fun x y hh => ?_⟩
          rw [hall x y hh, eq_cast_iff hX, eq_cast_iff hY, hU x y]
          constructor
          · rintro ⟨a, b⟩; exact Or.inl ⟨c2, a, b⟩
          · rintro (a | a)
            · exact a.2
            · exact absurd a (hC x y)
      · rw [if_neg c2]
        have hU : ∀ x y : ZMod K.p, ¬ sec1U K x y <+: t :: bs := fun x y hu => c2 (sec1U_head hu)
        by_cases c3 : t = 0x02#8 ∨ t = 0x03#8
        · rw [if_pos c3]
          have hs2 : (t &&& 1#8).toNat < 2 := by rcases c3 with rfl | rfl <;> decide
          obtain ⟨T, hT, hall⟩ := hcomp px _ _ hpx hX hs2 c3
          refine ⟨_, T, rfl, hT, fun x y hh => ?_⟩
          rw [hall x y hh, eq_cast_iff hX, sec1C_prefix hb hlen x y]
          have htag : y.val % 2 = (t &&& 1#8).toNat ↔ t = (if y.val % 2 = 1 then 0x03#8 else 0x02#8) := by
            rcases Nat.mod_two_eq_zero_or_one y.val with e | e <;> rcases c3 with rfl | rfl <;> rw [e] <;> decide
          rw [htag]
          constructor
          · rintro ⟨a, b⟩; exact Or.inr ⟨b, a⟩
          · rintro (a | a)
            · exact absurd a (hU x y)
            · exact ⟨a.2, a.1⟩
        · rw [if_neg c3]
          refine ⟨_, 0, rfl, new_ok h, fun x y hh => ⟨fun e => absurd e (some_ne_zero' hh), fun e => ?_⟩⟩
          have := sec1C_head (e.resolve_left (hU x y))
          exfalso
          split_ifs at this
          · exact c3 (Or.inr this)
          · exact c3 (Or.inl this)

/-! ### plain moduli: the sign of a decompressed point -/

theorem logXes_two : logXes 2 = 1 := by decide

theorem parity_emod {b : Nat} (ok : Ok C b) (w : Limbs C) : parity w % 2 = (at' w 0).toInt % 2 := by
  have hC := ok.hC
  have hb := ok.hb
  have two : (2 : BitVec C).toInt = 2 := by
    have h8 : (2 : Int) ^ 2 ≤ 2 ^ (C - 1) := pow_le_pow_right₀ (by norm_num) (by omega)
    have := toInt_ofInt_of (C := C) (x := 2) (by omega) (by omega) (by omega)
    rw [← this]; congr 1
  unfold parity
  rw [BitVec.toInt_srem, two]
  have := Int.tmod_add_tdiv_mul (at' w 0).toInt 2
  omega

theorem neg_low (h : Consts K.P K.p) {a : Fp C} (ha : Normed K.P K.p a) (h2 : a.xes = 2) : parity (Fp.neg K.P a).x % 2 = parity a.x % 2 := by
  have hC := h.ok.hC
  have hbb := h.ok.hb
  have hn := h.hn
  have hge := fexcess_ge h
  have hsh := h.sh5
  obtain ⟨f1, f2⟩ := h.md_shift (s := 1) (by omega)
  have e : Fp.neg K.P a = { x := Big.rsub a.x (fshl K.P.b 1 K.P.md), xes := 4 } := by
    unfold Fp.neg
    rw [h2, logXes_two]
    simp only [check]
    rw [if_neg (by show ¬ 2 ^ (1 + 1) > _; omega)]
  rw [e, parity_emod h.ok, parity_emod h.ok]
  have hl1 : 0 < (fshl K.P.b 1 K.P.md).length := by rw [f1.len]; omega
  have hl2 : 0 < a.x.length := by rw [ha.valid.len]; omega
  have d1 := digit_at f2 0 hl1
  rw [f1.val, mul_zero, pow_zero, Int.ediv_one] at d1
  have e2 : at' (Big.rsub a.x (fshl K.P.b 1 K.P.md)) 0 = at' (fshl K.P.b 1 K.P.md) 0 - at' a.x 0 := by
    unfold Big.rsub at'
    rw [List.getD_eq_getElem _ _ (by simp; omega), List.getElem_zipWith, List.getD_eq_getElem _ _ hl1, List.getD_eq_getElem _ _ hl2]
  have h3 := f2 _ (at'_mem _ 0 hl1)
  have h4 := ha.digits _ (at'_mem _ 0 hl2)
  have hpw : (2 : Int) ^ K.P.b ≤ 2 ^ (C - 1) := pow_le_pow_right₀ (by norm_num) (by omega)
  show (at' (Big.rsub a.x (fshl K.P.b 1 K.P.md)) 0).toInt % 2 = _
  rw [e2, toInt_sub_of _ _ (by omega) (by omega) (by omega)]
  have h5 : (at' (fshl K.P.b 1 K.P.md) 0).toInt % 2 = 0 := by
    rw [d1, pow_one, Int.emod_emod_of_dvd _ (dvd_pow_self 2 (by omega))]
    simp
  omega

theorem sqrt_xes (P : Params C) (hpl : P.plain = true) (h5 : P.mod8 ≠ 5) (a : Fp C) : (Fp.sqrt P a).xes = 2 := by
  simp [Fp.sqrt, hpl, h5, Fp.mul]

/-- the printed ordinate of `(x : y : 1)` is the stored one -/
theorem gets_one (h : WCurve K) {a y : Fp C} {T : (curve K).Point} (hs : IsPoint K ⟨a, y, one K.P⟩ T) (hT : T ≠ 0) (hpl : K.P.plain = true) :
    gets K ⟨a, y, one K.P⟩ = parity y.x := by
  have hi : ¬ isInfinity K ⟨a, y, one K.P⟩ = true := fun hc => hT ((isInfinity_ok h hs).mp hc)
  have h1 := (elem_equals h.arith (elem_one h.arith) (elem_int1 h.arith)).mpr rfl
  have e : affine K ⟨a, y, one K.P⟩ = ⟨a, y, one K.P⟩ := by simp [affine, hi, h1]
  simp [gets, gety, e, redc, hpl]

theorem plain_sign (h : WCurve K) (hs : SqrtOk K.P K.p) (hpl : K.P.plain = true) (h5 : K.P.mod8 ≠ 5) {ix : Limbs C} {X : Nat} (hx : Rep K.P.b K.P.n ix X) (hX : X < K.p)
    (hsq : IsSquare ((X : ZMod K.p) ^ 3 + K.a * X + Bcoef K)) :
    ∃ T : (curve K).Point, T ≠ -T ∧ IsPoint K (newBigint K ix 0) T ∧ IsPoint K (newBigint K ix 1) (-T) ∧ gets K (newBigint K ix 0) % 2 = gets K (newBigint K ix 1) % 2 := by
  have hc := h.arith.toConsts
  rcases newBigint_gen h hs hx hX 0 with ⟨hn, _⟩ | ⟨R, en, hR, e0, hh0, hp0⟩
  · exact absurd hsq hn
  rcases newBigint_gen h hs hx hX 1 with ⟨hn, _⟩ | ⟨R', en', _, e1, hh1, hp1⟩
  · exact absurd hsq hn
  obtain rfl : R = R' := en.res.symm.trans en'.res
  have hR0 : R ≠ 0 := by
    rintro rfl
    exact h.noTwo (X : ZMod K.p) (by rw [← hR]; ring)
  have hRR : R ≠ -R := fun hc' => hR0 (by
    have : 2 * R = 0 := by linear_combination hc'
    exact (mul_eq_zero.mp this).resolve_left (two_ne_zero' hc))
  have hred : redc K.P (rootOf K ix) = (rootOf K ix).x := by simp [redc, hpl]
  have hrep : Rep K.P.b K.P.n (rootOf K ix).x (limbsVal K.P.b (rootOf K ix).x) := en.normed.rep
  have hpar := hrep.parity hc.ok hc.hn
  have hlow := neg_low hc en.normed (sqrt_xes K.P hpl h5 _)
  rw [hred] at e0 e1
  have g0 := gets_one h (e0 ▸ hp0) (some_ne_zero' hh0).symm hpl
  have g1 := gets_one h (e1 ▸ hp1) (some_ne_zero' hh1).symm hpl
  refine ⟨_, ?_, hp0, ?_, ?_⟩
  · rw [Affine.Point.neg_some]
    simp only [short_negY, ne_eq, Affine.Point.some.injEq, not_and]
    intro _
    split_ifs
    · exact hRR
    · rw [neg_neg]; exact hRR.symm
  · convert hp1 using 1
    rw [Affine.Point.neg_some]
    simp only [short_negY, Affine.Point.some.injEq, true_and]
    rw [hred, hpar]
    rcases Int.emod_two_eq_zero_or_one (limbsVal K.P.b (rootOf K ix).x) with e | e <;> rw [e] <;> simp
  · rw [e0, e1, g0, g1, hpar]
    rcases Int.emod_two_eq_zero_or_one (limbsVal K.P.b (rootOf K ix).x) with e | e <;> rw [e] <;> simp <;> omega

end Verif.Ecp
