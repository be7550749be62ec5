import Verif.Edwards.Law
/- `tobytes`, `frombytes`, `new_bigint`, `pinmul`, `cfp` on Edwards curves. -/
namespace Verif.Ecp
open Verif.Big Verif.Fp Verif.Rom Verif.Curve Verif.Prog Spec

set_option linter.unusedSectionVars false
variable {C : Nat} {K : Rom C} [hp : Fact K.p.Prime] [hc : Fact (EdComplete K)]

/-- the coordinates a point prints are reduced (always true if `affine` has to divide) -/
def Prints (K : Rom C) (s : Pt C) (x y : ZMod K.p) : Prop :=
  (coords K s).z = 1 → Rep K.P.b K.P.n (redc K.P s.x) (x.val : Int) ∧ Rep K.P.b K.P.n (redc K.P s.y) (y.val : Int)

theorem zero_redc (h : Arith K.P K.p) : Rep K.P.b K.P.n (redc K.P (zero K.P)) ((0 : ZMod K.p).val : Int) := by
  obtain ⟨z1, z2⟩ := zero_ok h.toConsts
  have := h.redc_ok _ z1 (by
    have hz : limbsVal K.P.b (zero K.P).x = 0 := (zero_rep (C := C) K.P.b K.P.n).val
    rw [hz]; exact_mod_cast hp.out.pos)
  rwa [z2] at this

/-- coordinates printed after `affine` -/
theorem affineE_redc (h : EdCurve K) {s : Pt C} {T : EdPoint K} (hs : IsPointE K s T) (hpr : Prints K s T.x T.y) (hT : T ≠ 0) :
    Rep K.P.b K.P.n (redc K.P (affine K s).x) (T.x.val : Int) ∧ Rep K.P.b K.P.n (redc K.P (affine K s).y) (T.y.val : Int) := by
  have hco := h.arith.toConsts
  obtain ⟨s1, s2, s3⟩ := hs.1.elems
  have hi : ¬ isInfinity K s = true := fun hc => hT ((isInfinityE_ok h hs).mp hc)
  have hcd := (affineE_ok h hs).2 hT
  have e : affine K s = if Fp.equals K.P s.z (newInt K.P 1) then s else
      { x := Fp.reduce K.P (Fp.mul K.P s.x (Fp.inverse K.P s.z)), y := Fp.reduce K.P (Fp.mul K.P s.y (Fp.inverse K.P s.z)), z := newInt K.P 1 } := by
    simp [affine, h.type, hi]
  have h1 := elem_equals h.arith s3 (elem_int1 h.arith)
  by_cases c : Fp.equals K.P s.z (newInt K.P 1) = true
  · rw [e, if_pos c]; exact hpr (h1.mp c)
  · have hcx : residue K.P K.p (affine K s).x = T.x := congrArg Proj.x hcd
    have hcy : residue K.P K.p (affine K s).y = T.y := congrArg Proj.y hcd
    rw [e, if_neg c] at hcx hcy ⊢
    obtain ⟨i1, i2⟩ := h.arith.inverse_ok _ _ s3.valid s3.room (fun _ => s3.normed)
    have hi' : Elem K.P K.p 0 1 (Fp.inverse K.P s.z) (coords K s).z⁻¹ := .of_normed hco ⟨i1, i2.trans (by rw [s3.res])⟩
    have key : ∀ {a : Fp C} {w : ZMod K.p}, Elem K.P K.p 0 1 a w → Rep K.P.b K.P.n (redc K.P (Fp.reduce K.P a)) (((residue K.P K.p (Fp.reduce K.P a))).val : Int) := by
      intro a w ha
      obtain ⟨r1, _, _, r4⟩ := reduce_ok hco ha.valid ha.room
      exact h.arith.redc_ok _ r1 (by rw [r4]; exact Int.emod_lt_of_pos _ (by exact_mod_cast hco.ppos))
    have kx := key (Elem.mul h.arith.toFieldOk s1 hi' (by omega) (by omega))
    have ky := key (Elem.mul h.arith.toFieldOk s2 hi' (by omega) (by omega))
    dsimp only at hcx hcy
    rw [hcx] at kx
    rw [hcy] at ky
    exact ⟨kx, ky⟩

/-- a point with third coordinate one that prints reduced coordinates, unchanged by `affine` -/
theorem affineE_one (h : EdCurve K) {s : Pt C} {T : EdPoint K} (hs : IsPointE K s T) (hz : (coords K s).z = 1) : affine K s = s := by
  obtain ⟨s1, s2, s3⟩ := hs.1.elems
  have e : affine K s = if isInfinity K s then s else if Fp.equals K.P s.z (newInt K.P 1) then s else
      { x := Fp.reduce K.P (Fp.mul K.P s.x (Fp.inverse K.P s.z)), y := Fp.reduce K.P (Fp.mul K.P s.y (Fp.inverse K.P s.z)), z := newInt K.P 1 } := by
    simp [affine, h.type]
  rw [e, if_pos ((elem_equals h.arith s3 (elem_int1 h.arith)).mpr hz), ite_self]

theorem tobytesE_gen (h : EdCurve K) {s : Pt C} {x y : ZMod K.p}
    (hx : Rep K.P.b K.P.n (redc K.P (affine K s).x) (x.val : Int)) (hy : Rep K.P.b K.P.n (redc K.P (affine K s).y) (y.val : Int)) (buf : List (BitVec 8)) :
    (2 * K.modbytes + 1 ≤ buf.length → tobytes K s buf false = some (sec1U K x y ++ buf.drop (2 * K.modbytes + 1))) ∧
    (K.modbytes + 1 ≤ buf.length → tobytes K s buf true = some (sec1C K x y ++ buf.drop (K.modbytes + 1))) := by
  have hco := h.arith.toConsts
  have bx := toBytes_rep hco hx
  have hby := toBytes_rep hco hy
  have hpar := hy.parity hco.ok hco.hn
  constructor
  · intro hl
    have c1 : ¬ buf.length < K.modbytes + 1 := by omega
    have c2 : ¬ buf.length < 2 * K.modbytes + 1 := by omega
    simp [tobytes, h.type, bx, hby, c1, c2, sec1U]
  · intro hl
    have c1 : ¬ buf.length < K.modbytes + 1 := by omega
    have : (parity (redc K.P (affine K s).y) = 1) ↔ y.val % 2 = 1 := by rw [hpar]; omega
    simp [tobytes, h.type, bx, c1, sec1C, this]

/-- the neutral element prints as `(0, 1)` -/
theorem new_prints (h : EdCurve K) : (coords K (new K)).z = 1 ∧ Prints K (new K) (0 : EdPoint K).x (0 : EdPoint K).y := by
  have e : new K = ⟨zero K.P, newInt K.P 1, one K.P⟩ := by simp [new, pnew, h.type]
  have h1lt : (1 : Int) < 2 ^ K.P.b := one_lt_b h.arith.toConsts
  have hp1 : (1 : Nat) < K.p := hp.out.one_lt
  have : Fact (1 < K.p) := ⟨hp1⟩
  rw [e]
  refine ⟨(elem_one h.arith).res, fun _ => ⟨zero_redc h.arith, ?_⟩⟩
  have hr : Rep K.P.b K.P.n (inc K.P.b (Big.zero C K.P.n) 1) (1 : Int) := by exact_mod_cast newInt_rep' h.arith.toConsts 1 (by exact_mod_cast h1lt)
  have := h.arith.nres_redc _ 1 (by exact_mod_cast hr) hp1
  show Rep _ _ (redc K.P (newBig K.P _)) (((1 : ZMod K.p).val : Nat) : Int)
  rw [ZMod.val_one]
  exact this

theorem norm_newBig (h : Arith K.P K.p) {ix : Limbs C} {X : Nat} (hx : Rep K.P.b K.P.n ix X) (hX : X < K.p) : Fp.norm K.P (newBig K.P ix) = newBig K.P ix := by
  have hn := (h.newBig_ok ix X hx hX).1
  have hr := hn.rep
  have hne := hr.ne_nil (by have := h.hn; omega)
  have hd := Digits.norm_rep h.ok hne hn.digits
  rw [hr.len] at hd
  have : Big.norm K.P.b (newBig K.P ix).x = (newBig K.P ix).x := normal_unique _ _ (by rw [hd.len, hr.len]) hd.low hr.low hd.val
  unfold Fp.norm
  rw [this]

/-- `new_bigs` of valid coordinates prints them back -/
theorem newBigs_prints (h : EdCurve K) {ix iy : Limbs C} {X Y : Nat} (hx : Rep K.P.b K.P.n ix X) (hX : X < K.p) (hy : Rep K.P.b K.P.n iy Y) (hY : Y < K.p)
    {T : EdPoint K} (tx : T.x = (X : ZMod K.p)) (ty : T.y = (Y : ZMod K.p)) : (coords K (newBigs K ix iy)).z = 1 ∧ Prints K (newBigs K ix iy) T.x T.y := by
  have ex := Elem.norm h.arith.toConsts (elem_newBig h.arith hx hX)
  have ey := elem_newBig h.arith hy hY
  obtain ⟨er, hlt⟩ := rhsE_ok h ex
  have e2 := Elem.sqr h.arith.toFieldOk ey (by omega)
  have hq := elem_equals h.arith e2 er
  rw [← pow_two, ← onCurveE] at hq
  have e : newBigs K ix iy = if Fp.equals K.P (Fp.sqr K.P (newBig K.P iy)) (rhs K (Fp.norm K.P (newBig K.P ix))) then
      ⟨Fp.norm K.P (newBig K.P ix), newBig K.P iy, one K.P⟩ else inf K ⟨Fp.norm K.P (newBig K.P ix), newBig K.P iy, one K.P⟩ := by
    simp [newBigs, h.type]
  rw [e, if_pos (hq.mpr (tx ▸ ty ▸ T.on))]
  refine ⟨(elem_one h.arith).res, fun _ => ⟨?_, ?_⟩⟩
  · rw [tx, zcast_val hX]
    show Rep _ _ (redc K.P (Fp.norm K.P (newBig K.P ix))) _
    rw [norm_newBig h.arith hx hX]
    exact h.arith.nres_redc _ _ hx hX
  · rw [ty, zcast_val hY]
    exact h.arith.nres_redc _ _ hy hY

/-- `frombytes`, uncompressed: exactly the encodings of points are accepted, everything else gives the neutral element -/
theorem frombytesU_ok (h : EdCurve K) (hb : BytesOk K) (bs : List (BitVec 8)) (hl : 2 * K.modbytes + 1 ≤ bs.length) (h4 : bs.headD 0 = 0x04#8) :
    ∃ r, ∃ T : EdPoint K, frombytes K bs = some r ∧ IsPointE K r T ∧ (∀ S : EdPoint K, sec1U K S.x S.y <+: bs → T = S) ∧
      ((∀ S : EdPoint K, ¬ sec1U K S.x S.y <+: bs) → T = 0) ∧ (coords K r).z = 1 ∧ Prints K r T.x T.y := by
  have hco := h.arith.toConsts
  have fail : ∀ r, r = new K → (∀ S : EdPoint K, ¬ sec1U K S.x S.y <+: bs) → ∃ r', ∃ T : EdPoint K, some r = some r' ∧ IsPointE K r' T ∧
      (∀ S : EdPoint K, sec1U K S.x S.y <+: bs → T = S) ∧ ((∀ S : EdPoint K, ¬ sec1U K S.x S.y <+: bs) → T = 0) ∧ (coords K r').z = 1 ∧ Prints K r' T.x T.y := by
    rintro r rfl hn
    exact ⟨_, 0, rfl, newE_ok h, fun S hS => absurd hS (hn S), fun _ => rfl, (new_prints h).1, (new_prints h).2⟩
  cases bs with
  | nil => simp at hl
  | cons t bs =>
    simp only [List.length_cons] at hl
    simp only [List.headD_cons] at h4
    have hlen : K.modbytes ≤ bs.length := by omega
    have hpx := Props.C12_frombytes (C := C) hco.ok hco.hn K.modbytes hb.room (bs.take K.modbytes)
    rw [List.take_take, min_self] at hpx
    have hcomp1 := Rep.comp_ge hpx hco.md_rep
    have hpy := Props.C12_frombytes (C := C) hco.ok hco.hn K.modbytes hb.room ((bs.drop K.modbytes).take K.modbytes)
    rw [List.take_take, min_self] at hpy
    have hcomp2 := Rep.comp_ge hpy hco.md_rep
    have hU := fun x y : ZMod K.p => sec1U_prefix hb (t := t) (bs := bs) (by omega) x y
    have e0 : ¬ (t :: bs).length < K.modbytes + 1 := by simp; omega
    have e1 : ¬ (t :: bs).length < 2 * K.modbytes + 1 := by simp; omega
    have hty : ¬ K.ctype = .montgomery := by rw [h.type]; decide
    simp only [frombytes, e0, if_false, List.drop_succ_cons, List.drop_zero, List.headD_cons]
    generalize fromBytes (C := C) K.P.b K.P.n K.modbytes (bs.take K.modbytes) = px at *
    generalize fromBytes (C := C) K.P.b K.P.n K.modbytes ((bs.drop K.modbytes).take K.modbytes) = py at *
    by_cases c1 : comp px K.P.md ≥ 0
    · rw [if_pos c1]
      refine fail _ rfl fun S hS => ?_
      have h1 := hcomp1.mp c1
      have h2 := ZMod.val_lt S.x
      rw [((hU _ _).mp hS).2.1] at h1
      exact absurd h2 (by exact_mod_cast not_lt.mpr h1)
    rw [if_neg c1, if_neg hty, if_pos h4, if_neg e1]
    have hX : beNat (bs.take K.modbytes) < K.p := by
      by_contra hcon
      exact c1 (hcomp1.mpr (by exact_mod_cast not_lt.mp hcon))
    by_cases c3 : comp py K.P.md ≥ 0
    · rw [if_pos c3]
      refine fail _ rfl fun S hS => ?_
      have h1 := hcomp2.mp c3
      have h2 := ZMod.val_lt S.y
      rw [((hU _ _).mp hS).2.2] at h1
      exact absurd h2 (by exact_mod_cast not_lt.mpr h1)
    rw [if_neg c3]
    have hY : beNat ((bs.drop K.modbytes).take K.modbytes) < K.p := by
      by_contra hcon
      exact c3 (hcomp2.mpr (by exact_mod_cast not_lt.mp hcon))
    have key : ∀ S : EdPoint K, sec1U K S.x S.y <+: t :: bs ↔ S.x = ((beNat (bs.take K.modbytes) : Nat) : ZMod K.p) ∧ S.y = ((beNat ((bs.drop K.modbytes).take K.modbytes) : Nat) : ZMod K.p) := by
      intro S
      rw [hU, eq_cast_iff hX, eq_cast_iff hY]
      exact ⟨fun a => a.2, fun a => ⟨h4, a⟩⟩
    by_cases hon : Edwards.OnCurve (K.a : ZMod K.p) (Bcoef K) ((beNat (bs.take K.modbytes) : Nat) : ZMod K.p) ((beNat ((bs.drop K.modbytes).take K.modbytes) : Nat) : ZMod K.p)
    · refine ⟨_, ⟨_, _, hon⟩, rfl, (newBigsE_ok h hpx hX hpy hY).1 _ rfl rfl, fun S hS => ?_, fun hn => ?_, newBigs_prints h hpx hX hpy hY (T := ⟨_, _, hon⟩) rfl rfl⟩
      · obtain ⟨a, b⟩ := (key S).mp hS
        exact Edwards.Point.ext a.symm b.symm
      · exact absurd ((key ⟨_, _, hon⟩).mpr ⟨rfl, rfl⟩) (hn _)
    · have ex := Elem.norm h.arith.toConsts (elem_newBig h.arith hpx hX)
      have ey := elem_newBig h.arith hpy hY
      obtain ⟨er, hlt⟩ := rhsE_ok h ex
      have e2 := Elem.sqr h.arith.toFieldOk ey (by omega)
      have hq := elem_equals h.arith e2 er
      rw [← pow_two, ← onCurveE] at hq
      have e : newBigs K px py = ⟨zero K.P, one K.P, one K.P⟩ := by
        simp only [newBigs, h.type, reduceCtorEq, if_false]
        rw [if_neg (fun hh => hon (hq.mp hh))]
        simp [inf, h.type]
      refine ⟨_, 0, rfl, (newBigsE_ok h hpx hX hpy hY).2 hon, fun S hS => ?_, fun _ => rfl, ?_⟩
      · obtain ⟨a, b⟩ := (key S).mp hS
        exact absurd (a ▸ b ▸ S.on) hon
      · rw [e]
        refine ⟨(elem_one h.arith).res, fun _ => ⟨zero_redc h.arith, ?_⟩⟩
        have hp1 : (1 : Nat) < K.p := hp.out.one_lt
        have : Fact (1 < K.p) := ⟨hp1⟩
        show Rep _ _ (redc K.P (newBig K.P _)) (((1 : ZMod K.p).val : Nat) : Int)
        rw [ZMod.val_one]
        refine h.arith.nres_redc _ 1 ?_ hp1
        have h1lt : (1 : Int) < 2 ^ K.P.b := one_lt_b h.arith.toConsts
        exact_mod_cast newInt_rep h.arith.ok (by have := h.arith.hn; omega) 1 (by norm_num) h1lt

/-- `new_bigint`: a point with the given abscissa, if there is one with non-zero ordinate -/
theorem newBigintE_ok (h : EdCurve K) (hs : SqrtOk K.P K.p) {ix : Limbs C} {X : Nat} (hx : Rep K.P.b K.P.n ix X) (hX : X < K.p) (s : Nat)
    (h0 : (K.a : ZMod K.p) * (X : ZMod K.p) ^ 2 ≠ 1) :
    ((∀ S : EdPoint K, S.x ≠ (X : ZMod K.p)) ∧ IsPointE K (newBigint K ix s) 0) ∨ ∃ S : EdPoint K, S.x = (X : ZMod K.p) ∧ IsPointE K (newBigint K ix s) S := by
  have hco := h.arith.toConsts
  have ex := Elem.norm hco (elem_newBig h.arith hx hX)
  obtain ⟨er, hlt⟩ := rhsE_ok h ex
  have hv : ((K.a : ZMod K.p) * (X : ZMod K.p) ^ 2 - 1) * (Bcoef K * (X : ZMod K.p) ^ 2 - 1)⁻¹ ≠ 0 :=
    mul_ne_zero (sub_ne_zero.mpr h0) (inv_ne_zero (den_ne _))
  have hq := isSquare_ok h.arith er hlt hv
  unfold newBigint
  dsimp only
  by_cases c : isSquare K (rhs K (Fp.norm K.P (newBig K.P ix))) = true
  · right
    simp only [if_pos c]
    have hsq := hq.mp c
    obtain ⟨n1, n2⟩ := hs 1 _ er.normed.valid ((room_one hco).mono (by omega)) (by rw [er.res]; exact hsq)
    have en : Elem K.P K.p 0 1 (Fp.sqrt K.P (rhs K (Fp.norm K.P (newBig K.P ix)))) (residue K.P K.p (Fp.sqrt K.P (rhs K (Fp.norm K.P (newBig K.P ix))))) :=
      .of_normed hco ⟨n1, rfl⟩
    rw [er.res, ← pow_two] at n2
    generalize residue K.P K.p (Fp.sqrt K.P (rhs K (Fp.norm K.P (newBig K.P ix)))) = w at *
    split_ifs
    · refine ⟨⟨_, -w, (onCurveE _ _).mpr (by rw [neg_sq]; exact n2)⟩, rfl, isPointE_finite ex ?_ (elem_one h.arith)⟩
      exact Elem.neg hco h.word en ((room_one hco).mono (by decide))
    · exact ⟨⟨_, w, (onCurveE _ _).mpr n2⟩, rfl, isPointE_finite ex (elem11 h.arith en) (elem_one h.arith)⟩
  · left
    simp only [if_neg c]
    refine ⟨fun S hS => c (hq.mpr ⟨S.y, ?_⟩), infE_ok h _⟩
    have := (onCurveE S.x S.y).mp S.on
    rw [← hS, ← this, pow_two]

/-- multiplication by the cofactor -/
theorem cfpE_ok (h : EdCurve K) {s : Pt C} {T : EdPoint K} (hs : IsPointE K s T) (hk : K.cofI = 1 ∨ K.cofI = 4 ∨ K.cofI = 8) :
    ∃ r, cfp K s = some r ∧ IsPointE K r (K.cofI • T) := by
  have d : ∀ {s : Pt C} {T : EdPoint K}, IsPointE K s T → IsPointE K (Ecp.dbl K s) ((2 : ℤ) • T) := fun hs => by rw [two_zsmul]; exact dblE_ok h hs
  unfold cfp
  rcases hk with c | c | c
  · rw [if_pos c, c, one_zsmul]; exact ⟨s, rfl, hs⟩
  · rw [if_neg (by omega), if_pos c, c]
    exact ⟨_, rfl, by have := d (d hs); rwa [← mul_zsmul] at this⟩
  · rw [if_neg (by omega), if_neg (by omega), if_pos c, c]
    exact ⟨_, rfl, by have := d (d (d hs)); rwa [← mul_zsmul, ← mul_zsmul] at this⟩

theorem cswapE_ok (h : EdCurve K) {s q : Pt C} {S T : EdPoint K} (hs : IsPointE K s S) (hq : IsPointE K q T) :
    cswap K s q 0 = (s, q) ∧ cswap K s q 1 = (q, s) := by
  obtain ⟨s1, s2, s3⟩ := hs.1.elems
  obtain ⟨q1, q2, q3⟩ := hq.1.elems
  have lx := fcswap_ok (s1.valid.len.trans q1.valid.len.symm)
  have ly := fcswap_ok (s2.valid.len.trans q2.valid.len.symm)
  have lz := fcswap_ok (s3.valid.len.trans q3.valid.len.symm)
  constructor
  · simp [cswap, h.type, lx.1, ly.1, lz.1]
  · simp [cswap, h.type, lx.2, ly.2, lz.2]

theorem pinStepE_ok (h : EdCurve K) {R : Pt C × Pt C} {T : EdPoint K} {m : Nat} (h0 : IsPointE K R.1 ((m : Int) • T)) (h1 : IsPointE K R.2 ((m + 1 : Int) • T))
    (b : Nat) (hb : b = 0 ∨ b = 1) :
    IsPointE K (pinStep K R b).1 ((2 * m + b : Int) • T) ∧ IsPointE K (pinStep K R b).2 ((2 * m + b + 1 : Int) • T) := by
  have ha := addE_ok h h1 h0
  rcases hb with rfl | rfl
  · have e1 := (cswapE_ok h h0 h1).1
    have hd := dblE_ok h h0
    have e2 := (cswapE_ok h hd ha).1
    simp only [pinStep, e1, e2]
    constructor
    · convert hd using 1; refine Eq.trans ?_ (add_zsmul T _ _); congr 1; push_cast; ring
    · convert ha using 1; refine Eq.trans ?_ (add_zsmul T _ _); congr 1; push_cast; ring
  · have e1 := (cswapE_ok h h0 h1).2
    have hd := dblE_ok h h1
    have e2 := (cswapE_ok h hd ha).2
    simp only [pinStep, e1, e2]
    constructor
    · convert ha using 1; refine Eq.trans ?_ (add_zsmul T _ _); congr 1; push_cast; ring
    · convert hd using 1; refine Eq.trans ?_ (add_zsmul T _ _); congr 1; push_cast; ring

/-- ladder of `pinmul`: the low `bts` bits of `e` -/
theorem pinmulE_ok (h : EdCurve K) {s : Pt C} {T : EdPoint K} (hs : IsPointE K s T) (e : BitVec 32) (bts : Nat) (hb : bts ≤ 32) :
    ∃ r, pinmul K s e bts = some r ∧ IsPointE K r (((e.toNat % 2 ^ bts : Nat) : Int) • T) := by
  have key : ∀ m, m ≤ bts → IsPointE K (((List.range bts).reverse.take m).foldl (fun R i => pinStep K R ((e.sshiftRight i) &&& 1).toNat) (new K, s)).1
        (((e.toNat % 2 ^ bts / 2 ^ (bts - m) : Nat) : Int) • T) ∧
      IsPointE K (((List.range bts).reverse.take m).foldl (fun R i => pinStep K R ((e.sshiftRight i) &&& 1).toNat) (new K, s)).2
        (((e.toNat % 2 ^ bts / 2 ^ (bts - m) : Nat) + 1 : Int) • T) := by
    intro m
    induction m with
    | zero =>
      intro _
      have : e.toNat % 2 ^ bts / 2 ^ (bts - 0) = 0 := Nat.div_eq_of_lt (Nat.mod_lt _ (by positivity))
      rw [this]
      simp only [List.take_zero, List.foldl_nil, Nat.cast_zero, zero_add, one_smul]
      exact ⟨newE_ok h, hs⟩
    | succ m ih =>
      intro hm
      obtain ⟨i1, i2⟩ := ih (by omega)
      have hlen : m < (List.range bts).reverse.length := by simp; omega
      rw [List.take_succ_eq_append_getElem hlen, List.foldl_append, List.foldl_cons, List.foldl_nil]
      have hget : (List.range bts).reverse[m] = bts - 1 - m := by simp
      rw [hget]
      have hbit := bit_i32 e (bts - 1 - m) (by omega)
      have hb01 : ((e.sshiftRight (bts - 1 - m)) &&& 1).toNat = 0 ∨ ((e.sshiftRight (bts - 1 - m)) &&& 1).toNat = 1 := by rw [hbit]; omega
      have := pinStepE_ok h i1 i2 _ hb01
      have harith : e.toNat % 2 ^ bts / 2 ^ (bts - (m + 1)) = 2 * (e.toNat % 2 ^ bts / 2 ^ (bts - m)) + e.toNat / 2 ^ (bts - 1 - m) % 2 := by
        have h1 : bts - (m + 1) = bts - 1 - m := by omega
        have h2 : bts - m = (bts - 1 - m) + 1 := by omega
        rw [h1, h2, pow_succ, ← Nat.div_div_eq_div_mul]
        have h3 : e.toNat % 2 ^ bts / 2 ^ (bts - 1 - m) % 2 = e.toNat / 2 ^ (bts - 1 - m) % 2 := by
          have e4 : (2 : Nat) ^ bts = 2 ^ (bts - 1 - m) * 2 ^ (m + 1) := by rw [← pow_add]; congr 1; omega
          rw [e4, Nat.mod_mul_right_div_self, Nat.mod_mod_of_dvd _ (dvd_pow_self 2 (by omega))]
        omega
      rw [harith]
      rw [hbit] at this ⊢
      push_cast at this ⊢
      exact this
  have hfin := (key bts le_rfl).1
  rw [List.take_of_length_le (by simp), Nat.sub_self, pow_zero, Nat.div_one] at hfin
  refine ⟨_, ?_, (affineE_ok h hfin).1⟩
  simp [pinmul, h.type]

end Verif.Ecp
