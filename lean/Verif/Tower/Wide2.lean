import Verif.Fp.Wide
/- `FP2::mul` and `FP2::sqrt` of operands that were not normalised after an addition. -/
namespace Verif.Tower
open Verif.Big Verif.Fp Spec

set_option linter.unusedSectionVars false
variable {C : Nat} {P : Params C} {p : Nat} [hp : Fact p.Prime]

/-- up to two digits in a limb -/
def Two (d : Lz) : Prop := d.l ≤ 2 ∧ d.k ≤ 2

theorem lim2 {l k : Nat} {a : Fp C} {v : ZMod p} (ha : Elem P p l k a v) (h1 : l ≤ 2) (h2 : k ≤ 2) : LimbsWithin ((2 : Nat) * (2 ^ P.b - 1)) a.x := by
  have hb := two_pow_pos' P.b
  have q3 : ((max l k : Nat) : Int) ≤ 2 := by exact_mod_cast (max_le h1 h2)
  exact within_mono (by push_cast at q3 ⊢; nlinarith) _ ha.within

theorem mul2_norm (h : TowerOk P p) (hw : Wide P) {d e : Lz} {x y : Fp2 C} {v w : F2 p} (hx : Rel2 P p d x v) (hy : Rel2 P p e y w) (h1 : Two d) (h2 : Two e) :
    Fp2.mul P x y = Fp2.mul P (Fp2.norm P x) (Fp2.norm P y) := by
  have hc := h.toConsts
  have hn : 0 < P.n := by have := hc.hn; omega
  -- the operand after the test of the counters
  have key : ∀ {q : Bool} {a : Fp C} {s : ZMod p}, Elem P p d.l d.k a s →
      ∃ l k l' k', l ≤ 2 ∧ k ≤ 2 ∧ l' ≤ 2 ∧ k' ≤ 2 ∧ Elem P p l k (if q = true ∧ a.xes > 1 then Fp.reduce P a else a) s ∧
        Elem P p l' k' (if q = true ∧ a.xes > 1 then Fp.reduce P (Fp.norm P a) else Fp.norm P a) s ∧
        limbsVal P.b (if q = true ∧ a.xes > 1 then Fp.reduce P a else a).x = limbsVal P.b (if q = true ∧ a.xes > 1 then Fp.reduce P (Fp.norm P a) else Fp.norm P a).x := by
    intro q a s ha
    rw [reduce_norm hc ha]
    split_ifs
    · exact ⟨0, 1, 0, 1, by omega, by omega, by omega, by omega, ha.reduce hc, ha.reduce hc, rfl⟩
    · exact ⟨d.l, d.k, 0, 1, h1.1, h1.2, by omega, by omega, ha, ha.norm hc, (norm_val hc ha).symm⟩
  have pre : ∀ z : Fp2 C, Fp2.mulPre P z y = ⟨if decide ((z.a.xes + z.b.xes) * (y.a.xes + y.b.xes) > P.fexcess) = true ∧ z.a.xes > 1 then Fp.reduce P z.a else z.a,
      if decide ((z.a.xes + z.b.xes) * (y.a.xes + y.b.xes) > P.fexcess) = true ∧ z.b.xes > 1 then Fp.reduce P z.b else z.b⟩ := by
    intro z
    unfold Fp2.mulPre
    by_cases c : (z.a.xes + z.b.xes) * (y.a.xes + y.b.xes) > P.fexcess
    · rw [if_pos c]; simp [c]
    · rw [if_neg c]; simp [c]
  have pre' : Fp2.mulPre P (Fp2.norm P x) (Fp2.norm P y) = Fp2.mulPre P (Fp2.norm P x) y := rfl
  obtain ⟨l, k, l', k', q1, q2, q3, q4, A, A', ea⟩ := key (q := decide ((x.a.xes + x.b.xes) * (y.a.xes + y.b.xes) > P.fexcess)) hx.re.el
  obtain ⟨m, n, m', n', r1, r2, r3, r4, B, B', eb⟩ := key (q := decide ((x.a.xes + x.b.xes) * (y.a.xes + y.b.xes) > P.fexcess)) hx.im.el
  unfold Fp2.mul
  rw [pre', pre x, pre (Fp2.norm P x)]
  have exa : (Fp2.norm P x).a = Fp.norm P x.a := rfl
  have exb : (Fp2.norm P x).b = Fp.norm P x.b := rfl
  have eya : (Fp2.norm P y).a = Fp.norm P y.a := rfl
  have eyb : (Fp2.norm P y).b = Fp.norm P y.b := rfl
  rw [exa, exb, eya, eyb]
  rw [show (Fp.norm P x.a).xes = x.a.xes from rfl, show (Fp.norm P x.b).xes = x.b.xes from rfl]
  generalize (if decide ((x.a.xes + x.b.xes) * (y.a.xes + y.b.xes) > P.fexcess) = true ∧ x.a.xes > 1 then Fp.reduce P x.a else x.a) = za at A ea ⊢
  generalize (if decide ((x.a.xes + x.b.xes) * (y.a.xes + y.b.xes) > P.fexcess) = true ∧ x.a.xes > 1 then Fp.reduce P (Fp.norm P x.a) else Fp.norm P x.a) = za' at A' ea ⊢
  generalize (if decide ((x.a.xes + x.b.xes) * (y.a.xes + y.b.xes) > P.fexcess) = true ∧ x.b.xes > 1 then Fp.reduce P x.b else x.b) = zb at B eb ⊢
  generalize (if decide ((x.a.xes + x.b.xes) * (y.a.xes + y.b.xes) > P.fexcess) = true ∧ x.b.xes > 1 then Fp.reduce P (Fp.norm P x.b) else Fp.norm P x.b) = zb' at B' eb ⊢
  have ya := hy.re.el; have yb := hy.im.el
  have ya' := ya.norm hc; have yb' := yb.norm hc
  have nn : ∀ {l k l' k' : Nat} {a a' : Fp C} {s s' : ZMod p}, Elem P p l k a s → Elem P p l' k' a' s' → limbsVal P.b a.x = limbsVal P.b a'.x → Big.norm P.b a.x = Big.norm P.b a'.x :=
    fun u u' eu => digits_unique (by rw [norm_len hc u, norm_len hc u']) (norm_digits hc u) (norm_digits hc u') (by rw [norm_val hc u, norm_val hc u', eu])
  have e1 : Big.mul P.b za.x y.a.x = Big.mul P.b za'.x (Fp.norm P y.a).x := by
    rw [bigMul_norm hc hw A ya ⟨q1, q2⟩ h2, bigMul_norm hc hw A' ya' ⟨q3, q4⟩ ⟨by omega, by omega⟩, nn A A' ea, nn ya ya' (norm_val hc ya).symm]
  have e2 : Big.mul P.b zb.x y.b.x = Big.mul P.b zb'.x (Fp.norm P y.b).x := by
    rw [bigMul_norm hc hw B yb ⟨r1, r2⟩ h2, bigMul_norm hc hw B' yb' ⟨r3, r4⟩ ⟨by omega, by omega⟩, nn B B' eb, nn yb yb' (norm_val hc yb).symm]
  have e3 : Big.norm P.b (Big.add za.x zb.x) = Big.norm P.b (Big.add za'.x zb'.x) :=
    norm_add_val hw hn hc.ok (k := 2) (k' := 2) (by omega) A.valid.len B.valid.len A'.valid.len B'.valid.len (lim2 A q1 q2) (lim2 B r1 r2) (lim2 A' q3 q4) (lim2 B' r3 r4) ea eb
  have e4 : Big.norm P.b (Big.add y.a.x y.b.x) = Big.norm P.b (Big.add (Fp.norm P y.a).x (Fp.norm P y.b).x) :=
    norm_add_val hw hn hc.ok (k := 2) (k' := 2) (by omega) ya.valid.len yb.valid.len ya'.valid.len yb'.valid.len (lim2 ya h2.1 h2.2) (lim2 yb h2.1 h2.2)
      (lim2 ya' (by omega) (by omega)) (lim2 yb' (by omega) (by omega)) (norm_val hc ya).symm (norm_val hc yb).symm
  dsimp only
  rw [e1, e2, e3, e4]

/-- `FP2::mul` of operands with limbs of up to two digits -/
theorem mul2W (h : TowerOk P p) (hw : Wide P) {d e : Lz} {x y : Fp2 C} {v w : F2 p} (hx : Rel2 P p d x v) (hy : Rel2 P p e y w) (h1 : Two d) (h2 : Two e) (h5 : e.e ≤ 131071) :
    Rel2 P p ⟨0, 1, 3⟩ (Fp2.mul P x y) (v * w) := by
  rw [mul2_norm h hw hx hy h1 h2]
  exact mul2_ok h (norm2_ok h hx) (norm2_ok h hy) (Nat.zero_le _) le_rfl (Nat.zero_le _) le_rfl h5

/-- `FP2::sqrt` of an operand with limbs of up to two digits: the root that is returned for zero is the operand itself -/
theorem sqrt2W (h : TowerOk P p) (hw : Wide P) (hn3 : 2 < P.n) (hp4 : p % 4 = 3) {e : Nat} {x : Fp2 C} {v : F2 p} (hx : Rel2 P p ⟨0, 2, e⟩ x v) (he : 2 ≤ e) :
    ((Fp2.sqrt P x).2 = true ↔ Detected v) ∧
    ((Fp2.sqrt P x).2 = true → ∃ r, Rel2 P p ⟨0, 2, e⟩ (Fp2.sqrt P x).1 r ∧ r * r = v ∧ (v ≠ 0 → Rel2 P p ⟨0, 1, e⟩ (Fp2.sqrt P x).1 r)) := by
  have hc := h.toConsts
  obtain ⟨a1, a2, a3⟩ := sqrt2_ok h hn3 hp4 (norm2_ok h hx) he
  have hz : Fp2.iszilch P x = true ↔ v = 0 := by
    unfold Fp2.iszilch
    rw [Bool.and_eq_true, iszilch_ok hc hx.re.el.valid hx.re.el.room, iszilch_ok hc hx.im.el.valid hx.im.el.room, hx.re.el.res, hx.im.el.res]
    constructor
    · rintro ⟨a, b⟩; exact QuadraticAlgebra.ext a b
    · rintro rfl; exact ⟨rfl, rfl⟩
  by_cases c0 : Fp2.iszilch P x = true
  · have hv := hz.mp c0
    have e0 : Fp2.sqrt P x = (x, true) := by unfold Fp2.sqrt; rw [if_pos c0]
    rw [e0]
    refine ⟨⟨fun _ => ?_, fun _ => rfl⟩, fun _ => ⟨0, ?_, by rw [hv, mul_zero], fun hn => absurd hv hn⟩⟩
    · rw [hv]; unfold Detected; rw [if_pos QuadraticAlgebra.im_zero]; exact ⟨0, by simp⟩
    · rw [← hv]; exact hx
  have ha : ∀ {l k : Nat} {w : Fp C} {s : ZMod p}, Elem P p l k w s → l ≤ 2 → k ≤ 2 → Fp.norm P (Fp.add P (Fp.norm P x.a) w) = Fp.norm P (Fp.add P x.a w) :=
    fun q q1 q2 => Fp.norm_add hc hw hx.re.el q ⟨by simp, by simp⟩ ⟨by omega, by omega⟩
  have e1 : Fp.sqr P x.a = Fp.sqr P (Fp.norm P x.a) := Fp.sqr_norm hc hw hx.re.el ⟨by simp, by simp⟩
  have e2 : Fp.sqr P x.b = Fp.sqr P (Fp.norm P x.b) := Fp.sqr_norm hc hw hx.im.el ⟨by simp, by simp⟩
  have c0' : ¬ Fp2.iszilch P (Fp2.norm P x) = true := by
    intro c
    apply c0
    unfold Fp2.iszilch Fp.iszilch at c ⊢
    rw [← reduce_norm hc hx.re.el, ← reduce_norm hc hx.im.el]
    exact c
  have key : Fp2.sqrt P x = Fp2.sqrt P (Fp2.norm P x) := by
    have s1 := ((norm2_ok h hx).im.sqr h.arith.toFieldOk ⟨by simp, by simp⟩).add hc ((norm2_ok h hx).re.sqr h.arith.toFieldOk ⟨by simp, by simp⟩) (room2 h (by omega) (by omega))
    unfold Fp2.sqrt
    rw [if_neg c0, if_neg c0']
    dsimp only
    have f1 : (Fp2.norm P x).a = Fp.norm P x.a := rfl
    have f2 : (Fp2.norm P x).b = Fp.norm P x.b := rfl
    rw [f1, f2] at s1 ⊢
    rw [e1, e2]
    have q1 := isSq_ok h (by omega) (by omega) s1.el
    generalize Fp.add P (Fp.sqr P (Fp.norm P x.b)) (Fp.sqr P (Fp.norm P x.a)) = n1 at s1 q1 ⊢
    by_cases c1 : Fp2.isSq P n1 = false
    · rw [if_pos c1, if_pos c1]
    rw [if_neg c1, if_neg c1]
    obtain ⟨s, hs, hss⟩ := sqrt_ex h hp4 s1 (q1.mp (by simpa using c1)).2
    have hs' := hs.neg hc h.hC (room2 h (by omega) (by omega))
    have g1 := ha hs.el (by omega) (by omega)
    have g2 : Fp.norm P (Fp.sub P (Fp.norm P x.a) (Fp.sqrt P n1)) = Fp.norm P (Fp.sub P x.a (Fp.sqrt P n1)) := ha hs'.el (by omega) (by omega)
    rw [g1, g2]
    have wa := ((hx.re.add hc hs (room2 h (by simp) (by simp))).norm hc).div2 hc
    have wb := ((hx.re.sub hc h.hC hs (room2 h (by simp) (by simp))).norm hc).div2 hc
    have qa := isSq_ok h (by omega) (by omega) wa.el
    have qb := isSq_ok h (by omega) (by omega) wb.el
    have fin : ∀ {e' : Nat} {y : Fp C} {w : ZMod p}, Ex P p 0 1 e' y w → IsSquare w →
        Fp.mul P x.b (Fp.inverse P (Fp.dbl P (Fp.sqrt P y))) = Fp.mul P (Fp.norm P x.b) (Fp.inverse P (Fp.dbl P (Fp.sqrt P y))) := by
      intro e' y w hy hsq
      obtain ⟨r, hr, hrr⟩ := sqrt_ex h hp4 hy hsq
      have hi := (hr.dbl hc (room2 h (by omega) (by omega))).inverse h.arith h.plain
      rw [Fp.mul_norm hc hw hx.im.el hi.el ⟨by simp, by simp⟩ ⟨by omega, by omega⟩,
        Fp.mul_norm hc hw (hx.im.el.norm hc) hi.el ⟨by omega, by omega⟩ ⟨by omega, by omega⟩, Fp.norm_norm hc hx.im.el]
    generalize Fp.div2 P (Fp.norm P (Fp.add P x.a (Fp.sqrt P n1))) = y at wa qa ⊢
    generalize Fp.div2 P (Fp.norm P (Fp.sub P x.a (Fp.sqrt P n1))) = y' at wb qb ⊢
    by_cases ca : Fp2.isSq P y = true
    · rw [if_pos ca, if_pos ca, fin wa (qa.mp ca).2]
    · rw [if_neg ca, if_neg ca]
      by_cases cb : Fp2.isSq P y' = true
      · rw [if_pos cb, if_pos cb, fin wb (qb.mp cb).2]
      · rw [if_neg cb, if_neg cb]
  rw [key]
  refine ⟨a1, fun ht => ?_⟩
  obtain ⟨r, hr, hrr⟩ := a2 ht
  exact ⟨r, ⟨hr.re.mono le_rfl (by simp) le_rfl (room2 h (by simp) (by simp)), hr.im.mono le_rfl (by simp) le_rfl (room2 h (by simp) (by simp))⟩, hrr, fun _ => hr⟩

end Verif.Tower
