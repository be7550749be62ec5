import Verif.Fp.Arith
import Mathlib.NumberTheory.LegendreSymbol.QuadraticReciprocity
import Mathlib.Tactic.LinearCombination
/- `FP::sqrt` for moduli congruent to 5 modulo 8 (plain representation). -/
namespace Verif.Fp
open Verif.Big Spec

variable {C : Nat} {P : Params C} {p : Nat} [hp : Fact p.Prime]

omit hp in
theorem mul_same (h4 : 4 ≤ P.fexcess) {u w c d : Fp C} (e : u.x = w.x) (hu : u.xes ≤ 2) (hw : w.xes ≤ 2) (e' : c.x = d.x) (hc : c.xes ≤ 2) (hd : d.xes ≤ 2) :
    mul P u c = mul P w d := by
  have n1 : ¬ (u.xes * c.xes > P.fexcess) := by have := Nat.mul_le_mul hu hc; omega
  have n2 : ¬ (w.xes * d.xes > P.fexcess) := by have := Nat.mul_le_mul hw hd; omega
  simp only [mul]
  rw [if_neg n1, if_neg n2, e, e']

omit hp in
theorem sqr_same (h4 : 4 ≤ P.fexcess) {u w : Fp C} (e : u.x = w.x) (hu : u.xes ≤ 2) (hw : w.xes ≤ 2) : sqr P u = sqr P w := by
  have n1 : ¬ (u.xes * u.xes > P.fexcess) := by have := Nat.mul_le_mul hu hu; omega
  have n2 : ¬ (w.xes * w.xes > P.fexcess) := by have := Nat.mul_le_mul hw hw; omega
  simp only [sqr]
  rw [if_neg n1, if_neg n2, e]

omit hp in
/-- the counter of the operand (1 or 2) does not influence `fpow` -/
theorem fpow_same (h4 : 4 ≤ P.fexcess) {u w : Fp C} (e : u.x = w.x) (hu : u.xes ≤ 2) (hw : w.xes ≤ 2) : (fpow P u).x = (fpow P w).x ∧ (fpow P u).xes ≤ 2 ∧ (fpow P w).xes ≤ 2 := by
  have hm : ∀ a c : Fp C, (mul P a c).xes = 2 := fun a c => rfl
  have hs : ∀ a : Fp C, (sqr P a).xes = 2 := fun a => rfl
  exact fpowG_rel (R := fun u w : Fp C => u.x = w.x ∧ u.xes ≤ 2 ∧ w.xes ≤ 2)
    (fun a b ⟨h1, h2, h3⟩ => ⟨by rw [sqr_same h4 h1 h2 h3], by rw [hs], by rw [hs]⟩)
    (fun a b c d ⟨h1, h2, h3⟩ ⟨k1, k2, k3⟩ => ⟨by rw [mul_same h4 h1 h2 h3 k1 k2 k3], by rw [hm], by rw [hm]⟩)
    ⟨rfl, by simp [zero], by simp [zero]⟩ _ _ _ _ u w ⟨e, hu, hw⟩

/-- `sqrt` on the zero element, a computation on a ROM file -/
def SqrtZero (P : Params C) : Prop := sqrt P (zero P) = zero P ∨ (limbsVal P.b (sqrt P (zero P)).x = 0 ∧ (sqrt P (zero P)).x.length = P.n ∧ Digits P.b (sqrt P (zero P)).x ∧ (sqrt P (zero P)).xes = 1)

theorem zero_list {b : Nat} {w : Limbs C} (hd : Digits b w) (h : limbsVal b w = 0) : w = List.replicate w.length 0 := by
  have hB := two_pow_pos' b
  induction w with
  | nil => rfl
  | cons x xs ih =>
    have hx := hd x (by simp)
    have hds : Digits b xs := fun z hz => hd z (by simp [hz])
    have h2 := hds.bounds.1
    simp only [limbsVal] at h
    have h3 : 0 ≤ 2 ^ b * limbsVal b xs := mul_nonneg hB.le h2
    have hx0 : x.toInt = 0 := by omega
    have h4 : limbsVal b xs = 0 := by
      have : 2 ^ b * limbsVal b xs = 0 := by omega
      rcases mul_eq_zero.1 this with e | e
      · omega
      · exact e
    have : x = 0 := by
      apply BitVec.eq_of_toInt_eq
      rw [hx0]; simp
    rw [List.length_cons, List.replicate_succ, this, ← ih hds h4]

set_option maxHeartbeats 400000 in
theorem sqrt_plain5 (h : FieldOk P p) (hpl : P.plain = true) (he : PlainExp P p) (h5 : P.mod8 = 5) (hz : SqrtZero P) {k : Nat} {a : Fp C} (ha : Valid P p k a)
    (hk : Room P k) (hsq : IsSquare (residue P p a)) :
    Normed P p (sqrt P a) ∧ residue P p (sqrt P a) * residue P p (sqrt P a) = residue P p a := by
  unfold PlainExp at he
  rw [if_pos h5] at he
  obtain ⟨hp8, hx⟩ := he
  have h2p := h.toConsts.two_lt
  have hpz : (0 : Int) < p := by exact_mod_cast h.ppos
  have hge := fexcess_ge h.toConsts
  have hn := h.hn
  have ok := h.ok
  have hb := ok.hb
  have hC := ok.hC
  have hfac : P.factor = 1 := by simp [Params.factor, hpl]
  obtain ⟨q1, q2, q3, q4⟩ := reduce_ok h.toConsts ha hk
  by_cases hzero : residue P p a = 0
  · -- zero
    have hv : limbsVal P.b (reduce P a).x = 0 := by
      have h1 := q1.valid.lt
      rw [q3] at h1
      rw [hzero] at q2
      unfold residue at q2
      rw [hfac] at q2
      simp only [Int.cast_one, inv_one, mul_one] at q2
      rw [ZMod.intCast_zmod_eq_zero_iff_dvd] at q2
      exact Int.eq_zero_of_dvd_of_nonneg_of_lt q1.valid.nonneg (by simpa using h1) q2
    have e : reduce P a = zero P := by
      have := zero_list q1.digits hv
      rw [q1.valid.len] at this
      have h0 : (Big.zero C P.n) = List.replicate P.n 0 := by simp [Big.zero]
      cases hr : reduce P a
      rw [hr] at this q3
      simp only at this q3
      rw [this, q3, zero, h0]
    have hred0 : reduce P (zero P) = zero P := by
      obtain ⟨z1, z2⟩ := zero_ok (p := p) h.toConsts
      obtain ⟨w1, w2, w3, w4⟩ := reduce_ok h.toConsts z1.valid ((room_one h.toConsts).mono (by omega))
      have hv0 : limbsVal P.b (zero P).x = 0 := by
        have hd := z1.digits
        have : ∀ n, limbsVal P.b (List.replicate n (0 : BitVec C)) = 0 := by
          intro n
          induction n with
          | zero => rfl
          | succ n ih => rw [List.replicate_succ, limbsVal, ih]; simp
        simpa [zero, Big.zero] using this P.n
      rw [hv0, Int.zero_emod] at w4
      have := zero_list w1.digits w4
      rw [w1.valid.len] at this
      have h0 : (Big.zero C P.n) = List.replicate P.n 0 := by simp [Big.zero]
      cases hr : reduce P (zero P)
      rw [hr] at this w3
      simp only at this w3
      rw [this, w3, zero, h0]
    have es : sqrt P a = sqrt P (zero P) := by unfold sqrt; rw [e, hred0]
    rw [es, hzero]
    rcases hz with hz | ⟨z1, z2, z3, z4⟩
    · rw [hz]
      obtain ⟨z1, z2⟩ := zero_ok (p := p) h.toConsts
      exact ⟨z1, by rw [z2]; ring⟩
    · refine ⟨Normed.of_rep h.toConsts ⟨z2, z3.normal, z1⟩ le_rfl (by rw [z4]; simpa using hpz) (by omega) (by omega), ?_⟩
      unfold residue
      rw [z1]; simp
  · -- the doubled element, with the counter it should have
    have hlt1 : limbsVal P.b (reduce P a).x < p := by have := q1.valid.lt; rw [q3] at this; simpa using this
    have hs := shl_rep (k := 1) ok q1.rep (by rw [Nat.div_eq_of_lt (by omega)]; omega) q1.valid.nonneg (by
      have := h.toConsts.xes_p (x := 2) (by have := fexcess_lt P; omega)
      push_cast at this
      rw [pow_one]; linarith)
    rw [pow_one] at hs
    set i0 : Fp C := { x := shl P.b 1 (reduce P a).x, xes := 2 } with hi0
    have n0 : Normed P p i0 := Normed.of_rep h.toConsts hs (by have := q1.valid.nonneg; omega) (by simp only [hi0]; push_cast; linarith) (by simp [hi0]) (by simp only [hi0]; omega)
    set v0 := residue P p a with hv0
    have r0 : residue P p i0 = 2 * v0 := by
      rw [← q2]
      unfold residue
      simp only [hi0]
      rw [hs.val]; push_cast; ring
    set i1 : Fp C := { reduce P a with x := shl P.b 1 (reduce P a).x } with hi1
    have hxx : i1.x = i0.x := rfl
    have hx1 : i1.xes ≤ 2 := by simp only [hi1]; omega
    have hx0 : i0.xes ≤ 2 := by simp [hi0]
    obtain ⟨g1, g2, g3⟩ := fpow_same (by omega : 4 ≤ P.fexcess) hxx hx1 hx0
    obtain ⟨f1, f2⟩ := fpow_ok h n0 hx
    set V := fpow P i0 with hV
    have em1 : mul P i1 (fpow P i1) = mul P i0 V := mul_same (by omega) hxx hx1 hx0 g1 g2 g3
    obtain ⟨m1, m2⟩ := mul_ok h n0 f1
    have em2 : mul P (mul P i0 V) (fpow P i1) = mul P (mul P i0 V) V := mul_same (by omega) rfl le_rfl le_rfl g1 g2 g3
    obtain ⟨m3, m4⟩ := mul_ok h m1 f1
    set I := mul P (mul P i0 V) V with hI
    have em3 : mul P (reduce P a) (fpow P i1) = mul P (reduce P a) V := mul_same (by omega) rfl (by omega) (by omega) g1 g2 g3
    obtain ⟨m5, m6⟩ := mul_ok h q1 f1
    -- algebra
    set e := (p - 5) / 8 with hE
    set ι := residue P p I with hι
    set w := (2 * v0) ^ e with hw
    have hι1 : ι = 2 * v0 * w * w := by rw [m4, m2, f2, r0]
    have h2ne : (2 : ZMod p) ≠ 0 := two_ne_zero' h.toConsts
    have h2sq : ¬ IsSquare (2 : ZMod p) := by
      rw [ZMod.exists_sq_eq_two_iff (by omega)]; omega
    have hιsq : ι ^ 2 = -1 := by
      have e1 : ι ^ 2 = (2 * v0) ^ (p / 2) := by
        rw [hι1, hw, show p / 2 = 2 + 4 * e by omega, pow_add, pow_mul']
        ring
      rw [e1]
      rcases ZMod.pow_div_two_eq_neg_one_or_one p (mul_ne_zero h2ne hzero) with e2 | e2
      · exfalso
        rw [← ZMod.euler_criterion p (mul_ne_zero h2ne hzero)] at e2
        obtain ⟨s, hs⟩ := hsq
        obtain ⟨t, ht⟩ := e2
        have hs0 : s ≠ 0 := by rintro rfl; apply hzero; rw [hs]; ring
        apply h2sq
        refine ⟨t / s, ?_⟩
        rw [div_mul_div_comm, ← hs, ← ht, mul_div_assoc, div_self hzero, mul_one]
      · exact e2
    have hιne : ι ≠ 0 := by intro hc; rw [hc] at hιsq; simp at hιsq
    -- the decrement
    have hIpos : 1 ≤ limbsVal P.b I.x := by
      by_contra hc
      have : limbsVal P.b I.x = 0 := by have := m3.valid.nonneg; omega
      apply hιne
      rw [hι]; unfold residue; rw [this]; simp
    have hIx : I.xes = 2 := rfl
    have hnorm := m3.rep.norm ok (by omega) (by have := m3.valid.nonneg; have := cap_pos C P.b P.n; omega) (by
      have h1 := m3.valid.lt
      have h3 := h.toConsts.xes_p (x := 2) (by have := fexcess_lt P; omega)
      have := cap_ge (n := P.n) ok (by omega)
      rw [hIx] at h1
      omega)
    have hdigN := hnorm.digits m3.valid.nonneg (by
      have h1 := m3.valid.lt
      have h3 := h.toConsts.xes_p (x := 2) (by have := fexcess_lt P; omega)
      rw [hIx] at h1
      omega)
    have ha0 := at'_digits hdigN 0
    have hBC : (2 : Int) ^ P.b ≤ 2 ^ (C - 2) := pow_le_pow_right₀ (by norm_num) (by omega)
    have hb1 : (1 : Int) < 2 ^ P.b := one_lt_pow₀ (by norm_num) (by omega)
    have hdec := (inc_val ok (by omega) I.x hnorm 1 (by rw [abs_one]; omega) (by rw [abs_of_nonneg ha0.1]; omega)).2
    set I' : Fp C := { I with x := dec P.b I.x 1 } with hI'
    have hC1 : (2 : Int) ^ (C - 2) * 2 = 2 ^ (C - 1) := by rw [← pow_succ]; congr 1; omega
    have vI : Valid P p 1 I' := by
      have hne : (BitVec.ofInt C 1).toInt = 1 := toInt_ofInt_of (by omega) (by omega) (by omega)
      refine ⟨by simp [hI', dec, hnorm.len], ?_, by rw [show I'.x = dec P.b I.x 1 from rfl, hdec]; omega, ?_, by simp only [hI', hIx]; omega, by simp only [hI', hIx]; omega⟩
      · intro z hz
        have hz : z ∈ (Big.norm P.b I.x).set 0 (at' (Big.norm P.b I.x) 0 - BitVec.ofInt C 1) := hz
        rcases List.mem_or_eq_of_mem_set hz with hz | rfl
        · have := hdigN z hz
          push_cast; omega
        · rw [toInt_sub_of _ _ (by omega) (by rw [hne]; omega) (by rw [hne]; omega), hne]
          push_cast; omega
      · have h1 := m3.valid.lt
        rw [show I'.x = dec P.b I.x 1 from rfl, hdec]
        have : I'.xes = I.xes := rfl
        rw [this]; omega
    have rI : residue P p I' = ι - 1 := by
      unfold residue
      rw [show I'.x = dec P.b I.x 1 from rfl, hdec, hfac, hι]
      unfold residue
      rw [hfac]; push_cast; ring
    obtain ⟨m7, m8⟩ := mul_ok' h m5.valid vI
    obtain ⟨t1, t2, _, _⟩ := reduce_ok h.toConsts m7.valid ((room_one h.toConsts).mono (by omega))
    have es : sqrt P a = reduce P (mul P (mul P (reduce P a) V) I') := by
      have : sqrt P a = reduce P (mul P (mul P (reduce P a) (fpow P i1)) { mul P (mul P i1 (fpow P i1)) (fpow P i1) with x := dec P.b (mul P (mul P i1 (fpow P i1)) (fpow P i1)).x 1 }) := by
        simp [sqrt, hpl, h5, hi1]
      rw [this, em1, em2, em3]
    rw [es]
    refine ⟨t1, ?_⟩
    rw [t2, m8, m6, rI, q2, f2, r0, ← hw]
    have hι2 : ι * ι = -1 := by rw [← pow_two]; exact hιsq
    linear_combination (v0 * v0 * w * w - v0) * hι2 + (v0 * ι) * hι1
/-- zero with the counter of a product -/
def zero2 (P : Params C) : Fp C := { x := Big.zero C P.n, xes := 2 }

omit hp in
/-- `SqrtZero` from four single operations on zero -/
theorem sqrtZero_of (hpl : P.plain = true) (h5 : P.mod8 = 5) (h4 : 4 ≤ P.fexcess) (hr : reduce P (zero P) = zero P) (hm : mul P (zero P) (zero P) = zero2 P) (hs : sqr P (zero P) = zero2 P)
    (hsh : shl P.b 1 (Big.zero C P.n) = Big.zero C P.n) {w : Fp C} (hw : reduce P (mul P (zero2 P) { zero2 P with x := dec P.b (Big.zero C P.n) 1 }) = w)
    (h1 : limbsVal P.b w.x = 0 ∧ w.x.length = P.n ∧ Digits P.b w.x ∧ w.xes = 1) : SqrtZero P := by
  have hmm : ∀ a c : Fp C, (mul P a c).xes = 2 := fun a c => rfl
  have hss : ∀ a : Fp C, (sqr P a).xes = 2 := fun a => rfl
  have mz : ∀ a c : Fp C, a.x = Big.zero C P.n → a.xes ≤ 2 → c.x = Big.zero C P.n → c.xes ≤ 2 → mul P a c = zero2 P := by
    intro a c h1 h2 h3 h4'
    rw [mul_same (w := zero P) (d := zero P) h4 h1 h2 (by simp [zero]) h3 h4' (by simp [zero]), hm]
  have sz : ∀ a : Fp C, a.x = Big.zero C P.n → a.xes ≤ 2 → sqr P a = zero2 P := by
    intro a h1 h2
    rw [sqr_same (w := zero P) h4 h1 h2 (by simp [zero]), hs]
  have hf : (fpow P (zero P)).x = Big.zero C P.n ∧ (fpow P (zero P)).xes ≤ 2 :=
    fpowG_rel (R := fun (u : Fp C) (_ : Unit) => u.x = Big.zero C P.n ∧ u.xes ≤ 2) (sq' := fun _ => ()) (mu' := fun _ _ => ()) (z' := ())
      (fun a _ ⟨h1, h2⟩ => by rw [sz a h1 h2]; exact ⟨rfl, le_rfl⟩)
      (fun a _ c _ ⟨h1, h2⟩ ⟨h3, h4'⟩ => by rw [mz a c h1 h2 h3 h4']; exact ⟨rfl, le_rfl⟩)
      ⟨rfl, by simp [zero]⟩ _ _ _ _ (zero P) () ⟨rfl, by simp [zero]⟩
  have e : sqrt P (zero P) = w := by
    unfold sqrt
    dsimp only
    rw [hr, if_pos hpl, if_pos h5]
    have e1 : ({ zero P with x := shl P.b 1 (zero P).x } : Fp C) = zero P := by
      show ({ x := shl P.b 1 (Big.zero C P.n), xes := 1 } : Fp C) = _
      rw [hsh]; rfl
    have z1 : (zero P).xes ≤ 2 := by simp [zero]
    rw [e1, mz (zero P) _ rfl z1 hf.1 hf.2, mz (zero2 P) _ rfl le_rfl hf.1 hf.2]
    exact hw
  rw [SqrtZero, e]
  exact Or.inr h1

end Verif.Fp
