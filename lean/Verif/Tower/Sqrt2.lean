import Verif.Tower.Top
import Verif.Tower.Alg
import Verif.Big.Jacobi
import Mathlib.NumberTheory.LegendreSymbol.JacobiSymbol
/- `FP2::sqrt`, `geta`, `getb`, `sgn0`, `spmt`. -/
namespace Verif.Tower
open Verif.Big Verif.Fp Spec

variable {C : Nat} {P : Params C} {p : Nat} [hp : Fact p.Prime]

/-- `redc` of a lazily normalised element -/
theorem redc_ex (h : TowerOk P p) {l k : Nat} (hl : l < P.n) (hk : k < P.n) {a : Fp C} {v : ZMod p} (ha : Elem P p l k a v) :
    Rep P.b P.n (redc P a) (if v = 0 ∧ limbsVal P.b a.x ≠ 0 then (p : Int) else (v.val : Int)) := by
  have := redc_gen h.toMontConsts ha.valid (by have := ha.pos; omega) (by omega)
  rw [ha.res] at this
  exact this

/-- `jacobi() == 1` decides "non-zero square", also on lazily normalised elements -/
theorem isSq_ok (h : TowerOk P p) {l k : Nat} (hl : l < P.n) (hk : k < P.n) {a : Fp C} {v : ZMod p} (ha : Elem P p l k a v) :
    Fp2.isSq P a = true ↔ v ≠ 0 ∧ IsSquare v := by
  have hr := redc_ex h hl hk ha
  have hcg := cap_ge (n := P.n) h.ok (by have := h.hn; omega)
  have hpR : (2 : Int) ^ 1 * p ≤ 2 ^ P.sh * p :=
    mul_le_mul_of_nonneg_right (pow_le_pow_right₀ (by norm_num) (by have := h.sh5; omega)) (by positivity)
  have hpS := h.p_sh
  have hcp := cap_pos C P.b P.n
  have h2 := h.two_lt
  have hvlt : (v.val : Int) < p := by exact_mod_cast ZMod.val_lt v
  have hne := hr.ne_nil (by have := h.hn; omega)
  have hf : 2 * (P.b * P.n) < 2 * (P.b * P.n) + 1 := by omega
  unfold Fp2.isSq Fp.jacobi
  rw [beq_iff_eq]
  split_ifs at hr with hz
  · have hn := Digits.norm_rep h.ok hne (hr.digits (by positivity) (by omega))
    rw [hr.len, hr.val] at hn
    rw [jacobi_spec h.ok h.hn _ hf (X := p) hn h.md_rep (by omega) (by omega) (odd_of_prime h.toConsts) (by omega)]
    have : jacobiSym (p : Int) p = 0 := by
      rw [jacobiSym.mod_left]; simp only [Int.emod_self]; rw [← jacobiSym.legendreSym.to_jacobiSym]; simp
    rw [this]
    constructor
    · intro hc; injection hc with hc; omega
    · intro hc; exact absurd hz.1 hc.1
  · have hn := Digits.norm_rep h.ok hne (hr.digits (by positivity) (by omega))
    rw [hr.len, hr.val] at hn
    rw [jacobi_spec h.ok h.hn _ hf (X := v.val) hn h.md_rep (by omega) (by omega) (odd_of_prime h.toConsts) (by omega),
      ← jacobiSym.legendreSym.to_jacobiSym]
    have e : (((v.val : Nat) : Int) : ZMod p) = v := by simp
    rw [Option.some.injEq]
    by_cases hv : v = 0
    · have : legendreSym p ((v.val : Nat) : Int) = 0 := (legendreSym.eq_zero_iff p _).mpr (by rw [e]; exact hv)
      rw [this]
      constructor
      · intro hc; omega
      · intro hc; exact absurd hv hc.1
    · rw [legendreSym.eq_one_iff p (by rw [e]; exact hv), e]
      simp [hv]

theorem sqrt_ex (h : TowerOk P p) (hp4 : p % 4 = 3) {l k e : Nat} {a : Fp C} {v : ZMod p} (ha : Ex P p l k e a v) (hs : IsSquare v) :
    ∃ r, Ex P p 0 1 1 (Fp.sqrt P a) r ∧ r * r = v := by
  have hr := ha.el.res
  obtain ⟨s1, s2⟩ := sqrt_ok h.arith.toFieldOk h.arith.one_ok h.plain ha.el.valid ha.el.room hp4 (by rw [hr]; exact hs)
  refine ⟨_, ⟨.of_normed h.toConsts ⟨s1, rfl⟩, ?_⟩, by rw [s2, hr]⟩
  unfold Fp.sqrt
  rw [h.plain]
  exact (pow_xes P _ _).le

/-- which elements `FP2::sqrt` reports as squares -/
def Detected (v : F2 p) : Prop := if v.im = 0 then IsSquare v.re else IsSquare v

theorem isSquare_nm2 {v : F2 p} (h : IsSquare v) : IsSquare (nm2 v) := by
  obtain ⟨u, rfl⟩ := h
  exact ⟨nm2 u, nm2_mul u u⟩

theorem root_cross {a b s w w' : ZMod p} (h2 : (2 : ZMod p) ≠ 0) (hs : s * s = a ^ 2 + b ^ 2) (hw : w = (a + s) / 2) (hw' : w' = (a - s) / 2) :
    w * w' = -(b / 2) ^ 2 ∧ w + w' = a := by
  subst hw hw'
  constructor
  · field_simp; linear_combination -hs
  · field_simp; ring

theorem root_eq {a b r w w' : ZMod p} (h2 : (2 : ZMod p) ≠ 0) (hr : r * r = w) (h0 : w ≠ 0) (hx : w * w' = -(b / 2) ^ 2) (ha : w + w' = a) :
    (⟨r, b * (r + r)⁻¹⟩ : F2 p) * ⟨r, b * (r + r)⁻¹⟩ = ⟨a, b⟩ := by
  have hr0 : r ≠ 0 := by rintro rfl; exact h0 (by rw [← hr, mul_zero])
  have hrr : (r + r)⁻¹ = 2⁻¹ * r⁻¹ := by rw [← two_mul, mul_inv]
  have ew : w' = -(b * (r + r)⁻¹) ^ 2 := by
    apply mul_left_cancel₀ h0
    rw [hx, ← hr, hrr]
    field_simp
  apply QuadraticAlgebra.ext
  · simp only [QuadraticAlgebra.re_mul]
    rw [← ha, ew, ← hr]; ring
  · simp only [QuadraticAlgebra.im_mul, hrr]
    field_simp
    ring

theorem not_both {b w w' : ZMod p} (hp4 : p % 4 = 3) (hx : w * w' = -(b / 2) ^ 2) (hb : b / 2 ≠ 0) (h1 : IsSquare w) (h2 : IsSquare w') : False := by
  obtain ⟨u, rfl⟩ := h1
  obtain ⟨u', rfl⟩ := h2
  refine ZMod.mod_four_ne_three_of_sq_eq_neg_one (y := u * u' / (b / 2)) ?_ hp4
  rw [div_pow, div_eq_iff (pow_ne_zero 2 hb)]
  linear_combination hx

theorem one_of {b w w' : ZMod p} (hx : w * w' = -(b / 2) ^ 2) (hb : b / 2 ≠ 0) (hw : w ≠ 0) (h1 : ¬ IsSquare w) (hw' : w' ≠ 0) (hp4 : p % 4 = 3) : IsSquare w' := by
  by_contra h2
  -- the product of two non-squares is a square
  have hpr : p ≠ 2 := by omega
  have e1 : quadraticChar (ZMod p) w = -1 := (quadraticChar_neg_one_iff_not_isSquare).mpr h1
  have e2 : quadraticChar (ZMod p) w' = -1 := (quadraticChar_neg_one_iff_not_isSquare).mpr h2
  have e3 : quadraticChar (ZMod p) (w * w') = 1 := by rw [map_mul, e1, e2]; norm_num
  have e4 : IsSquare (w * w') := (quadraticChar_one_iff_isSquare (mul_ne_zero hw hw')).mp e3
  obtain ⟨u, hu⟩ := e4
  refine ZMod.mod_four_ne_three_of_sq_eq_neg_one (y := u / (b / 2)) ?_ hp4
  rw [div_pow, div_eq_iff (pow_ne_zero 2 hb), pow_two u, ← hu, hx]; ring

/-- `FP2::sqrt`: the flag says whether the element was recognised as a square; then the value is a root. -/
theorem sqrt2_ok (h : TowerOk P p) (hn3 : 2 < P.n) (hp4 : p % 4 = 3) {e : Nat} {x : Fp2 C} {v : F2 p} (hx : Rel2 P p ⟨0, 1, e⟩ x v) (he : 2 ≤ e) :
    ((Fp2.sqrt P x).2 = true ↔ Detected v) ∧
    ((Fp2.sqrt P x).2 = true → ∃ r, Rel2 P p ⟨0, 1, e⟩ (Fp2.sqrt P x).1 r ∧ r * r = v) ∧
    ((Fp2.sqrt P x).2 = false → (Fp2.sqrt P x).1 = Fp2.zero P) := by
  have hc := h.toConsts
  have f := h.arith.toFieldOk
  have h2 := two_ne_zero' hc
  have mono : ∀ {e' : Nat} {a : Fp C} {w : ZMod p}, Ex P p 0 1 e' a w → e' ≤ e → Ex P p 0 1 e a w := fun q hq => q.mono le_rfl le_rfl hq (room2 h (by omega) (by omega))
  have hz : Fp2.iszilch P x = true ↔ v = 0 := by
    unfold Fp2.iszilch
    rw [Bool.and_eq_true, iszilch_ok hc hx.re.el.valid hx.re.el.room, iszilch_ok hc hx.im.el.valid hx.im.el.room, hx.re.el.res, hx.im.el.res]
    constructor
    · rintro ⟨a, b⟩; exact QuadraticAlgebra.ext a b
    · rintro rfl; exact ⟨rfl, rfl⟩
  by_cases c0 : Fp2.iszilch P x = true
  · have hv := hz.mp c0
    have e0 : Fp2.sqrt P x = (x, true) := by unfold Fp2.sqrt; rw [if_pos c0]
    rw [e0]
    refine ⟨⟨fun _ => ?_, fun _ => rfl⟩, fun _ => ⟨0, ?_, by rw [hv, mul_zero]⟩, fun hf => by cases hf⟩
    · rw [hv]; unfold Detected; rw [if_pos QuadraticAlgebra.im_zero]; exact ⟨0, by simp⟩
    · rw [← hv]; exact hx
  have hv : v ≠ 0 := fun hv => c0 (hz.mpr hv)
  have s1 := (hx.im.sqr f ⟨by simp, by simp⟩).add hc (hx.re.sqr f ⟨by simp, by simp⟩) (room2 h (by omega) (by omega))
  have hN : v.im * v.im + v.re * v.re = nm2 v := by unfold nm2; ring
  rw [hN] at s1
  have hN0 : nm2 v ≠ 0 := by
    intro hc0
    have hv' := mul_inv2 hp4 hv
    have e1 : nm2 v * nm2 (inv2 v) = 1 := by rw [← nm2_mul, hv']; unfold nm2; rw [QuadraticAlgebra.re_one, QuadraticAlgebra.im_one]; ring
    rw [hc0, zero_mul] at e1
    exact zero_ne_one e1
  have q1 := isSq_ok h (by omega) (by omega) s1.el
  set n1 := Fp.add P (Fp.sqr P x.b) (Fp.sqr P x.a) with hn1
  by_cases c1 : Fp2.isSq P n1 = true
  swap
  · have c1' : Fp2.isSq P n1 = false := by simpa using c1
    have e0 : Fp2.sqrt P x = (Fp2.zero P, false) := by unfold Fp2.sqrt; rw [if_neg c0]; dsimp only; rw [if_pos c1']
    rw [e0]
    refine ⟨⟨fun hf => (by cases hf), fun hd => ?_⟩, fun hf => (by cases hf), fun _ => rfl⟩
    exfalso
    apply c1; rw [q1]
    refine ⟨hN0, ?_⟩
    unfold Detected at hd
    split_ifs at hd with hi
    · exact ⟨v.re, by unfold nm2; rw [hi]; ring⟩
    · exact isSquare_nm2 hd
  obtain ⟨s, hs, hss⟩ := sqrt_ex h hp4 s1 (q1.mp c1).2
  have wa := ((hx.re.add hc hs (room2 h (by simp) (by simp))).norm hc).div2 hc
  have wb := ((hx.re.sub hc h.hC hs (room2 h (by simp) (by simp))).norm hc).div2 hc
  obtain ⟨x1, x2⟩ := root_cross (a := v.re) (b := v.im) h2 (by rw [hss]; rfl) rfl rfl
  have qa := isSq_ok h (by omega) (by omega) wa.el
  have qb := isSq_ok h (by omega) (by omega) wb.el
  have fin : ∀ {e' : Nat} {y : Fp C} {w w' : ZMod p}, Ex P p 0 1 e' y w → w ≠ 0 → IsSquare w → w * w' = -(v.im / 2) ^ 2 → w + w' = v.re →
      ∃ r, Rel2 P p ⟨0, 1, e⟩ ⟨Fp.sqrt P y, Fp.mul P x.b (Fp.inverse P (Fp.dbl P (Fp.sqrt P y)))⟩ r ∧ r * r = v := by
    intro e' y w w' hy hw hsq hx1 hx2
    obtain ⟨r, hr, hrr⟩ := sqrt_ex h hp4 hy hsq
    have hi := (hr.dbl hc (room2 h (by omega) (by omega))).inverse h.arith h.plain
    have hm := hx.im.mul f hi ⟨by simp, by simp⟩ ⟨by simp, by simp⟩
    exact ⟨⟨r, v.im * (r + r)⁻¹⟩, ⟨mono hr (by omega), mono hm he⟩, root_eq h2 hrr hw hx1 hx2⟩
  have eS : Fp2.sqrt P x = if Fp2.isSq P (Fp.div2 P (Fp.norm P (Fp.add P x.a (Fp.sqrt P n1)))) then
        (⟨Fp.sqrt P (Fp.div2 P (Fp.norm P (Fp.add P x.a (Fp.sqrt P n1)))), Fp.mul P x.b (Fp.inverse P (Fp.dbl P (Fp.sqrt P (Fp.div2 P (Fp.norm P (Fp.add P x.a (Fp.sqrt P n1)))))))⟩, true)
      else if Fp2.isSq P (Fp.div2 P (Fp.norm P (Fp.sub P x.a (Fp.sqrt P n1)))) then
        (⟨Fp.sqrt P (Fp.div2 P (Fp.norm P (Fp.sub P x.a (Fp.sqrt P n1)))), Fp.mul P x.b (Fp.inverse P (Fp.dbl P (Fp.sqrt P (Fp.div2 P (Fp.norm P (Fp.sub P x.a (Fp.sqrt P n1)))))))⟩, true)
      else (Fp2.zero P, false) := by
    have c1' : ¬ Fp2.isSq P n1 = false := by simp [c1]
    unfold Fp2.sqrt; rw [if_neg c0]; dsimp only; rw [if_neg c1']
  generalize Fp.div2 P (Fp.norm P (Fp.add P x.a (Fp.sqrt P n1))) = y at wa qa eS
  generalize Fp.div2 P (Fp.norm P (Fp.sub P x.a (Fp.sqrt P n1))) = y' at wb qb eS
  -- whether a root exists
  have det : (Fp2.isSq P y = true ∨ Fp2.isSq P y' = true) ↔ Detected v := by
    rw [qa, qb]
    unfold Detected
    split_ifs with hi
    · have hre : v.re ≠ 0 := fun hre => hv (QuadraticAlgebra.ext hre hi)
      rw [hi] at x1
      have x1' : (v.re + s) / 2 * ((v.re - s) / 2) = 0 := by rw [x1]; simp
      rcases mul_eq_zero.mp x1' with z | z
      · have e2 : (v.re - s) / 2 = v.re := by rw [z, zero_add] at x2; exact x2
        rw [e2, z]
        constructor
        · rintro (q | q)
          · exact absurd rfl q.1
          · exact q.2
        · intro q; exact Or.inr ⟨hre, q⟩
      · have e2 : (v.re + s) / 2 = v.re := by rw [z, add_zero] at x2; exact x2
        rw [e2, z]
        constructor
        · rintro (q | q)
          · exact q.2
          · exact absurd rfl q.1
        · intro q; exact Or.inl ⟨hre, q⟩
    · have hb : v.im / 2 ≠ 0 := div_ne_zero hi h2
      have hprod : (v.re + s) / 2 * ((v.re - s) / 2) ≠ 0 := by rw [x1]; exact neg_ne_zero.mpr (pow_ne_zero 2 hb)
      have n1' := left_ne_zero_of_mul hprod
      have n2' := right_ne_zero_of_mul hprod
      constructor
      · intro q
        rcases q with q | q
        · obtain ⟨r, _, hr⟩ := fin wa n1' q.2 x1 x2
          exact ⟨r, hr.symm⟩
        · obtain ⟨r, _, hr⟩ := fin wb n2' q.2 (by rw [mul_comm]; exact x1) (by rw [add_comm]; exact x2)
          exact ⟨r, hr.symm⟩
      · intro _
        by_cases q : IsSquare ((v.re + s) / 2)
        · exact Or.inl ⟨n1', q⟩
        · exact Or.inr ⟨n2', one_of x1 hb n1' q n2' hp4⟩
  by_cases ca : Fp2.isSq P y = true
  · rw [if_pos ca] at eS
    rw [eS]
    exact ⟨⟨fun _ => det.mp (Or.inl ca), fun _ => rfl⟩, fun _ => fin wa (qa.mp ca).1 (qa.mp ca).2 x1 x2, fun hf => by cases hf⟩
  · rw [if_neg ca] at eS
    by_cases cb : Fp2.isSq P y' = true
    · rw [if_pos cb] at eS
      rw [eS]
      exact ⟨⟨fun _ => det.mp (Or.inr cb), fun _ => rfl⟩, fun _ => fin wb (qb.mp cb).1 (qb.mp cb).2 (by rw [mul_comm]; exact x1) (by rw [add_comm]; exact x2), fun hf => by cases hf⟩
    · rw [if_neg cb] at eS
      rw [eS]
      refine ⟨⟨fun hf => (by cases hf), fun hd => ?_⟩, fun hf => (by cases hf), fun _ => rfl⟩
      rcases det.mpr hd with q | q
      · exact absurd q ca
      · exact absurd q cb

/-- `spmt` -/
theorem spmt_ok (h : TowerOk P p) {e : Nat} {x : Fp2 C} {v : F2 p} (hx : Rel2 P p ⟨0, 1, e⟩ x v) :
    ∃ d, Rel2 P p d (Fp2.spmt P x) ⟨v.re + v.im, v.re - v.im⟩ := by
  have a := hx.re.add h.toConsts hx.im (room2 h (by simp) (by simp))
  have b := hx.re.sub h.toConsts h.hC hx.im (room2 h (by simp) (by simp))
  exact ⟨⟨1, 2, max (e + e) (e + negE e)⟩, a.mono (by simp) (by simp) (by simp) (room2 h (by simp) (by simp)), b.mono (by simp) (by simp) (by simp) (room2 h (by simp) (by simp))⟩

end Verif.Tower
