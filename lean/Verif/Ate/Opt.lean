import Verif.Ate.Text
import Mathlib.GroupTheory.OrderOfElement
/-
`ate` followed by the final exponentiation is the optimal ate pairing of the textbook.
-/
namespace Verif.Ate
open Verif.Big Verif.Fp Verif.Rom Verif.Curve Verif.Tower Verif.Ecp2 Verif.Pair Spec WeierstrassCurve
set_option linter.unusedSectionVars false
set_option linter.unusedVariables false

section
variable {p : Nat} [hp : Fact p.Prime] [h4 : Fact (p % 4 = 3)]

theorem lineAt_ne (mt : Bool) (x y l : F2 p) {q : ZMod p × ZMod p} (hq : q.2 ≠ 0) : lineAt mt x y l q ≠ 0 := by
  rw [lineAt_eq]
  intro e
  apply hq
  have h1 := congrArg CubicAlgebra.a e
  cases mt
  · exact congrArg (fun v : F4 p => v.re.re) h1
  · exact congrArg (fun v : F4 p => v.re.re) h1

theorem lineAt_kill (t : TowerPrime p) (mt : Bool) (x y l : F2 p) {q : ZMod p × ZMod p} (h1 : q.1 = 0) (hq : q.2 ≠ 0) : Kill p (lineAt mt x y l q) := by
  rw [lineAt_eq]
  refine lineVal_kill t mt (Or.inl ⟨?_, Or.inl ?_⟩)
  · have z : (⟨q.1, 0⟩ : F2 p) = 0 := by rw [h1]; rfl
    rw [z, mul_zero, neg_zero, zero_mul]
  · intro e; exact hq (congrArg QuadraticAlgebra.re e)

theorem Kill.conj (t : TowerPrime p) {c : F12 p} (hc : Kill p c) : Kill p (conj12 c) := by
  rw [← f12_pow6 t.mod8 t.mod6 t.two]; exact hc.pow t _

theorem pow_full (t : TowerPrime p) {v : F12 p} (hv : v ≠ 0) : v ^ (p ^ 12 - 1) = 1 := by
  apply f12_cancel t hv
  have h1 : 1 ≤ p ^ 12 := Nat.one_le_pow _ _ hp.out.pos
  rw [← pow_succ, Nat.sub_add_cancel h1, show p ^ 12 = p ^ 6 * p ^ 6 by ring, pow_mul, f12_pow6 t.mod8 t.mod6 t.two, f12_pow6 t.mod8 t.mod6 t.two]
  unfold conj12
  simp

/-- the easy part of the exponent turns conjugates into inverses -/
theorem conj_inv (t : TowerPrime p) {v : F12 p} (hv : v ≠ 0) : (conj12 v) ^ ((p ^ 6 - 1) * (p ^ 2 + 1)) = (v ^ (p ^ 12 - 2)) ^ ((p ^ 6 - 1) * (p ^ 2 + 1)) := by
  have hp6 : 1 ≤ p ^ 6 := Nat.one_le_pow _ _ hp.out.pos
  have h2 : 2 ≤ p ^ 12 := le_trans hp.out.two_le (Nat.le_self_pow (by norm_num) p)
  have e1 : (p ^ 6 + 1) * (p ^ 6 - 1) = p ^ 12 - 1 := by
    obtain ⟨k, hk⟩ := Nat.exists_eq_add_of_le hp6
    rw [show p ^ 12 = p ^ 6 * p ^ 6 by ring, hk, Nat.add_sub_cancel_left]
    have : (1 + k) * (1 + k) = 1 + (1 + k + 1) * k := by ring
    rw [this, Nat.add_sub_cancel_left]
  have a : (conj12 v * v) ^ ((p ^ 6 - 1) * (p ^ 2 + 1)) = 1 := by
    rw [← f12_pow6 t.mod8 t.mod6 t.two, ← pow_succ, ← pow_mul, ← mul_assoc, e1, pow_mul, pow_full t hv, one_pow]
  have b : v ^ (p ^ 12 - 2) * v = 1 := by rw [← pow_succ, show p ^ 12 - 2 + 1 = p ^ 12 - 1 by omega, pow_full t hv]
  have b' : (v ^ (p ^ 12 - 2) * v) ^ ((p ^ 6 - 1) * (p ^ 2 + 1)) = 1 := by rw [b, one_pow]
  rw [mul_pow] at a b'
  generalize (p ^ 6 - 1) * (p ^ 2 + 1) = N at *
  calc (conj12 v) ^ N = conj12 v ^ N * ((v ^ (p ^ 12 - 2)) ^ N * v ^ N) := by rw [b', mul_one]
    _ = (conj12 v ^ N * v ^ N) * (v ^ (p ^ 12 - 2)) ^ N := by ring
    _ = _ := by rw [a, one_mul]
end

variable {C : Nat} {K : GlsRom C} [hp : Fact K.pair.rom.p.Prime] [h4 : Fact (K.pair.rom.p % 4 = 3)]

theorem tangent_ne (K : PairRom C) [Fact K.rom.p.Prime] [Fact (K.rom.p % 4 = 3)] {q : ZMod K.rom.p × ZMod K.rom.p} (hq : q.2 ≠ 0) (T : (curve2 K).Point) : tangent K q T ≠ 0 := by
  cases T with
  | zero => exact one_ne_zero
  | some x y h => exact lineAt_ne _ _ _ _ hq

theorem chord_ne (K : PairRom C) [Fact K.rom.p.Prime] [Fact (K.rom.p % 4 = 3)] {q : ZMod K.rom.p × ZMod K.rom.p} (hq : q.2 ≠ 0) (T S : (curve2 K).Point) : chord K q T S ≠ 0 := by
  cases T with
  | zero => exact one_ne_zero
  | some x y h =>
    cases S with
    | zero => exact one_ne_zero
    | some x' y' h' => exact lineAt_ne _ _ _ _ hq

theorem tangent_kill (K : PairRom C) [Fact K.rom.p.Prime] [Fact (K.rom.p % 4 = 3)] (t : TowerPrime K.rom.p) {q : ZMod K.rom.p × ZMod K.rom.p} (h1 : q.1 = 0) (hq : q.2 ≠ 0) (T : (curve2 K).Point) :
    Kill K.rom.p (tangent K q T) := by
  cases T with
  | zero => exact Kill.one
  | some x y h => exact lineAt_kill t _ _ _ _ h1 hq

theorem chord_kill (K : PairRom C) [Fact K.rom.p.Prime] [Fact (K.rom.p % 4 = 3)] (t : TowerPrime K.rom.p) {q : ZMod K.rom.p × ZMod K.rom.p} (h1 : q.1 = 0) (hq : q.2 ≠ 0) (T S : (curve2 K).Point) :
    Kill K.rom.p (chord K q T S) := by
  cases T with
  | zero => exact Kill.one
  | some x y h =>
    cases S with
    | zero => exact Kill.one
    | some x' y' h' => exact lineAt_kill t _ _ _ _ h1 hq

theorem miller_ne (K : PairRom C) [Fact K.rom.p.Prime] [Fact (K.rom.p % 4 = 3)] (t : TowerPrime K.rom.p) {q : ZMod K.rom.p × ZMod K.rom.p} (hq : q.2 ≠ 0) (S : (curve2 K).Point) (ds : List Int) :
    ∀ s : (curve2 K).Point × F12 K.rom.p, s.2 ≠ 0 → (millerF K q S ds s).2 ≠ 0 := by
  unfold millerF
  induction ds with
  | nil => intro s h; exact h
  | cons d ds ih =>
    intro s h
    rw [List.foldl_cons]
    apply ih
    unfold millerRound
    refine f12_mul_ne t (f12_pow_ne t h 2) (f12_mul_ne t (tangent_ne K hq _) ?_)
    split_ifs
    · exact one_ne_zero
    · exact chord_ne K hq _ _

theorem miller_kill (K : PairRom C) [Fact K.rom.p.Prime] [Fact (K.rom.p % 4 = 3)] (t : TowerPrime K.rom.p) {q : ZMod K.rom.p × ZMod K.rom.p} (h1 : q.1 = 0) (hq : q.2 ≠ 0) (S : (curve2 K).Point) (ds : List Int) :
    ∀ s : (curve2 K).Point × F12 K.rom.p, Kill K.rom.p s.2 → Kill K.rom.p (millerF K q S ds s).2 := by
  unfold millerF
  induction ds with
  | nil => intro s h; exact h
  | cons d ds ih =>
    intro s h
    rw [List.foldl_cons]
    apply ih
    unfold millerRound
    refine Kill.mul t (h.pow t 2) (Kill.mul t (tangent_kill K t h1 hq _) ?_)
    split_ifs
    · exact Kill.one
    · exact chord_kill K t h1 hq _ _

theorem miller_fst (K : PairRom C) [Fact K.rom.p.Prime] [Fact (K.rom.p % 4 = 3)] (q : ZMod K.rom.p × ZMod K.rom.p) (S : (curve2 K).Point) (ds : List Int) :
    ∀ (m : Int) (s : (curve2 K).Point × F12 K.rom.p), s.1 = m • S → (millerF K q S ds s).1 = (ds.foldl (fun a d => 2 * a + d) m) • S := by
  unfold millerF
  induction ds with
  | nil => intro m s h; exact h
  | cons d ds ih =>
    intro m s h
    rw [List.foldl_cons, List.foldl_cons]
    apply ih
    unfold millerRound
    dsimp only
    rw [h, two_mul, add_zsmul, add_zsmul]

/-- the check of a ROM file: no round adds a point to itself, its negative or zero -/
def loopB (r : Nat) : List Int → Int → Bool
  | [], _ => true
  | d :: ds, m => (d == 0 || (decide (2 * m % r ≠ 0) && decide (d % r ≠ 0) && decide ((2 * m - d) % r ≠ 0) && decide ((2 * m + d) % r ≠ 0))) && loopB r ds (2 * m + d)

/-- the whole check -/
def optB (K : GlsRom C) : Bool :=
  let r := rN K.pair
  let ds := digs K (lbits K - 2)
  let m := if K.pair.negx then -digitsVal ds else digitsVal ds
  let p : Int := K.pair.rom.p
  loopB r ds 1 && (!K.bn || (decide (m % r ≠ 0) && decide (p % r ≠ 0) && decide ((m - p) % r ≠ 0) && decide ((m + p) % r ≠ 0) &&
    decide (p * p % r ≠ 0) && decide ((m + p + p * p) % r ≠ 0) && decide ((m + p - p * p) % r ≠ 0)))

theorem zsmul_zero {r : Nat} (hr : r.Prime) {A : Type*} [AddCommGroup A] {S : A} (h0 : S ≠ 0) (h : r • S = 0) (m : Int) : m • S = 0 ↔ m % r = 0 := by
  have := Fact.mk hr
  have : addOrderOf S = r := addOrderOf_eq_prime h h0
  rw [← addOrderOf_dvd_iff_zsmul_eq_zero, this, Int.dvd_iff_emod_eq_zero]

theorem addOk_of {r : Nat} (hr : r.Prime) {S : (curve2 K.pair).Point} (h0 : S ≠ 0) (h : r • S = 0) {x : ZMod K.pair.rom.p} {a b : Int} (h1 : a % r ≠ 0) (h2 : b % r ≠ 0)
    (h3 : (a - b) % r ≠ 0) (h4 : (a + b) % r ≠ 0) : AddOk K.pair x (a • S) (b • S) := by
  refine Or.inr ⟨fun e => h1 ((zsmul_zero hr h0 h a).1 e), fun e => h2 ((zsmul_zero hr h0 h b).1 e), fun e => h3 ((zsmul_zero hr h0 h _).1 ?_), fun e => h4 ((zsmul_zero hr h0 h _).1 ?_)⟩
  · rw [sub_zsmul, e]; exact sub_self _
  · rw [add_zsmul, e]; exact neg_add_cancel _

theorem loopOk_of {r : Nat} (hr : r.Prime) {S : (curve2 K.pair).Point} (h0 : S ≠ 0) (h : r • S = 0) (x : ZMod K.pair.rom.p) (ds : List Int) :
    ∀ (m : Int), loopB r ds m = true → LoopOk K.pair x S ds (m • S) := by
  induction ds with
  | nil => intro m hb; exact trivial
  | cons d ds ih =>
    intro m hb
    unfold loopB at hb
    simp only [Bool.and_eq_true, Bool.or_eq_true, beq_iff_eq, decide_eq_true_eq] at hb
    obtain ⟨b1, b2⟩ := hb
    have e : m • S + m • S = (2 * m) • S := by rw [two_mul, add_zsmul]
    unfold LoopOk
    rw [e, ← add_zsmul]
    refine ⟨fun hd => ?_, ih _ b2⟩
    rcases b1 with b1 | ⟨⟨⟨b1, b3⟩, b4⟩, b5⟩
    · exact absurd b1 hd
    · exact addOk_of hr h0 h b1 b3 b4 b5

theorem loopOk_zero {x : ZMod K.pair.rom.p} (hx : x ≠ 0) (ds : List Int) : LoopOk K.pair x 0 ds 0 := by
  induction ds with
  | nil => exact trivial
  | cons d ds ih =>
    unfold LoopOk
    rw [_root_.zsmul_zero, add_zero, add_zero]
    exact ⟨fun _ => Or.inl ⟨rfl, rfl, hx⟩, ih⟩

/-- the exponent of the easy part -/
abbrev eN (p : Nat) : Nat := (p ^ 6 - 1) * (p ^ 2 + 1)

theorem cj_kill (t : TowerPrime K.pair.rom.p) {c : F12 K.pair.rom.p} (hc : Kill K.pair.rom.p c) : Kill K.pair.rom.p (cj K c) := by
  unfold cj; split_ifs
  · exact hc.conj t
  · exact hc

theorem conj_ne (t : TowerPrime K.pair.rom.p) {c : F12 K.pair.rom.p} (hc : c ≠ 0) : cj K c ≠ 0 := by
  unfold cj; split_ifs
  · rw [← f12_pow6 t.mod8 t.mod6 t.two]; exact f12_pow_ne t hc _
  · exact hc

theorem cj_pow (t : TowerPrime K.pair.rom.p) {f : F12 K.pair.rom.p} (hf : f ≠ 0) :
    cj K f ^ eN K.pair.rom.p = (if K.pair.negx then f ^ (K.pair.rom.p ^ 12 - 2) else f) ^ eN K.pair.rom.p := by
  unfold cj; split_ifs
  · exact conj_inv t hf
  · rfl

/-- the conditions on the further lines -/
def LastOk (K : GlsRom C) [Fact K.pair.rom.p.Prime] [Fact (K.pair.rom.p % 4 = 3)] (h6 : 6 ∣ K.pair.rom.p - 1) (x : ZMod K.pair.rom.p) (S T : (curve2 K.pair).Point) : Prop :=
  AddOk K.pair x T (psi h6 S) ∧ AddOk K.pair x (T + psi h6 S) (-(psi h6 (psi h6 S)))

theorem last_ne (t : TowerPrime K.pair.rom.p) (h6 : 6 ∣ K.pair.rom.p - 1) {q : ZMod K.pair.rom.p × ZMod K.pair.rom.p} (hq : q.2 ≠ 0) (S T : (curve2 K.pair).Point) : lastLines K h6 q S T ≠ 0 := by
  unfold lastLines
  exact f12_mul_ne t (chord_ne _ hq _ _) (chord_ne _ hq _ _)

theorem last_kill (t : TowerPrime K.pair.rom.p) (h6 : 6 ∣ K.pair.rom.p - 1) {q : ZMod K.pair.rom.p × ZMod K.pair.rom.p} (h1 : q.1 = 0) (hq : q.2 ≠ 0) (S T : (curve2 K.pair).Point) :
    Kill K.pair.rom.p (lastLines K h6 q S T) := by
  unfold lastLines
  exact Kill.mul t (chord_kill _ t h1 hq _ _) (chord_kill _ t h1 hq _ _)

theorem swap4 {p : Nat} (c f d l : F12 p) : c * f * (d * l) = c * d * (f * l) := by ring

/-- the value of `ate`, raised to the easy part of the exponent -/
theorem ateV_text (h : AteRom K) (t : TowerPrime K.pair.rom.p) {P1 : Pt2 C} {S : (curve2 K.pair).Point} {Q1 : Ecp.Pt C} {U : (Ecp.curve K.pair.rom).Point} (hP : IsPoint2 K.pair 1820 P1 S)
    (hQ : Ecp.IsPoint K.pair.rom Q1 U) {q : ZMod K.pair.rom.p × ZMod K.pair.rom.p} (e1 : (Ecp.coords K.pair.rom (Ecp.affine K.pair.rom Q1)).x = q.1)
    (e2 : (Ecp.coords K.pair.rom (Ecp.affine K.pair.rom Q1)).y = q.2) (hq : q.2 ≠ 0) (hl : LoopOk K.pair q.1 S (digs K (lbits K - 2)) S)
    (hx : K.bn = true → LastOk K h.fr.six q.1 S (if K.pair.negx = true then -(millerF K.pair q S (digs K (lbits K - 2)) (S, 1)).1 else (millerF K.pair q S (digs K (lbits K - 2)) (S, 1)).1)) :
    ateV K P1 Q1 ≠ 0 ∧ ateV K P1 Q1 ^ eN K.pair.rom.p = ateFn K h.fr.six (digs K (lbits K - 2)) S q ^ eN K.pair.rom.p := by
  have hb := base_of h hP hQ
  rw [e1, e2] at hb
  obtain ⟨_, z⟩ := Ecp2.affine_ok h.tc.tower hP (by norm_num)
  have hz : ZOne K.pair (Ecp2.affine K.pair P1) S := z
  have hn : ZOne K.pair (Ecp2.neg K.pair (Ecp2.affine K.pair P1)) (-S) := fun h0 => by
    rw [neg_z]
    exact z fun e => h0 (by rw [e, neg_zero])
  obtain ⟨⟨c, hc, l1⟩, l2⟩ := loop_text hb t hz hn (lbits K - 2) (c := 1) (f := 1) hb.pos Kill.one hl
  have fne := miller_ne K.pair t hq S (digs K (lbits K - 2)) (S, 1) one_ne_zero
  unfold ateV ateFn fx
  simp only
  rw [e1, e2]
  rw [mul_one] at l1
  rw [l1]
  generalize millerF K.pair q S (digs K (lbits K - 2)) (S, 1) = s at *
  obtain ⟨T, f⟩ := s
  dsimp only at *
  rw [cj_mul]
  have hc' := cj_kill t hc
  have hf' := conj_ne (K := K) t fne
  have hp' := cj_pow (K := K) t fne
  cases hbn : K.bn
  · simp only [Bool.false_eq_true, if_false, mul_one]
    refine ⟨f12_mul_ne t hc'.1 hf', ?_⟩
    rw [mul_pow, hc'.2, one_mul, hp']
  · simp only [if_true]
    obtain ⟨d, hd, e⟩ := fix_text hb h.fr t hz l2 (hx hbn).1 (hx hbn).2
    have hl' := last_ne t h.fr.six hq S (if K.pair.negx = true then -T else T)
    rw [e, swap4]
    have hcd := hc'.mul t hd
    refine ⟨f12_mul_ne t hcd.1 (f12_mul_ne t hf' hl'), ?_⟩
    rw [mul_pow, hcd.2, one_mul, mul_pow, hp', mul_pow]

end Verif.Ate
