import Verif.Common.PointCount
import Verif.Ecp.Order
/-
Elliptic-curve primality certificates (Goldwasser-Kilian, Atkin-Morain): if a point `U` on `y^2 = x^3 + a x + b` modulo `n` satisfies
`s U = 0` with every intermediate denominator coprime to `n`, and `s` is a prime above `(n^{1/4} + 1)^2`, then `n` is prime. The multiple is
computed with Jacobian coordinates on residues.
-/
namespace Verif.Ecpp
open Verif.Curve Verif.Ecp WeierstrassCurve

/-- doubling -/
def dblJ (n a : Nat) (P : Nat × Nat × Nat) : Nat × Nat × Nat :=
  force P.1 fun x => force P.2.1 fun y => force P.2.2 fun z =>
  force (y * y % n) fun yy => force (z * z % n) fun zz =>
  force (4 * x * yy % n) fun s =>
  force ((3 * x * x + a * (zz * zz % n)) % n) fun m =>
  force ((m * m + 2 * (n - s % n)) % n) fun x3 =>
  force ((m * (s + (n - x3 % n)) + 8 * (n - yy * yy % n)) % n) fun y3 =>
  force (2 * y * z % n) fun z3 => (x3, y3, z3)

/-- addition of an affine point -/
def addJ (n : Nat) (x y : Nat) (P : Nat × Nat × Nat) : Nat × Nat × Nat :=
  force P.1 fun x1 => force P.2.1 fun y1 => force P.2.2 fun z =>
  force (z * z % n) fun zz =>
  force ((x * zz + (n - x1 % n)) % n) fun h =>
  force ((y * (zz * z % n) + (n - y1 % n)) % n) fun r =>
  force (h * h % n) fun hh => force (hh * h % n) fun hhh => force (x1 * hh % n) fun v =>
  force ((r * r + (n - hhh % n) + 2 * (n - v % n)) % n) fun x3 =>
  force ((r * (v + (n - x3 % n)) + y1 * (n - hhh % n)) % n) fun y3 =>
  force (z * h % n) fun z3 => (x3, y3, z3)

/-- left-to-right double-and-add, for `e ≥ 1` -/
def mulJ (n a x y : Nat) : Nat → Nat → Nat × Nat × Nat
  | 0, _ => (x, y, 1)
  | k + 1, e => if e ≤ 1 then (x, y, 1) else
      let d := dblJ n a (mulJ n a x y k (e / 2))
      if e % 2 = 1 then addJ n x y d else d

/-- one step: the point has order `s` modulo every prime divisor of `n` -/
def stepB (n s a x y : Nat) : Bool :=
  let P := mulJ n a x y (s.log2 + 1) (s - 1)
  n % 2 == 1 && 3 ≤ s && 4 * n < (s - 2) * (s - 2) && Nat.gcd y n == 1 && Nat.gcd P.2.2 n == 1 &&
    P.1 % n == x * (P.2.2 * P.2.2) % n && (P.2.1 + y * (P.2.2 * P.2.2 * P.2.2)) % n == 0

section
variable {F : Type} [Field F] [DecidableEq F] {A B : F}

/-- Jacobian coordinates, meaningful when `Z ≠ 0` -/
def Jac (X Y Z : F) (T : (short A B).Point) : Prop :=
  Z ≠ 0 → ∃ x y h, T = Affine.Point.some x y h ∧ X = x * Z ^ 2 ∧ Y = y * Z ^ 3

theorem jac_dbl (hc : (2 : F) ≠ 0) {X Y Z : F} {T : (short A B).Point} (h : Jac X Y Z T) :
    Jac ((3 * X ^ 2 + A * Z ^ 4) ^ 2 - 2 * (4 * X * Y ^ 2))
      ((3 * X ^ 2 + A * Z ^ 4) * (4 * X * Y ^ 2 - ((3 * X ^ 2 + A * Z ^ 4) ^ 2 - 2 * (4 * X * Y ^ 2))) - 8 * Y ^ 4) (2 * Y * Z) (T + T) := by
  intro hz
  have hz1 : Z ≠ 0 := right_ne_zero_of_mul hz
  have hy1 : Y ≠ 0 := right_ne_zero_of_mul (left_ne_zero_of_mul hz)
  obtain ⟨x, y, hh, rfl, rfl, rfl⟩ := h hz1
  have hy : y ≠ 0 := left_ne_zero_of_mul hy1
  have hne : y ≠ (short A B).negY x y := by
    rw [short_negY]; intro e
    have : 2 * y = 0 := by linear_combination e
    exact hy ((mul_eq_zero.mp this).resolve_left hc)
  rw [Affine.Point.add_self_of_Y_ne hne]
  refine ⟨_, _, _, rfl, ?_, ?_⟩
  · rw [Affine.slope_of_Y_ne rfl hne]
    simp only [Affine.addX, Affine.negY, short]
    have h2y : y + y ≠ 0 := by rw [← two_mul]; exact mul_ne_zero hc hy
    have h3 : y - (-y - 0 * x - 0) = y + y := by ring
    rw [h3, ← two_mul]
    field_simp
    ring
  · rw [Affine.slope_of_Y_ne rfl hne]
    simp only [Affine.addY, Affine.negAddY, Affine.addX, Affine.negY, short]
    have h2y : y + y ≠ 0 := by rw [← two_mul]; exact mul_ne_zero hc hy
    have h3 : y - (-y - 0 * x - 0) = y + y := by ring
    rw [h3, ← two_mul]
    field_simp
    ring

theorem jac_add {X Y Z x y : F} {T : (short A B).Point} (h : Jac X Y Z T) (hh : (short A B).Nonsingular x y) :
    Jac ((y * Z ^ 3 - Y) ^ 2 - (x * Z ^ 2 - X) ^ 3 - 2 * (X * (x * Z ^ 2 - X) ^ 2))
      ((y * Z ^ 3 - Y) * (X * (x * Z ^ 2 - X) ^ 2 - ((y * Z ^ 3 - Y) ^ 2 - (x * Z ^ 2 - X) ^ 3 - 2 * (X * (x * Z ^ 2 - X) ^ 2)))
        - Y * (x * Z ^ 2 - X) ^ 3) (Z * (x * Z ^ 2 - X)) (T + Affine.Point.some x y hh) := by
  intro hz
  have hz1 : Z ≠ 0 := left_ne_zero_of_mul hz
  have hd : x * Z ^ 2 - X ≠ 0 := right_ne_zero_of_mul hz
  obtain ⟨x1, y1, h1, rfl, rfl, rfl⟩ := h hz1
  have hx : x1 ≠ x := by rintro rfl; exact hd (sub_self _)
  rw [Affine.Point.add_of_X_ne hx]
  have hdx : x1 - x ≠ 0 := sub_ne_zero.mpr hx
  refine ⟨_, _, _, rfl, ?_, ?_⟩
  · rw [Affine.slope_of_X_ne hx]
    simp only [Affine.addX, short]
    field_simp
    ring
  · rw [Affine.slope_of_X_ne hx]
    simp only [Affine.addY, Affine.negAddY, Affine.addX, Affine.negY, short]
    field_simp
    ring
end

theorem cmod {q n : Nat} (hqn : q ∣ n) (v : Nat) : ((v % n : Nat) : ZMod q) = v :=
  (ZMod.natCast_eq_natCast_iff _ _ _).2 ((Nat.mod_modEq v n).of_dvd hqn)

theorem csub {q n : Nat} (hqn : q ∣ n) (hn : 0 < n) (v : Nat) : ((n - v % n : Nat) : ZMod q) = -(v : ZMod q) := by
  rw [Nat.cast_sub (Nat.mod_lt _ hn).le, (ZMod.natCast_eq_zero_iff n q).2 hqn, zero_sub, cmod hqn]

section
variable {q n : Nat} [hq : Fact q.Prime] (hqn : q ∣ n)
include hqn

theorem mulJ_ok (hn : 0 < n) (hc : (2 : ZMod q) ≠ 0) {a x y : Nat} {B : ZMod q} (hh : (short (a : ZMod q) B).Nonsingular x y) (k : Nat) :
    ∀ e, 1 ≤ e → e < 2 ^ k → Jac ((mulJ n a x y k e).1 : ZMod q) ((mulJ n a x y k e).2.1 : ZMod q) ((mulJ n a x y k e).2.2 : ZMod q)
      (e • Affine.Point.some _ _ hh) := by
  have base : Jac (((x, y, 1) : Nat × Nat × Nat).1 : ZMod q) (((x, y, 1) : Nat × Nat × Nat).2.1 : ZMod q) (((x, y, 1) : Nat × Nat × Nat).2.2 : ZMod q)
      (Affine.Point.some _ _ hh) := fun _ => ⟨_, _, hh, rfl, by simp, by simp⟩
  induction k with
  | zero => intro e h1 h2; simp at h2; omega
  | succ k ih =>
    intro e h1 h2
    by_cases g : e ≤ 1
    · have : e = 1 := by omega
      subst this
      simp only [mulJ, le_refl, if_true, one_nsmul]
      exact base
    · have h := jac_dbl hc (ih (e / 2) (by omega) (by rw [pow_succ] at h2; omega))
      have hd : Jac ((dblJ n a (mulJ n a x y k (e / 2))).1 : ZMod q) ((dblJ n a (mulJ n a x y k (e / 2))).2.1 : ZMod q)
          ((dblJ n a (mulJ n a x y k (e / 2))).2.2 : ZMod q) ((2 * (e / 2)) • Affine.Point.some _ _ hh) := by
        rw [mul_nsmul', two_nsmul]
        generalize mulJ n a x y k (e / 2) = P at h ⊢
        obtain ⟨X, Y, Z⟩ := P
        simp only [dblJ, force_eq, cmod hqn, csub hqn hn, Nat.cast_add, Nat.cast_mul, Nat.cast_ofNat] at h ⊢
        convert h using 1 <;> ring
      simp only [mulJ, if_neg g]
      by_cases g1 : e % 2 = 1
      · rw [if_pos g1]
        have hs := jac_add hd hh
        have e2 : e • Affine.Point.some _ _ hh = (2 * (e / 2)) • Affine.Point.some _ _ hh + Affine.Point.some _ _ hh := by
          rw [← succ_nsmul]; congr 1; omega
        rw [e2]
        generalize dblJ n a (mulJ n a x y k (e / 2)) = P at hs ⊢
        obtain ⟨X, Y, Z⟩ := P
        simp only [addJ, force_eq, cmod hqn, csub hqn hn, Nat.cast_add, Nat.cast_mul, Nat.cast_ofNat] at hs ⊢
        convert hs using 1 <;> ring
      · rw [if_neg g1]
        have e2 : e = 2 * (e / 2) := by omega
        rw [← e2] at hd
        exact hd

theorem coprime_ne {v : Nat} (h : Nat.gcd v n = 1) : (v : ZMod q) ≠ 0 := by
  intro e
  have h1 := (ZMod.natCast_eq_zero_iff v q).1 e
  have : q ∣ 1 := h ▸ Nat.dvd_gcd h1 hqn
  exact hq.1.one_lt.ne' (Nat.dvd_one.1 this)

theorem step_order (hn : 0 < n) {s a x y : Nat} (hs : s.Prime) (h : stepB n s a x y = true) : s ≤ 2 * (q + 1) := by
  simp only [stepB, Bool.and_eq_true, beq_iff_eq, decide_eq_true_eq] at h
  obtain ⟨⟨⟨⟨⟨⟨hodd, hs3⟩, _⟩, hy⟩, hz⟩, hX⟩, hY⟩ := h
  have hc : (2 : ZMod q) ≠ 0 := by
    intro e
    have h2 : q ∣ 2 := (ZMod.natCast_eq_zero_iff 2 q).1 (by simpa using e)
    have h3 : q = 2 := (Nat.prime_dvd_prime_iff_eq hq.1 Nat.prime_two).1 h2
    rw [h3] at hqn
    omega
  have hy0 : (y : ZMod q) ≠ 0 := coprime_ne hqn hy
  have heq : (short (a : ZMod q) ((y : ZMod q) ^ 2 - (x : ZMod q) ^ 3 - a * x)).Equation x y := short_eq.mpr (by ring)
  have hh : (short (a : ZMod q) ((y : ZMod q) ^ 2 - (x : ZMod q) ^ 3 - a * x)).Nonsingular x y := by
    rw [Affine.nonsingular_iff]
    refine ⟨heq, Or.inr ?_⟩
    simp only [short]
    intro e
    have : 2 * (y : ZMod q) = 0 := by linear_combination e
    exact hy0 ((mul_eq_zero.mp this).resolve_left hc)
  have hm := mulJ_ok hqn hn hc hh (s.log2 + 1) (s - 1) (by omega) (lt_of_le_of_lt (Nat.sub_le _ _) Nat.lt_log2_self)
  generalize mulJ n a x y (s.log2 + 1) (s - 1) = P at *
  obtain ⟨X, Y, Z⟩ := P
  obtain ⟨x', y', h', e, eX, eY⟩ := hm (coprime_ne hqn hz)
  have hZ : (Z : ZMod q) ≠ 0 := coprime_ne hqn hz
  simp only at hX hY eX eY
  have cX : (X : ZMod q) = x * ((Z : ZMod q) * Z) := by
    have := congrArg (fun v : Nat => (v : ZMod q)) hX
    simp only [cmod hqn] at this
    rw [this]; push_cast; ring
  have cY : (Y : ZMod q) + y * ((Z : ZMod q) * Z * Z) = 0 := by
    have := congrArg (fun v : Nat => (v : ZMod q)) hY
    simp only [cmod hqn] at this
    push_cast at this; exact this
  have ex : x' = x := by
    apply mul_right_cancel₀ (pow_ne_zero 2 hZ)
    linear_combination cX - eX
  have ey : y' = -y := by
    apply mul_right_cancel₀ (pow_ne_zero 3 hZ)
    linear_combination cY - eY
  subst ex ey
  have hneg : (s - 1) • Affine.Point.some _ _ hh = -Affine.Point.some _ _ hh := by
    rw [e, Affine.Point.neg_some]
    congr 1
    rw [short_negY]
  have hzero : s • Affine.Point.some _ _ hh = 0 := by
    have : s = (s - 1) + 1 := by omega
    rw [this, succ_nsmul, hneg, neg_add_cancel]
  have hord : addOrderOf (Affine.Point.some _ _ hh) = s :=
    addOrderOf_eq_prime (hp := ⟨hs⟩) hzero (Affine.Point.some_ne_zero hh)
  have hle : addOrderOf (Affine.Point.some _ _ hh) ≤ Nat.card (short (a : ZMod q) ((y : ZMod q) ^ 2 - (x : ZMod q) ^ 3 - a * x)).Point :=
    Nat.le_of_dvd Nat.card_pos (addOrderOf_dvd_natCard _)
  have := card_points (A := (a : ZMod q)) (B := (y : ZMod q) ^ 2 - (x : ZMod q) ^ 3 - a * x)
  rw [ZMod.card] at this
  omega
end

/-- soundness of one step -/
theorem step_prime {n s a x y : Nat} (hs : s.Prime) (hn : 1 < n) (h : stepB n s a x y = true) : n.Prime := by
  by_contra hcomp
  have hmin := Nat.minFac_sq_le_self (by omega : 0 < n) hcomp
  have hf : Fact n.minFac.Prime := ⟨Nat.minFac_prime (by omega : n ≠ 1)⟩
  have hb := step_order (Nat.minFac_dvd n) (by omega) hs h
  simp only [stepB, Bool.and_eq_true, beq_iff_eq, decide_eq_true_eq] at h
  obtain ⟨⟨⟨⟨⟨⟨_, hs3⟩, hlt⟩, _⟩, _⟩, _⟩, _⟩ := h
  have h1 : s - 2 ≤ 2 * n.minFac := by omega
  have h2 := Nat.mul_le_mul h1 h1
  nlinarith

/-- a chain of certificates ending in `e` -/
def chainB : List (Nat × Nat × Nat × Nat) → Nat → Bool
  | [], _ => true
  | [(n, a, x, y)], e => decide (1 < n) && stepB n e a x y
  | (n, a, x, y) :: (n', r) :: l, e => decide (1 < n) && stepB n n' a x y && chainB ((n', r) :: l) e

theorem chain_prime {e : Nat} (he : e.Prime) : ∀ l : List (Nat × Nat × Nat × Nat), chainB l e = true → ∀ c ∈ l, c.1.Prime := by
  intro l
  induction l with
  | nil => intro _ c hc; cases hc
  | cons c l ih =>
    obtain ⟨n, a, x, y⟩ := c
    cases l with
    | nil =>
      intro h d hd
      simp only [chainB, Bool.and_eq_true, decide_eq_true_eq] at h
      rw [List.mem_singleton.1 hd]
      exact step_prime he h.1 h.2
    | cons c' l =>
      obtain ⟨n', r⟩ := c'
      intro h d hd
      simp only [chainB, Bool.and_eq_true, decide_eq_true_eq] at h
      have ht := ih h.2
      rcases List.mem_cons.1 hd with rfl | hd
      · exact step_prime (ht _ List.mem_cons_self) h.1.1 h.1.2
      · exact ht _ hd

end Verif.Ecpp
