import Verif.Nhs.Loop
import Mathlib.Tactic.LinearCombination
import Mathlib.Algebra.BigOperators.Ring.Finset
/- Helper lemmas: the transforms of `nhs.rs` over ℤ/12289. -/
namespace Verif.Nhs
open Spec.Nhs (q negMul)
open Finset

abbrev K := ZMod q

theorem natCast_eq {a b : Nat} (h : a % q = b % q) : (a : K) = b := (ZMod.natCast_eq_natCast_iff _ _ _).2 h

/-- 2^-32 modulo q -/
def rinv : K := ((11857 : Nat) : K)
def rr : K := ((10952 : Nat) : K)

theorem rr_rinv : rr * rinv = 1 := by
  have h : ((10952 * 11857 : Nat) : K) = (1 : Nat) := natCast_eq (by decide)
  rw [Nat.cast_mul, Nat.cast_one] at h
  exact h
theorem rr_eq : ((2 ^ 32 : Nat) : K) = rr := natCast_eq (by decide)

/-- twiddle factors as residues -/
def sig (n : Nat) : K := ((ROOTS.getD n 0 : Nat) : K) * rinv
def iot (n : Nat) : K := ((IROOTS.getD n 0 : Nat) : K) * rinv

/-- `x^t = node` defines the factor of `x^1024+1` handled at a tree node -/
def node (n : Nat) : K := if n = 1 then -1 else if n % 2 = 0 then sig (n / 2) else -sig (n / 2)

/-- children of a node hold the two square roots -/
def chkSq : List Nat → List Nat → Bool
  | s :: l, a :: b :: l2 => a ^ 2 % q == s * 10952 % q && (b ^ 2 + s * 10952) % q == 0 && chkSq l l2
  | _, _ => true

def chkInv : List Nat → List Nat → Bool
  | a :: l, b :: l2 => a * b % q == 10952 * 10952 % q && decide (a < q) && decide (b < q) && chkInv l l2
  | _, _ => true

theorem chkSq_sound : ∀ l l2, chkSq l l2 = true → ∀ n, n < l.length → 2 * n + 1 < l2.length →
    l2.getD (2 * n) 0 ^ 2 % q = l.getD n 0 * 10952 % q ∧ (l2.getD (2 * n + 1) 0 ^ 2 + l.getD n 0 * 10952) % q = 0
  | [], _, _, n, h1, _ => by simp at h1
  | _ :: _, [], _, n, _, h2 => by simp at h2
  | _ :: _, [_], _, n, _, h2 => by simp at h2
  | s :: l, a :: b :: l2, h, 0, _, _ => by
    simp only [chkSq, Bool.and_eq_true, beq_iff_eq] at h
    exact ⟨h.1.1, h.1.2⟩
  | s :: l, a :: b :: l2, h, n + 1, h1, h2 => by
    simp only [chkSq, Bool.and_eq_true, beq_iff_eq] at h
    have := chkSq_sound l l2 h.2 n (by simpa using h1) (by simp only [List.length_cons] at h2; omega)
    simpa [show 2 * (n + 1) = 2 * n + 1 + 1 by ring, List.getD_cons_succ] using this

theorem chkInv_sound : ∀ l l2, chkInv l l2 = true → ∀ n, n < l.length → n < l2.length →
    l.getD n 0 * l2.getD n 0 % q = 10952 * 10952 % q ∧ l.getD n 0 < q ∧ l2.getD n 0 < q
  | [], _, _, n, h1, _ => by simp at h1
  | _ :: _, [], _, n, _, h2 => by simp at h2
  | a :: l, b :: l2, h, 0, _, _ => by
    simp only [chkInv, Bool.and_eq_true, beq_iff_eq, decide_eq_true_eq] at h
    exact ⟨h.1.1.1, h.1.1.2, h.1.2⟩
  | a :: l, b :: l2, h, n + 1, h1, h2 => by
    simp only [chkInv, Bool.and_eq_true, beq_iff_eq, decide_eq_true_eq] at h
    exact chkInv_sound l l2 h.2 n (by simpa using h1) (by simpa using h2)

theorem getD_drop' (l : List Nat) (d n : Nat) : (l.drop d).getD n 0 = l.getD (d + n) 0 := by
  simp [List.getD_eq_getElem?_getD, List.getElem?_drop]

theorem tables : (∀ n < 512, n = 0 ∨ (ROOTS.getD (2 * n) 0 ^ 2 % q = ROOTS.getD n 0 * 10952 % q ∧
      (ROOTS.getD (2 * n + 1) 0 ^ 2 + ROOTS.getD n 0 * 10952) % q = 0)) ∧
    (∀ n < 1024, ROOTS.getD n 0 * IROOTS.getD n 0 % q = 10952 * 10952 % q ∧ ROOTS.getD n 0 < q ∧ IROOTS.getD n 0 < q) ∧
    (ROOTS.getD 1 0 ^ 2 + 10952 * 10952) % q = 0 := by
  have l1 : ROOTS.length = 1024 := by decide +kernel
  have l2 : IROOTS.length = 1024 := by decide +kernel
  refine ⟨fun n hn => ?_, ?_, by decide +kernel⟩
  · by_cases h0 : n = 0
    · exact Or.inl h0
    · right
      have h := chkSq_sound (ROOTS.drop 1) (ROOTS.drop 2) (by decide +kernel) (n - 1) (by simp [l1]; omega) (by simp [l1]; omega)
      simp only [getD_drop'] at h
      rw [show 2 + 2 * (n - 1) = 2 * n by omega, show 2 + (2 * (n - 1) + 1) = 2 * n + 1 by omega, show 1 + (n - 1) = n by omega] at h
      exact h
  · exact fun n hn => chkInv_sound ROOTS IROOTS (by decide +kernel) n (by rw [l1]; exact hn) (by rw [l2]; exact hn)

theorem sig_sq (n : Nat) (h0 : 1 ≤ n) (h1 : n < 1024) : sig n ^ 2 = node n := by
  have hr := rr_rinv
  unfold node
  by_cases c1 : n = 1
  · subst c1
    rw [if_pos rfl]
    have h := natCast_eq (b := 0) (tables.2.2.trans (by decide))
    simp only [Nat.cast_add, Nat.cast_mul, Nat.cast_pow, Nat.cast_zero] at h
    unfold sig
    rw [show ((10952 : Nat) : K) = rr from rfl] at h
    linear_combination rinv ^ 2 * h - (rr * rinv + 1) * hr
  · rw [if_neg c1]
    obtain ⟨t1, t2⟩ := (tables.1 (n / 2) (by omega)).resolve_left (by omega)
    by_cases c2 : n % 2 = 0
    · rw [if_pos c2]
      rw [show 2 * (n / 2) = n by omega] at t1
      have h := natCast_eq t1
      simp only [Nat.cast_add, Nat.cast_mul, Nat.cast_pow, Nat.cast_zero] at h
      unfold sig
      rw [show ((10952 : Nat) : K) = rr from rfl] at h
      linear_combination rinv ^ 2 * h + ((ROOTS.getD (n / 2) 0 : Nat) : K) * rinv * hr
    · rw [if_neg c2]
      rw [show 2 * (n / 2) + 1 = n by omega] at t2
      have h := natCast_eq (b := 0) (t2.trans (by decide))
      simp only [Nat.cast_add, Nat.cast_mul, Nat.cast_pow, Nat.cast_zero] at h
      unfold sig
      rw [show ((10952 : Nat) : K) = rr from rfl] at h
      linear_combination rinv ^ 2 * h - ((ROOTS.getD (n / 2) 0 : Nat) : K) * rinv * hr

theorem sig_iot (n : Nat) (h1 : n < 1024) : sig n * iot n = 1 := by
  have hr := rr_rinv
  have h := natCast_eq (tables.2.1 n h1).1
  simp only [Nat.cast_add, Nat.cast_mul, Nat.cast_pow, Nat.cast_zero] at h
  unfold sig iot
  rw [show ((10952 : Nat) : K) = rr from rfl] at h
  linear_combination rinv ^ 2 * h + (rr * rinv + 1) * hr

/-- one layer of the transform -/
def fl (m t : Nat) (X : Nat → K) (p : Nat) : K :=
  if p % (2 * t) < t then X p + sig (m + p / (2 * t)) * X (p + t) else X (p - t) - sig (m + p / (2 * t)) * X p

def fiter (X : Nat → K) : Nat → Nat → K
  | 0 => X
  | k + 1 => fl (2 ^ k) (2 ^ (9 - k)) (fiter X k)

theorem fl_lo (m t : Nat) (X : Nat → K) (c r : Nat) (hr : r < t) :
    fl m t X (2 * t * c + r) = X (2 * t * c + r) + sig (m + c) * X (2 * t * c + (r + t)) := by
  obtain ⟨e1, e2⟩ := idx (t := t) (c := c) (r := r) (by omega)
  unfold fl
  rw [e1, e2, if_pos hr, Nat.add_assoc]

theorem fl_hi (m t : Nat) (X : Nat → K) (c r : Nat) (hr : r < t) :
    fl m t X (2 * t * c + (r + t)) = X (2 * t * c + r) - sig (m + c) * X (2 * t * c + (r + t)) := by
  obtain ⟨e1, e2⟩ := idx (t := t) (c := c) (r := r + t) (by omega)
  unfold fl
  rw [e1, e2, if_neg (by omega), show 2 * t * c + (r + t) - t = 2 * t * c + r by omega]

/-- value of the polynomial with coefficients `X` -/
def ev (X : Nat → K) (n : Nat) (w : K) : K := ∑ r ∈ range n, X r * w ^ r

theorem fiter_ev (X : Nat → K) (w : K) : ∀ k, k ≤ 10 → ∀ c, c < 2 ^ k → w ^ 2 ^ (10 - k) = node (2 ^ k + c) →
    ev (fun r => fiter X k (2 ^ (10 - k) * c + r)) (2 ^ (10 - k)) w = ev X 1024 w ∧ w ^ 1024 = -1 := by
  intro k
  induction k with
  | zero =>
    intro _ c hc hw
    have hc : c = 0 := by simpa using hc
    subst hc
    refine ⟨?_, hw⟩
    simp only [fiter, Nat.mul_zero, Nat.zero_add]
    rfl
  | succ k ih =>
    intro hk c hc hw
    set t := 2 ^ (9 - k) with ht
    have e1 : (2 : Nat) ^ (10 - (k + 1)) = t := by rw [ht]; congr 1; omega
    have e2 : (2 : Nat) ^ (10 - k) = 2 * t := by rw [ht, ← pow_succ']; congr 1; omega
    rw [e1] at hw ⊢
    rw [e2] at ih
    have hc2 : c / 2 < 2 ^ k := by rw [pow_succ] at hc; omega
    have hk2 : (2 : Nat) ^ k ≤ 2 ^ 9 := Nat.pow_le_pow_right (by decide) (by omega)
    have hkp : 1 ≤ (2 : Nat) ^ k := Nat.one_le_two_pow
    have hn : node (2 ^ (k + 1) + c) = if c % 2 = 0 then sig (2 ^ k + c / 2) else -sig (2 ^ k + c / 2) := by
      have e : 2 ^ (k + 1) + c = 2 * 2 ^ k + c := by ring
      unfold node
      rw [e, if_neg (by omega), show (2 * 2 ^ k + c) / 2 = 2 ^ k + c / 2 by omega, show (2 * 2 ^ k + c) % 2 = c % 2 by omega]
    have hw2 : w ^ (2 * t) = node (2 ^ k + c / 2) := by
      rw [mul_comm, pow_mul, hw, hn, ← sig_sq _ (by omega) (by omega)]
      split <;> ring
    obtain ⟨i1, i2⟩ := ih (by omega) (c / 2) hc2 hw2
    refine ⟨?_, i2⟩
    rw [← i1]
    unfold ev
    rw [show 2 * t = t + t by ring, Finset.sum_range_add, ← Finset.sum_add_distrib]
    refine Finset.sum_congr rfl fun r hr => ?_
    have hr := Finset.mem_range.1 hr
    simp only [fiter]
    rw [← ht, show t + t = 2 * t by ring]
    have hpow : w ^ (t + r) = w ^ t * w ^ r := pow_add _ _ _
    rw [hpow, hw, hn]
    by_cases hc3 : c % 2 = 0
    · have e : t * c + r = 2 * t * (c / 2) + r := by
        have : c = 2 * (c / 2) := by omega
        conv_lhs => rw [this]
        ring
      rw [e, fl_lo _ _ _ _ _ hr, if_pos hc3, Nat.add_comm t r]; ring
    · have e : t * c + r = 2 * t * (c / 2) + (r + t) := by
        have : c = 2 * (c / 2) + 1 := by omega
        conv_lhs => rw [this]
        ring
      rw [e, fl_hi _ _ _ _ _ hr, if_neg hc3, Nat.add_comm t r]; ring

/-- the transform evaluates at the roots of x^1024 + 1 -/
theorem fiter_ten (X : Nat → K) (i : Nat) (hi : i < 1024) :
    fiter X 10 i = ev X 1024 (node (1024 + i)) ∧ node (1024 + i) ^ 1024 = -1 := by
  have h := fiter_ev X (node (1024 + i)) 10 (le_refl _) i hi (by norm_num)
  refine ⟨?_, h.2⟩
  rw [← h.1]
  simp [ev]

theorem negMul_aux (n : Nat) (A B : Nat → K) (w : K) (hw : w ^ n = -1) :
    ∑ k ∈ range n, (∑ i ∈ range n, if i ≤ k then A i * B (k - i) else -(A i * B (n + k - i))) * w ^ k =
    (∑ r ∈ range n, A r * w ^ r) * ∑ r ∈ range n, B r * w ^ r := by
  rw [Finset.sum_mul_sum]
  simp only [Finset.sum_mul]
  rw [Finset.sum_comm]
  refine Finset.sum_congr rfl fun i hi => ?_
  have hi := Finset.mem_range.1 hi
  have split1 : ∑ k ∈ range n, (if i ≤ k then A i * B (k - i) else -(A i * B (n + k - i))) * w ^ k =
      (∑ k ∈ range i, -(A i * B (n + k - i)) * w ^ k) + ∑ j ∈ range (n - i), A i * B j * w ^ (i + j) := by
    have h := Finset.sum_range_add (fun k => (if i ≤ k then A i * B (k - i) else -(A i * B (n + k - i))) * w ^ k) i (n - i)
    rw [show i + (n - i) = n by omega] at h
    rw [h]
    congr 1
    · refine Finset.sum_congr rfl fun k hk => ?_
      rw [if_neg (by have := Finset.mem_range.1 hk; omega)]
    · refine Finset.sum_congr rfl fun j _ => ?_
      rw [if_pos (by omega), Nat.add_sub_cancel_left]
  have split2 : ∑ j ∈ range n, A i * w ^ i * (B j * w ^ j) =
      (∑ j ∈ range (n - i), A i * w ^ i * (B j * w ^ j)) + ∑ k ∈ range i, A i * w ^ i * (B (n - i + k) * w ^ (n - i + k)) := by
    have h := Finset.sum_range_add (fun j => A i * w ^ i * (B j * w ^ j)) (n - i) i
    rw [show n - i + i = n by omega] at h
    exact h
  rw [split1, split2, add_comm]
  congr 1
  · exact Finset.sum_congr rfl fun j _ => by rw [pow_add]; ring
  · refine Finset.sum_congr rfl fun k _ => ?_
    have e : w ^ i * w ^ (n - i + k) = -w ^ k := by
      rw [← pow_add, show i + (n - i + k) = n + k by omega, pow_add, hw]; ring
    rw [show n + k - i = n - i + k by omega]
    linear_combination (-(A i * B (n - i + k))) * e

theorem ev_negMul (A B : Nat → K) (w : K) (hw : w ^ 1024 = -1) : ev (negMul A B) 1024 w = ev A 1024 w * ev B 1024 w :=
  negMul_aux 1024 A B w hw

theorem ev_smul (s : K) (X : Nat → K) (n : Nat) (w : K) : ev (fun p => s * X p) n w = s * ev X n w := by
  unfold ev; rw [Finset.mul_sum]; exact Finset.sum_congr rfl fun _ _ => by ring

theorem ev_add (X Y : Nat → K) (n : Nat) (w : K) : ev (fun p => X p + Y p) n w = ev X n w + ev Y n w := by
  unfold ev; rw [← Finset.sum_add_distrib]; exact Finset.sum_congr rfl fun _ _ => by ring

end Verif.Nhs
