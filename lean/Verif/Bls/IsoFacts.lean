import Verif.Bls.IsoCert
import Verif.Spec.H2c381
import Verif.Edwards.Cert
import Verif.Tower.Sqrt2
import Verif.Bls.Sswu2
/- What is used of the curves `y^2 = x^3 + A x + B` isogenous to the curves of BLS12-381 (constants from h2c/facts.py). -/
namespace Verif.Bls
set_option linter.unusedSectionVars false
open Verif.ListPoly Spec.Sswu Verif.Pair Verif.Ecp2 Verif.Tower

structure Facts1 (p : Nat) [Fact p.Prime] : Prop where
  a0 : A1 p ≠ 0
  nonsq : ¬ IsSquare (11 : ZMod p)
  exc : IsSquare (g (A1 p) (B1 p) (B1 p / ((11 : ZMod p) * A1 p)))
  den : ∀ x : ZMod p, poly1 iso11Yden x ^ 2 = poly1 iso11Xden x ^ 3
  iso : ∀ x : ZMod p, g (A1 p) (B1 p) x * poly1 iso11Ynum x ^ 2 = poly1 iso11Xnum x ^ 3 + 4 * poly1 iso11Xden x ^ 3
  ker : ∀ x : ZMod p, poly1 iso11Xden x = 0 ↔ ∃ r ∈ kernel11, x = (r : ZMod p)
  ker0 : ∀ r ∈ kernel11, g (A1 p) (B1 p) (r : ZMod p) ≠ 0

structure Facts2 (p : Nat) [Fact p.Prime] [Fact (p % 4 = 3)] : Prop where
  a0 : A2 p ≠ 0
  nonsq : ¬ IsSquare (Z2 p)
  exc : Detected (g (A2 p) (B2 p) (B2 p / (Z2 p * A2 p)))
  den : ∀ x : F2 p, poly2 iso3Yden x ^ 2 = poly2 iso3Xden x ^ 3
  iso : ∀ x : F2 p, g (A2 p) (B2 p) x * poly2 iso3Ynum x ^ 2 = poly2 iso3Xnum x ^ 3 + ⟨4, 4⟩ * poly2 iso3Xden x ^ 3
  ker : ∀ x : F2 p, poly2 iso3Xden x = 0 → ¬ IsSquare (g (A2 p) (B2 p) x)

variable {p : Nat} [hp : Fact p.Prime]

theorem nat_eq {a b : Nat} (h : a % p = b % p) : (a : ZMod p) = (b : ZMod p) := (ZMod.natCast_eq_natCast_iff' a b p).2 h
theorem nat_ne {a : Nat} (h : a % p ≠ 0) : (a : ZMod p) ≠ 0 := fun e => h (Nat.mod_eq_zero_of_dvd ((ZMod.natCast_eq_zero_iff _ _).1 e))

/-- Euler's criterion -/
def nonresB (p c : Nat) : Bool := decide (c % p ≠ 0) && decide (powMod p (p.log2 + 1) c (p / 2) ≠ 1)

theorem nonres_sound (h2 : p % 2 = 1) {c : Nat} (h : nonresB p c = true) : ¬ IsSquare (c : ZMod p) := by
  unfold nonresB at h
  simp only [Bool.and_eq_true, decide_eq_true_eq] at h
  have hlog : p / 2 < 2 ^ (p.log2 + 1) := by have := @Nat.lt_log2_self p; omega
  rw [powMod_eq _ _ _ _ hlog] at h
  intro hs
  have e := (ZMod.euler_criterion p (nat_ne h.1)).mp hs
  apply h.2
  have : ((c ^ (p / 2) : Nat) : ZMod p) = ((1 : Nat) : ZMod p) := by push_cast; exact e
  rw [ZMod.natCast_eq_natCast_iff'] at this
  rw [this]
  exact Nat.mod_eq_of_lt hp.out.one_lt

theorem kernel_poly : eqL (ops1 p381) iso11Xden
    (kernel11.foldr (fun r l => mulL (ops1 p381) [p381 - r, 1] (mulL (ops1 p381) [p381 - r, 1] l)) [1]) = true := by decide +kernel

theorem kernel_lt : ∀ r ∈ kernel11, r ≤ p381 := by decide +kernel
theorem kernel_ne : ∀ r ∈ kernel11, (r * r * r + sswuA1 * r + sswuB1) % p381 ≠ 0 := by decide +kernel

theorem roots_of (l : List Nat) (hl : ∀ r ∈ l, r ≤ p) (x : ZMod p) :
    evl (num1 p) x (l.foldr (fun r l => mulL (ops1 p) [p - r, 1] (mulL (ops1 p) [p - r, 1] l)) [1]) = 0 ↔ ∃ r ∈ l, x = (r : ZMod p) := by
  induction l with
  | nil => simp [evl, ev, num1]
  | cons r l ih =>
    rw [List.foldr_cons]
    have e : evl (num1 p) x [p - r, 1] = x - r := by
      simp only [evl, ev, num1, List.map_cons, List.map_nil, Nat.cast_sub (hl r (by simp)), ZMod.natCast_self]
      push_cast
      ring
    rw [show ops1 p = (num1 p).toNumOps from rfl] at ih ⊢
    rw [evl_mul, evl_mul, e, mul_eq_zero, mul_eq_zero, ih fun r' hr' => hl r' (by simp [hr']), sub_eq_zero]
    simp
    
theorem facts1 (e : p = p381) : Facts1 p := by
  subst e
  have hc : ((0x123939a31626a32de772bc7a591ea140683bca0c62efb105310d5ce1d27d1aadf79a5d5cbe8e2c4ff7d4816af76d2814 : Nat) : ZMod p381) * (((11 : Nat) : ZMod p381) * A1 p381) = B1 p381 := by
    rw [← Nat.cast_mul, ← Nat.cast_mul]
    exact nat_eq (by decide +kernel)
  have ha : A1 p381 ≠ 0 := nat_ne (by decide +kernel)
  have hn : ¬ IsSquare ((11 : Nat) : ZMod p381) := nonres_sound (by decide +kernel) (by decide +kernel)
  have h11 : ((11 : Nat) : ZMod p381) ≠ 0 := nat_ne (by decide +kernel)
  have hi := isoB_sound (num1 p381) iso11_cert
  have hk := fun x => eqL_sound (num1 p381) x _ _ kernel_poly
  refine ⟨ha, hn, ?_, fun x => (hi x).1, fun x => ?_, fun x => ?_, fun r hr => ?_⟩
  · have : B1 p381 / (((11 : Nat) : ZMod p381) * A1 p381) = ((0x123939a31626a32de772bc7a591ea140683bca0c62efb105310d5ce1d27d1aadf79a5d5cbe8e2c4ff7d4816af76d2814 : Nat) : ZMod p381) := by
      rw [div_eq_iff (mul_ne_zero h11 ha)]; exact hc.symm
    rw [show (11 : ZMod p381) = ((11 : Nat) : ZMod p381) by norm_num, this]
    refine ⟨((0x5be3446f07e910e291153e84f1dabd3dfe5c2b1080d8b6a640425c3826f2a429373f9bab7e8308f6dd10ffa11124dbc : Nat) : ZMod p381), ?_⟩
    unfold g A1 B1
    rw [← Nat.cast_pow, ← Nat.cast_mul, ← Nat.cast_mul, ← Nat.cast_add, ← Nat.cast_add]
    exact nat_eq (by decide +kernel)
  · have h2 := (hi x).2
    simp only [evl, List.map_cons, List.map_nil, ev] at h2
    unfold g poly1
    simp only [num1] at h2
    push_cast at h2
    linear_combination h2
  · have := roots_of kernel11 kernel_lt x
    rw [← hk x] at this
    exact this
  · have := nat_ne (kernel_ne r hr)
    push_cast at this
    unfold g A1 B1
    intro h0; apply this; linear_combination h0

/-! ### Over `Fp2` -/

variable [h4 : Fact (p % 4 = 3)]

theorem castN2_eq {a b : Nat × Nat} (h1 : a.1 % p = b.1 % p) (h2 : a.2 % p = b.2 % p) : castN2 p a = castN2 p b := by
  unfold castN2; rw [nat_eq h1, nat_eq h2]

theorem nonsq2 {v : F2 p} (h : ¬ IsSquare (nm2 v)) : ¬ IsSquare v := fun hv => h (isSquare_nm2 hv)

theorem kernel3 : eqL (ops2 p381) iso3Xden (mulL (ops2 p381) [(6, p381 - 6), (1, 0)] [(6, p381 - 6), (1, 0)]) = true := by decide +kernel

/-- the two numbers of `castN2` -/
def gN (p : Nat) (x : Nat × Nat) : Nat × Nat := addP p (addP p (mulN2 p (mulN2 p x x) x) (mulN2 p (0, 240) x)) (1012, 1012)

theorem A2_cast : A2 p = castN2 p (0, 240) := by unfold A2 castN2; ext <;> simp
theorem B2_cast : B2 p = castN2 p (1012, 1012) := by unfold B2 castN2; ext <;> simp
theorem gN_eq (x : Nat × Nat) : castN2 p (gN p x) = g (A2 p) (B2 p) (castN2 p x) := by
  unfold gN g
  rw [A2_cast, B2_cast, castN2_add, castN2_add, castN2_mul, castN2_mul, castN2_mul]
  ring

theorem Z2_cast (h : 2 ≤ p) : Z2 p = castN2 p (p - 2, p - 1) := by
  unfold Z2 castN2
  ext
  · simp [Nat.cast_sub h]
  · simp [Nat.cast_sub (show 1 ≤ p by omega)]

theorem facts2 (e : p = p381) : Facts2 p := by
  subst e
  have ha : A2 p381 ≠ 0 := by rw [A2_cast]; exact castN2_ne (by decide +kernel)
  have hz : Z2 p381 ≠ 0 := by rw [Z2_cast (by decide +kernel)]; exact castN2_ne (by decide +kernel)
  have hodd : p381 % 2 = 1 := by decide +kernel
  have hi := isoB_sound (num2 p381) iso3_cert
  refine ⟨ha, ?_, ?_, fun x => (hi x).1, fun x => ?_, fun x hx => ?_⟩
  · apply nonsq2
    have : nm2 (Z2 p381) = ((5 : Nat) : ZMod p381) := by unfold nm2 Z2; push_cast; ring
    rw [this]
    exact nonres_sound hodd (by decide +kernel)
  · have hc : B2 p381 / (Z2 p381 * A2 p381) = castN2 p381 (0x1a59d4b6bbf912a32d63b43028e2deeebe8d5d97ca64b6d66f64ac7a265a9305e1a40da5edb81b4e3ac4f5c28f5bd27, 0x15103a07f641331bb298f5ed3ba1230aa0bcc9f87d923077324df24a0f7ffa93045d3d6f94c17ae10efa11eb851e7336) := by
      rw [div_eq_iff (mul_ne_zero hz ha), A2_cast, B2_cast, Z2_cast (by decide +kernel), ← castN2_mul, ← castN2_mul]
      exact castN2_eq (by decide +kernel) (by decide +kernel)
    have hs : castN2 p381 (gN p381 (0x1a59d4b6bbf912a32d63b43028e2deeebe8d5d97ca64b6d66f64ac7a265a9305e1a40da5edb81b4e3ac4f5c28f5bd27, 0x15103a07f641331bb298f5ed3ba1230aa0bcc9f87d923077324df24a0f7ffa93045d3d6f94c17ae10efa11eb851e7336)) = castN2 p381 (0x1776b5d3dd70bb2ac6e46be0849209c9c47853350da878bdc14a5042102f1f01cbc75043b8d13d709dd5ca27f92cb390, 0x2c094c100c4f8a157767045bc04279dd04f207fbddc4de6675911b512cddacc0061215698453b5b11125516029e4d21) * castN2 p381 (0x1776b5d3dd70bb2ac6e46be0849209c9c47853350da878bdc14a5042102f1f01cbc75043b8d13d709dd5ca27f92cb390, 0x2c094c100c4f8a157767045bc04279dd04f207fbddc4de6675911b512cddacc0061215698453b5b11125516029e4d21) := by
      rw [← castN2_mul]
      exact castN2_eq (by decide +kernel) (by decide +kernel)
    rw [hc, ← gN_eq]
    unfold Detected
    rw [if_neg]
    · exact ⟨_, hs⟩
    · exact nat_ne (by decide +kernel)
  · have h2 := (hi x).2
    simp only [evl, List.map_cons, List.map_nil, ev] at h2
    have e1 : (num2 p381).φ (1012, 1012) = B2 p381 := B2_cast.symm
    have e2 : (num2 p381).φ (0, 240) = A2 p381 := A2_cast.symm
    have e3 : (num2 p381).φ (0, 0) = 0 := (num2 p381).hzero
    have e4 : (num2 p381).φ (1, 0) = 1 := castN2_10
    have e5 : (num2 p381).φ (4, 4) = ⟨4, 4⟩ := by show castN2 p381 (4, 4) = _; unfold castN2; push_cast; rfl
    rw [e1, e2, e3, e4, e5] at h2
    have e6 : ∀ l : List (Nat × Nat), ev x (l.map (num2 p381).φ) = poly2 l x := fun _ => rfl
    rw [e6, e6, e6] at h2
    unfold g
    linear_combination h2
  · have hk := eqL_sound (num2 p381) x _ _ kernel3
    rw [show ops2 p381 = (num2 p381).toNumOps from rfl, evl_mul] at hk
    have h0 : evl (num2 p381) x iso3Xden = 0 := hx
    rw [h0, eq_comm, mul_self_eq_zero] at hk
    have e7 : evl (num2 p381) x [(6, p381 - 6), (1, 0)] = castN2 p381 (6, p381 - 6) + x := by
      have e4 : (num2 p381).φ (1, 0) = 1 := castN2_10
      simp only [evl, List.map_cons, List.map_nil, ev]
      rw [e4]
      show castN2 p381 (6, p381 - 6) + _ = _
      ring
    rw [e7] at hk
    have ex : x = castN2 p381 (p381 - 6, 6) := by
      have e8 : castN2 p381 (6, p381 - 6) + castN2 p381 (p381 - 6, 6) = 0 := by
        rw [← castN2_add]
        have : (0 : F2 p381) = castN2 p381 (0, 0) := by unfold castN2; ext <;> simp
        rw [this]
        exact castN2_eq (by decide +kernel) (by decide +kernel)
      linear_combination hk - e8
    rw [ex, ← gN_eq]
    apply nonsq2
    have : nm2 (castN2 p381 (gN p381 (p381 - 6, 6))) = (((gN p381 (p381 - 6, 6)).1 * (gN p381 (p381 - 6, 6)).1 + (gN p381 (p381 - 6, 6)).2 * (gN p381 (p381 - 6, 6)).2 : Nat) : ZMod p381) := by
      unfold nm2 castN2; push_cast; ring
    rw [this]
    exact nonres_sound hodd (by decide +kernel)
end Verif.Bls

