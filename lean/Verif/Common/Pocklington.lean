import Mathlib.FieldTheory.Finite.Basic
import Mathlib.Data.Nat.Factorization.Basic
import Mathlib.GroupTheory.OrderOfElement
/-
Pocklington's primality criterion, with a modular exponentiation the kernel evaluates quickly.
Used to prove that the moduli and group orders of the ROM files are prime.
-/
namespace Verif

/-- `a ^ e % N` by squaring; `k` bounds the number of bits of `e` -/
def powMod (N : Nat) : Nat → Nat → Nat → Nat
  | 0, _, _ => 1 % N
  | k + 1, a, e => if e = 0 then 1 % N else
      let h := powMod N k (a * a % N) (e / 2)
      if e % 2 = 1 then h * a % N else h

theorem powMod_eq (N k a e : Nat) (he : e < 2 ^ k) : powMod N k a e = a ^ e % N := by
  induction k generalizing a e with
  | zero => have : e = 0 := by simpa using he
            subst this; simp [powMod]
  | succ k ih =>
    simp only [powMod]
    split_ifs with h0 h1
    · subst h0; simp
    · rw [ih _ _ (by rw [pow_succ] at he; omega)]
      rw [Nat.mul_mod, Nat.mod_mod, ← Nat.pow_mod, ← Nat.mul_mod, ← pow_two, ← pow_mul, ← pow_succ]
      congr 2; omega
    · rw [ih _ _ (by rw [pow_succ] at he; omega)]
      rw [← Nat.pow_mod, ← pow_two, ← pow_mul]
      congr 2; omega

/-- certificate check for one prime factor `q` of `N - 1` with witness `a` -/
def pockB (N : Nat) (qa : Nat × Nat) : Bool :=
  qa.1 != 0 && powMod N (N.log2 + 1) qa.2 (N - 1) == 1 && Nat.gcd (powMod N (N.log2 + 1) qa.2 ((N - 1) / qa.1) + N - 1) N == 1

/-- all first components are prime -/
def AllP (l : List (Nat × Nat)) : Prop := ∀ x ∈ l, x.1.Prime

theorem AllP.nil : AllP [] := by simp [AllP]
theorem AllP.cons {q a : Nat} {l : List (Nat × Nat)} (h : q.Prime) (hl : AllP l) : AllP ((q, a) :: l) := by
  intro x hx
  rcases List.mem_cons.1 hx with rfl | hx
  · exact h
  · exact hl x hx

/-- Pocklington: `l` lists prime factors (with multiplicity) of `N - 1` with witnesses, their product exceeds `√N`. -/
theorem pocklington (N : Nat) (l : List (Nat × Nat)) (hp : AllP l)
    (h : (decide (1 < N) && (l.map Prod.fst).prod ∣ (N - 1) && decide (N < (l.map Prod.fst).prod * (l.map Prod.fst).prod) && l.all (pockB N)) = true) :
    N.Prime := by
  simp only [Bool.and_eq_true, decide_eq_true_eq, List.all_eq_true] at h
  obtain ⟨⟨⟨h1, hF⟩, hlt⟩, hall⟩ := h
  set F := (l.map Prod.fst).prod with hFd
  by_contra hcomp
  have hmin := Nat.minFac_sq_le_self (by omega : 0 < N) hcomp
  have hrp := Nat.minFac_prime (by omega : N ≠ 1)
  set r := N.minFac with hr
  have hrN : r ∣ N := Nat.minFac_dvd N
  haveI : Fact r.Prime := ⟨hrp⟩
  have key : F ∣ r - 1 := by
    rw [Nat.dvd_iff_prime_pow_dvd_dvd]
    intro q k hq hqk
    rcases Nat.eq_zero_or_pos k with rfl | hk
    · simp
    have hqF : q ∣ F := (dvd_pow_self q (by omega)).trans hqk
    obtain ⟨y, hy, hqy⟩ := (Nat.Prime.prime hq).dvd_prod_iff.1 (hFd ▸ hqF)
    obtain ⟨x, hx, rfl⟩ := List.mem_map.1 hy
    have hxq : q = x.1 := (Nat.prime_dvd_prime_iff_eq hq (hp x hx)).1 hqy
    have hb := hall x hx
    simp only [pockB, Bool.and_eq_true, beq_iff_eq] at hb
    obtain ⟨⟨_, hb1⟩, hb2⟩ := hb
    have hbits : N - 1 < 2 ^ (N.log2 + 1) := by
      have := @Nat.lt_log2_self N
      omega
    rw [powMod_eq _ _ _ _ hbits] at hb1
    rw [powMod_eq _ _ _ _ (lt_of_le_of_lt (Nat.div_le_self _ _) hbits), ← hxq] at hb2
    set u : ZMod r := (x.2 : ZMod r) with hu
    have hcast : ∀ m, ((x.2 ^ m % N : Nat) : ZMod r) = u ^ m := by
      intro m
      rw [hu, ← Nat.cast_pow, ZMod.natCast_eq_natCast_iff]
      exact (Nat.mod_modEq _ _).of_dvd hrN
    have e1 : u ^ (N - 1) = 1 := by rw [← hcast, hb1]; simp
    have e2 : u ^ ((N - 1) / q) ≠ 1 := by
      intro e
      rw [← hcast] at e
      have : r ∣ x.2 ^ ((N - 1) / q) % N + N - 1 := by
        rw [← ZMod.natCast_eq_zero_iff, Nat.add_sub_assoc (by omega), Nat.cast_add, e, Nat.cast_sub (by omega),
          (ZMod.natCast_eq_zero_iff N r).2 hrN]
        simp
      have : r ∣ 1 := hb2 ▸ Nat.dvd_gcd this hrN
      exact hrp.one_lt.ne' (Nat.dvd_one.1 this)
    have hu0 : u ≠ 0 := by
      intro e
      rw [e, zero_pow (by omega)] at e1
      exact zero_ne_one e1
    obtain ⟨m, hm⟩ := orderOf_dvd_of_pow_eq_one e1
    have hqm : ¬ q ∣ m := by
      rintro ⟨t, rfl⟩
      apply e2
      rw [hm, show orderOf u * (q * t) = q * (orderOf u * t) by ring, Nat.mul_div_cancel_left _ hq.pos]
      exact orderOf_dvd_iff_pow_eq_one.1 (Dvd.intro _ rfl)
    have hqo : q ^ k ∣ orderOf u := by
      have : q ^ k ∣ orderOf u * m := hm ▸ hqk.trans hF
      exact (Nat.Coprime.pow_left k ((Nat.Prime.coprime_iff_not_dvd hq).2 hqm)).dvd_of_dvd_mul_right this
    exact hqo.trans (ZMod.orderOf_dvd_card_sub_one hu0)
  have hr1 : F ≤ r - 1 := Nat.le_of_dvd (by have := hrp.one_lt; omega) key
  have : N < r ^ 2 := by
    refine lt_of_lt_of_le hlt ?_
    rw [pow_two]
    exact Nat.mul_le_mul (by omega) (by omega)
  omega

end Verif
