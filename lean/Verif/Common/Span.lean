import Verif.Common.Torsion
/-
Finding the order of a finite group, and the identities that hold on all of it, from a few points.
-/
namespace Verif
variable {A : Type} [AddCommGroup A]

/-- A subgroup whose order is a multiple of `N`, in a group of fewer than `2 N` elements, is the whole group, which has `N` elements. -/
theorem span_top [Finite A] {H : AddSubgroup A} {N : Nat} (hN : N ∣ Nat.card H) (hA : Nat.card A < 2 * N) : (∀ a : A, a ∈ H) ∧ Nat.card A = N := by
  have hdvd := AddSubgroup.card_addSubgroup_dvd_card H
  obtain ⟨a, ha⟩ := hN
  obtain ⟨b, hb⟩ := hdvd
  have hpos : 0 < Nat.card A := Nat.card_pos
  have key : ∀ k, Nat.card A = N * k → k = 1 := fun k hk => by
    have h0 : 0 < N * k := by omega
    have h1 : k ≠ 0 := by rintro rfl; simp at h0
    have h2 : k < 2 := by
      by_contra hc
      have := Nat.mul_le_mul_left N (not_lt.1 hc)
      omega
    omega
  have hab : Nat.card A = N * (a * b) := by rw [hb, ha, mul_assoc]
  have h1 := key _ hab
  have hb1 : b = 1 := Nat.eq_one_of_mul_eq_one_left h1
  have hc : Nat.card H = Nat.card A := by rw [hb, hb1, mul_one]
  refine ⟨fun x => ?_, by rw [hab, h1, mul_one]⟩
  have ht : H = ⊤ := AddSubgroup.eq_top_of_card_eq H hc
  rw [ht]; exact AddSubgroup.mem_top x

theorem prime_dvd_sub [Finite A] {H : AddSubgroup A} {l : Nat} (hl : l.Prime) {P : A} (hP : P ≠ 0) (h0 : l • P = 0) (hH : P ∈ H) : l ∣ Nat.card H :=
  prime_dvd_card hl (G := (⟨P, hH⟩ : H)) (fun h => hP (congrArg Subtype.val h)) (Subtype.ext h0)

theorem prime_sq_dvd_sub [Finite A] {H : AddSubgroup A} {l : Nat} (hl : l.Prime) {P Q : A} (hP : P ≠ 0) (h0 : l • P = 0) (h1 : l • Q = 0) (hi : ∀ k < l, Q ≠ k • P)
    (hH : P ∈ H) (hH' : Q ∈ H) : l ^ 2 ∣ Nat.card H :=
  prime_sq_dvd_card hl (G := (⟨P, hH⟩ : H)) (P := ⟨Q, hH'⟩) (fun h => hP (congrArg Subtype.val h)) (Subtype.ext h0) (Subtype.ext h1)
    (fun k hk h => hi k hk (congrArg Subtype.val h))

/-- an automorphism with `f² + f + 1 = 0`: a point of prime order `l` and its image are independent unless `f` multiplies it by a root of `k² + k + 1` modulo `l` -/
theorem omega_indep {l : Nat} (hl : l.Prime) {f : A →+ A} (hf : ∀ T, f (f T) + f T + T = 0) {P : A} (hP : P ≠ 0) (h0 : l • P = 0)
    (hk : ∀ k < l, l ∣ k ^ 2 + k + 1 → f P ≠ k • P) : ∀ k < l, f P ≠ k • P := by
  intro k hkl he
  refine hk k hkl ?_ he
  have h := hf P
  rw [he, map_nsmul, he, ← mul_nsmul', ← add_nsmul] at h
  have h' : (k * k + k + 1) • P = 0 := by rw [succ_nsmul]; exact h
  have : Fact l.Prime := ⟨hl⟩
  rw [← addOrderOf_eq_prime h0 hP, show k ^ 2 + k + 1 = k * k + k + 1 by ring]
  exact addOrderOf_dvd_of_nsmul_eq_zero h'

end Verif
