import Mathlib.GroupTheory.OrderOfElement
import Mathlib.FieldTheory.Finiteness
import Mathlib.Algebra.Module.ZMod
import Mathlib.Algebra.Field.ZMod
import Mathlib.GroupTheory.Coset.Card
/- Elements of prime order `r` in a finite abelian group whose order is not divisible by `r^2`. -/
namespace Verif

variable {A : Type} [AddCommGroup A]

/-- the elements killed by `r` -/
def torsion (A : Type) [AddCommGroup A] (r : Nat) : AddSubgroup A := (nsmulAddMonoidHom (α := A) r).ker

theorem mem_torsion {r : Nat} {a : A} : a ∈ torsion A r ↔ r • a = 0 := by
  simp [torsion, AddMonoidHom.mem_ker]

theorem elementary_card {V : Type} [AddCommGroup V] [Finite V] {r : Nat} [hr : Fact r.Prime] (_ : Module (ZMod r) V) : ∃ k, Nat.card V = r ^ k := by
  have : Module.Finite (ZMod r) V := Module.Finite.of_finite
  have h := Module.natCard_eq_pow_finrank (K := ZMod r) (V := V)
  rw [Nat.card_zmod] at h
  exact ⟨_, h⟩

/-- If `r^2` does not divide the order of the group, the elements killed by the prime `r` are the multiples of any one of them. -/
theorem torsion_cyclic [Finite A] {r : Nat} [hr : Fact r.Prime] (hc : ¬ r ^ 2 ∣ Nat.card A) {G : A} (hG : G ≠ 0) (hG0 : r • G = 0) {P : A} (hP : r • P = 0) :
    ∃ k : Int, P = k • G := by
  have hz : ∀ x : torsion A r, r • x = 0 := fun x => by
    apply Subtype.ext
    exact mem_torsion.1 x.2
  obtain ⟨k, hcard⟩ := elementary_card (@id (Module (ZMod r) (torsion A r)) (AddCommGroup.zmodModule hz))
  have hdvd := AddSubgroup.card_addSubgroup_dvd_card (torsion A r)
  have hrank : k ≤ 1 := by
    by_contra hn
    apply hc
    rw [hcard] at hdvd
    exact (pow_dvd_pow r (by omega)).trans hdvd
  have hle : Nat.card (torsion A r) ≤ r := by
    rw [hcard]
    calc r ^ k ≤ r ^ 1 := Nat.pow_le_pow_right hr.1.pos hrank
      _ = r := pow_one r
  have hsub : AddSubgroup.zmultiples G ≤ torsion A r := by
    rw [AddSubgroup.zmultiples_le]; exact mem_torsion.2 hG0
  have hord : addOrderOf G = r := addOrderOf_eq_prime hG0 hG
  have heq : AddSubgroup.zmultiples G = torsion A r := by
    apply AddSubgroup.eq_of_le_of_card_ge hsub
    rw [Nat.card_zmultiples, hord]; exact hle
  have : P ∈ AddSubgroup.zmultiples G := by rw [heq]; exact mem_torsion.2 hP
  obtain ⟨k, hk⟩ := AddSubgroup.mem_zmultiples_iff.1 this
  exact ⟨k, hk.symm⟩

/-- a point of prime order divides the order of the group -/
theorem prime_dvd_card [Finite A] {r : Nat} (hr : r.Prime) {G : A} (hG : G ≠ 0) (hG0 : r • G = 0) : r ∣ Nat.card A := by
  have : Fact r.Prime := ⟨hr⟩
  rw [← addOrderOf_eq_prime hG0 hG]
  exact addOrderOf_dvd_natCard G

/-- two independent points of prime order -/
theorem prime_sq_dvd_card [Finite A] {r : Nat} (hr : r.Prime) {G P : A} (hG : G ≠ 0) (hG0 : r • G = 0) (hP : r • P = 0) (hind : ∀ k < r, P ≠ k • G) :
    r ^ 2 ∣ Nat.card A := by
  have : Fact r.Prime := ⟨hr⟩
  by_contra hc
  obtain ⟨k, hk⟩ := torsion_cyclic hc hG hG0 hP
  refine hind (k % r).toNat ?_ ?_
  · have h1 := Int.emod_lt_of_pos k (by exact_mod_cast hr.pos : (0 : Int) < r)
    have h2 := Int.emod_nonneg k (by exact_mod_cast hr.ne_zero : (r : Int) ≠ 0)
    omega
  · rw [hk, ← natCast_zsmul, Int.toNat_of_nonneg (Int.emod_nonneg k (by exact_mod_cast hr.ne_zero : (r : Int) ≠ 0))]
    conv_lhs => rw [← Int.emod_add_mul_ediv k r, add_zsmul, mul_comm, mul_zsmul, natCast_zsmul, hG0, zsmul_zero, add_zero]

end Verif
