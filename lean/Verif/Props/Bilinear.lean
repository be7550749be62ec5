import Verif.Bilin.Bilinear
import Verif.Props.AteText
/-
C95: the pairing of `pair.rs` is bilinear.
-/
namespace Verif.Props
set_option linter.unusedSectionVars false
open Spec
open Verif.Big Verif.Fp Verif.Rom Verif.Curve Verif.Tower Verif.Ecp Verif.Ecp2 Verif.Pair Verif.Gt Verif.Ate WeierstrassCurve

section
variable {C : Nat} {K : GlsRom C} [hp : Fact K.pair.rom.p.Prime] [h4 : Fact (K.pair.rom.p % 4 = 3)] {lam : Int}

/-- a point of the group of order `r` of the twist on which the Frobenius endomorphism is multiplication by `p` -/
def InG2 (K : GlsRom C) [Fact K.pair.rom.p.Prime] [Fact (K.pair.rom.p % 4 = 3)] (h6 : 6 ∣ K.pair.rom.p - 1) (S : (curve2 K.pair).Point) : Prop :=
  rN K.pair • S = 0 ∧ psi h6 S = (K.pair.rom.p : Int) • S

/-- What C95 says about one ROM file: there is a function `e` on the points, bilinear on the two groups of order `r`, which `ate` followed by `fexp` computes. -/
def BilinOk (K : GlsRom C) [Fact K.pair.rom.p.Prime] [Fact (K.pair.rom.p % 4 = 3)] : Prop :=
  ∃ (h6 : 6 ∣ K.pair.rom.p - 1) (e : (curve2 K.pair).Point → (Ecp.curve K.pair.rom).Point → F12 K.pair.rom.p),
    (∀ P Q S U, SubPair K h6 P Q S U → ∃ r s, ate K P Q = some r ∧ Gt.fexp K r = some s ∧ Canon12 K.pair.rom.P K.pair.rom.p s (e S U)) ∧
    (∀ S S' U, InG2 K h6 S → InG2 K h6 S' → e (S + S') U = e S U * e S' U) ∧
    (∀ S U U', InG2 K h6 S → rN K.pair • U = 0 → rN K.pair • U' = 0 → e S (U + U') = e S U * e S U') ∧
    (∀ S U (a b : Nat), InG2 K h6 S → rN K.pair • U = 0 → e (a • S) (b • U) = e S U ^ (a * b)) ∧
    (∀ S U, e S U ^ rN K.pair = 1)

theorem pow_of_add {A M : Type*} [AddMonoid A] [Monoid M] (f : A → M) (H : A → Prop) (h0 : H 0) (f0 : f 0 = 1) (hadd : ∀ a b, H a → H b → H (a + b)) (h : ∀ a b, H a → H b → f (a + b) = f a * f b) (a : A) (ha : H a) (n : Nat) :
    H (n • a) ∧ f (n • a) = f a ^ n := by
  induction n with
  | zero => rw [zero_nsmul, pow_zero]; exact ⟨h0, f0⟩
  | succ n ih => rw [succ_nsmul, pow_succ, h _ _ ih.1 ha, ih.2]; exact ⟨hadd _ _ ih.1 ha, rfl⟩

theorem bilin_of (h : PairFacts K lam) (hb : fexpB K = true) (h3 : 3 < rN K.pair) (h0 : lbits K ≠ 0) (ht : textB K = true) (hc : bilB K = true) : BilinOk K := by
  have ha := ateRom_of h h0
  have hF := fexpOk_of h hb
  have hdv := fexp_div hb
  unfold textB at ht
  simp only [Bool.and_eq_true, decide_eq_true_eq, List.all_eq_true] at ht
  obtain ⟨⟨t1, t2⟩, t3⟩ := ht
  have L := fun U S S' (hS : InG2 K h.fr.six S) (hS' : InG2 K h.fr.six S') => evU_left h hdv h3 t2 t3 hc U (S := S) (S' := S') hS hS'
  have R := fun S (hS : InG2 K h.fr.six S) U U' (hU : rN K.pair • U = 0) (hU' : rN K.pair • U' = 0) => evU_right h hdv h3 t2 t3 hc (S := S) hS (U := U) (U' := U') hU hU'
  have Z : ∀ U, optAte K h.fr.six (digs K (lbits K - 2)) 0 U = 1 := fun U => by rw [← evU_val h, evU_zero h]; rfl
  have O : ∀ S U, optAte K h.fr.six (digs K (lbits K - 2)) S U ^ rN K.pair = 1 := fun S U => by rw [← evU_val h, ← Units.val_pow_eq_pow_val, evU_ord h hdv]; rfl
  have Z' : ∀ S, optAte K h.fr.six (digs K (lbits K - 2)) S 0 = 1 := fun S => rfl
  refine ⟨h.fr.six, optAte K h.fr.six (digs K (lbits K - 2)), ?_, fun S S' U hS hS' => L U S S' hS hS', fun S U U' hS hU hU' => R S hS U U' hU hU', ?_, O⟩
  · intro P Q S U hs
    obtain ⟨r, e, hr⟩ := ate_ok ha hs.p2 hs.p1
    obtain ⟨n, v⟩ := opt_ok h h0 t3 h3 hdv hs
    obtain ⟨s, s1, s2⟩ := hF r _ hr.1 n
    exact ⟨r, s, e, s1, by rw [← v]; exact s2⟩
  · intro S U a b hS hU
    generalize optAte K h.fr.six (digs K (lbits K - 2)) = e at *
    obtain ⟨m1, m2⟩ := pow_of_add (fun S => e S (b • U)) (InG2 K h.fr.six) ((G2sub K h.fr.six).zero_mem) (Z _) (fun a b ha hb => (G2sub K h.fr.six).add_mem ha hb) (fun a b ha hb => L _ a b ha hb) S hS a
    obtain ⟨_, m4⟩ := pow_of_add (fun U => e S U) (fun U => rN K.pair • U = 0) (nsmul_zero _) (Z' _) (fun a b ha hb => (G1sub K).add_mem ha hb) (fun a b ha hb => R S hS a b ha hb) U hU b
    rw [m2, m4, ← pow_mul, Nat.mul_comm]
end

theorem bilB64 : gls64.all bilB = true := by decide +kernel
theorem bilB32 : gls32.all bilB = true := by decide +kernel

/-- C95, every bundled curve of embedding degree 12, 64-bit -/
theorem C95_bilinear64 (K : GlsRom 64) (ab : Nat) (hK : (K, ab) ∈ ates64) : ∃ (_ : Fact K.pair.rom.p.Prime) (_ : Fact (K.pair.rom.p % 4 = 3)), BilinOk K := by
  have hm : K ∈ gls64 := ates64_fst ▸ List.mem_map_of_mem (f := Prod.fst) hK
  obtain ⟨hp, h4, lam, h⟩ := facts64 K hm
  have hb := List.all_eq_true.1 fexpB64 K hm
  have h3 := of_decide_eq_true (List.all_eq_true.1 gt3.1 K hm)
  obtain ⟨a, b, c⟩ := of_decide_eq_true (List.all_eq_true.1 ateB64 _ hK)
  exact ⟨hp, h4, bilin_of h hb h3 a (List.all_eq_true.1 textB64 K hm) (List.all_eq_true.1 bilB64 K hm)⟩

/-- C95, 32-bit; the representation must have 19 bits to spare -/
theorem C95_bilinear32 (K : GlsRom 32) (ab : Nat) (hK : (K, ab) ∈ ates32) (hh : 2 ^ 19 * K.pair.rom.p ≤ 2 ^ (K.pair.rom.P.b * K.pair.rom.P.n)) :
    ∃ (_ : Fact K.pair.rom.p.Prime) (_ : Fact (K.pair.rom.p % 4 = 3)), BilinOk K := by
  have hm : K ∈ gls32 := ates32_fst ▸ List.mem_map_of_mem (f := Prod.fst) hK
  obtain ⟨hp, h4, lam, h⟩ := facts32 K hm hh
  have hb := List.all_eq_true.1 fexpB32 K hm
  have h3 := of_decide_eq_true (List.all_eq_true.1 gt3.2 K hm)
  obtain ⟨a, b, c⟩ := of_decide_eq_true (List.all_eq_true.1 ateB32 _ hK)
  exact ⟨hp, h4, bilin_of h hb h3 a (List.all_eq_true.1 textB32 K hm) (List.all_eq_true.1 bilB32 K hm)⟩

end Verif.Props
