import Verif.Bilin.Nd7
import Verif.Bilin.NonDegF
import Verif.Props.Bilinear
import Verif.Props.GroupOrder
/-
C96: the pairing of `pair.rs` is not degenerate.
-/
namespace Verif.Props
set_option linter.unusedSectionVars false
open Spec
open Verif.Big Verif.Fp Verif.Rom Verif.Curve Verif.Tower Verif.Ecp Verif.Ecp2 Verif.Pair Verif.Gt Verif.Ate WeierstrassCurve

/-- a homomorphism, not trivial at a generator of a group of prime order, is trivial at 0 only -/
theorem nd_iff {A M : Type*} [AddCommGroup A] [Monoid M] {r : Nat} (hr : r.Prime) (f : A → M) (f0 : f 0 = 1) (h : ∀ a b : A, r • a = 0 → r • b = 0 → f (a + b) = f a * f b) {G : A}
    (hG : r • G = 0) (h1 : f G ≠ 1) (cyc : ∀ X : A, r • X = 0 → ∃ k : Int, X = k • G) (X : A) (hX : r • X = 0) : f X = 1 ↔ X = 0 := by
  have hr' : Fact r.Prime := ⟨hr⟩
  have pw := fun n => pow_of_add f (fun a => r • a = 0) (nsmul_zero _) f0 (fun a b ha hb => by rw [nsmul_add, ha, hb, add_zero]) h G hG n
  have ho : orderOf (f G) = r := orderOf_eq_prime (by rw [← (pw r).2, hG, f0]) h1
  obtain ⟨k, rfl⟩ := cyc X hX
  have hz : (r : Int) ≠ 0 := by exact_mod_cast hr.ne_zero
  obtain ⟨n, hn⟩ : ∃ n : Nat, k % r = n := ⟨(k % r).toNat, (Int.toNat_of_nonneg (Int.emod_nonneg _ hz)).symm⟩
  have e : k • G = n • G := by
    rw [← Int.emod_add_mul_ediv k r, add_zsmul, hn, mul_comm, mul_zsmul, natCast_zsmul, natCast_zsmul, hG, _root_.zsmul_zero, add_zero]
  rw [e]
  constructor
  · intro c
    rw [(pw n).2] at c
    obtain ⟨m, rfl⟩ := (ho ▸ orderOf_dvd_of_pow_eq_one c : r ∣ n)
    rw [mul_nsmul, hG, nsmul_zero]
  · intro c; rw [c, f0]

section
variable {C : Nat} {K : GlsRom C} [hp : Fact K.pair.rom.p.Prime] [h4 : Fact (K.pair.rom.p % 4 = 3)] {lam : Int}

/-- What C96 says about one ROM file: there are a function `e` on the points, bilinear on the groups of order `r`, and a generator `G` of the second group, the one of the
ROM file, such that `e (kG) U` is one only when `kG` or `U` is 0; `ate` followed by `fexp` computes `e`, `ate2` and the multi-pairing products of its values, and `isunity` tells whether they are one. -/
def NonDegOk (K : GlsRom C) (ab : Nat) [Fact K.pair.rom.p.Prime] [Fact (K.pair.rom.p % 4 = 3)] : Prop :=
  ∃ (h6 : 6 ∣ K.pair.rom.p - 1) (e : (curve2 K.pair).Point → (Ecp.curve K.pair.rom).Point → F12 K.pair.rom.p) (G : (curve2 K.pair).Point),
    (∀ P Q S U, SubPair K h6 P Q S U → ∃ r s, ate K P Q = some r ∧ Gt.fexp K r = some s ∧ Canon12 K.pair.rom.P K.pair.rom.p s (e S U)) ∧
    (∀ P Q S U P' Q' S' U', SubPair K h6 P Q S U → SubPair K h6 P' Q' S' U' → ∃ r s, ate2 K P Q P' Q' = some r ∧ Gt.fexp K r = some s ∧
      (Fp12.isunity K.pair.rom.P s = true ↔ e S U * e S' U' = 1)) ∧
    (∀ S U (a b : Nat), InG2 K h6 S → rN K.pair • U = 0 → e (a • S) (b • U) = e S U ^ (a * b)) ∧
    (∀ S U U', InG2 K h6 S → rN K.pair • U = 0 → rN K.pair • U' = 0 → e S (U + U') = e S U * e S U') ∧
    IsPoint2 K.pair 2 (Ecp2.generator K.pair) G ∧ G ≠ 0 ∧ InG2 K h6 G ∧
    (∀ (k : Nat) U, rN K.pair • U = 0 → (e (k • G) U = 1 ↔ k • G = 0 ∨ U = 0)) ∧
    (∀ P Q (k : Nat) U, IsPoint2 K.pair 1820 P (k • G) → IsPoint K.pair.rom Q U → rN K.pair • U = 0 → (k • G ≠ 0 ∨ U ≠ 0) →
      ∃ r s, ate K P Q = some r ∧ Gt.fexp K r = some s ∧ (Fp12.isunity K.pair.rom.P s = true ↔ k • G = 0 ∨ U = 0)) ∧
    (∀ S S' U, InG2 K h6 S → InG2 K h6 S' → e (S + S') U = e S U * e S' U) ∧ (∀ S U, e S U ^ rN K.pair = 1) ∧
    (∀ (l : List (Pt2 C × Pt C)) (l' : List ((curve2 K.pair).Point × (Ecp.curve K.pair.rom).Point)), List.Forall₂ (fun (a : Pt2 C × Pt C) (b : (curve2 K.pair).Point × (Ecp.curve K.pair.rom).Point) => SubPair K h6 a.1 a.2 b.1 b.2) l l' → ∃ r s, multi K ab l = some r ∧ Gt.fexp K r = some s ∧
      (Fp12.isunity K.pair.rom.P s = true ↔ (l'.map fun b : (curve2 K.pair).Point × (Ecp.curve K.pair.rom).Point => e b.1 b.2).prod = 1))

/-- the check of a ROM file, without the pairing of the generators -/
def ndB' (K : GlsRom C) : Bool := genCheck K.pair && decide (2 * (K.pair.rom.p + 1) < rN K.pair ^ 2 ∧ K.pair.rom.gx.length = K.pair.rom.P.n ∧ K.pair.rom.gy.length = K.pair.rom.P.n)

theorem nondeg_of (h : PairFacts K lam) (hb : fexpB K = true) (h3 : 3 < rN K.pair) {ab : Nat} (h0 : lbits K ≠ 0) (h1 : lbits K ≤ ab + 1) (h2 : 0 < ab) (ht : textB K = true) (hc : bilB K = true)
    (hn : ndB K = true) (hn' : ndB' K = true) (hcons : K.pair.rom.Consistent) : NonDegOk K ab := by
  obtain ⟨G, b1, b2, b3, b4⟩ := h.gen2
  obtain ⟨G1, a1, a2, a3⟩ := h.gen1
  have ha := ateRom_of h h0
  have hF := fexpOk_of h hb
  have hdv := fexp_div hb
  have hbl := bilin_of h hb h3 h0 ht hc
  unfold textB at ht
  simp only [Bool.and_eq_true, decide_eq_true_eq, List.all_eq_true] at ht
  obtain ⟨⟨t1, t2⟩, t3⟩ := ht
  unfold ndB' at hn'
  simp only [Bool.and_eq_true, decide_eq_true_eq] at hn'
  obtain ⟨n1, n2, n3⟩ := hn'
  have : Fact (rN K.pair).Prime := ⟨h.prime⟩
  have hnd : ¬ rN K.pair ^ 2 ∣ Nat.card (Ecp.curve K.pair.rom).Point := by
    intro hd
    have h1 := Nat.le_of_dvd (Nat.card_pos) hd
    have h2 := card_points (A := (K.pair.rom.a : ZMod K.pair.rom.p)) (B := Bcoef K.pair.rom)
    rw [ZMod.card] at h2
    exact absurd (h1.trans h2) (not_le.2 n2)
  have L := fun U S S' (hS : InG2 K h.fr.six S) (hS' : InG2 K h.fr.six S') => evU_left h hdv h3 t2 t3 hc U (S := S) (S' := S') hS hS'
  have R := fun S (hS : InG2 K h.fr.six S) U U' (hU : rN K.pair • U = 0) (hU' : rN K.pair • U' = 0) => evU_right h hdv h3 t2 t3 hc (S := S) hS (U := U) (U' := U') hU hU'
  have Z : ∀ U, optAte K h.fr.six (digs K (lbits K - 2)) 0 U = 1 := fun U => by rw [← evU_val h, evU_zero h]; rfl
  have Z' : ∀ S, optAte K h.fr.six (digs K (lbits K - 2)) S 0 = 1 := fun S => rfl
  have O : ∀ S U, optAte K h.fr.six (digs K (lbits K - 2)) S U ^ rN K.pair = 1 := fun S U => by rw [← evU_val h, ← Units.val_pow_eq_pow_val, evU_ord h hdv]; rfl
  have g0 := nd_gen h hdv t2 t3 hn n1 hcons n3 b1 a1 b2 b3 b4
  have hO := fun P Q S U (hs : SubPair K h.fr.six P Q S U) => opt_ok h h0 t3 h3 hdv hs
  generalize he : optAte K h.fr.six (digs K (lbits K - 2)) = e at *
  have hG : InG2 K h.fr.six G := ⟨b3, b4⟩
  have sub : ∀ k : Nat, InG2 K h.fr.six (k • G) := fun k => (G2sub K h.fr.six).nsmul_mem hG k
  have one : ∀ U, rN K.pair • U = 0 → (e G U = 1 ↔ U = 0) := fun U hU =>
    nd_iff h.prime (fun U => e G U) (Z' G) (fun a b ha hb => R G hG a b ha hb) a3 g0 (fun X hX => torsion_cyclic hnd a2 a3 hX) U hU
  have two : ∀ U, rN K.pair • U = 0 → ∀ k : Nat, e (k • G) U = e G (k • U) := by
    intro U hU k
    rw [(pow_of_add (fun S => e S U) (InG2 K h.fr.six) ((G2sub K h.fr.six).zero_mem) (Z _) (fun a b ha hb => (G2sub K h.fr.six).add_mem ha hb) (fun a b ha hb => L _ a b ha hb) G hG k).2,
      (pow_of_add (fun U => e G U) (fun U => rN K.pair • U = 0) (nsmul_zero _) (Z' _) (fun a b ha hb => (G1sub K).add_mem ha hb) (fun a b ha hb => R G hG a b ha hb) U hU k).2]
  have three : ∀ (k : Nat) U, rN K.pair • U = 0 → (e (k • G) U = 1 ↔ k • G = 0 ∨ U = 0) := by
    intro k U hU
    rw [two U hU k, one _ (by rw [nsmul_left_comm, hU, nsmul_zero])]
    have hoG : addOrderOf G = rN K.pair := addOrderOf_eq_prime b3 b2
    rw [← addOrderOf_dvd_iff_nsmul_eq_zero, ← addOrderOf_dvd_iff_nsmul_eq_zero, hoG]
    by_cases hU0 : U = 0
    · simp only [hU0, or_true, iff_true, addOrderOf_zero]
      exact one_dvd _
    · rw [addOrderOf_eq_prime hU hU0]
      simp only [hU0, or_false]
  have comp : ∀ P Q S U, SubPair K h.fr.six P Q S U → ∃ r s, ate K P Q = some r ∧ Gt.fexp K r = some s ∧ Canon12 K.pair.rom.P K.pair.rom.p s (e S U) := by
    intro P Q S U hs
    obtain ⟨r, e, hr⟩ := ate_ok ha hs.p2 hs.p1
    obtain ⟨n, v⟩ := hO P Q S U hs
    obtain ⟨s, s1, s2⟩ := hF r _ hr.1 n
    exact ⟨r, s, e, s1, by rw [← v]; exact s2⟩
  refine ⟨h.fr.six, e, G, comp, ?_, ?_, fun S U U' hS hU hU' => R S hS U U' hU hU', b1, b2, hG, three, ?_, fun S S' U hS hS' => L U S S' hS hS', O, ?_⟩
  · intro P Q S U P' Q' S' U' hs hs'
    obtain ⟨r, e', hr⟩ := ate2_ok ha hs.p2 hs.p1 hs'.p2 hs'.p1
    obtain ⟨n, v⟩ := hO P Q S U hs
    obtain ⟨n', v'⟩ := hO P' Q' S' U' hs'
    obtain ⟨s, s1, s2⟩ := hF r _ hr.1 (f12_nz h.pr n n')
    have s3 : Canon12 K.pair.rom.P K.pair.rom.p s (e S U * e S' U') := by
      rw [← v, ← v', ← mul_pow]; exact s2
    exact ⟨r, s, e', s1, isunity_canon h.tw.tower s3⟩
  · intro S U a b hS hU
    obtain ⟨m1, m2⟩ := pow_of_add (fun S => e S (b • U)) (InG2 K h.fr.six) ((G2sub K h.fr.six).zero_mem) (Z _) (fun a b ha hb => (G2sub K h.fr.six).add_mem ha hb) (fun a b ha hb => L _ a b ha hb) S hS a
    obtain ⟨_, m4⟩ := pow_of_add (fun U => e S U) (fun U => rN K.pair • U = 0) (nsmul_zero _) (Z' _) (fun a b ha hb => (G1sub K).add_mem ha hb) (fun a b ha hb => R S hS a b ha hb) U hU b
    rw [m2, m4, ← pow_mul, Nat.mul_comm]
  · intro P Q k U hP hQ hU hne
    obtain ⟨r, s, c1, c2, c3⟩ := comp P Q (k • G) U ⟨hP, hQ, (sub k).1, (sub k).2, hU, hne⟩
    exact ⟨r, s, c1, c2, by rw [isunity_canon h.tw.tower c3, three k U hU]⟩
  · intro l l' hl
    have hp1 : ∀ a ∈ l, ∃ b : (curve2 K.pair).Point × (Ecp.curve K.pair.rom).Point, SubPair K h.fr.six a.1 a.2 b.1 b.2 := by
      intro a hm
      obtain ⟨i, hi, rfl⟩ := List.getElem_of_mem hm
      exact ⟨_, hl.get hi (hl.length_eq ▸ hi)⟩
    obtain ⟨r, e', hr⟩ := multi_ok ha h1 h2 (l := l) fun a hm => by
      obtain ⟨b, hb⟩ := hp1 a hm
      exact ⟨⟨_, hb.p2⟩, _, hb.p1⟩
    have hz := prod_nz h.pr (l.map fun a => ateV K a.1 a.2) (by
      intro v hv
      obtain ⟨a, hm, rfl⟩ := List.mem_map.1 hv
      obtain ⟨b, hb⟩ := hp1 a hm
      exact (hO _ _ _ _ hb).1)
    obtain ⟨s, s1, s2⟩ := hF r _ hr.1 hz
    have v := prod_pow (fun a : Pt2 C × Pt C => ateV K a.1 a.2) (fun b : (curve2 K.pair).Point × (Ecp.curve K.pair.rom).Point => e b.1 b.2) (finN K) (fun a b hab => (hO _ _ _ _ hab).2) l l' hl
    have s3 : Canon12 K.pair.rom.P K.pair.rom.p s (l'.map fun b : (curve2 K.pair).Point × (Ecp.curve K.pair.rom).Point => e b.1 b.2).prod := by
      rw [← v]; exact s2
    exact ⟨r, s, e', s1, isunity_canon h.tw.tower s3⟩
end

theorem ndB64 (K : GlsRom 64) (hK : K ∈ gls64) : ndB K = true := by
  simp only [gls64, List.mem_cons, List.not_mem_nil, or_false] at hK
  unfold ndB
  rcases hK with rfl | rfl | rfl | rfl | rfl | rfl | rfl
  exacts [nd_bls381, nd_bls383, nd_bls461, nd_bn254, nd_bn254cx, nd_fp256bn, nd_fp512bn]

theorem ndB32 (K : GlsRom 32) (hK : K ∈ gls32) : ndB K = true := by
  simp only [gls32, List.mem_cons, List.not_mem_nil, or_false] at hK
  unfold ndB
  rcases hK with rfl | rfl | rfl | rfl | rfl | rfl
  · rw [nd_bls381_32]; exact nd_bls381
  · rw [nd_bls383_32]; exact nd_bls383
  · rw [nd_bls461_32]; exact nd_bls461
  · rw [nd_bn254_32]; exact nd_bn254
  · rw [nd_bn254cx_32]; exact nd_bn254cx
  · rw [nd_fp256bn_32]; exact nd_fp256bn

set_option exponentiation.threshold 4000 in
theorem ndB'64 : gls64.all ndB' = true := by decide +kernel
set_option exponentiation.threshold 4000 in
theorem ndB'32 : gls32.all ndB' = true := by decide +kernel

/-- C96, every bundled curve of embedding degree 12, 64-bit -/
theorem C96_nondegenerate64 (K : GlsRom 64) (ab : Nat) (hK : (K, ab) ∈ ates64) : ∃ (_ : Fact K.pair.rom.p.Prime) (_ : Fact (K.pair.rom.p % 4 = 3)), NonDegOk K ab := by
  have hm : K ∈ gls64 := ates64_fst ▸ List.mem_map_of_mem (f := Prod.fst) hK
  obtain ⟨hp, h4, lam, h⟩ := facts64 K hm
  have hb := List.all_eq_true.1 fexpB64 K hm
  have h3 := of_decide_eq_true (List.all_eq_true.1 gt3.1 K hm)
  obtain ⟨a, b, c⟩ := of_decide_eq_true (List.all_eq_true.1 ateB64 _ hK)
  exact ⟨hp, h4, nondeg_of h hb h3 a b c (List.all_eq_true.1 textB64 K hm) (List.all_eq_true.1 bilB64 K hm) (ndB64 K hm) (List.all_eq_true.1 ndB'64 K hm) (C55_rom64 _ (mem64 K hm).2)⟩

/-- C96, 32-bit; the representation must have 19 bits to spare -/
theorem C96_nondegenerate32 (K : GlsRom 32) (ab : Nat) (hK : (K, ab) ∈ ates32) (hh : 2 ^ 19 * K.pair.rom.p ≤ 2 ^ (K.pair.rom.P.b * K.pair.rom.P.n)) :
    ∃ (_ : Fact K.pair.rom.p.Prime) (_ : Fact (K.pair.rom.p % 4 = 3)), NonDegOk K ab := by
  have hm : K ∈ gls32 := ates32_fst ▸ List.mem_map_of_mem (f := Prod.fst) hK
  obtain ⟨hp, h4, lam, h⟩ := facts32 K hm hh
  have hb := List.all_eq_true.1 fexpB32 K hm
  have h3 := of_decide_eq_true (List.all_eq_true.1 gt3.2 K hm)
  obtain ⟨a, b, c⟩ := of_decide_eq_true (List.all_eq_true.1 ateB32 _ hK)
  exact ⟨hp, h4, nondeg_of h hb h3 a b c (List.all_eq_true.1 textB32 K hm) (List.all_eq_true.1 bilB32 K hm) (ndB32 K hm) (List.all_eq_true.1 ndB'32 K hm) (C55_rom32 _ (mem32 K hm).2)⟩

/-- the hypotheses are met by the generators: `ate` followed by `fexp` on them does not return one -/
theorem nondeg_gen {C : Nat} {K : GlsRom C} [Fact K.pair.rom.p.Prime] [Fact (K.pair.rom.p % 4 = 3)] {lam : Int} (h : PairFacts K lam) {ab : Nat} (hn : NonDegOk K ab) :
    ∃ r s, ate K (Ecp2.generator K.pair) (Ecp.generator K.pair.rom) = some r ∧ Gt.fexp K r = some s ∧ Fp12.isunity K.pair.rom.P s = false := by
  obtain ⟨h6, e, G, _, _, _, _, gG, G0, _, _, nd, _⟩ := hn
  obtain ⟨G1, a1, a2, a3⟩ := h.gen1
  obtain ⟨r, s, e1, e2, e3⟩ := nd _ _ 1 G1 (by rw [one_nsmul]; exact gG.mono (by norm_num)) a1 a3 (Or.inr a2)
  refine ⟨r, s, e1, e2, ?_⟩
  rw [one_nsmul] at e3
  rw [← Bool.not_eq_true, e3]
  rintro (c | c)
  exacts [G0 c, a2 c]

end Verif.Props
