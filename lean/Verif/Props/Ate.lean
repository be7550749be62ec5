import Verif.Ate.Multi
import Verif.Props.Gt
/-
C93: the Miller loops of `pair.rs`. The double loop `ate2` and the multi-pairing `initmp`, `another`, `miller` compute the products of the single loops `ate`,
and so do they after the final exponentiation.
-/
namespace Verif.Props
set_option linter.unusedSectionVars false
open Spec
open Verif.Big Verif.Fp Verif.Rom Verif.Curve Verif.Tower Verif.Ecp Verif.Ecp2 Verif.Pair Verif.Gt Verif.Ate WeierstrassCurve

/-- the value of `ATE_BITS` in the ROM files of the pairing-friendly curves of embedding degree 12 (rom_bls381_64.rs:169, rom_bls383_64.rs:173, rom_bls461_64.rs:187,
rom_bn254_64.rs:205, rom_bn254cx_64.rs:238, rom_fp256bn_64.rs:230, rom_fp512bn_64.rs:479; the same in the 32-bit files) -/
def ates64 : List (GlsRom 64 × Nat) := [(bls381_64g, 65), (bls383_64g, 65), (bls461_64g, 78), (bn254_64g, 66), (bn254cx_64g, 66), (fp256bn_64g, 66), (fp512bn_64g, 130)]
/-- the same, 32-bit -/
def ates32 : List (GlsRom 32 × Nat) := [(bls381_32g, 65), (bls383_32g, 65), (bls461_32g, 78), (bn254_32g, 66), (bn254cx_32g, 66), (fp256bn_32g, 66)]

section
variable {C : Nat} {K : GlsRom C} [hp : Fact K.pair.rom.p.Prime] [h4 : Fact (K.pair.rom.p % 4 = 3)] {lam : Int}

/-- a pair of points as the pairing takes it: on the twist and on the curve -/
def IsPair (K : GlsRom C) [Fact K.pair.rom.p.Prime] [Fact (K.pair.rom.p % 4 = 3)] (a : Pt2 C × Pt C) : Prop := (∃ S, IsPoint2 K.pair 1820 a.1 S) ∧ ∃ U, IsPoint K.pair.rom a.2 U

/-- What C93 says about one ROM file. `ate` returns on every pair of points an element within the bounds of the other operations; `ate2` returns the product of the
two values of `ate`; the multi-pairing over any list of pairs returns the product of the values of `ate`; and when these values are not zero, `fexp` of the product is
the product of the values of `fexp`, and it is recognized as one exactly when that product is one. -/
def MillerOk (K : GlsRom C) (ab : Nat) [Fact K.pair.rom.p.Prime] [Fact (K.pair.rom.p % 4 = 3)] : Prop :=
  ∃ (e φ : _ → F12 K.pair.rom.p),
    (∀ a : Pt2 C × Pt C, IsPair K a → ∃ r, ate K a.1 a.2 = some r ∧ Std12 K.pair.rom.P K.pair.rom.p 32767 r (e a)) ∧
    (∀ a b : Pt2 C × Pt C, IsPair K a → IsPair K b → ∃ r, ate2 K a.1 a.2 b.1 b.2 = some r ∧ Std12 K.pair.rom.P K.pair.rom.p 32767 r (e a * e b)) ∧
    (∀ l : List (Pt2 C × Pt C), (∀ a ∈ l, IsPair K a) → ∃ r, multi K ab l = some r ∧ Std12 K.pair.rom.P K.pair.rom.p 32767 r (l.map e).prod) ∧
    (∀ (r : Fp12 C) (l : List (Pt2 C × Pt C)), Std12 K.pair.rom.P K.pair.rom.p 32767 r (l.map e).prod → (∀ a ∈ l, e a ≠ 0) →
      ∃ s, Gt.fexp K r = some s ∧ Canon12 K.pair.rom.P K.pair.rom.p s (l.map fun a => φ (e a)).prod ∧ (Fp12.isunity K.pair.rom.P s = true ↔ (l.map fun a => φ (e a)).prod = 1)) ∧
    ∀ v, v ≠ 0 → φ v ^ rN K.pair = 1

theorem f12_nz (t : TowerPrime K.pair.rom.p) {v w : F12 K.pair.rom.p} (hv : v ≠ 0) (hw : w ≠ 0) : v * w ≠ 0 := by
  obtain ⟨v', h⟩ := C51_field12 t v hv
  intro e
  apply hw
  calc w = (v * v') * w := by rw [h, one_mul]
    _ = (v * w) * v' := by ring
    _ = 0 := by rw [e, zero_mul]

theorem prod_nz (t : TowerPrime K.pair.rom.p) : ∀ l : List (F12 K.pair.rom.p), (∀ a ∈ l, a ≠ 0) → l.prod ≠ 0
  | [], _ => by rw [List.prod_nil]; exact one_ne_zero
  | a :: l, h => by
    rw [List.prod_cons]
    exact f12_nz t (h a (by simp)) (prod_nz t l fun b hb => h b (by simp [hb]))

theorem isunity_canon {P : Params C} {p : Nat} [Fact p.Prime] (h : TowerOk P p) {r : Fp12 C} {v : F12 p} (hr : Canon12 P p r v) : Fp12.isunity P r = true ↔ v = 1 :=
  Std12.unity h hr.1

theorem ateRom_of (h : PairFacts K lam) (hb : lbits K ≠ 0) : AteRom K := ⟨h.tw, h.g1.wc, h.fr, hb⟩

theorem millerOk_of (h : PairFacts K lam) (hb : fexpB K = true) (h3 : 3 < rN K.pair) {ab : Nat} (h0 : lbits K ≠ 0) (h1 : lbits K ≤ ab + 1) (h2 : 0 < ab) : MillerOk K ab := by
  have ha := ateRom_of h h0
  obtain ⟨φ, f1, f2, f3, f4, f5⟩ := fexpGroup_of h hb h3
  have hu : φ 1 = 1 := f4 1 one_ne_zero (one_pow _)
  refine ⟨fun a => ateV K a.1 a.2, φ, ?_, ?_, ?_, ?_, f2⟩
  · rintro a ⟨⟨S, hS⟩, U, hU⟩
    obtain ⟨r, e, hr⟩ := ate_ok ha hS hU
    exact ⟨r, e, hr.1⟩
  · rintro a b ⟨⟨S, hS⟩, U, hU⟩ ⟨⟨S', hS'⟩, U', hU'⟩
    obtain ⟨r, e, hr⟩ := ate2_ok ha hS hU hS' hU'
    exact ⟨r, e, hr.1⟩
  · intro l hl
    obtain ⟨r, e, hr⟩ := multi_ok ha h1 h2 hl
    exact ⟨r, e, hr.1⟩
  · intro r l hr hl
    have hz := prod_nz h.pr (l.map fun a => ateV K a.1 a.2) (by intro v hv; obtain ⟨a, ha, rfl⟩ := List.mem_map.1 hv; exact hl a ha)
    obtain ⟨s, s1, s2, s3, _⟩ := f1 r _ hr hz
    have hφ : ∀ l : List (Pt2 C × Pt C), φ (l.map fun a => ateV K a.1 a.2).prod = (l.map fun a => φ (ateV K a.1 a.2)).prod := by
      intro l
      induction l with
      | nil => exact hu
      | cons a l ih => simp only [List.map_cons, List.prod_cons]; rw [f3, ih]
    rw [hφ l] at s2
    exact ⟨s, s1, s2, isunity_canon h.tw.tower s2⟩
end

theorem ateB64 : ates64.all (fun a => decide (lbits a.1 ≠ 0 ∧ lbits a.1 ≤ a.2 + 1 ∧ 0 < a.2)) = true := by decide +kernel
theorem ateB32 : ates32.all (fun a => decide (lbits a.1 ≠ 0 ∧ lbits a.1 ≤ a.2 + 1 ∧ 0 < a.2)) = true := by decide +kernel
theorem ates64_fst : ates64.map Prod.fst = gls64 := rfl
theorem ates32_fst : ates32.map Prod.fst = gls32 := rfl

/-- C93, every bundled curve of embedding degree 12, 64-bit -/
theorem C93_miller64 (K : GlsRom 64) (ab : Nat) (hK : (K, ab) ∈ ates64) : ∃ (_ : Fact K.pair.rom.p.Prime) (_ : Fact (K.pair.rom.p % 4 = 3)), MillerOk K ab := by
  have hm : K ∈ gls64 := ates64_fst ▸ List.mem_map_of_mem (f := Prod.fst) hK
  obtain ⟨hp, h4, lam, h⟩ := facts64 K hm
  have hb := List.all_eq_true.1 fexpB64 K hm
  have h3 := of_decide_eq_true (List.all_eq_true.1 gt3.1 K hm)
  obtain ⟨a, b, c⟩ := of_decide_eq_true (List.all_eq_true.1 ateB64 _ hK)
  exact ⟨hp, h4, millerOk_of h hb h3 a b c⟩

/-- C93, 32-bit; the representation must have 19 bits to spare -/
theorem C93_miller32 (K : GlsRom 32) (ab : Nat) (hK : (K, ab) ∈ ates32) (hh : 2 ^ 19 * K.pair.rom.p ≤ 2 ^ (K.pair.rom.P.b * K.pair.rom.P.n)) :
    ∃ (_ : Fact K.pair.rom.p.Prime) (_ : Fact (K.pair.rom.p % 4 = 3)), MillerOk K ab := by
  have hm : K ∈ gls32 := ates32_fst ▸ List.mem_map_of_mem (f := Prod.fst) hK
  obtain ⟨hp, h4, lam, h⟩ := facts32 K hm hh
  have hb := List.all_eq_true.1 fexpB32 K hm
  have h3 := of_decide_eq_true (List.all_eq_true.1 gt3.2 K hm)
  obtain ⟨a, b, c⟩ := of_decide_eq_true (List.all_eq_true.1 ateB32 _ hK)
  exact ⟨hp, h4, millerOk_of h hb h3 a b c⟩

end Verif.Props
