import Verif.Ate.Pairing
import Verif.Props.Ate
/-
C94: the pairing of `pair.rs` is the optimal ate pairing of Spec/Ate.lean.
-/
namespace Verif.Props
set_option linter.unusedSectionVars false
open Spec
open Verif.Big Verif.Fp Verif.Rom Verif.Curve Verif.Tower Verif.Ecp Verif.Ecp2 Verif.Pair Verif.Gt Verif.Ate WeierstrassCurve

section
variable {C : Nat} {K : GlsRom C} [hp : Fact K.pair.rom.p.Prime] [h4 : Fact (K.pair.rom.p % 4 = 3)] {lam : Int}

/-- What C94 says about one ROM file, on pairs of points of the two groups, not both at infinity: with `ds` a signed binary expansion of the loop parameter, `ate`
followed by `fexp` returns the optimal ate pairing; `ate2` followed by `fexp` the product of two; the multi-pairing over any list of pairs followed by `fexp` their
product, which `isunity` recognizes as one exactly when it is. -/
def AteTextOk (K : GlsRom C) (ab : Nat) [Fact K.pair.rom.p.Prime] [Fact (K.pair.rom.p % 4 = 3)] : Prop :=
  ∃ (h6 : 6 ∣ K.pair.rom.p - 1) (ds : List Int), (∀ d ∈ ds, d = 0 ∨ d = 1 ∨ d = -1) ∧ digitsVal ds = ateParam K ∧
    (∀ P Q S U, SubPair K h6 P Q S U → ∃ r s, ate K P Q = some r ∧ Gt.fexp K r = some s ∧ Canon12 K.pair.rom.P K.pair.rom.p s (optAte K h6 ds S U)) ∧
    (∀ P Q S U P' Q' S' U', SubPair K h6 P Q S U → SubPair K h6 P' Q' S' U' → ∃ r s, ate2 K P Q P' Q' = some r ∧ Gt.fexp K r = some s ∧
      Canon12 K.pair.rom.P K.pair.rom.p s (optAte K h6 ds S U * optAte K h6 ds S' U') ∧
      (Fp12.isunity K.pair.rom.P s = true ↔ optAte K h6 ds S U * optAte K h6 ds S' U' = 1)) ∧
    (∀ (l : List (Pt2 C × Pt C)) (l' : List ((curve2 K.pair).Point × (Ecp.curve K.pair.rom).Point)), List.Forall₂ (fun (a : Pt2 C × Pt C) (b : (curve2 K.pair).Point × (Ecp.curve K.pair.rom).Point) => SubPair K h6 a.1 a.2 b.1 b.2) l l' → ∃ r s, multi K ab l = some r ∧ Gt.fexp K r = some s ∧
      Canon12 K.pair.rom.P K.pair.rom.p s (l'.map fun b : (curve2 K.pair).Point × (Ecp.curve K.pair.rom).Point => optAte K h6 ds b.1 b.2).prod ∧
      (Fp12.isunity K.pair.rom.P s = true ↔ (l'.map fun b : (curve2 K.pair).Point × (Ecp.curve K.pair.rom).Point => optAte K h6 ds b.1 b.2).prod = 1)) ∧
    ∀ P Q S U, SubPair K h6 P Q S U → optAte K h6 ds S U ^ rN K.pair = 1

/-- the check of a ROM file -/
def textB (K : GlsRom C) : Bool := decide (digitsVal (digs K (lbits K - 2)) = ateParam K) && (digs K (lbits K - 2)).all (fun d => decide (d = 0 ∨ d = 1 ∨ d = -1)) && optB K

theorem fexp_div (hb : fexpB K = true) : rN K.pair ∣ K.pair.rom.p ^ 4 - K.pair.rom.p ^ 2 + 1 := by
  unfold fexpB at hb
  simp only [Bool.and_eq_true, decide_eq_true_eq] at hb
  exact Nat.dvd_of_mod_eq_zero hb.1.2

theorem prod_pow {p : Nat} {ι κ : Type*} {R : ι → κ → Prop} (f : ι → F12 p) (g : κ → F12 p) (n : Nat) (h : ∀ a b, R a b → f a ^ n = g b) :
    ∀ l l', List.Forall₂ R l l' → (l.map f).prod ^ n = (l'.map g).prod := by
  intro l l' hl
  induction hl with
  | nil => exact one_pow n
  | cons hab _ ih => rw [List.map_cons, List.prod_cons, List.map_cons, List.prod_cons, mul_pow, ih, h _ _ hab]

theorem ateText_of (h : PairFacts K lam) (hb : fexpB K = true) (h3 : 3 < rN K.pair) {ab : Nat} (h0 : lbits K ≠ 0) (h1 : lbits K ≤ ab + 1) (h2 : 0 < ab) (ht : textB K = true) : AteTextOk K ab := by
  have ha := ateRom_of h h0
  have hF := fexpOk_of h hb
  have hdv := fexp_div hb
  unfold textB at ht
  simp only [Bool.and_eq_true, decide_eq_true_eq, List.all_eq_true] at ht
  obtain ⟨⟨t1, t2⟩, t3⟩ := ht
  have hO := fun P Q S U (hs : SubPair K h.fr.six P Q S U) => opt_ok h h0 t3 h3 hdv hs
  refine ⟨h.fr.six, digs K (lbits K - 2), t2, t1, ?_, ?_, ?_, ?_⟩
  · intro P Q S U hs
    obtain ⟨r, e, hr⟩ := ate_ok ha hs.p2 hs.p1
    obtain ⟨n, v⟩ := hO P Q S U hs
    obtain ⟨s, s1, s2⟩ := hF r _ hr.1 n
    exact ⟨r, s, e, s1, by rw [← v]; exact s2⟩
  · intro P Q S U P' Q' S' U' hs hs'
    obtain ⟨r, e, hr⟩ := ate2_ok ha hs.p2 hs.p1 hs'.p2 hs'.p1
    obtain ⟨n, v⟩ := hO P Q S U hs
    obtain ⟨n', v'⟩ := hO P' Q' S' U' hs'
    obtain ⟨s, s1, s2⟩ := hF r _ hr.1 (f12_nz h.pr n n')
    have s3 : Canon12 K.pair.rom.P K.pair.rom.p s (optAte K h.fr.six (digs K (lbits K - 2)) S U * optAte K h.fr.six (digs K (lbits K - 2)) S' U') := by
      rw [← v, ← v', ← mul_pow]; exact s2
    exact ⟨r, s, e, s1, s3, isunity_canon h.tw.tower s3⟩
  · intro l l' hl
    have hp1 : ∀ a ∈ l, ∃ b : (curve2 K.pair).Point × (Ecp.curve K.pair.rom).Point, SubPair K h.fr.six a.1 a.2 b.1 b.2 := by
      intro a hm
      obtain ⟨i, hi, rfl⟩ := List.getElem_of_mem hm
      exact ⟨_, hl.get hi (hl.length_eq ▸ hi)⟩
    obtain ⟨r, e, hr⟩ := multi_ok ha h1 h2 (l := l) fun a hm => by
      obtain ⟨b, hb⟩ := hp1 a hm
      exact ⟨⟨_, hb.p2⟩, _, hb.p1⟩
    have hz := prod_nz h.pr (l.map fun a => ateV K a.1 a.2) (by
      intro v hv
      obtain ⟨a, hm, rfl⟩ := List.mem_map.1 hv
      obtain ⟨b, hb⟩ := hp1 a hm
      exact (hO _ _ _ _ hb).1)
    obtain ⟨s, s1, s2⟩ := hF r _ hr.1 hz
    have v := prod_pow (fun a : Pt2 C × Pt C => ateV K a.1 a.2) (fun b : (curve2 K.pair).Point × (Ecp.curve K.pair.rom).Point => optAte K h.fr.six (digs K (lbits K - 2)) b.1 b.2) (finN K) (fun a b hab => (hO _ _ _ _ hab).2) l l' hl
    have s3 : Canon12 K.pair.rom.P K.pair.rom.p s (l'.map fun b : (curve2 K.pair).Point × (Ecp.curve K.pair.rom).Point => optAte K h.fr.six (digs K (lbits K - 2)) b.1 b.2).prod := by
      rw [← v]; exact s2
    exact ⟨r, s, e, s1, s3, isunity_canon h.tw.tower s3⟩
  · intro P Q S U hs
    obtain ⟨n, v⟩ := hO P Q S U hs
    have e1 := factor12 (p := K.pair.rom.p) hp.out.pos
    have e3 : (K.pair.rom.p ^ 12 - 1) / rN K.pair * rN K.pair = K.pair.rom.p ^ 12 - 1 := Nat.div_mul_cancel (by rw [e1]; exact Dvd.dvd.mul_left hdv _)
    rw [← v, ← pow_mul, finN, Nat.mul_assoc, e3, Nat.mul_comm, pow_mul, pow_full h.pr n, one_pow]
end

theorem textB64 : gls64.all textB = true := by decide +kernel
theorem textB32 : gls32.all textB = true := by decide +kernel

/-- C94, every bundled curve of embedding degree 12, 64-bit -/
theorem C94_ate64 (K : GlsRom 64) (ab : Nat) (hK : (K, ab) ∈ ates64) : ∃ (_ : Fact K.pair.rom.p.Prime) (_ : Fact (K.pair.rom.p % 4 = 3)), AteTextOk K ab := by
  have hm : K ∈ gls64 := ates64_fst ▸ List.mem_map_of_mem (f := Prod.fst) hK
  obtain ⟨hp, h4, lam, h⟩ := facts64 K hm
  have hb := List.all_eq_true.1 fexpB64 K hm
  have h3 := of_decide_eq_true (List.all_eq_true.1 gt3.1 K hm)
  obtain ⟨a, b, c⟩ := of_decide_eq_true (List.all_eq_true.1 ateB64 _ hK)
  exact ⟨hp, h4, ateText_of h hb h3 a b c (List.all_eq_true.1 textB64 K hm)⟩

/-- C94, 32-bit; the representation must have 19 bits to spare -/
theorem C94_ate32 (K : GlsRom 32) (ab : Nat) (hK : (K, ab) ∈ ates32) (hh : 2 ^ 19 * K.pair.rom.p ≤ 2 ^ (K.pair.rom.P.b * K.pair.rom.P.n)) :
    ∃ (_ : Fact K.pair.rom.p.Prime) (_ : Fact (K.pair.rom.p % 4 = 3)), AteTextOk K ab := by
  have hm : K ∈ gls32 := ates32_fst ▸ List.mem_map_of_mem (f := Prod.fst) hK
  obtain ⟨hp, h4, lam, h⟩ := facts32 K hm hh
  have hb := List.all_eq_true.1 fexpB32 K hm
  have h3 := of_decide_eq_true (List.all_eq_true.1 gt3.2 K hm)
  obtain ⟨a, b, c⟩ := of_decide_eq_true (List.all_eq_true.1 ateB32 _ hK)
  exact ⟨hp, h4, ateText_of h hb h3 a b c (List.all_eq_true.1 textB32 K hm)⟩

/-- the generators are such a pair -/
theorem gen_pair {C : Nat} {K : GlsRom C} [Fact K.pair.rom.p.Prime] [Fact (K.pair.rom.p % 4 = 3)] {lam : Int} (h : PairFacts K lam) :
    ∃ S U, SubPair K h.fr.six (Ecp2.generator K.pair) (Ecp.generator K.pair.rom) S U ∧ S ≠ 0 ∧ U ≠ 0 := by
  obtain ⟨G1, a1, a2, a3⟩ := h.gen1
  obtain ⟨G2, b1, b2, b3, b4⟩ := h.gen2
  exact ⟨G2, G1, ⟨b1.mono (by norm_num), a1, b3, b4, a3, Or.inl b2⟩, b2, a2⟩

end Verif.Props
