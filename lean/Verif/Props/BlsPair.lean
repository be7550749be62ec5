import Verif.Props.NonDeg
import Verif.Props.BlsReal
/-
C45 without assumptions: the pairing test of the signature schemes is the one of the program, `initmp`, `another` for each pair, `miller`, `fexp`, `isunity`.
-/
namespace Verif.Props
set_option linter.unusedSectionVars false
open Spec (Byte)
open Verif.Big Verif.Fp Verif.Rom Verif.Curve Verif.Tower Verif.Ecp Verif.Ecp2 Verif.Pair Verif.Ecdh Verif.Gt Verif.Ate Verif.Bls WeierstrassCurve

/-- a multiplicative bilinear function with values of finite order, as an additive one -/
theorem pairOk_mul {A B V S M : Type} [AddCommGroup A] [AddCommGroup B] [CommMonoid M] {SA : AddSubgroup A} {SB : AddSubgroup B} {dv : V → A → Prop} {ds : S → B → Prop} {check : List (V × S) → Option Bool}
    (e : A → B → M) {n : Nat} (hn : n ≠ 0) (ord : ∀ a b, e a b ^ n = 1) (addL : ∀ a a' b, a ∈ SA → a' ∈ SA → b ∈ SB → e (a + a') b = e a b * e a' b)
    (addR : ∀ a b b', a ∈ SA → b ∈ SB → b' ∈ SB → e a (b + b') = e a b * e a b')
    (hc : ∀ (l : List (V × S)) (l' : List (A × B)), List.Forall₂ (fun x a => ((dv x.1 a.1 ∧ a.1 ∈ SA) ∧ ds x.2 a.2 ∧ a.2 ∈ SB) ∧ (a.1 ≠ 0 ∨ a.2 ≠ 0)) l l' →
      ∃ v, check l = some v ∧ (v = true ↔ (l'.map fun a => e a.1 a.2).prod = 1)) :
    ∃ (T : Type) (_ : AddCommGroup T) (e' : A → B → T), PairOk SA SB dv ds e' check ∧ ∀ a b, e' a b = 0 ↔ e a b = 1 := by
  have key : ∀ a b, Units.val (Units.ofPowEqOne (e a b) n (ord a b) hn) = e a b := fun a b => rfl
  refine ⟨Additive Mˣ, inferInstance, fun a b => Additive.ofMul (Units.ofPowEqOne (e a b) n (ord a b) hn), ⟨?_, ?_, ?_⟩, ?_⟩
  · intro a a' b h1 h2 h3
    rw [← ofMul_mul]
    congr 1
    exact Units.ext (addL a a' b h1 h2 h3)
  · intro a b b' h1 h2 h3
    rw [← ofMul_mul]
    congr 1
    exact Units.ext (addR a b b' h1 h2 h3)
  · intro l l' hl
    obtain ⟨v, e1, e2⟩ := hc l l' hl
    refine ⟨v, e1, e2.trans ?_⟩
    have s : ∀ l' : List (A × B), (l'.map fun a => Additive.ofMul (Units.ofPowEqOne (e a.1 a.2) n (ord a.1 a.2) hn)).sum =
        Additive.ofMul ((l'.map fun a => Units.ofPowEqOne (e a.1 a.2) n (ord a.1 a.2) hn).prod) := by
      intro l'
      induction l' with
      | nil => rfl
      | cons a t ih => rw [List.map_cons, List.sum_cons, ih, List.map_cons, List.prod_cons, ofMul_mul]
    have t : ∀ l' : List (A × B), Units.val (l'.map fun a => Units.ofPowEqOne (e a.1 a.2) n (ord a.1 a.2) hn).prod = (l'.map fun a => e a.1 a.2).prod := by
      intro l'
      induction l' with
      | nil => rfl
      | cons a t ih => rw [List.map_cons, List.prod_cons, Units.val_mul, ih, List.map_cons, List.prod_cons, key]
    rw [s, ofMul_eq_zero, ← t, Units.val_eq_one]
  · intro a b
    rw [ofMul_eq_zero, ← Units.val_eq_one, key]

section
variable {C : Nat}

/-- the test of the verification functions with signatures on the first curve (bls381/core.rs:551-558, 605-627) -/
def testSigG1 (K : GlsRom C) (ab : Nat) (l : List (Pt2 C × Pt C)) : Option Bool := do
  let r ← multi K ab l
  let v ← Gt.fexp K r
  pure (Fp12.isunity K.pair.rom.P v)

/-- the same with signatures on the twist (bls381/core.rs:705-712, 759-782): the arguments of `another` change places -/
def testSigG2 (K : GlsRom C) (ab : Nat) (l : List (Pt C × Pt2 C)) : Option Bool := testSigG1 K ab (l.map Prod.swap)

/-- C45 for a ROM file, with the program's own pairing: `G` and `H` are the two generators -/
def SignsBoth (K : GlsRom C) (ab : Nat) [Fact K.pair.rom.p.Prime] [Fact (K.pair.rom.p % 4 = 3)] (G : (curve K.pair.rom).Point) (H : (curve2 K.pair).Point) : Prop :=
  (Accepts K.pair.rom (backendSigG2 K (testSigG2 K ab)) (IsPoint2 K.pair 202) (torsionR _) Set.univ {T | Ordinary K T} G (encG1 K) (encG2 K) ∧
    Exact (backendSigG2 K (testSigG2 K ab)) (IsPoint2 K.pair 202) (torsionR _) Set.univ G (encG1 K) (encG2 K)) ∧
  (Accepts K.pair.rom (backendSigG1 K (testSigG1 K ab)) (IsPoint K.pair.rom) (torsionR _) {T | Ordinary K T} Set.univ H (encG2 K) (encG1 K) ∧
    Exact (backendSigG1 K (testSigG1 K ab)) (IsPoint K.pair.rom) (torsionR _) {T | Ordinary K T} H (encG2 K) (encG1 K))

/-- C46, the key at infinity, with the program's own pairing -/
def IdentityReal (K : GlsRom C) (ab : Nat) [Fact K.pair.rom.p.Prime] [Fact (K.pair.rom.p % 4 = 3)] : Prop :=
  IdentityKey (backendSigG2 K (testSigG2 K ab)) (IsPoint2 K.pair 202) (torsionR _) (encG1 K) (encG2 K) ∧
  IdentityKey (backendSigG1 K (testSigG1 K ab)) (IsPoint K.pair.rom) (torsionR _) (encG2 K) (encG1 K)

variable {K : GlsRom C} [hp : Fact K.pair.rom.p.Prime] [h4 : Fact (K.pair.rom.p % 4 = 3)]

theorem signs_of (h : Real381 K) (hr : r381.Prime) {ab : Nat} (hn : NonDegOk K ab) {G : (curve K.pair.rom).Point} {H : (curve2 K.pair).Point} (hg : Gens K G H) (ha : AcceptsBoth K G H) (hi : IdentityBoth K) :
    SignsBoth K ab G H ∧ IdentityReal K ab := by
  obtain ⟨h6, e, H', _, _, bil, addr, gG, G0, inG, nd, _, addl, ord, mul⟩ := hn
  have eG : H' = H := C58_unique gG hg.2.1
  subst eG
  have : Fact r381.Prime := ⟨hr⟩
  have hrN : rN K.pair = r381 := h.order
  rw [hrN] at ord nd addr
  have : Finite (curve K.pair.rom).Point := Nat.finite_of_card_ne_zero (by rw [h.cof.1]; decide +kernel)
  have : Finite (curve2 K.pair).Point := Nat.finite_of_card_ne_zero (by rw [h.cof.2.1]; decide +kernel)
  have cyc2 : ∀ {P : (curve2 K.pair).Point}, r381 • P = 0 → ∃ k : Nat, P = k • H' := fun hP => by
    obtain ⟨k, rfl⟩ := torsion_cyclic (by rw [h.cof.2.1]; decide +kernel) hg.2.2.1 hg.2.2.2 hP
    have hz : (r381 : Int) ≠ 0 := by exact_mod_cast hr.ne_zero
    refine ⟨(k % r381).toNat, ?_⟩
    conv_lhs => rw [← Int.emod_add_mul_ediv k r381, add_zsmul, mul_comm, mul_zsmul, natCast_zsmul, hg.2.2.2, _root_.zsmul_zero, add_zero]
    rw [← natCast_zsmul, Int.toNat_of_nonneg (Int.emod_nonneg _ hz)]
  have inA : ∀ P : (curve2 K.pair).Point, r381 • P = 0 → InG2 K h6 P := fun P hP => by
    obtain ⟨k, rfl⟩ := cyc2 hP
    exact (G2sub K h6).nsmul_mem inG k
  have sub : ∀ {P : Pt2 C} {Q : Pt C} {S : (curve2 K.pair).Point} {U : (curve K.pair.rom).Point}, IsPoint2 K.pair 202 P S → IsPoint K.pair.rom Q U → r381 • S = 0 → r381 • U = 0 → (S ≠ 0 ∨ U ≠ 0) →
      SubPair K h6 P Q S U := fun h1 h2 h3 h4 h5 => ⟨h1.mono (by norm_num), h2, (inA _ h3).1, (inA _ h3).2, by rw [hrN]; exact h4, h5⟩
  have chk : ∀ (l : List (Pt2 C × Pt C)) (l' : List ((curve2 K.pair).Point × (curve K.pair.rom).Point)),
      List.Forall₂ (fun (a : Pt2 C × Pt C) (b : (curve2 K.pair).Point × (curve K.pair.rom).Point) => SubPair K h6 a.1 a.2 b.1 b.2) l l' →
      ∃ v, testSigG1 K ab l = some v ∧ (v = true ↔ (l'.map fun b => e b.1 b.2).prod = 1) := by
    intro l l' hl
    obtain ⟨r, s, e1, e2, e3⟩ := mul l l' hl
    exact ⟨_, by simp only [testSigG1, e1, e2, Option.bind_eq_bind, Option.bind_some, Option.pure_def], e3⟩
  obtain ⟨T1, i1, e1, p1, z1⟩ := pairOk_mul (SA := torsionR (curve2 K.pair).Point) (SB := torsionR (curve K.pair.rom).Point) (dv := IsPoint2 K.pair 202) (ds := IsPoint K.pair.rom) (check := testSigG1 K ab) e hr.ne_zero ord
    (fun a a' b h1 h2 h3 => addl a a' b (inA _ h1) (inA _ h2)) (fun a b b' h1 h2 h3 => addr a b b' (inA _ h1) h2 h3)
    (fun l l' hl => chk l l' (hl.imp fun a b hab => sub hab.1.1.1 hab.1.2.1 hab.1.1.2 hab.1.2.2 hab.2))
  obtain ⟨T2, i2, e2, p2, z2⟩ := pairOk_mul (SA := torsionR (curve K.pair.rom).Point) (SB := torsionR (curve2 K.pair).Point) (dv := IsPoint K.pair.rom) (ds := IsPoint2 K.pair 202) (check := testSigG2 K ab)
    (fun a b => e b a) hr.ne_zero (fun a b => ord b a)
    (fun a a' b h1 h2 h3 => addr b a a' (inA _ h3) h1 h2) (fun a b b' h1 h2 h3 => addl b b' a (inA _ h2) (inA _ h3))
    (fun l l' hl => by
      have hl' : List.Forall₂ (fun (a : Pt2 C × Pt C) (b : (curve2 K.pair).Point × (curve K.pair.rom).Point) => SubPair K h6 a.1 a.2 b.1 b.2) (l.map Prod.swap) (l'.map Prod.swap) := by
        rw [List.forall₂_map_left_iff, List.forall₂_map_right_iff]
        exact hl.imp fun a b hab => sub hab.1.2.1 hab.1.1.1 hab.1.2.2 hab.1.1.2 hab.2.symm
      obtain ⟨v, c1, c2⟩ := chk _ _ hl'
      refine ⟨v, c1, c2.trans ?_⟩
      rw [List.map_map]
      rfl)
  have nd1 : ∀ b : (curve K.pair.rom).Point, r381 • b = 0 → e1 H' b = 0 → b = 0 := by
    intro b hb h0
    have := nd 1 b hb
    rw [one_nsmul] at this
    exact (this.1 ((z1 _ _).1 h0)).resolve_left G0
  have nd2 : ∀ b : (curve2 K.pair).Point, r381 • b = 0 → e2 G b = 0 → b = 0 := by
    intro b hb h0
    obtain ⟨k, rfl⟩ := cyc2 hb
    exact ((nd k G hg.1.2.2).1 ((z2 _ _).1 h0)).resolve_right hg.1.2.1
  have a2 := ha.1 T2 e2 _ p2
  have a1 := ha.2 T1 e1 _ p1
  exact ⟨⟨⟨a2.1, a2.2 nd2⟩, a1.1, a1.2 nd1⟩, hi.1 T2 e2 _ p2, hi.2 T1 e1 _ p1⟩
end

/-- C45. BLS12-381, 64-bit: keys, signatures and aggregates verify, and nothing else does … -/
theorem C45_real64 : ∃ (_ : Fact bls381_64g.pair.rom.p.Prime) (_ : Fact (bls381_64g.pair.rom.p % 4 = 3)) (G : _) (H : _), Gens bls381_64g G H ∧ SignsBoth bls381_64g 65 G H := by
  obtain ⟨hp, h4, h, hr⟩ := real64
  obtain ⟨_, G, H, hg, ha⟩ := real_both h hr
  obtain ⟨_, _, hn⟩ := C96_nondegenerate64 bls381_64g 65 (by simp [ates64])
  exact ⟨hp, h4, G, H, hg, (signs_of h hr hn hg ha (identity_both h hr)).1⟩

/-- … and 32-bit -/
theorem C45_real32 : ∃ (_ : Fact bls381_32g.pair.rom.p.Prime) (_ : Fact (bls381_32g.pair.rom.p % 4 = 3)) (G : _) (H : _), Gens bls381_32g G H ∧ SignsBoth bls381_32g 65 G H := by
  obtain ⟨hp, h4, h, hr⟩ := real32
  obtain ⟨_, G, H, hg, ha⟩ := real_both h hr
  obtain ⟨_, _, hn⟩ := C96_nondegenerate32 bls381_32g 65 (by simp [ates32]) (by decide +kernel)
  exact ⟨hp, h4, G, H, hg, (signs_of h hr hn hg ha (identity_both h hr)).1⟩

/-- C46. Deviation, with the program's own pairing: the public key at infinity accepts the signature at infinity on every message. -/
theorem C46_identity_real64 : ∃ (_ : Fact bls381_64g.pair.rom.p.Prime) (_ : Fact (bls381_64g.pair.rom.p % 4 = 3)), IdentityReal bls381_64g 65 := by
  obtain ⟨hp, h4, h, hr⟩ := real64
  obtain ⟨_, G, H, hg, ha⟩ := real_both h hr
  obtain ⟨_, _, hn⟩ := C96_nondegenerate64 bls381_64g 65 (by simp [ates64])
  exact ⟨hp, h4, (signs_of h hr hn hg ha (identity_both h hr)).2⟩

end Verif.Props
