import Verif.Bls.RealEx
import Verif.Props.BlsScheme
import Verif.Props.H2c
/-
C45, C46 for the point code of BLS12-381 (subgroup checks, codecs, scalar multiplications, hashing); only the pairing test is a parameter.
-/
namespace Verif.Props
set_option linter.unusedSectionVars false
open Verif.Big Verif.Fp Verif.Rom Verif.Curve Verif.Ecdh Verif.H2c Verif.Ecp Verif.Ecp2 Verif.Tower Verif.Pair Verif.Bls Spec WeierstrassCurve

/-- what C46 says: verification functions do not accept, and do not panic on, strings that encode no element of the subgroup -/
def Rejects {C : Nat} {V S A B : Type} [AddCommGroup A] [AddCommGroup B] (Bk : Backend C V S) (SA : AddSubgroup A) (SB : AddSubgroup B) (EA : Enc A) (EB : Enc B) : Prop :=
  (∀ d pk m sig, ¬ Valid SA EA pk ∨ ¬ Valid SB EB sig →
    Basic.verify Bk d pk m sig = some false ∧ Aug.verify Bk d pk m sig = some false ∧ Pop.verify Bk d pk m sig = some false ∧ Pop.popVerify Bk d pk sig = some false) ∧
  (∀ d pks msgs sig, pks = [] ∨ pks.length ≠ msgs.length ∨ ¬ Valid SB EB sig →
    Basic.aggregateVerify Bk d pks msgs sig = some false ∧ Pop.aggregateVerify Bk d pks msgs sig = some false ∧
    (msgs.length ≤ pks.length → Aug.aggregateVerify Bk d pks msgs sig = some false)) ∧
  (∀ d pks msgs sig, (∃ k ∈ pks, ¬ Valid SA EA k) →
    Basic.aggregateVerify Bk d pks msgs sig ≠ some true ∧ Pop.aggregateVerify Bk d pks msgs sig ≠ some true ∧ Aug.aggregateVerify Bk d pks msgs sig ≠ some true) ∧
  (∀ d pks msgs sig, (∃ k ∈ pks, ¬ Valid SA EA k) → (∀ m ∈ msgs, Bk.hash m d ≠ none) →
    Basic.aggregateVerify Bk d pks msgs sig = some false ∧ Pop.aggregateVerify Bk d pks msgs sig = some false) ∧
  (∀ d pks msgs sig, (∃ k ∈ pks, ¬ Valid SA EA k) → msgs.length ≤ pks.length → (∀ m, Bk.hash m d ≠ none) → Aug.aggregateVerify Bk d pks msgs sig = some false) ∧
  (∀ d pks msgs sig, ¬ msgs.Nodup → Basic.aggregateVerify Bk d pks msgs sig = some false)

theorem rejects_of {C : Nat} {V S A B : Type} [AddCommGroup A] [AddCommGroup B] {K : Rom C} {Bk : Backend C V S} {dv : V → A → Prop} {ds : S → B → Prop} {SA : AddSubgroup A} {SB : AddSubgroup B}
    {NA : Set A} {NB : Set B} {gA : A} {gB : B} {EA : Enc A} {EB : Enc B} [Fact K.p.Prime] (hv : SideReal K Bk.pk dv SA NA gA EA) (hs : SideReal K Bk.sg ds SB NB gB EB) :
    Rejects Bk SA SB EA EB := by
  have hb : ∀ d pks msgs sig, Basic.aggregateVerify Bk d pks msgs sig = some false ∨ Basic.aggregateVerify Bk d pks msgs sig = coreAggregateVerify Bk pks msgs sig d := by
    intro d pks msgs sig
    unfold Basic.aggregateVerify
    split_ifs
    · exact Or.inl rfl
    · exact Or.inr rfl
  have ha : ∀ d pks msgs sig, msgs.length ≤ pks.length → Aug.aggregateVerify Bk d pks msgs sig = coreAggregateVerify Bk pks (List.zipWith (· ++ ·) pks msgs) sig d := by
    intro d pks msgs sig h
    unfold Aug.aggregateVerify
    rw [augment_some h]
    rfl
  refine ⟨fun d pk m sig h => ⟨real_reject hv hs pk m sig d h, real_reject hv hs pk (pk ++ m) sig d h, real_reject hv hs pk m sig d h, real_pop_reject hv hs pk sig d h⟩, ?_, ?_, ?_, ?_, ?_⟩
  · intro d pks msgs sig h
    have h1 := (real_agg_reject hv hs pks msgs sig d).1 h
    refine ⟨?_, h1, fun hl => ?_⟩
    · rcases hb d pks msgs sig with e | e
      · exact e
      · rw [e]; exact h1
    · rw [ha d pks msgs sig hl]
      refine (real_agg_reject hv hs pks _ sig d).1 ?_
      rcases h with h | h | h
      · exact Or.inl h
      · refine Or.inr (Or.inl ?_)
        rw [List.length_zipWith]; omega
      · exact Or.inr (Or.inr h)
  · intro d pks msgs sig h
    have h1 := ((real_agg_reject hv hs pks msgs sig d).2 h).1
    refine ⟨?_, h1, ?_⟩
    · rcases hb d pks msgs sig with e | e
      · rw [e]; simp
      · rw [e]; exact h1
    · by_cases hl : msgs.length ≤ pks.length
      · rw [ha d pks msgs sig hl]
        exact ((real_agg_reject hv hs pks _ sig d).2 h).1
      · rw [C46_aug_panics d pks msgs sig (by omega)]; simp
  · intro d pks msgs sig h hh
    have h1 := ((real_agg_reject hv hs pks msgs sig d).2 h).2 hh
    refine ⟨?_, h1⟩
    rcases hb d pks msgs sig with e | e
    · exact e
    · rw [e]; exact h1
  · intro d pks msgs sig h hl hh
    rw [ha d pks msgs sig hl]
    exact ((real_agg_reject hv hs pks _ sig d).2 h).2 fun m _ => hh m
  · intro d pks msgs sig h
    exact C46_repeated d pks msgs sig h

/-- what C45 says of the real code, for a bilinear pairing test -/
def Accepts {C : Nat} {V S A B : Type} [AddCommGroup A] [AddCommGroup B] (K : Rom C) (Bk : Backend C V S) (ds : S → B → Prop) (SB : AddSubgroup B) (NA : Set A) (NB : Set B) (gA : A)
    (EA : Enc A) (EB : Enc B) : Prop :=
  -- the values of the public key and of the signature, and that they verify
  (∀ sk m d x c, SkOk K sk → Bk.hash m d = some x → ds x c → c ∈ SB → c ≠ 0 → skNum sk • gA ∈ NA → skNum sk • c ∈ NB →
    secretKeyToPublicKey K Bk sk = some (.ok (EA.c (skNum sk • gA))) ∧ coreSign K Bk sk m d = some (.ok (EB.c (skNum sk • c))) ∧
    coreVerify Bk (EA.c (skNum sk • gA)) m (EB.c (skNum sk • c)) d = some true) ∧
  -- aggregates
  (∀ d (ps : List (Signer B)), ps ≠ [] → (∀ s ∈ ps, (∃ h, Bk.hash s.m d = some h ∧ ds h s.c) ∧ (s.c ∈ SB ∧ s.c ≠ 0) ∧ s.n • gA ∈ NA) → (∀ s ∈ ps, s.n • s.c ∈ NB) →
    (ps.map fun s => s.n • s.c).sum ∈ NB →
    aggregate Bk (ps.map fun s => EB.c (s.n • s.c)) = .ok (EB.c (ps.map fun s => s.n • s.c).sum) ∧
    coreAggregateVerify Bk (ps.map fun s => EA.c (s.n • gA)) (ps.map Signer.m) (EB.c (ps.map fun s => s.n • s.c).sum) d = some true)

/-- the key at infinity accepts the signature at infinity on every message -/
def IdentityKey {C : Nat} {V S A B : Type} [AddCommGroup A] [AddCommGroup B] (Bk : Backend C V S) (ds : S → B → Prop) (SB : AddSubgroup B) (EA : Enc A) (EB : Enc B) : Prop :=
  ∀ m d x c, Bk.hash m d = some x → ds x c → c ∈ SB → c ≠ 0 → coreVerify Bk (EA.c 0) m (EB.c 0) d = some true

/-- what is accepted under the public key of `n` is an encoding of the signature (or of its negative, for the encodings of C44 whose sign is lost) -/
def Exact {C : Nat} {V S A B : Type} [AddCommGroup A] [AddCommGroup B] (Bk : Backend C V S) (ds : S → B → Prop) (SB : AddSubgroup B) (NA : Set A) (gA : A) (EA : Enc A) (EB : Enc B) : Prop :=
  ∀ (n : Nat) m d sig x c, Bk.hash m d = some x → ds x c → c ∈ SB → c ≠ 0 → n • gA ∈ NA → coreVerify Bk (EA.c (n • gA)) m sig d = some true → EB.is (n • c) sig ∨ EB.is (-(n • c)) sig

section
variable {C : Nat} {V S A B T : Type} [AddCommGroup A] [AddCommGroup B] [AddCommGroup T] {K : Rom C} {Bk : Backend C V S} {dv : V → A → Prop} {ds : S → B → Prop}
  {SA : AddSubgroup A} {SB : AddSubgroup B} {NA : Set A} {NB : Set B} {gA : A} {gB : B} {EA : Enc A} {EB : Enc B} [Fact K.p.Prime]

theorem accepts_of (hK : BlsCurve K) (hv : SideReal K Bk.pk dv SA NA gA EA) (hs : SideReal K Bk.sg ds SB NB gB EB) {e : A → B → T} (hc : PairOk SA SB dv ds e Bk.check) :
    Accepts K Bk ds SB NA NB gA EA EB := by
  refine ⟨fun sk m d x c h1 h2 h3 h4 h0 h5 h6 => ?_, fun d ps hne h hN hsum => real_aggregate hv hs hc d hne h hN hsum⟩
  obtain ⟨pk, e1, i1⟩ := real_pk hv hK h1
  obtain ⟨sig, e2, i2⟩ := real_sign hs hK h1 h2 h3 h4
  rw [i1 h5] at e1
  rw [i2 h6] at e2
  exact ⟨e1, e2, real_verify hv hs hc h2 h3 h4 h0 h5 h6⟩

theorem exact_of (hv : SideReal K Bk.pk dv SA NA gA EA) (hs : SideReal K Bk.sg ds SB NB gB EB) {e : A → B → T} (hc : PairOk SA SB dv ds e Bk.check)
    (nondeg : ∀ {b}, b ∈ SB → e gA b = 0 → b = 0) : Exact Bk ds SB NA gA EA EB :=
  fun _ _ _ _ _ _ h1 h2 h3 h0 h4 h5 => real_unique hv hs hc nondeg h1 h2 h3 h0 h4 h5
end

/-! ### the bundled curve -/

theorem ord64 : bls381_64g.pair.rom.a = 0 ∧ ordN bls381_64g.pair.rom = r381 := by constructor <;> decide +kernel
theorem ord32 : bls381_32g.pair.rom.a = 0 ∧ ordN bls381_32g.pair.rom = r381 := by constructor <;> decide +kernel

theorem real_of {C : Nat} {K : GlsRom C} [hp : Fact K.pair.rom.p.Prime] [h4 : Fact (K.pair.rom.p % 4 = 3)] {lam : Int} (h : PairFacts K lam) (h2 : G2Curve K.pair) (hg : genCheck K.pair = true)
    (hb : b381B K = true) (ho : K.pair.rom.a = 0 ∧ ordN K.pair.rom = r381) : Real381 K ∧ r381.Prime := by
  obtain ⟨h3, h5⟩ := bls381_of h hg hb
  refine ⟨⟨h2, mulOk_of h, h3, h5, ho.1, ho.2, ?_⟩, ?_⟩
  · rw [← ho.2]; exact h2.bls.dh.annihilates
  · rw [← ho.2]; exact h2.bls.dh.orderPrime

theorem real64 : ∃ (_ : Fact bls381_64g.pair.rom.p.Prime) (_ : Fact (bls381_64g.pair.rom.p % 4 = 3)), Real381 bls381_64g ∧ r381.Prime := by
  obtain ⟨hp, h4, lam, h⟩ := facts64 bls381_64g (by simp [gls64])
  exact ⟨hp, h4, real_of h bls381_g2 b381_64.1 b381_64.2 ord64⟩

theorem real32 : ∃ (_ : Fact bls381_32g.pair.rom.p.Prime) (_ : Fact (bls381_32g.pair.rom.p % 4 = 3)), Real381 bls381_32g ∧ r381.Prime := by
  obtain ⟨hp, h4, lam, h⟩ := facts32 bls381_32g (by simp [gls32]) (by decide +kernel)
  exact ⟨hp, h4, real_of h bls381_g2_32 b381_32.1 b381_32.2 ord32⟩

section
variable {C : Nat} (K : GlsRom C) [hp : Fact K.pair.rom.p.Prime] [h4 : Fact (K.pair.rom.p % 4 = 3)]

/-- C46 for a ROM file: both variants, whatever the pairing test answers -/
def RejectsBoth : Prop :=
  (∀ check, Rejects (backendSigG2 K check) (torsionR (curve K.pair.rom).Point) (torsionR (curve2 K.pair).Point) (encG1 K) (encG2 K)) ∧
  (∀ check, Rejects (backendSigG1 K check) (torsionR (curve2 K.pair).Point) (torsionR (curve K.pair.rom).Point) (encG2 K) (encG1 K))

/-- C45 for a ROM file: `G` and `H` are the two generators -/
def AcceptsBoth (G : (curve K.pair.rom).Point) (H : (curve2 K.pair).Point) : Prop :=
  (∀ (T : Type) [AddCommGroup T] (e : (curve K.pair.rom).Point → (curve2 K.pair).Point → T) check,
    PairOk (torsionR _) (torsionR _) (IsPoint K.pair.rom) (IsPoint2 K.pair 202) e check →
    Accepts K.pair.rom (backendSigG2 K check) (IsPoint2 K.pair 202) (torsionR _) Set.univ {T | Ordinary K T} G (encG1 K) (encG2 K) ∧
    ((∀ b, r381 • b = 0 → e G b = 0 → b = 0) → Exact (backendSigG2 K check) (IsPoint2 K.pair 202) (torsionR _) Set.univ G (encG1 K) (encG2 K))) ∧
  (∀ (T : Type) [AddCommGroup T] (e : (curve2 K.pair).Point → (curve K.pair.rom).Point → T) check,
    PairOk (torsionR _) (torsionR _) (IsPoint2 K.pair 202) (IsPoint K.pair.rom) e check →
    Accepts K.pair.rom (backendSigG1 K check) (IsPoint K.pair.rom) (torsionR _) {T | Ordinary K T} Set.univ H (encG2 K) (encG1 K) ∧
    ((∀ b, r381 • b = 0 → e H b = 0 → b = 0) → Exact (backendSigG1 K check) (IsPoint K.pair.rom) (torsionR _) {T | Ordinary K T} H (encG2 K) (encG1 K)))

/-- the generators of the ROM file -/
def Gens (G : (curve K.pair.rom).Point) (H : (curve2 K.pair).Point) : Prop :=
  (IsPoint K.pair.rom (Ecp.generator K.pair.rom) G ∧ G ≠ 0 ∧ r381 • G = 0) ∧ IsPoint2 K.pair 2 (Ecp2.generator K.pair) H ∧ H ≠ 0 ∧ r381 • H = 0

variable {K}

theorem real_both (h : Real381 K) (hr : r381.Prime) : RejectsBoth K ∧ ∃ G H, Gens K G H ∧ AcceptsBoth K G H := by
  have s1 := side1 h
  obtain ⟨H, hn, hH, s2⟩ := side2 h hr
  refine ⟨⟨fun check => ?_, fun check => ?_⟩, h.g2.bls.dh.G, H, ⟨⟨h.g2.bls.dh.base, (by intro c; cases c), h.gen1⟩, hH, hn, s2.gmem⟩, fun T _ e check hc => ?_, fun T _ e check hc => ?_⟩
  · exact rejects_of (Bk := backendSigG2 K check) s1 s2
  · exact rejects_of (Bk := backendSigG1 K check) s2 s1
  · exact ⟨accepts_of (Bk := backendSigG2 K check) h.g2.bls s1 s2 hc, fun hd => exact_of (Bk := backendSigG2 K check) s1 s2 hc fun {b} h1 h2 => hd b h1 h2⟩
  · exact ⟨accepts_of (Bk := backendSigG1 K check) h.g2.bls s2 s1 hc, fun hd => exact_of (Bk := backendSigG1 K check) s2 s1 hc fun {b} h1 h2 => hd b h1 h2⟩
end

/-- C46. BLS12-381, 64-bit: keys and signatures that do not encode an element of the subgroup are rejected by all verification functions except `fast_aggregate_verify` … -/
theorem C46_real64 : ∃ (_ : Fact bls381_64g.pair.rom.p.Prime) (_ : Fact (bls381_64g.pair.rom.p % 4 = 3)), RejectsBoth bls381_64g := by
  obtain ⟨hp, h4, h, hr⟩ := real64
  exact ⟨hp, h4, (real_both h hr).1⟩

/-- … and 32-bit -/
theorem C46_real32 : ∃ (_ : Fact bls381_32g.pair.rom.p.Prime) (_ : Fact (bls381_32g.pair.rom.p % 4 = 3)), RejectsBoth bls381_32g := by
  obtain ⟨hp, h4, h, hr⟩ := real32
  exact ⟨hp, h4, (real_both h hr).1⟩

/-- C45. BLS12-381, 64-bit: keys, signatures and aggregates verify, and nothing else does, if the pairing test is bilinear … -/
theorem C45_real64_partial : ∃ (_ : Fact bls381_64g.pair.rom.p.Prime) (_ : Fact (bls381_64g.pair.rom.p % 4 = 3)) (G : _) (H : _), Gens bls381_64g G H ∧ AcceptsBoth bls381_64g G H := by
  obtain ⟨hp, h4, h, hr⟩ := real64
  exact ⟨hp, h4, (real_both h hr).2⟩

/-- … and 32-bit -/
theorem C45_real32_partial : ∃ (_ : Fact bls381_32g.pair.rom.p.Prime) (_ : Fact (bls381_32g.pair.rom.p % 4 = 3)) (G : _) (H : _), Gens bls381_32g G H ∧ AcceptsBoth bls381_32g G H := by
  obtain ⟨hp, h4, h, hr⟩ := real32
  exact ⟨hp, h4, (real_both h hr).2⟩

/-- the message-independent key of C46_identity, both variants -/
def IdentityBoth {C : Nat} (K : GlsRom C) [Fact K.pair.rom.p.Prime] [Fact (K.pair.rom.p % 4 = 3)] : Prop :=
  (∀ (T : Type) [AddCommGroup T] (e : (curve K.pair.rom).Point → (curve2 K.pair).Point → T) check,
    PairOk (torsionR _) (torsionR _) (IsPoint K.pair.rom) (IsPoint2 K.pair 202) e check →
    IdentityKey (backendSigG2 K check) (IsPoint2 K.pair 202) (torsionR _) (encG1 K) (encG2 K)) ∧
  (∀ (T : Type) [AddCommGroup T] (e : (curve2 K.pair).Point → (curve K.pair.rom).Point → T) check,
    PairOk (torsionR _) (torsionR _) (IsPoint2 K.pair 202) (IsPoint K.pair.rom) e check →
    IdentityKey (backendSigG1 K check) (IsPoint K.pair.rom) (torsionR _) (encG2 K) (encG1 K))

theorem identity_both {C : Nat} {K : GlsRom C} [hp : Fact K.pair.rom.p.Prime] [h4 : Fact (K.pair.rom.p % 4 = 3)] (h : Real381 K) (hr : r381.Prime) : IdentityBoth K := by
  have s1 := side1 h
  obtain ⟨H, hn, hH, s2⟩ := side2 h hr
  refine ⟨fun T _ e check hc m d x c h1 h2 h3 h4 => ?_, fun T _ e check hc m d x c h1 h2 h3 h4 => ?_⟩
  · exact real_identity (Bk := backendSigG2 K check) s1 s2 hc h1 h2 h3 h4 trivial trivial
  · exact real_identity (Bk := backendSigG1 K check) s2 s1 hc h1 h2 h3 h4 trivial trivial

/-- C46. Deviation: the public key at infinity is not refused, and accepts the signature at infinity on every message (later drafts of the specification refuse this key). -/
theorem C46_identity64 : ∃ (_ : Fact bls381_64g.pair.rom.p.Prime) (_ : Fact (bls381_64g.pair.rom.p % 4 = 3)), IdentityBoth bls381_64g := by
  obtain ⟨hp, h4, h, hr⟩ := real64
  exact ⟨hp, h4, identity_both h hr⟩

/-- … and 32-bit -/
theorem C46_identity32 : ∃ (_ : Fact bls381_32g.pair.rom.p.Prime) (_ : Fact (bls381_32g.pair.rom.p % 4 = 3)), IdentityBoth bls381_32g := by
  obtain ⟨hp, h4, h, hr⟩ := real32
  exact ⟨hp, h4, identity_both h hr⟩

/-! ### the hypotheses are met -/

section
variable {C : Nat} {K : GlsRom C} [hp : Fact K.pair.rom.p.Prime] [h4 : Fact (K.pair.rom.p % 4 = 3)]

/-- there is a bilinear pairing test without kernel -/
theorem real_ex (h : Real381 K) (hr : r381.Prime) {G : (curve K.pair.rom).Point} {H : (curve2 K.pair).Point} (hg : Gens K G H) :
    ∃ (e : (curve K.pair.rom).Point → (curve2 K.pair).Point → ZMod r381) (check : _), PairOk (torsionR _) (torsionR _) (IsPoint K.pair.rom) (IsPoint2 K.pair 202) e check ∧
      ∀ b, r381 • b = 0 → e G b = 0 → b = 0 := by
  have : Fact r381.Prime := ⟨hr⟩
  have : Finite (curve K.pair.rom).Point := Nat.finite_of_card_ne_zero (by rw [h.cof.1]; decide +kernel)
  have : Finite (curve2 K.pair).Point := Nat.finite_of_card_ne_zero (by rw [h.cof.2.1]; decide +kernel)
  exact pairOk_exists (fun h1 h2 => Denotes.inj h1.2 h2.2) (fun h1 h2 => Denotes.inj h1.2 h2.2) hg.1.2.1 hg.1.2.2 hg.2.2.1 hg.2.2.2
    (fun a ha => torsion_cyclic (by rw [h.cof.1]; decide +kernel) hg.1.2.1 hg.1.2.2 ha) (fun b hb => torsion_cyclic (by rw [h.cof.2.1]; decide +kernel) hg.2.2.1 hg.2.2.2 hb)

/-- a point of the curve outside the subgroup, its encoding decodes but is refused as a key -/
theorem real_outside (h : Real381 K) (hr : r381.Prime) {y : ZMod K.pair.rom.p} (hh : (curve K.pair.rom).Nonsingular 0 y) (check : _) (m sig d : List Byte) :
    (∃ s, deserializeG1 K.pair.rom (enc1C (Affine.Point.some 0 y hh)) = .ok s) ∧ coreVerify (backendSigG2 K check) (enc1C (Affine.Point.some 0 y hh)) m sig d = some false := by
  obtain ⟨s, hs, hd, _⟩ := (C44_g1_decode h.g2.bls (Affine.Point.some 0 y hh)).1
  refine ⟨⟨s, hs⟩, ((real_both h hr).1.1 check).1 d _ m sig (Or.inl ?_) |>.1⟩
  rintro ⟨T, hT, hE⟩
  rcases deser_ok h.g2.bls (enc1C (Affine.Point.some 0 y hh)) with ⟨s', T', h1, h2, h3, h4⟩ | ⟨h1, _⟩
  · have e1 := (h4 _).1 (Or.inl rfl)
    have e2 := (h4 _).1 hE
    rw [e2, ← e1] at hT
    exact absc_ne h hT
  · exact h1 _ (Or.inl rfl)
end

/-- (0, 2) is on the curve `y² = x³ + 4` and outside the subgroup -/
example : ∃ (_ : Fact bls381_64g.pair.rom.p.Prime) (_ : Fact (bls381_64g.pair.rom.p % 4 = 3)) (hh : (curve bls381_64g.pair.rom).Nonsingular 0 2), ∀ check m sig d,
    coreVerify (backendSigG2 bls381_64g check) (enc1C (Affine.Point.some 0 2 hh)) m sig d = some false := by
  obtain ⟨hp, h4, h, hr⟩ := real64
  have h2 := two_ne_zero' h.g2.bls.dh.curve.arith.toConsts
  have hB : Bcoef bls381_64g.pair.rom = 4 := by
    rw [← h.g2.twist.bI, show bls381_64g.pair.rom.bI = 4 from by decide +kernel]; norm_num
  have hh : (curve bls381_64g.pair.rom).Nonsingular 0 2 := short_ns h.g2.bls.dh.curve.noTwo h2 (by rw [hB, h.a]; norm_num)
  exact ⟨hp, h4, hh, fun check m sig d => (real_outside h hr hh check m sig d).2⟩

/-- the generator of G2 has non-zero coordinate parts, and the pairing can be chosen: the message of C68 is signed and verified -/
example : ∃ check, ∃ sk sig : List Byte, skNum sk = 5 ∧ coreSign bls381_64g.pair.rom (backendSigG1 bls381_64g check) sk [4#8] [0x44#8] = some (.ok sig) := by
  obtain ⟨hp, h4, h, hr⟩ := real64
  obtain ⟨_, _, ⟨R, T, e1, e2, e3⟩, _⟩ := C68_reached
  refine ⟨fun _ => none, List.replicate 31 0#8 ++ [5#8], ?_⟩
  obtain ⟨sig, e, _⟩ := real_sign (Bk := backendSigG1 bls381_64g fun _ => none) (side1 h) h.g2.bls (sk := List.replicate 31 0#8 ++ [5#8]) (by
    refine ⟨rfl, ?_⟩
    rw [h.order]; decide +kernel) e1 e2 e3
  exact ⟨sig, by decide +kernel, e⟩

end Verif.Props
