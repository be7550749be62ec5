import Verif.Spec.BlsReal
import Verif.Bls.SchemeOk
/- The signature schemes over the real point code. -/
namespace Verif.Bls
set_option linter.unusedSectionVars false
open Verif.Big Verif.Rom Verif.Ecdh Verif.H2c
open Spec (Byte)

variable {C : Nat} {A B T V S X : Type} [AddCommGroup A] [AddCommGroup B] [AddCommGroup T]
  {K : Rom C} [hp : Fact K.p.Prime] {Bk : Backend C V S} {dv : V → A → Prop} {ds : S → B → Prop} {SA : AddSubgroup A} {SB : AddSubgroup B} {NA : Set A} {NB : Set B}
  {gA : A} {gB : B} {EA : Enc A} {EB : Enc B}

theorem SideReal.valid {sd : Side C X} {den : X → A → Prop} {Sg : AddSubgroup A} {N : Set A} {g : A} {E : Enc A} (h : SideReal K sd den Sg N g E) {bs : List Byte} {x : X}
    (e : sd.deser bs = .ok x) : ∃ v a, den x a ∧ sd.sub x = some v ∧ (v = true ↔ a ∈ Sg) ∧ (v = true → Valid Sg E bs) ∧ (E.is a bs ∨ E.is (-a) bs) := by
  obtain ⟨a, h1, h2⟩ := h.accept e
  obtain ⟨v, h3, h4⟩ := h.sub h1
  refine ⟨v, a, h1, h3, h4, fun hv => ?_, h2⟩
  rcases h2 with h2 | h2
  · exact ⟨a, h4.1 hv, h2⟩
  · exact ⟨-a, Sg.neg_mem (h4.1 hv), h2⟩

section
variable (hv : SideReal K Bk.pk dv SA NA gA EA) (hs : SideReal K Bk.sg ds SB NB gB EB)
include hv hs

/-- `core_verify` and `pop_verify` up to hashing -/
theorem real_verify_cases (pk sig : List Byte) (F : V → S → Option Bool) :
    ∃ r, (match Bk.pk.deser pk, Bk.sg.deser sig with
      | .ok pk, .ok sig => (do
        if !(← Bk.sg.sub sig) then pure false
        else if !(← Bk.pk.sub pk) then pure false
        else F pk sig : Option Bool)
      | _, _ => some false) = r ∧
      (r = some false ∨ ∃ x y a b, Bk.pk.deser pk = .ok x ∧ Bk.sg.deser sig = .ok y ∧ dv x a ∧ ds y b ∧ a ∈ SA ∧ b ∈ SB ∧ Valid SA EA pk ∧ Valid SB EB sig ∧ r = F x y) := by
  refine ⟨_, rfl, ?_⟩
  cases e1 : Bk.pk.deser pk with
  | error e => left; cases Bk.sg.deser sig <;> rfl
  | ok x =>
    cases e2 : Bk.sg.deser sig with
    | error e => left; rfl
    | ok y =>
      obtain ⟨v1, a, h1, h2, h3, h4, _⟩ := hv.valid e1
      obtain ⟨v2, b, k1, k2, k3, k4, _⟩ := hs.valid e2
      dsimp only
      rw [h2, k2]
      simp only [bind, Option.bind_some]
      cases v2 with
      | false => left; rfl
      | true =>
        cases v1 with
        | false => left; rfl
        | true => right; exact ⟨x, y, a, b, rfl, rfl, h1, k1, h3.1 rfl, k3.1 rfl, h4 rfl, k4 rfl, rfl⟩

theorem real_reject (pk m sig d : List Byte) (h : ¬ Valid SA EA pk ∨ ¬ Valid SB EB sig) : coreVerify Bk pk m sig d = some false := by
  obtain ⟨r, h1, h2⟩ := real_verify_cases hv hs pk sig fun pk sig => (Bk.hash m d).bind fun h => Bk.check [(Bk.pk.neg Bk.pk.gen, sig), (pk, h)]
  rw [show coreVerify Bk pk m sig d = r from h1]
  rcases h2 with h2 | ⟨x, y, a, b, _, _, _, _, _, _, h3, h4, _⟩
  · exact h2
  · rcases h with h | h
    · exact absurd h3 h
    · exact absurd h4 h

theorem real_pop_reject (pk proof d : List Byte) (h : ¬ Valid SA EA pk ∨ ¬ Valid SB EB proof) : Pop.popVerify Bk d pk proof = some false := by
  have : Pop.popVerify Bk d pk proof = coreVerify Bk pk pk proof d := by
    unfold Pop.popVerify coreVerify
    cases Bk.sg.deser proof <;> cases Bk.pk.deser pk <;> rfl
  rw [this]
  exact real_reject hv hs pk pk proof d h

/-- the loop of `core_aggregate_verify` with an invalid key -/
theorem real_loop_bad (d : List Byte) : ∀ {pks msgs : List (List Byte)}, pks.length = msgs.length → (∃ k ∈ pks, ¬ Valid SA EA k) →
    (∀ l, pairsLoop Bk d pks msgs ≠ some (some l)) ∧ ((∀ m ∈ msgs, Bk.hash m d ≠ none) → pairsLoop Bk d pks msgs = some none) := by
  intro pks
  induction pks with
  | nil => rintro msgs _ ⟨k, hk, _⟩; cases hk
  | cons k ks ih =>
    intro msgs hl hk
    cases msgs with
    | nil => simp at hl
    | cons m ms =>
      have hl' : ks.length = ms.length := by simpa using hl
      simp only [pairsLoop]
      cases e1 : Bk.pk.deser k with
      | error e => exact ⟨fun l => by simp, fun _ => rfl⟩
      | ok x =>
        obtain ⟨v1, a, h1, h2, h3, h4, _⟩ := hv.valid e1
        dsimp only
        rw [h2]
        simp only [bind, Option.bind_some]
        cases v1 with
        | false => exact ⟨fun l => by simp [pure], fun _ => rfl⟩
        | true =>
          have hk' : ∃ k ∈ ks, ¬ Valid SA EA k := by
            obtain ⟨k', hm, hn⟩ := hk
            rcases List.mem_cons.1 hm with rfl | hm
            · exact absurd (h4 rfl) hn
            · exact ⟨k', hm, hn⟩
          obtain ⟨i1, i2⟩ := ih hl' hk'
          simp only [Bool.not_true, Bool.false_eq_true, if_false]
          constructor
          · intro l c
            cases eh : Bk.hash m d with
            | none => rw [eh] at c; cases c
            | some h =>
              rw [eh, Option.bind_some] at c
              cases el : pairsLoop Bk d ks ms with
              | none => rw [el] at c; cases c
              | some o =>
                rw [el, Option.bind_some] at c
                cases o with
                | none => cases c
                | some l' => exact i1 l' el
          · intro hh
            obtain ⟨h, eh⟩ := Option.ne_none_iff_exists'.1 (hh m (List.mem_cons_self ..))
            rw [eh, Option.bind_some, i2 fun m hm => hh m (List.mem_cons_of_mem _ hm), Option.bind_some]
            rfl

theorem real_agg_reject (pks msgs : List (List Byte)) (sig d : List Byte) :
    (pks = [] ∨ pks.length ≠ msgs.length ∨ ¬ Valid SB EB sig → coreAggregateVerify Bk pks msgs sig d = some false) ∧
    ((∃ k ∈ pks, ¬ Valid SA EA k) → coreAggregateVerify Bk pks msgs sig d ≠ some true ∧
      ((∀ m ∈ msgs, Bk.hash m d ≠ none) → coreAggregateVerify Bk pks msgs sig d = some false)) := by
  unfold coreAggregateVerify
  by_cases hc : pks.length = 0 ∨ pks.length ≠ msgs.length
  · rw [if_pos hc]
    exact ⟨fun _ => rfl, fun _ => ⟨by simp, fun _ => rfl⟩⟩
  · rw [if_neg hc]
    have hl : pks.length = msgs.length := by omega
    have hne : pks ≠ [] := by rintro rfl; simp at hc
    cases e2 : Bk.sg.deser sig with
    | error e => exact ⟨fun _ => rfl, fun _ => ⟨by simp, fun _ => rfl⟩⟩
    | ok y =>
      obtain ⟨v2, b, k1, k2, k3, k4, _⟩ := hs.valid e2
      dsimp only
      rw [k2]
      simp only [bind, Option.bind_some]
      cases v2 with
      | false => exact ⟨fun _ => rfl, fun _ => ⟨by simp [pure], fun _ => rfl⟩⟩
      | true =>
        simp only [Bool.not_true, Bool.false_eq_true, if_false]
        constructor
        · rintro (h | h | h)
          · exact absurd h hne
          · exact absurd hl h
          · exact absurd (k4 rfl) h
        · intro hk
          obtain ⟨i1, i2⟩ := real_loop_bad hv hs d hl hk
          constructor
          · cases el : pairsLoop Bk d pks msgs with
            | none => simp
            | some o =>
              rw [Option.bind_some]
              cases o with
              | none => simp [pure]
              | some l' => exact absurd el (i1 l')
          · intro hh
            rw [i2 hh, Option.bind_some]
            rfl

omit hs in
theorem real_pk (hK : BlsCurve K) {sk : List Byte} (h : SkOk K sk) : ∃ pk, secretKeyToPublicKey K Bk sk = some (.ok pk) ∧ (skNum sk • gA ∈ NA → pk = EA.c (skNum sk • gA)) := by
  obtain ⟨k, h1, h2⟩ := (skFrom_ok hK sk).2.2 h.1 h.2
  obtain ⟨y, h3, h4⟩ := hv.mul hv.gen hv.gmem h2 h.2
  refine ⟨Bk.pk.ser y, ?_, h4⟩
  unfold secretKeyToPublicKey
  rw [h1]
  change ((Bk.pk.mul Bk.pk.gen k).bind fun p => some (Except.ok (Bk.pk.ser p))) = _
  rw [h3, Option.bind_some]

omit hv in
theorem real_sign (hK : BlsCurve K) {sk m d : List Byte} {x : S} {b : B} (h : SkOk K sk) (hh : Bk.hash m d = some x) (hx : ds x b) (hb : b ∈ SB) :
    ∃ sig, coreSign K Bk sk m d = some (.ok sig) ∧ (skNum sk • b ∈ NB → sig = EB.c (skNum sk • b)) := by
  obtain ⟨k, h1, h2⟩ := (skFrom_ok hK sk).2.2 h.1 h.2
  obtain ⟨y, h3, h4⟩ := hs.mul hx hb h2 h.2
  refine ⟨Bk.sg.ser y, ?_, h4⟩
  unfold coreSign
  rw [h1]
  change ((Bk.hash m d).bind fun h => (Bk.sg.mul h k).bind fun p => some (Except.ok (Bk.sg.ser p))) = _
  rw [hh, Option.bind_some, h3, Option.bind_some]

end

/-! ### with a bilinear pairing -/

namespace PairOk
variable {e : A → B → T} {check : List (V × S) → Option Bool} (h : PairOk SA SB dv ds e check)
include h

theorem zeroL {b : B} (hb : b ∈ SB) : e 0 b = 0 := by
  have := h.addL SA.zero_mem SA.zero_mem hb
  rw [add_zero] at this
  exact left_eq_add.mp this

theorem zeroR {a : A} (ha : a ∈ SA) : e a 0 = 0 := by
  have := h.addR ha SB.zero_mem SB.zero_mem
  rw [add_zero] at this
  exact left_eq_add.mp this

theorem nsmulL {a : A} {b : B} (ha : a ∈ SA) (hb : b ∈ SB) (n : Nat) : e (n • a) b = n • e a b := by
  induction n with
  | zero => rw [zero_nsmul, zero_nsmul, h.zeroL hb]
  | succ n ih => rw [succ_nsmul, succ_nsmul, h.addL (SA.nsmul_mem ha n) ha hb, ih]

theorem nsmulR {a : A} {b : B} (ha : a ∈ SA) (hb : b ∈ SB) (n : Nat) : e a (n • b) = n • e a b := by
  induction n with
  | zero => rw [zero_nsmul, zero_nsmul, h.zeroR ha]
  | succ n ih => rw [succ_nsmul, succ_nsmul, h.addR ha (SB.nsmul_mem hb n) hb, ih]

theorem negL {a : A} {b : B} (ha : a ∈ SA) (hb : b ∈ SB) : e (-a) b = -e a b := by
  have := h.addL ha (SA.neg_mem ha) hb
  rw [add_neg_cancel, h.zeroL hb] at this
  exact (neg_eq_of_add_eq_zero_right this.symm).symm

end PairOk

section
variable (hv : SideReal K Bk.pk dv SA NA gA EA) (hs : SideReal K Bk.sg ds SB NB gB EB) {e : A → B → T} (hc : PairOk SA SB dv ds e Bk.check)
include hv hs hc

/-- the equation that `core_verify` decides -/
theorem real_equation {pk m sig d : List Byte} {x : V} {y h : S} {a : A} {b c : B} (e1 : Bk.pk.deser pk = .ok x) (e2 : Bk.sg.deser sig = .ok y) (hx : dv x a) (hy : ds y b)
    (eh : Bk.hash m d = some h) (hh : ds h c) (hcS : c ∈ SB) (ha : a ∈ SA) (hb : b ∈ SB) (hne : a ≠ 0 ∨ c ≠ 0) :
    ∃ v, coreVerify Bk pk m sig d = some v ∧ (v = true ↔ e a c = e gA b) := by
  obtain ⟨v1, i1, j1⟩ := hv.sub hx
  obtain ⟨v2, i2, j2⟩ := hs.sub hy
  have t1 := j1.2 ha
  have t2 := j2.2 hb
  subst t1 t2
  obtain ⟨v, e3, i3⟩ := hc.check (l := [(Bk.pk.neg Bk.pk.gen, y), (x, h)]) (l' := [(-gA, b), (a, c)])
    (.cons ⟨⟨⟨hv.neg, SA.neg_mem hv.gmem⟩, hy, hb⟩, Or.inl (neg_ne_zero.2 hv.gne)⟩ (.cons ⟨⟨⟨hx, ha⟩, hh, hcS⟩, hne⟩ .nil))
  refine ⟨v, ?_, i3.trans ?_⟩
  · unfold coreVerify
    rw [e1, e2]
    dsimp only
    rw [i2, i1, eh]
    exact e3
  · simp only [List.map_cons, List.map_nil, List.sum_cons, List.sum_nil, add_zero]
    rw [hc.negL hv.gmem hb]
    constructor
    · intro h; exact (neg_add_eq_zero.mp h).symm
    · intro h; exact neg_add_eq_zero.mpr h.symm

/-- signatures verify -/
theorem real_verify {m d : List Byte} {h : S} {c : B} {n : Nat} (eh : Bk.hash m d = some h) (hh : ds h c) (hcS : c ∈ SB) (hc0 : c ≠ 0) (hn : n • gA ∈ NA) (hn' : n • c ∈ NB) :
    coreVerify Bk (EA.c (n • gA)) m (EB.c (n • c)) d = some true := by
  obtain ⟨x, e1, hx⟩ := hv.decode hn
  obtain ⟨y, e2, hy⟩ := hs.decode hn'
  obtain ⟨v, e3, i3⟩ := real_equation hv hs hc e1 e2 hx hy eh hh hcS (SA.nsmul_mem hv.gmem n) (SB.nsmul_mem hcS n) (Or.inr hc0)
  rw [e3, i3.2 (by rw [hc.nsmulL hv.gmem hcS, hc.nsmulR hv.gmem hcS])]

/-- the zero key accepts the zero signature on every message -/
theorem real_identity {m d : List Byte} {h : S} {c : B} (eh : Bk.hash m d = some h) (hh : ds h c) (hcS : c ∈ SB) (hc0 : c ≠ 0) (hA : (0 : A) ∈ NA) (hB : (0 : B) ∈ NB) :
    coreVerify Bk (EA.c 0) m (EB.c 0) d = some true := by
  have := real_verify hv hs hc (n := 0) eh hh hcS hc0 (by rwa [zero_nsmul]) (by rwa [zero_nsmul])
  rwa [zero_nsmul, zero_nsmul] at this

/-- nothing else verifies, if the pairing is injective against the generator -/
theorem real_unique (nondeg : ∀ {b}, b ∈ SB → e gA b = 0 → b = 0) {m d sig : List Byte} {h : S} {c : B} {n : Nat} (eh : Bk.hash m d = some h) (hh : ds h c) (hcS : c ∈ SB) (hc0 : c ≠ 0)
    (hn : n • gA ∈ NA) (ht : coreVerify Bk (EA.c (n • gA)) m sig d = some true) : EB.is (n • c) sig ∨ EB.is (-(n • c)) sig := by
  obtain ⟨r, h1, h2⟩ := real_verify_cases hv hs (EA.c (n • gA)) sig fun pk sig => (Bk.hash m d).bind fun h => Bk.check [(Bk.pk.neg Bk.pk.gen, sig), (pk, h)]
  have h1' : coreVerify Bk (EA.c (n • gA)) m sig d = r := h1
  rw [ht] at h1'
  obtain ⟨x, e1, hx⟩ := hv.decode hn
  rcases h2 with h2 | ⟨_, y, _, b, _, e2, _, _, _, _, _, _, _⟩
  · rw [h2] at h1'; cases h1'
  · obtain ⟨v2, b, hy, k2, k3, _, hb⟩ := hs.valid e2
    have hbS : b ∈ SB := by
      by_contra hcon
      obtain ⟨v1, i1, _⟩ := hv.sub hx
      have : v2 = false := by
        cases v2 with
        | false => rfl
        | true => exact absurd (k3.1 rfl) hcon
      subst this
      have : coreVerify Bk (EA.c (n • gA)) m sig d = some false := by
        unfold coreVerify
        rw [e1, e2]
        dsimp only
        rw [k2]
        rfl
      rw [this] at ht; cases ht
    obtain ⟨v, e3, i3⟩ := real_equation hv hs hc e1 e2 hx hy eh hh hcS (SA.nsmul_mem hv.gmem n) hbS (Or.inr hc0)
    rw [ht] at e3
    injection e3 with e3
    have hq := i3.1 e3.symm
    rw [hc.nsmulL hv.gmem hcS, ← hc.nsmulR hv.gmem hcS] at hq
    have hz : e gA (b + -(n • c)) = 0 := by
      have h1 := hc.addR hv.gmem (SB.add_mem hbS (SB.neg_mem (SB.nsmul_mem hcS n))) (SB.nsmul_mem hcS n)
      rw [neg_add_cancel_right, hq] at h1
      exact right_eq_add.mp h1
    have hb' : b = n • c := add_neg_eq_zero.1 (nondeg (SB.add_mem hbS (SB.neg_mem (SB.nsmul_mem hcS n))) hz)
    rw [hb'] at hb
    exact hb

/-- a signer: secret number, message, hashed message -/
structure Signer (B : Type) where
  n : Nat
  m : List Byte
  c : B

omit hv hc in
theorem real_sum : ∀ {bs : List B} {x : S} {b : B}, (∀ c ∈ bs, c ∈ NB) → ds x b → ∃ y, sumPoints Bk.sg x (bs.map EB.c) = .ok y ∧ ds y (b + bs.sum) := by
  intro bs
  induction bs with
  | nil => intro x b _ hx; exact ⟨x, rfl, by simpa using hx⟩
  | cons c bs ih =>
    intro x b h hx
    obtain ⟨y, e1, hy⟩ := hs.decode (h c (by simp))
    obtain ⟨z, e2, hz⟩ := ih (fun c hc => h c (by simp [hc])) (hs.add hx hy)
    refine ⟨z, ?_, ?_⟩
    · rw [List.map_cons, sumPoints, e1]; exact e2
    · rw [List.sum_cons, ← add_assoc]; exact hz

omit hs hc in
theorem real_loop (d : List Byte) : ∀ {ps : List (Signer B)}, (∀ s ∈ ps, (∃ h, Bk.hash s.m d = some h ∧ ds h s.c) ∧ (s.c ∈ SB ∧ s.c ≠ 0) ∧ s.n • gA ∈ NA) →
    ∃ l, pairsLoop Bk d (ps.map fun s => EA.c (s.n • gA)) (ps.map Signer.m) = some (some l) ∧
      List.Forall₂ (fun x (a : A × B) => ((dv x.1 a.1 ∧ a.1 ∈ SA) ∧ ds x.2 a.2 ∧ a.2 ∈ SB) ∧ (a.1 ≠ 0 ∨ a.2 ≠ 0)) l (ps.map fun s => (s.n • gA, s.c)) := by
  intro ps
  induction ps with
  | nil => intro _; exact ⟨[], rfl, .nil⟩
  | cons s ps ih =>
    intro h
    obtain ⟨l, e1, hl⟩ := ih fun s hs => h s (by simp [hs])
    obtain ⟨⟨y, e2, hy⟩, ⟨hc, hc0⟩, hn⟩ := h s (by simp)
    obtain ⟨x, e3, hx⟩ := hv.decode hn
    obtain ⟨v, e4, i4⟩ := hv.sub hx
    have hm := SA.nsmul_mem hv.gmem s.n
    rw [i4.2 hm] at e4
    refine ⟨(x, y) :: l, ?_, .cons ⟨⟨⟨hx, hm⟩, hy, hc⟩, Or.inr hc0⟩ hl⟩
    rw [List.map_cons, List.map_cons, pairsLoop, e3]
    dsimp only
    rw [e4, e2, e1]
    rfl

/-- an aggregate of signatures verifies -/
theorem real_aggregate (d : List Byte) {ps : List (Signer B)} (hne : ps ≠ [])
    (h : ∀ s ∈ ps, (∃ h, Bk.hash s.m d = some h ∧ ds h s.c) ∧ (s.c ∈ SB ∧ s.c ≠ 0) ∧ s.n • gA ∈ NA) (hN : ∀ s ∈ ps, s.n • s.c ∈ NB) (hsum : (ps.map fun s => s.n • s.c).sum ∈ NB) :
    aggregate Bk (ps.map fun s => EB.c (s.n • s.c)) = .ok (EB.c (ps.map fun s => s.n • s.c).sum) ∧
    coreAggregateVerify Bk (ps.map fun s => EA.c (s.n • gA)) (ps.map Signer.m) (EB.c (ps.map fun s => s.n • s.c).sum) d = some true := by
  have hmem : (ps.map fun s => s.n • s.c).sum ∈ SB := by
    apply SB.list_sum_mem
    intro b hb
    obtain ⟨s, hs', rfl⟩ := List.mem_map.1 hb
    exact SB.nsmul_mem (h s hs').2.1.1 _
  constructor
  · cases ps with
    | nil => exact absurd rfl hne
    | cons s ps =>
      obtain ⟨x, e1, hx⟩ := hs.decode (hN s (by simp))
      obtain ⟨y, e2, hy⟩ := real_sum hs (bs := ps.map fun s => s.n • s.c) (x := x) (b := s.n • s.c) (by
        intro c hc'
        obtain ⟨t, ht, rfl⟩ := List.mem_map.1 hc'
        exact hN t (by simp [ht])) hx
      have e3 := hs.ser hy (by simpa using hmem) (by simpa using hsum)
      rw [List.map_map] at e2
      rw [List.map_cons, aggregate, e1]
      dsimp only
      rw [show (ps.map fun s => EB.c (s.n • s.c)) = ps.map (EB.c ∘ fun s => s.n • s.c) from rfl, e2]
      dsimp only
      rw [e3, List.map_cons, List.sum_cons]
  · obtain ⟨l, e1, hl⟩ := real_loop hv d h
    obtain ⟨y, e2, hy⟩ := hs.decode hsum
    obtain ⟨v, e3, i3⟩ := hs.sub hy
    rw [i3.2 hmem] at e3
    obtain ⟨w, e4, i4⟩ := hc.check (.cons (a := (Bk.pk.neg Bk.pk.gen, y)) (b := (-gA, (ps.map fun s => s.n • s.c).sum)) ⟨⟨⟨hv.neg, SA.neg_mem hv.gmem⟩, hy, hmem⟩, Or.inl (neg_ne_zero.2 hv.gne)⟩ hl)
    have hlen : ps.length ≠ 0 := fun e => hne (List.length_eq_zero_iff.1 e)
    have key : ∀ qs : List (Signer B), (∀ s ∈ qs, s.c ∈ SB) → e gA (qs.map fun s => s.n • s.c).sum = ((qs.map fun s => (s.n • gA, s.c)).map fun a => e a.1 a.2).sum := by
      intro qs
      induction qs with
      | nil => intro _; simpa using hc.zeroR hv.gmem
      | cons s qs ih =>
        intro h
        have h1 := h s (by simp)
        have h2 : (qs.map fun s => s.n • s.c).sum ∈ SB := by
          apply SB.list_sum_mem
          intro b hb
          obtain ⟨t, ht, rfl⟩ := List.mem_map.1 hb
          exact SB.nsmul_mem (h t (by simp [ht])) _
        rw [List.map_cons, List.sum_cons, hc.addR hv.gmem (SB.nsmul_mem h1 _) h2, ih fun t ht => h t (by simp [ht]), List.map_cons, List.map_cons, List.sum_cons,
          hc.nsmulR hv.gmem h1, hc.nsmulL hv.gmem h1]
    have hw : w = true := i4.2 (by
      rw [List.map_cons, List.sum_cons, hc.negL hv.gmem hmem, key ps fun s hs => (h s hs).2.1.1, neg_add_cancel])
    unfold coreAggregateVerify
    rw [if_neg (by simp [hlen]), e2]
    dsimp only
    rw [e3, e1]
    change Bk.check _ = _
    rw [e4, hw]

end

end Verif.Bls
