import Verif.Spec.BlsScheme
import Verif.Bls.Keys
import Mathlib.Tactic.Abel
/-
The signature schemes over a backend that implements a pairing setting.
-/
namespace Verif.Bls
open Verif.Big Verif.Rom Verif.Ecdh Verif.H2c
open Spec (Byte)

variable {C : Nat} {A B T V S X : Type} [AddCommGroup A] [AddCommGroup B] [AddCommGroup T]
  {K : Rom C} [hp : Fact K.p.Prime] {Bk : Backend C V S} {P : Setting A B T} {dv : V → A → Prop} {ds : S → B → Prop} {EA : Enc A} {EB : Enc B}

namespace Setting.Ok
variable (h : P.Ok)
include h

theorem nsmulA {a : A} (ha : a ∈ P.SA) (n : Nat) : n • a ∈ P.SA := by
  induction n with
  | zero => rw [zero_nsmul]; exact h.zeroA
  | succ n ih => rw [succ_nsmul]; exact h.addA ih ha

theorem nsmulB {b : B} (hb : b ∈ P.SB) (n : Nat) : n • b ∈ P.SB := by
  induction n with
  | zero => rw [zero_nsmul]; exact h.zeroB
  | succ n ih => rw [succ_nsmul]; exact h.addB ih hb

theorem e_zeroL {b : B} (hb : b ∈ P.SB) : P.e 0 b = 0 := by
  have := h.e_addL h.zeroA h.zeroA hb
  rw [add_zero] at this
  exact left_eq_add.mp this

theorem e_zeroR {a : A} (ha : a ∈ P.SA) : P.e a 0 = 0 := by
  have := h.e_addR ha h.zeroB h.zeroB
  rw [add_zero] at this
  exact left_eq_add.mp this

theorem e_nsmulL {a : A} {b : B} (ha : a ∈ P.SA) (hb : b ∈ P.SB) (n : Nat) : P.e (n • a) b = n • P.e a b := by
  induction n with
  | zero => rw [zero_nsmul, zero_nsmul, h.e_zeroL hb]
  | succ n ih => rw [succ_nsmul, succ_nsmul, h.e_addL (h.nsmulA ha n) ha hb, ih]

theorem e_nsmulR {a : A} {b : B} (ha : a ∈ P.SA) (hb : b ∈ P.SB) (n : Nat) : P.e a (n • b) = n • P.e a b := by
  induction n with
  | zero => rw [zero_nsmul, zero_nsmul, h.e_zeroR ha]
  | succ n ih => rw [succ_nsmul, succ_nsmul, h.e_addR ha (h.nsmulB hb n) hb, ih]

theorem e_negL {a : A} {b : B} (ha : a ∈ P.SA) (hb : b ∈ P.SB) : P.e (-a) b = -P.e a b := by
  have := h.e_addL ha (h.negA ha) hb
  rw [add_neg_cancel, h.e_zeroL hb] at this
  exact (neg_eq_of_add_eq_zero_right this.symm).symm

theorem e_negR {a : A} {b : B} (ha : a ∈ P.SA) (hb : b ∈ P.SB) : P.e a (-b) = -P.e a b := by
  have := h.e_addR ha hb (h.negB hb)
  rw [add_neg_cancel, h.e_zeroR ha] at this
  exact (neg_eq_of_add_eq_zero_right this.symm).symm

/-- the pairing against the generator is injective -/
theorem e_inj {b b' : B} (hb : b ∈ P.SB) (hb' : b' ∈ P.SB) (e : P.e P.g b = P.e P.g b') : b = b' := by
  have h1 : P.e P.g (b + -b') = 0 := by
    rw [h.e_addR h.g_mem hb (h.negB hb'), h.e_negR h.g_mem hb', e, add_neg_cancel]
  exact add_neg_eq_zero.mp (h.nondeg (h.addB hb (h.negB hb')) h1)

end Setting.Ok

/-- decoding, as an equivalence -/
theorem SideOk.deser_iff {sd : Side C X} {den : X → A → Prop} {Sg : Set A} {g : A} {E : Enc A} (h : SideOk K sd den Sg g E) (bs : List Byte) :
    (∃ x a, sd.deser bs = .ok x ∧ den x a ∧ E.is a bs ∧ ∀ a', E.is a' bs → a' = a) ∨ (∃ e, sd.deser bs = .error e) ∧ ∀ a, ¬ E.is a bs := by
  cases hd : sd.deser bs with
  | ok x =>
    obtain ⟨a, h1, h2⟩ := h.accept hd
    refine Or.inl ⟨x, a, rfl, h1, h2, fun a' h3 => ?_⟩
    obtain ⟨x', h4, h5⟩ := h.decode h3
    rw [hd] at h4
    injection h4 with h4
    subst h4
    exact h.inj h5 h1
  | error e =>
    refine Or.inr ⟨⟨e, rfl⟩, fun a h3 => ?_⟩
    obtain ⟨x', h4, _⟩ := h.decode h3
    rw [hd] at h4
    cases h4

theorem SideOk.enc_inj {sd : Side C X} {den : X → A → Prop} {Sg : Set A} {g : A} {E : Enc A} (h : SideOk K sd den Sg g E) {bs : List Byte} {a a' : A}
    (h1 : E.is a bs) (h2 : E.is a' bs) : a = a' := by
  obtain ⟨x, h3, h4⟩ := h.decode h1
  obtain ⟨x', h5, h6⟩ := h.decode h2
  rw [h3] at h5
  injection h5 with h5
  subst h5
  exact h.inj h4 h6

variable (hK : BlsCurve K) (hB : BackendOk K Bk P dv ds EA EB)

include hK hB in
/-- public key of a secret key -/
theorem pk_ok {sk : List Byte} (hs : SkOk K sk) : secretKeyToPublicKey K Bk sk = some (.ok (EA.c (skNum sk • P.g))) := by
  obtain ⟨k, h1, h2⟩ := (skFrom_ok hK sk).2.2 hs.1 hs.2
  obtain ⟨y, h3, h4⟩ := hB.pk.mul hB.pk.gen hB.ok.g_mem h2 hs.2
  unfold secretKeyToPublicKey
  rw [h1]
  change ((Bk.pk.mul Bk.pk.gen k).bind fun p => some (Except.ok (Bk.pk.ser p))) = _
  rw [h3, Option.bind_some, hB.pk.ser h4 (hB.ok.nsmulA hB.ok.g_mem _)]
  rfl

include hK hB in
theorem sign_ok {sk : List Byte} (hs : SkOk K sk) (m d : List Byte) : coreSign K Bk sk m d = some (.ok (EB.c (skNum sk • P.H m d))) := by
  obtain ⟨k, h1, h2⟩ := (skFrom_ok hK sk).2.2 hs.1 hs.2
  obtain ⟨x, h5, h6⟩ := hB.hash m d
  obtain ⟨g, hg⟩ := hB.sg
  obtain ⟨y, h3, h4⟩ := hg.mul h6 (hB.ok.H_mem m d) h2 hs.2
  unfold coreSign
  rw [h1]
  change ((Bk.hash m d).bind fun h => (Bk.sg.mul h k).bind fun p => some (Except.ok (Bk.sg.ser p))) = _
  rw [h5, Option.bind_some, h3, Option.bind_some, hg.ser h4 (hB.ok.nsmulB (hB.ok.H_mem m d) _)]
  rfl

include hK in
/-- the errors of everything that reads a secret key -/
theorem sk_error {sk : List Byte} (hs : ¬ SkOk K sk) : ∃ e, secretKeyFromBytes K sk = some (.error e) ∧
    e = if sk.length = 32 then Err.invalidSecretKeyRange else Err.invalidSecretKeySize := by
  by_cases hl : sk.length = 32
  · have : ordN K ≤ Spec.beNat sk := by
      by_contra hc
      exact hs ⟨hl, by unfold skNum; omega⟩
    exact ⟨_, (skFrom_ok hK sk).2.1 hl this, by rw [if_pos hl]⟩
  · exact ⟨_, (skFrom_ok hK sk).1 hl, by rw [if_neg hl]⟩

include hB in
/-- the common tail of `core_verify` and `pop_verify` -/
theorem verify_core (p : V) (s : S) (a : A) (b : B) (hp' : dv p a) (hs : ds s b) (m d : List Byte) :
    ∃ v, (do
      if !(← Bk.sg.sub s) then pure false
      else if !(← Bk.pk.sub p) then pure false
      else do
        let h ← Bk.hash m d
        Bk.check [(Bk.pk.neg Bk.pk.gen, s), (p, h)] : Option Bool) = some v ∧
      (v = true ↔ a ∈ P.SA ∧ b ∈ P.SB ∧ P.e a (P.H m d) = P.e P.g b) := by
  obtain ⟨g, hg⟩ := hB.sg
  obtain ⟨v1, e1, i1⟩ := hg.sub hs
  obtain ⟨v2, e2, i2⟩ := hB.pk.sub hp'
  obtain ⟨x, h5, h6⟩ := hB.hash m d
  rw [e1]
  simp only [bind, Option.bind_some]
  cases v1 with
  | false => exact ⟨false, rfl, by simp at i1; simp [i1]⟩
  | true =>
    rw [e2]
    simp only [Bool.not_true, Bool.false_eq_true, if_false, Option.bind_some]
    cases v2 with
    | false => exact ⟨false, rfl, by simp at i2; simp [i2]⟩
    | true =>
      have ia : a ∈ P.SA := i2.mp rfl
      have ib : b ∈ P.SB := i1.mp rfl
      simp only [Bool.not_true, Bool.false_eq_true, if_false]
      rw [h5, Option.bind_some]
      obtain ⟨v, e3, i3⟩ := hB.check (l := [(Bk.pk.neg Bk.pk.gen, s), (p, x)]) (l' := [(-P.g, b), (a, P.H m d)])
        (.cons ⟨⟨hB.pk.neg hB.pk.gen, hB.ok.negA hB.ok.g_mem⟩, hs, ib⟩ (.cons ⟨⟨hp', ia⟩, h6, hB.ok.H_mem m d⟩ .nil))
      refine ⟨v, e3, i3.trans ?_⟩
      simp only [List.map_cons, List.map_nil, List.sum_cons, List.sum_nil, add_zero]
      rw [hB.ok.e_negL hB.ok.g_mem ib]
      constructor
      · intro h; exact ⟨ia, ib, (neg_add_eq_zero.mp h).symm⟩
      · rintro ⟨_, _, h⟩; exact neg_add_eq_zero.mpr h.symm

include hB in
theorem verify_iff (pk m sig d : List Byte) : ∃ v, coreVerify Bk pk m sig d = some v ∧
    (v = true ↔ ∃ a b, EA.is a pk ∧ EB.is b sig ∧ a ∈ P.SA ∧ b ∈ P.SB ∧ P.e a (P.H m d) = P.e P.g b) := by
  obtain ⟨g, hg⟩ := hB.sg
  unfold coreVerify
  rcases hB.pk.deser_iff pk with ⟨x, a, h1, h2, h3, h4⟩ | ⟨⟨e, h1⟩, h2⟩
  · rcases hg.deser_iff sig with ⟨y, b, k1, k2, k3, k4⟩ | ⟨⟨e, k1⟩, k2⟩
    · rw [h1, k1]
      obtain ⟨v, e1, i1⟩ := verify_core hB x y a b h2 k2 m d
      refine ⟨v, e1, i1.trans ⟨fun h => ⟨a, b, h3, k3, h⟩, ?_⟩⟩
      rintro ⟨a', b', h5, k5, h6⟩
      rw [h4 a' h5, k4 b' k5] at h6
      exact h6
    · rw [h1, k1]
      exact ⟨false, rfl, by simp only [Bool.false_eq_true, false_iff]; rintro ⟨a', b', _, k5, _⟩; exact k2 b' k5⟩
  · rw [h1]
    refine ⟨false, by cases Bk.sg.deser sig <;> rfl, ?_⟩
    simp only [Bool.false_eq_true, false_iff]
    rintro ⟨a', b', h5, _⟩
    exact h2 a' h5

theorem sumPoints_ok {sd : Side C X} {den : X → A → Prop} {Sg : Set A} {g : A} {E : Enc A} (h : SideOk K sd den Sg g E) :
    ∀ {ps : List (List Byte)} {as : List A} {x : X} {a : A}, List.Forall₂ (fun p a => E.is a p) ps as → den x a →
      ∃ y, sumPoints sd x ps = .ok y ∧ den y (a + as.sum) := by
  intro ps
  induction ps with
  | nil =>
    intro as x a hf hx
    cases hf
    exact ⟨x, rfl, by simpa using hx⟩
  | cons p ps ih =>
    intro as x a hf hx
    cases hf with
    | cons h1 h2 =>
      rename_i a1 as1
      obtain ⟨q, h3, h4⟩ := h.decode h1
      obtain ⟨y, h5, h6⟩ := ih h2 (h.add hx h4)
      refine ⟨y, ?_, by rw [List.sum_cons, ← add_assoc]; exact h6⟩
      rw [sumPoints, h3]
      exact h5

theorem sumPoints_err {sd : Side C X} {den : X → A → Prop} {Sg : Set A} {g : A} {E : Enc A} (h : SideOk K sd den Sg g E) :
    ∀ {ps : List (List Byte)} (x : X), (∃ p ∈ ps, ∀ a, ¬ E.is a p) → ∃ e, sumPoints sd x ps = .error e := by
  intro ps
  induction ps with
  | nil => rintro x ⟨p, hp, _⟩; cases hp
  | cons p ps ih =>
    rintro x ⟨q, hq, hn⟩
    rw [sumPoints]
    rcases h.deser_iff p with ⟨y, a, h1, h2, h3, h4⟩ | ⟨⟨e, h1⟩, h2⟩
    · rw [h1]
      rcases List.mem_cons.mp hq with e | e
      · subst e; exact absurd h3 (hn a)
      · exact ih _ ⟨q, e, hn⟩
    · rw [h1]; exact ⟨e, rfl⟩

theorem sum_mem {Sg : Set A} (h0 : (0 : A) ∈ Sg) (ha : ∀ {a b}, a ∈ Sg → b ∈ Sg → a + b ∈ Sg) : ∀ {as : List A}, (∀ a ∈ as, a ∈ Sg) → as.sum ∈ Sg := by
  intro as
  induction as with
  | nil => intro _; simpa using h0
  | cons a as ih =>
    intro h
    rw [List.sum_cons]
    exact ha (h a (List.mem_cons_self ..)) (ih fun b hb => h b (List.mem_cons_of_mem _ hb))

include hB in
/-- the loop of `core_aggregate_verify` -/
theorem pairsLoop_ok (d : List Byte) : ∀ {pks msgs : List (List Byte)}, pks.length = msgs.length →
    (∃ l as, pairsLoop Bk d pks msgs = some (some l) ∧ List.Forall₂ (fun k a => EA.is a k ∧ a ∈ P.SA) pks as ∧
      List.Forall₂ (fun x a => (dv x.1 a.1 ∧ a.1 ∈ P.SA) ∧ ds x.2 a.2 ∧ a.2 ∈ P.SB) l (List.zip as (msgs.map fun m => P.H m d))) ∨
    pairsLoop Bk d pks msgs = some none ∧ ∀ as, ¬ List.Forall₂ (fun k a => EA.is a k ∧ a ∈ P.SA) pks as := by
  intro pks
  induction pks with
  | nil => intro msgs _; exact Or.inl ⟨[], [], rfl, .nil, .nil⟩
  | cons k ks ih =>
    intro msgs hl
    cases msgs with
    | nil => simp at hl
    | cons m ms =>
      have hl' : ks.length = ms.length := by simpa using hl
      simp only [pairsLoop]
      rcases hB.pk.deser_iff k with ⟨x, a, h1, h2, h3, h4⟩ | ⟨⟨e, h1⟩, h2⟩
      · rw [h1]
        obtain ⟨v2, e2, i2⟩ := hB.pk.sub h2
        obtain ⟨y, h5, h6⟩ := hB.hash m d
        dsimp only
        rw [e2]
        simp only [bind, Option.bind_some]
        cases v2 with
        | false =>
          refine Or.inr ⟨rfl, fun as hf => ?_⟩
          cases hf with
          | cons hh _ =>
            rw [h4 _ hh.1] at hh
            simp [hh.2] at i2
        | true =>
          simp only [Bool.not_true, Bool.false_eq_true, if_false]
          rw [h5, Option.bind_some]
          rcases ih hl' with ⟨l, as, q1, q2, q3⟩ | ⟨q1, q2⟩
          · rw [q1]
            exact Or.inl ⟨(x, y) :: l, a :: as, rfl, .cons ⟨h3, i2.mp rfl⟩ q2, .cons ⟨⟨h2, i2.mp rfl⟩, h6, hB.ok.H_mem m d⟩ q3⟩
          · rw [q1]
            refine Or.inr ⟨rfl, fun as hf => ?_⟩
            cases hf with
            | cons _ h7 => exact q2 _ h7
      · rw [h1]
        refine Or.inr ⟨rfl, fun as hf => ?_⟩
        cases hf with
        | cons hh _ => exact h2 _ hh.1

/-- encodings determine lists of elements -/
theorem encs_inj {sd : Side C X} {den : X → A → Prop} {Sg : Set A} {g : A} {E : Enc A} (h : SideOk K sd den Sg g E) :
    ∀ {ps : List (List Byte)} {as as' : List A}, List.Forall₂ (fun k a => E.is a k ∧ a ∈ Sg) ps as → List.Forall₂ (fun k a => E.is a k ∧ a ∈ Sg) ps as' → as = as' := by
  intro ps
  induction ps with
  | nil => intro as as' h1 h2; cases h1; cases h2; rfl
  | cons p ps ih =>
    intro as as' h1 h2
    cases h1 with
    | cons a1 a2 =>
      cases h2 with
      | cons b1 b2 => rw [h.enc_inj a1.1 b1.1, ih a2 b2]

include hB in
theorem aggVerify_iff (pks msgs : List (List Byte)) (sig d : List Byte) : ∃ v, coreAggregateVerify Bk pks msgs sig d = some v ∧
    (v = true ↔ pks ≠ [] ∧ pks.length = msgs.length ∧ ∃ as b, List.Forall₂ (fun k a => EA.is a k ∧ a ∈ P.SA) pks as ∧ EB.is b sig ∧ b ∈ P.SB ∧
      (List.zipWith (fun a m => P.e a (P.H m d)) as msgs).sum = P.e P.g b) := by
  obtain ⟨g, hg⟩ := hB.sg
  unfold coreAggregateVerify
  by_cases hc : pks.length = 0 ∨ pks.length ≠ msgs.length
  · rw [if_pos hc]
    refine ⟨false, rfl, ?_⟩
    simp only [Bool.false_eq_true, false_iff]
    rintro ⟨h1, h2, _⟩
    rcases hc with hc | hc
    · exact h1 (List.length_eq_zero_iff.mp hc)
    · exact hc h2
  · rw [if_neg hc]
    have hl : pks.length = msgs.length := by omega
    have hne : pks ≠ [] := by rintro rfl; simp at hc
    rcases hg.deser_iff sig with ⟨y, b, k1, k2, k3, k4⟩ | ⟨⟨e, k1⟩, k2⟩
    · rw [k1]
      obtain ⟨v1, e1, i1⟩ := hg.sub k2
      dsimp only
      rw [e1]
      simp only [bind, Option.bind_some]
      cases v1 with
      | false =>
        refine ⟨false, rfl, ?_⟩
        simp only [Bool.false_eq_true, false_iff]
        rintro ⟨_, _, as, b', _, k5, k6, _⟩
        rw [k4 b' k5] at k6
        simp [k6] at i1
      | true =>
        have ib : b ∈ P.SB := i1.mp rfl
        simp only [Bool.not_true, Bool.false_eq_true, if_false]
        rcases pairsLoop_ok hB d hl with ⟨l, as, q1, q2, q3⟩ | ⟨q1, q2⟩
        · rw [q1, Option.bind_some]
          obtain ⟨v, e3, i3⟩ := hB.check (l := (Bk.pk.neg Bk.pk.gen, y) :: l) (l' := (-P.g, b) :: List.zip as (msgs.map fun m => P.H m d))
            (.cons ⟨⟨hB.pk.neg hB.pk.gen, hB.ok.negA hB.ok.g_mem⟩, k2, ib⟩ q3)
          refine ⟨v, e3, i3.trans ?_⟩
          rw [List.map_cons, List.sum_cons, hB.ok.e_negL hB.ok.g_mem ib]
          have ez : (List.map (fun a : A × B => P.e a.1 a.2) (List.zip as (msgs.map fun m => P.H m d))).sum =
              (List.zipWith (fun a m => P.e a (P.H m d)) as msgs).sum := by
            congr 1
            rw [List.zip, List.map_zipWith, List.zipWith_map_right]
          rw [ez]
          constructor
          · intro hh
            exact ⟨hne, hl, as, b, q2, k3, ib, (neg_add_eq_zero.mp hh).symm⟩
          · rintro ⟨_, _, as', b', q4, k5, _, hh⟩
            rw [encs_inj hB.pk q4 q2, k4 b' k5] at hh
            exact neg_add_eq_zero.mpr hh.symm
        · rw [q1, Option.bind_some]
          refine ⟨false, rfl, ?_⟩
          simp only [Bool.false_eq_true, false_iff]
          rintro ⟨_, _, as', b', q4, _⟩
          exact q2 _ q4
    · rw [k1]
      refine ⟨false, rfl, ?_⟩
      simp only [Bool.false_eq_true, false_iff]
      rintro ⟨_, _, as', b', _, k5, _⟩
      exact k2 _ k5

theorem repeats_iff (msgs : List (List Byte)) : repeats msgs = true ↔ ¬ msgs.Nodup := by
  unfold repeats
  rw [List.nodup_iff_injective_get]
  simp only [List.any_eq_true, List.mem_range, Bool.and_eq_true, bne_iff_ne, ne_eq, beq_iff_eq, Function.Injective, not_forall]
  constructor
  · rintro ⟨i, hi, j, hj, hne, e⟩
    rw [List.getD_eq_getElem _ _ hi, List.getD_eq_getElem _ _ hj] at e
    exact ⟨⟨i, hi⟩, ⟨j, hj⟩, e, fun h => hne (Fin.mk.inj h)⟩
  · rintro ⟨⟨i, hi⟩, ⟨j, hj⟩, e, hne⟩
    refine ⟨i, hi, j, hj, fun h => hne (Fin.ext h), ?_⟩
    rw [List.getD_eq_getElem _ _ hi, List.getD_eq_getElem _ _ hj]
    exact e

theorem augment_some : ∀ {pks msgs : List (List Byte)}, msgs.length ≤ pks.length → Aug.augment pks msgs = some (List.zipWith (· ++ ·) pks msgs) := by
  intro pks
  induction pks with
  | nil => intro msgs h; cases msgs with
    | nil => rfl
    | cons m ms => simp at h
  | cons k ks ih => intro msgs h; cases msgs with
    | nil => rfl
    | cons m ms => rw [Aug.augment, ih (by simpa using h)]; rfl

theorem augment_none : ∀ {pks msgs : List (List Byte)}, pks.length < msgs.length → Aug.augment pks msgs = none := by
  intro pks
  induction pks with
  | nil => intro msgs h; cases msgs with
    | nil => simp at h
    | cons m ms => rfl
  | cons k ks ih => intro msgs h; cases msgs with
    | nil => simp at h
    | cons m ms => rw [Aug.augment, ih (by simpa using h)]; rfl

include hB in
/-- pairing of a list of keys against messages, and of the generator against the sum of the signatures -/
theorem pair_sum (d : List Byte) : ∀ (ns : List Nat) (msgs : List (List Byte)),
    (List.zipWith (fun a m => P.e a (P.H m d)) (ns.map (· • P.g)) msgs).sum = P.e P.g (List.zipWith (fun n m => n • P.H m d) ns msgs).sum ∧
    (List.zipWith (fun n m => n • P.H m d) ns msgs).sum ∈ P.SB := by
  intro ns
  induction ns with
  | nil => intro msgs; simp [hB.ok.e_zeroR hB.ok.g_mem, hB.ok.zeroB]
  | cons n ns ih =>
    intro msgs
    cases msgs with
    | nil => simp [hB.ok.e_zeroR hB.ok.g_mem, hB.ok.zeroB]
    | cons m ms =>
      obtain ⟨h1, h2⟩ := ih ms
      have h3 := hB.ok.H_mem m d
      have h4 := hB.ok.nsmulB h3 n
      simp only [List.map_cons, List.zipWith_cons_cons, List.sum_cons]
      exact ⟨by rw [h1, hB.ok.e_addR hB.ok.g_mem h4 h2, hB.ok.e_nsmulL hB.ok.g_mem h3, hB.ok.e_nsmulR hB.ok.g_mem h3], hB.ok.addB h4 h2⟩

end Verif.Bls
