import Verif.Spec.Mpin
/- `hashit` and `ECP::mapit` -/
namespace Verif.Mpin
open Spec (Byte beBytes beNat ShaLen)
open Verif.Big Verif.Fp Verif.Rom Verif.Curve Verif.Tower Verif.Ecp Verif.Ecp2 Verif.Pair Verif.Ecdh Verif.Props WeierstrassCurve
open Verif.Sha2 (P256 P384 P512)

variable {C : Nat}

theorem hashBranch_eq {w : Nat} {P : Sha2.Params w} {V : Spec.Sha2.Variant w} (A : Sha2.Agrees P V) (n : Nat) (id : List Byte) :
    hashBranch P n id = Spec.Sha2.digest V ((if n > 0 then beBytes 4 n else []) ++ id) := by
  have h2 : Sha2.Inv P V (if n > 0 then beBytes 4 n else []) (if n > 0 then Sha2.processNum P (Sha2.new P) (BitVec.ofNat 32 n) else Sha2.new P) := by
    by_cases hn : n > 0
    · rw [if_pos hn, if_pos hn]
      have := (Sha2.step_refines A _ _ (Sha2.new_inv A) (.num (BitVec.ofNat 32 n))).1
      have e : beBytes 4 (BitVec.ofNat 32 n).toNat = beBytes 4 n := by
        rw [BitVec.toNat_ofNat, show 2 ^ 32 = 256 ^ 4 by norm_num, Spec.beBytes_mod]
      simpa only [Spec.Sha2.specStep, Sha2.step, e, List.nil_append] using this
    · rw [if_neg hn, if_neg hn]; exact Sha2.new_inv A
  exact (Sha2.hash_eq A _ _ (Sha2.processArray_inv A _ id _ h2)).1

theorem branch_eq {sha : Nat} (hs : ShaLen sha) (n : Nat) (id : List Byte) :
    (if sha = 32 then hashBranch P256 n id else if sha = 48 then hashBranch P384 n id else hashBranch P512 n id) =
      Spec.sha sha ((if n > 0 then beBytes 4 n else []) ++ id) := by
  rcases hs with rfl | rfl | rfl
  · exact hashBranch_eq Sha2.agrees256 n id
  · exact hashBranch_eq Sha2.agrees384 n id
  · exact hashBranch_eq Sha2.agrees512 n id

theorem hashBytes_length {sha : Nat} (hs : ShaLen sha) (mb n : Nat) (id : List Byte) : (hashBytes mb sha n id).length = mb := by
  have hl := sha_length hs ((if n > 0 then beBytes 4 n else []) ++ id)
  unfold hashBytes
  dsimp only
  split
  · rw [List.length_take, hl]; omega
  · rw [List.length_append, List.length_replicate, hl]; omega

theorem hashit_eq {sha : Nat} (hs : ShaLen sha) (mb n : Nat) (id w : List Byte) (hw : mb ≤ w.length) :
    Mpin.hashit mb sha n id w = some (true, hashBytes mb sha n id ++ w.drop mb) := by
  have hl := sha_length hs ((if n > 0 then beBytes 4 n else []) ++ id)
  have h64 := sha_le hs
  unfold Mpin.hashit
  rw [if_pos (show sha = 32 ∨ sha = 48 ∨ sha = 64 from hs), branch_eq hs]
  unfold hashBytes
  generalize Spec.sha sha ((if n > 0 then beBytes 4 n else []) ++ id) = d at *
  dsimp only
  by_cases c : sha > mb
  · rw [if_pos c, if_pos c, List.take_append_of_le_length (by omega), Ecdh.write_eq _ _ _ (by simp; omega)]
    have : (d.take mb).length = mb := by rw [List.length_take]; omega
    simp [this]
  · rw [if_neg c, if_neg c, List.take_append_of_le_length (by omega), List.take_of_length_le (by omega), Ecdh.write_eq _ _ _ (by omega)]
    simp only [Option.bind_eq_bind, Option.bind_some]
    rw [Ecdh.write_eq _ _ _ (by simp; omega)]
    simp only [List.length_replicate, Nat.zero_add, List.take_zero, List.nil_append, Option.bind_some, Option.pure_def, Option.some.injEq, Prod.mk.injEq, true_and]
    rw [show mb - sha + d.length = mb by omega, List.append_assoc (List.take _ _), List.drop_left' (by rw [List.length_take]; omega), List.append_assoc]

/-- an unknown hash length is reported and the buffer is left alone -/
theorem hashit_unknown {sha : Nat} (hs : ¬ ShaLen sha) (mb n : Nat) (id w : List Byte) : Mpin.hashit mb sha n id w = some (false, w) := by
  unfold Mpin.hashit
  rw [if_neg (show ¬ (sha = 32 ∨ sha = 48 ∨ sha = 64) from hs)]
  rfl

/-- a buffer which is too short makes it panic -/
theorem hashit_short {sha : Nat} (hs : ShaLen sha) (mb n : Nat) (id w : List Byte) (hw : w.length < mb) : Mpin.hashit mb sha n id w = none := by
  have hl := sha_length hs ((if n > 0 then beBytes 4 n else []) ++ id)
  have h64 := sha_le hs
  have h32 := sha_ge hs
  unfold Mpin.hashit
  rw [if_pos (show sha = 32 ∨ sha = 48 ∨ sha = 64 from hs), branch_eq hs]
  generalize Spec.sha sha ((if n > 0 then beBytes 4 n else []) ++ id) = d at *
  dsimp only
  have ne : ∀ l : List Byte, 0 < l.length → l ≠ [] := fun l h e => by rw [e] at h; simp at h
  by_cases c : sha > mb
  · rw [if_pos c, List.take_append_of_le_length (by omega), Ecdh.write_panic _ _ _ (ne _ (by simp; omega)) (by simp; omega)]
    rfl
  · rw [if_neg c, List.take_append_of_le_length (by omega), List.take_of_length_le (by omega), Ecdh.write_panic _ _ _ (ne _ (by omega)) (by omega)]
    rfl

variable {K : Rom C} [hp : Fact K.p.Prime]

/-! ### `mapit` -/

theorem p_rep (h : DhCurve K) : Rep K.P.b K.P.n K.P.md (K.p : Int) := ⟨h.consts.mdlen, h.consts.mddig.normal, h.consts.mdval⟩

theorem rmod_p (h : DhCurve K) {x : Limbs C} {X : Nat} (hx : Rep K.P.b K.P.n x (X : Int)) (hX : 2 * (X : Int) < 2 ^ (K.P.b * K.P.n)) :
    ∃ r, rmod K.P.b (fuel K) x K.P.md = some r ∧ Rep K.P.b K.P.n r ((X % K.p : Nat) : Int) := by
  obtain ⟨n1, n2⟩ := rep_norm h hx (by positivity) hX
  have hR : (0 : Int) < K.p := by have := hp.out.pos; omega
  obtain ⟨r, e1, e2⟩ := rmod_spec h.consts.ok h.consts.hn (fuel K) n1 (p_rep h) (by positivity) n2 hR (fuel_cap h.consts.ok h.consts.hn (fuel_ge K) n2 hR)
  exact ⟨r, e1, by rwa [Int.natCast_mod]⟩

theorem p_lt' (h : DhCurve K) : (K.p : Int) < 2 ^ (K.P.b * K.P.n) := by
  have h1 := h.consts.upper
  have h2 := h.consts.shtop
  have : 2 ^ K.P.modbits ≤ 2 ^ (K.P.b * K.P.n) := Nat.pow_le_pow_right (by norm_num) (by omega)
  have h3 : K.p < 2 ^ (K.P.b * K.P.n) := by omega
  exact_mod_cast h3

theorem inc_rep (h : DhCurve K) {x : Limbs C} {v : Nat} (hx : Rep K.P.b K.P.n x (v : Int)) (hv : v < K.p) : Rep K.P.b K.P.n (Big.norm K.P.b (inc K.P.b x 1)) ((v + 1 : Nat) : Int) := by
  have := (norm_inc_rep h.consts.ok (by have := h.consts.hn; omega) hx (by positivity) (lt_trans (by exact_mod_cast hv) (p_lt' h)) 1 (by norm_num)).1
  exact_mod_cast this

theorem mapsTo_succ {f v : Nat} {T : (Ecp.curve K).Point} : MapsTo K (f + 1) v T ↔ Cand K v T ∨ ((∀ U, ¬ Cand K v U) ∧ MapsTo K f (v + 1) T) := by
  constructor
  · rintro ⟨j, hj, hc, hn⟩
    cases j with
    | zero => exact Or.inl hc
    | succ j =>
      refine Or.inr ⟨fun U => hn 0 (by omega) U, j, by omega, by rw [show v + 1 + j = v + (j + 1) by omega]; exact hc, fun i hi U => ?_⟩
      rw [show v + 1 + i = v + (i + 1) by omega]
      exact hn (i + 1) (by omega) U
  · rintro (hc | ⟨h0, j, hj, hc, hn⟩)
    · exact ⟨0, by omega, hc, fun i hi => absurd hi (by omega)⟩
    · refine ⟨j + 1, by omega, by rw [show v + (j + 1) = v + 1 + j by omega]; exact hc, fun i hi U => ?_⟩
      cases i with
      | zero => exact h0 U
      | succ i => rw [show v + (i + 1) = v + 1 + i by omega]; exact hn i (by omega) U

theorem mapLoop_ok (h : MpinG1 K) : ∀ (f v : Nat) (x : Limbs C), Rep K.P.b K.P.n x (v : Int) → v + f ≤ K.p →
    (∀ T, MapsTo K f v T → ∃ s, mapLoop K f x = some s ∧ IsPoint K s T) ∧ ((∀ T, ¬ MapsTo K f v T) → mapLoop K f x = none) := by
  intro f
  induction f with
  | zero => exact fun v x _ _ => ⟨fun T ⟨j, hj, _⟩ => absurd hj (by omega), fun _ => rfl⟩
  | succ f ih =>
    intro v x hx hv
    have hi := ih (v + 1) _ (inc_rep h.dh hx (by omega)) (by omega)
    obtain ⟨T0, hP, hchar⟩ := newBigint_ok h.dh.curve h.dh.mont h.dh.sqrt hx (by omega) 0 (by norm_num)
    have hm : ¬ K.ctype = .montgomery := by rw [h.form]; simp
    have hcand : ∀ U, Cand K v U ↔ cofN K • T0 ≠ 0 ∧ U = cofN K • T0 := by
      intro U
      constructor
      · rintro ⟨hU, y, hh, hy, rfl⟩
        have := (hchar _ y hh).2 ⟨rfl, hy⟩
        rw [← this] at hU ⊢
        exact ⟨hU, rfl⟩
      · rintro ⟨hU, rfl⟩
        refine ⟨hU, ?_⟩
        cases hT : T0 with
        | zero => rw [hT] at hU; exact absurd (nsmul_zero _) hU
        | some x0 y0 hh0 =>
          obtain ⟨rfl, hy⟩ := (hchar x0 y0 hh0).1 hT
          exact ⟨y0, hh0, hy, rfl⟩
    rw [mapLoop]
    simp only [if_neg hm]
    have skip : cofN K • T0 = 0 → (∀ T, MapsTo K (f + 1) v T ↔ MapsTo K f (v + 1) T) := by
      intro h0 T
      rw [mapsTo_succ]
      constructor
      · rintro (c | ⟨_, c⟩)
        · exact absurd h0 ((hcand T).1 c).1
        · exact c
      · exact fun c => Or.inr ⟨fun U hU => ((hcand U).1 hU).1 h0, c⟩
    by_cases c1 : isInfinity K (newBigint K x 0) = true
    · rw [if_pos c1]
      have h0 := (isInfinity_ok h.dh.curve hP).1 c1
      have sk := skip (by rw [h0, nsmul_zero])
      exact ⟨fun T hT => hi.1 T ((sk T).1 hT), fun hn => hi.2 fun T hT => hn T ((sk T).2 hT)⟩
    · rw [if_neg c1]
      obtain ⟨Q, e, hQ⟩ := C49_cfp h.dh.curve h.cons h.cof h.cofRep hP
      rw [e]
      simp only [Option.bind_some]
      by_cases c2 : isInfinity K Q = true
      · rw [if_pos c2]
        have sk := skip ((isInfinity_ok h.dh.curve hQ).1 c2)
        exact ⟨fun T hT => hi.1 T ((sk T).1 hT), fun hn => hi.2 fun T hT => hn T ((sk T).2 hT)⟩
      · rw [if_neg c2]
        have hne : cofN K • T0 ≠ 0 := fun e => c2 ((isInfinity_ok h.dh.curve hQ).2 e)
        constructor
        · intro T hT
          refine ⟨Q, rfl, ?_⟩
          rcases mapsTo_succ.1 hT with c | ⟨c, _⟩
          · rw [((hcand T).1 c).2]; exact hQ
          · exact absurd ((hcand _).2 ⟨hne, rfl⟩) (c _)
        · exact fun hn => absurd (mapsTo_succ.2 (Or.inl ((hcand _).2 ⟨hne, rfl⟩))) (hn _)

theorem mapsTo_prop (h : MpinG1 K) {f v : Nat} {T : (Ecp.curve K).Point} (hT : MapsTo K f v T) : T ≠ 0 ∧ ordN K • T = 0 := by
  obtain ⟨j, _, ⟨h0, y, hh, _, rfl⟩, _⟩ := hT
  exact ⟨h0, h.sub _⟩

theorem mapit_ok (h : MpinG1 K) (f : Nat) (w : List Byte) (hf : num K w % K.p + f ≤ K.p) :
    (∀ T, MapsTo K f (num K w % K.p) T → ∃ s, mapit K f w = some s ∧ IsPoint K s T) ∧ ((∀ T, ¬ MapsTo K f (num K w % K.p) T) → mapit K f w = none) := by
  obtain ⟨r, e, hr⟩ := rmod_p h.dh (fromBytes_ok h.dh w) (bytes_lt h.dh (num_lt K w))
  unfold mapit
  rw [e]
  exact mapLoop_ok h f _ r hr hf

theorem hashPoint_ok (h : MpinG1 K) {f sha n : Nat} (hs : ShaLen sha) {id : List Byte} {T : (Ecp.curve K).Point} (hT : HashesTo K f sha n id T) :
    ∃ s, hashPoint K f sha n id = some (hashBytes K.modbytes sha n id, s) ∧ IsPoint K s T := by
  have hl := hashBytes_length hs K.modbytes n id
  have e : num K (hashBytes K.modbytes sha n id) = beNat (hashBytes K.modbytes sha n id) := by
    unfold num; rw [List.take_of_length_le (by omega)]
  obtain ⟨hf, hm⟩ := hT
  rw [← e] at hf hm
  obtain ⟨s, h1, h2⟩ := (mapit_ok h f _ hf).1 T hm
  refine ⟨s, ?_, h2⟩
  unfold hashPoint
  rw [hashit_eq hs _ _ _ _ (by simp)]
  simp only [List.drop_replicate, Nat.sub_self, List.replicate_zero, List.append_nil, Option.bind_eq_bind, Option.bind_some]
  rw [h1]
  rfl

end Verif.Mpin
