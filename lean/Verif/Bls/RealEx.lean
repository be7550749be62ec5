import Verif.Bls.RealSides
import Mathlib.Data.ZMod.Basic
/- The assumptions about the pairing test can be met. -/
namespace Verif.Bls
open Classical in
/-- discrete logarithms modulo `r` -/
noncomputable def dlog {A : Type} [AddCommGroup A] (r : Nat) (g a : A) : ZMod r := if h : ∃ k : Int, a = k • g then (h.choose : ZMod r) else 0

theorem dlog_smul {A : Type} [AddCommGroup A] {r : Nat} [hr : Fact r.Prime] {g : A} (hg : g ≠ 0) (h0 : r • g = 0) (k : Int) : dlog r g (k • g) = (k : ZMod r) := by
  have h : ∃ j : Int, k • g = j • g := ⟨k, rfl⟩
  unfold dlog
  rw [dif_pos h]
  have e := h.choose_spec
  have ho : addOrderOf g = r := addOrderOf_eq_prime h0 hg
  have : (h.choose - k) • g = 0 := by rw [sub_smul, ← e, sub_self]
  have hd : ((addOrderOf g : Nat) : Int) ∣ h.choose - k := addOrderOf_dvd_iff_zsmul_eq_zero.2 this
  rw [ho] at hd
  have h2 := (ZMod.intCast_zmod_eq_zero_iff_dvd _ _).2 hd
  rw [Int.cast_sub] at h2
  exact sub_eq_zero.1 h2

variable {A B V S : Type} [AddCommGroup A] [AddCommGroup B]

/-- on two groups of the same prime order there is a bilinear pairing without kernel, and a test for it -/
theorem pairOk_exists {r : Nat} [hr : Fact r.Prime] {SA : AddSubgroup A} {SB : AddSubgroup B} {dv : V → A → Prop} {ds : S → B → Prop}
    (fv : ∀ {x a a'}, dv x a → dv x a' → a = a') (fs : ∀ {x a a'}, ds x a → ds x a' → a = a') {g : A} {h : B} (hg : g ≠ 0) (h0 : r • g = 0) (hh : h ≠ 0) (hh0 : r • h = 0)
    (cA : ∀ a ∈ SA, ∃ k : Int, a = k • g) (cB : ∀ b ∈ SB, ∃ k : Int, b = k • h) :
    ∃ (e : A → B → ZMod r) (check : List (V × S) → Option Bool), PairOk SA SB dv ds e check ∧ ∀ b ∈ SB, e g b = 0 → b = 0 := by
  classical
  let e : A → B → ZMod r := fun a b => dlog r g a * dlog r h b
  refine ⟨e, fun l => some (decide (∃ l' : List (A × B), List.Forall₂ (fun x a => ((dv x.1 a.1 ∧ a.1 ∈ SA) ∧ ds x.2 a.2 ∧ a.2 ∈ SB) ∧ (a.1 ≠ 0 ∨ a.2 ≠ 0)) l l' ∧ (l'.map fun a => e a.1 a.2).sum = 0)), ⟨?_, ?_, ?_⟩, ?_⟩
  · intro a a' b ha ha' hb
    obtain ⟨k, rfl⟩ := cA a ha
    obtain ⟨k', rfl⟩ := cA a' ha'
    simp only [e]
    rw [← add_smul, dlog_smul hg h0, dlog_smul hg h0, dlog_smul hg h0, Int.cast_add, add_mul]
  · intro a b b' ha hb hb'
    obtain ⟨k, rfl⟩ := cB b hb
    obtain ⟨k', rfl⟩ := cB b' hb'
    simp only [e]
    rw [← add_smul, dlog_smul hh hh0, dlog_smul hh hh0, dlog_smul hh hh0, Int.cast_add, mul_add]
  · intro l l' hl
    refine ⟨_, rfl, ?_⟩
    rw [decide_eq_true_iff]
    constructor
    · rintro ⟨m, hm, hs⟩
      have : m = l' := by
        clear hs
        induction hm generalizing l' with
        | nil => cases hl; rfl
        | cons h1 h2 ih =>
          cases hl with
          | cons h3 h4 =>
            rw [ih h4]
            congr 1
            exact Prod.ext (fv h1.1.1.1 h3.1.1.1) (fs h1.1.2.1 h3.1.2.1)
      rw [← this]; exact hs
    · intro hs; exact ⟨l', hl, hs⟩
  · intro b hb he
    obtain ⟨k, rfl⟩ := cB b hb
    have e1 : dlog r g g = 1 := by
      have := dlog_smul hg h0 1
      rwa [one_smul, Int.cast_one] at this
    have e2 : e g (k • h) = (k : ZMod r) := by simp only [e]; rw [e1, one_mul, dlog_smul hh hh0]
    rw [e2, ZMod.intCast_zmod_eq_zero_iff_dvd] at he
    obtain ⟨c, rfl⟩ := he
    rw [mul_comm, mul_smul, natCast_zsmul, hh0, smul_zero]
end Verif.Bls

namespace Verif.Curve
theorem Denotes.inj {F : Type} [Field F] {W : WeierstrassCurve.Affine F} {P : Proj F} {S T : W.Point} (h : Denotes P S) (h' : Denotes P T) : S = T := by
  cases S with
  | zero =>
    cases T with
    | zero => rfl
    | some x y hh => exact absurd h.2.2 h'.1
  | some x y hh =>
    cases T with
    | zero => exact absurd h'.2.2 h.1
    | some x' y' hh' =>
      have e1 : x = x' := mul_right_cancel₀ h.1 (h.2.1.symm.trans h'.2.1)
      have e2 : y = y' := mul_right_cancel₀ h.1 (h.2.2.symm.trans h'.2.2)
      subst e1 e2
      rfl
end Verif.Curve
