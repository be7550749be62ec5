import Verif.Ecp2.Cert
import Verif.Bls.G2Dec
import Verif.Props.Bls
/-
C58: points of the twist (`ecp2.rs`).  C44, second half: encodings of G2 points.
-/
namespace Verif.Props
open Verif.Big Verif.Fp Verif.Rom Verif.Curve Verif.Tower Verif.Ecp2 Verif.Bls Verif.H2c Spec WeierstrassCurve
set_option linter.unusedSectionVars false

section
variable {C : Nat} {K : PairRom C} [hp : Fact K.rom.p.Prime] [h4 : Fact (K.rom.p % 4 = 3)]

/-! ### C58 -/

/-- C58. `add` computes the sum of every pair of points of the twist, equal, opposite and infinite ones included. -/
theorem C58_add (h : TCurve K) {e f : Nat} {s q : Pt2 C} {S T : (curve2 K).Point} (hs : IsPoint2 K e s S) (hq : IsPoint2 K f q T) (he : e ≤ 16384) (hf : f ≤ 16384) :
    IsPoint2 K 22 (Ecp2.add K s q) (S + T) := Ecp2.add_ok h hs hq he hf

/-- C58. `dbl` doubles every point. -/
theorem C58_dbl (h : TCurve K) {e : Nat} {s : Pt2 C} {T : (curve2 K).Point} (hs : IsPoint2 K e s T) (he : e ≤ 16384) : IsPoint2 K 6 (Ecp2.dbl K s) (T + T) :=
  Ecp2.dbl_ok h hs he

/-- C58. `neg` negates every point. -/
theorem C58_neg (h : TCurve K) {e : Nat} {s : Pt2 C} {T : (curve2 K).Point} (hs : IsPoint2 K e s T) (he : 1 ≤ e) : IsPoint2 K (9 * e) (Ecp2.neg K s) (-T) :=
  Ecp2.neg_ok h hs he

/-- C58. `sub` subtracts. -/
theorem C58_sub (h : TCurve K) {e f : Nat} {s q : Pt2 C} {S T : (curve2 K).Point} (hs : IsPoint2 K e s S) (hq : IsPoint2 K f q T) (he : e ≤ 16384) (h1 : 1 ≤ f) (hf : f ≤ 1820) :
    IsPoint2 K 22 (Ecp2.sub K s q) (S - T) := by
  rw [sub_eq_add_neg]
  exact Ecp2.add_ok h hs (Ecp2.neg_ok h hq h1) he (by omega)

/-- C58. `new` and `inf` give the neutral element. -/
theorem C58_zero (h : TCurve K) : IsPoint2 K 2 (Ecp2.new K) 0 ∧ IsPoint2 K 2 (Ecp2.inf K) 0 := ⟨Ecp2.new_ok h.tower, Ecp2.inf_ok h.tower⟩

/-- C58. `is_infinity` recognises the neutral element and `equals` decides equality of points, whatever the projective representatives. -/
theorem C58_equals (h : TCurve K) {e f : Nat} {s q : Pt2 C} {S T : (curve2 K).Point} (hs : IsPoint2 K e s S) (hq : IsPoint2 K f q T) (he : e ≤ 16384) (hf : f ≤ 16384) :
    (Ecp2.isInfinity K s = true ↔ S = 0) ∧ (Ecp2.equals K s q = true ↔ S = T) := ⟨Ecp2.isInfinity_ok h.tower hs, Ecp2.equals_ok h.tower hs hq he hf⟩

/-- C58. `affine` does not change the point, and leaves a finite point with coordinates `(x : y : 1)`. -/
theorem C58_affine (h : TCurve K) {e : Nat} {s : Pt2 C} {T : (curve2 K).Point} (hs : IsPoint2 K e s T) (he : 2 ≤ e) :
    IsPoint2 K e (Ecp2.affine K s) T ∧ ∀ x y hh, T = Affine.Point.some x y hh → coords2 K (Ecp2.affine K s) = ⟨x, y, 1⟩ :=
  ⟨(Ecp2.affine_ok h.tower hs he).1, fun _ _ _ c => Ecp2.affine_coords h.tower (c ▸ hs) he⟩

/-- C58. An `ECP2` value represents at most one point. -/
theorem C58_unique {e f : Nat} {s : Pt2 C} {S T : (curve2 K).Point} (hs : IsPoint2 K e s S) (ht : IsPoint2 K f s T) : S = T := by
  rcases hs.2.zero_or with ⟨rfl, h1, h2, h3⟩ | ⟨x, y, hh, rfl, h1, h2, h3⟩
  · rcases ht.2.zero_or with ⟨rfl, k1, k2, k3⟩ | ⟨x', y', hh', rfl, k1, k2, k3⟩
    · rfl
    · exact absurd h3 k1
  · rcases ht.2.zero_or with ⟨rfl, k1, k2, k3⟩ | ⟨x', y', hh', rfl, k1, k2, k3⟩
    · exact absurd k3 h1
    · have ex : x = x' := mul_right_cancel₀ h1 (h2.symm.trans k2)
      have ey : y = y' := mul_right_cancel₀ h1 (h3.symm.trans k3)
      subst ex ey
      rfl

/-- C58. `mul` multiplies every point by every scalar that leaves four bits of the top limb free. -/
theorem C58_mul (h : TCurve K) {s : Pt2 C} {T : (curve2 K).Point} (hs : IsPoint2 K 1820 s T) {e : Limbs C} {E : Nat} (he : Rep K.rom.P.b K.rom.P.n e E)
    (hE : E + 2 < 2 ^ (K.rom.P.b * K.rom.P.n - 4)) : ∃ r, Ecp2.mul K s e = some r ∧ IsPoint2 K 1820 r (E • T) := by
  obtain ⟨r, h1, h2⟩ := Ecp2.mul_ok h hs (e := e) (E := E) ⟨he, hE⟩
  exact ⟨r, h1, by rw [← natCast_zsmul]; exact h2⟩

/-- C58. `new_fp2s` accepts exactly the solutions of the equation of the twist; other pairs give the point at infinity. -/
theorem C58_new_fp2s (h : TCurve K) {e : Nat} {x y : Fp2 C} {v w : F2 K.rom.p} (hx : Std2 K.rom.P K.rom.p e x v) (hy : Std2 K.rom.P K.rom.p e y w) (h2 : 2 ≤ e) (he : e ≤ 131071) :
    (w ^ 2 = v ^ 3 + Btw K → ∃ hh, IsPoint2 K e (newFp2s K x y) (Affine.Point.some v w hh)) ∧ (w ^ 2 ≠ v ^ 3 + Btw K → IsPoint2 K e (newFp2s K x y) 0) :=
  newFp2s_ok h (std2_iff.1 hx) le_rfl (std2_iff.1 hy) h2 he

/-- C58. `new_fp2` gives a point with the abscissa asked for, if there is one; except that it misses the ordinates that are non-zero multiples of `i`. -/
theorem C58_new_fp2 (h : TCurve K) {e : Nat} {x : Fp2 C} {v : F2 K.rom.p} (hx : Std2 K.rom.P K.rom.p e x v) (h2 : 2 ≤ e) (he : e ≤ 131071) :
    (∃ w hh, IsPoint2 K e (newFp2 K x) (Affine.Point.some v w hh) ∧ w.re ≠ 0) ∨
    (IsPoint2 K e (newFp2 K x) 0 ∧ ∀ w : F2 K.rom.p, w ^ 2 = v ^ 3 + Btw K → w.re = 0) := by
  obtain ⟨p1, p2⟩ := newFp2_ok h (std2_iff.1 hx) le_rfl h2 he
  have h0 : v ^ 3 + Btw K ≠ 0 := by
    have := h.noTwo v
    intro hc; exact this (by linear_combination hc)
  by_cases hd : Detected (v ^ 3 + Btw K)
  · obtain ⟨w, hh, a, _⟩ := p1 hd
    exact Or.inl ⟨w, hh, a, root_re hd (by rw [← pow_two]; exact eqn_of hh) h0⟩
  · exact Or.inr ⟨p2 hd, fun w hw => undetected hd (by rw [← pow_two]; exact hw)⟩

/-! ### C44, G2 -/

/-- C44. Serialising a G2 point gives its encoding; in compressed form, if the imaginary part of the ordinate is not zero. -/
theorem C44_g2_serialize (h : G2Curve K) {e : Nat} {s : Pt2 C} {T : (curve2 K).Point} (hs : IsPoint2 K e s T) (he : 2 ≤ e) (hf : Faithful2 K s) :
    (Generic T → serializeG2 K s = enc2C T) ∧ serializeUncompressedG2 K s = enc2U T := by
  refine ⟨fun hg => serialize2_ok h hs he hf ?_, serializeU2_ok h hs he hf⟩
  rintro x y hh rfl
  exact hg.2

/-- C44. The uncompressed encoding of every G2 point, and the compressed encoding of every point whose ordinate has non-zero real and imaginary parts, decode to that point. -/
theorem C44_g2_decode (h : G2Curve K) (T : (curve2 K).Point) :
    (Generic T → ∃ s, deserializeG2 K (enc2C T) = .ok s ∧ IsPoint2 K 18 s T ∧ Faithful2 K s) ∧
      ∃ s, deserializeG2 K (enc2U T) = .ok s ∧ IsPoint2 K 18 s T ∧ Faithful2 K s := by
  have hlen := h.bls.size
  have hsz : ∀ A B : (curve2 K).Point, enc2C A ≠ enc2U B := by
    intro A B e
    have := congrArg List.length e
    rw [enc2C_length, enc2U_length] at this
    omega
  have nz : ∀ x y hh, (Affine.Point.some x y hh : (curve2 K).Point) ≠ 0 := fun x y hh c => by cases c
  constructor
  · intro hg
    rcases deser2_ok h (enc2C T) with ⟨s, T', h1, h2, h3, h4, _⟩ | ⟨s, T', h1, h2, h3, x, y, hh, rfl, him⟩ | ⟨_, h2⟩
    · have := (h4 T).mp (Or.inl rfl)
      subst this
      exact ⟨s, h1, h2, h3⟩
    · exfalso
      have key : ∀ (x' y' : F2 K.rom.p) (hh' : (curve2 K).Nonsingular x' y'), y'.im = 0 → enc2C T ≠ enc2C (Affine.Point.some x' y' hh') := by
        intro x' y' hh' him' e
        obtain ⟨m, hm⟩ : ∃ m, 2 * K.rom.modbytes = m + 1 := ⟨2 * K.rom.modbytes - 1, by omega⟩
        obtain ⟨b, t, hbt⟩ : ∃ b t, enc2C T = b :: t := by
          cases hc : enc2C T with
          | nil =>
            have := congrArg List.length hc
            rw [enc2C_length, List.length_nil] at this
            omega
          | cons b t => exact ⟨b, t, rfl⟩
        have hl : (b :: t).length = 2 * K.rom.modbytes := by rw [← hbt, enc2C_length]
        have hl' : t.length = m := by rw [List.length_cons] at hl; omega
        obtain ⟨m', hm'⟩ : ∃ m, K.rom.modbytes = m + 1 := ⟨K.rom.modbytes - 1, by omega⟩
        have f2 := (encF_iff h hm' b t hl x' (larger2 y')).mp (hbt.symm.trans e)
        cases T with
        | zero =>
          have f1 := (encC2_zero hm b t hl').mp hbt.symm
          omega
        | some x0 y0 hh0 =>
          have f1 := (encF_iff h hm' b t hl x0 (larger2 y0)).mp hbt.symm
          have ex : x0 = x' := by
            ext
            · exact ZMod.val_injective _ (f1.2.2.2.symm.trans f2.2.2.2)
            · exact ZMod.val_injective _ (f1.2.2.1.symm.trans f2.2.2.1)
          subst ex
          have e2 : y0 ^ 2 = y' ^ 2 := by rw [eqn_of hh0, eqn_of hh']
          rcases sq_eq_sq_iff_eq_or_eq_neg.mp e2 with e | e
          · exact hg.2 (by rw [e, him'])
          · exact hg.2 (by rw [e, QuadraticAlgebra.im_neg, him', neg_zero])
      rcases h3 with e | e
      · exact key x y hh him e
      · obtain ⟨hh', e'⟩ := neg_point2 hh
        rw [e'] at e
        exact key x (-y) hh' (by rw [QuadraticAlgebra.im_neg, him, neg_zero]) e
    · exfalso
      obtain ⟨_, x, y, hh, rfl, hre⟩ := h2 T (Or.inl rfl)
      exact hg.1 hre
  · rcases deser2_ok h (enc2U T) with ⟨s, T', h1, h2, h3, h4, _⟩ | ⟨s, T', h1, h2, h3, _⟩ | ⟨_, h2⟩
    · have := (h4 T).mp (Or.inr rfl)
      subst this
      exact ⟨s, h1, h2, h3⟩
    · rcases h3 with e | e
      · exact absurd e.symm (hsz _ _)
      · exact absurd e.symm (hsz _ _)
    · exact absurd (h2 T (Or.inr rfl)).1.symm (hsz _ _)

/-- C44. `deserialize_g2(serialize_g2(P)) = P` for every point whose ordinate has non-zero real and imaginary parts, and for every point in uncompressed form. -/
theorem C44_g2_roundtrip (h : G2Curve K) {e : Nat} {s : Pt2 C} {T : (curve2 K).Point} (hs : IsPoint2 K e s T) (he : 2 ≤ e) (hf : Faithful2 K s) :
    (Generic T → ∃ s', deserializeG2 K (serializeG2 K s) = .ok s' ∧ IsPoint2 K 18 s' T) ∧
      ∃ s', deserializeG2 K (serializeUncompressedG2 K s) = .ok s' ∧ IsPoint2 K 18 s' T := by
  obtain ⟨e1, e2⟩ := C44_g2_serialize h hs he hf
  obtain ⟨d1, s2, a2, b2, _⟩ := C44_g2_decode h T
  constructor
  · intro hg
    obtain ⟨s1, a1, b1, _⟩ := d1 hg
    rw [e1 hg]
    exact ⟨s1, a1, b1⟩
  · rw [e2]
    exact ⟨s2, a2, b2⟩

/-- C44. Every accepted string is the compressed or uncompressed encoding of the point returned, which re-serialises to it; the exception is a compressed string whose abscissa has real
ordinates, where the point returned may be the opposite one. -/
theorem C44_g2_accept (h : G2Curve K) (bs : List Byte) (s : Pt2 C) (hs : deserializeG2 K bs = .ok s) :
    ∃ T, IsPoint2 K 18 s T ∧ ((bs = enc2C T ∧ serializeG2 K s = bs) ∨ (bs = enc2U T ∧ serializeUncompressedG2 K s = bs) ∨
      ((bs = enc2C T ∨ bs = enc2C (-T)) ∧ ∃ x y hh, T = Affine.Point.some x y hh ∧ y.im = 0)) := by
  rcases deser2_ok h bs with ⟨s', T, h1, h2, h3, h4, hg⟩ | ⟨s', T, h1, h2, h3, h5⟩ | ⟨h2, _⟩
  · rw [hs] at h1
    injection h1 with h1
    subst h1
    obtain ⟨e1, e2⟩ := C44_g2_serialize h h2 (by norm_num) h3
    refine ⟨T, h2, ?_⟩
    rcases (h4 T).mpr rfl with e | e
    · exact Or.inl ⟨e, by rw [e1 (hg e), e]⟩
    · exact Or.inr (Or.inl ⟨e, by rw [e2, e]⟩)
  · rw [hs] at h1
    injection h1 with h1
    subst h1
    exact ⟨T, h2, Or.inr (Or.inr ⟨h3, h5⟩)⟩
  · rw [hs] at h2; cases h2

/-- C44. Every string that encodes no point is refused, with the error code of its length and flags. -/
theorem C44_g2_reject (h : G2Curve K) (bs : List Byte) (hb : ∀ T : (curve2 K).Point, bs ≠ enc2C T ∧ bs ≠ enc2U T) :
    deserializeG2 K bs = .error (match verdict (2 * K.rom.modbytes) bs with | .size => .invalidG2Size | .yflag => .invalidYFlag | .point => .invalidPoint) := by
  rcases deser2_ok h bs with ⟨s', T, h1, h2, h3, h4, _⟩ | ⟨s', T, h1, h2, h3, _⟩ | ⟨h2, _⟩
  · rcases (h4 T).mpr rfl with e | e
    · exact absurd e (hb T).1
    · exact absurd e (hb T).2
  · rcases h3 with e | e
    · exact absurd e (hb T).1
    · exact absurd e (hb (-T)).1
  · rw [h2]
    cases verdict (2 * K.rom.modbytes) bs <;> rfl

/-- C44. Defect: the compressed encoding of a point whose ordinate is a multiple of `i` is refused. -/
theorem C44_g2_imaginary (h : G2Curve K) {x y : F2 K.rom.p} (hh : (curve2 K).Nonsingular x y) (hre : y.re = 0) :
    ∃ err, deserializeG2 K (enc2C (Affine.Point.some x y hh : (curve2 K).Point)) = .error err := by
  have hlen := h.bls.size
  have hy : y ≠ 0 := Curve.y_ne h.twist.noTwo hh.1
  rcases deser2_ok h (enc2C (Affine.Point.some x y hh : (curve2 K).Point)) with ⟨s, T', h1, h2, h3, h4, hg⟩ | ⟨s, T', h1, h2, h3, x', y', hh', rfl, him⟩ | ⟨h2, _⟩
  · have := (h4 _).mp (Or.inl rfl)
    subst this
    exact absurd hre (hg rfl).1
  · exfalso
    have key : ∀ (x' y' : F2 K.rom.p) (hh' : (curve2 K).Nonsingular x' y'), y'.im = 0 → enc2C (Affine.Point.some x y hh : (curve2 K).Point) ≠ enc2C (Affine.Point.some x' y' hh') := by
      intro x' y' hh' him' e
      obtain ⟨m', hm'⟩ : ∃ m, K.rom.modbytes = m + 1 := ⟨K.rom.modbytes - 1, by omega⟩
      obtain ⟨b, t, hbt⟩ : ∃ b t, enc2C (Affine.Point.some x y hh : (curve2 K).Point) = b :: t := by
        cases hc : enc2C (Affine.Point.some x y hh : (curve2 K).Point) with
        | nil =>
          have := congrArg List.length hc
          rw [enc2C_length, List.length_nil] at this
          omega
        | cons b t => exact ⟨b, t, rfl⟩
      have hl : (b :: t).length = 2 * K.rom.modbytes := by rw [← hbt, enc2C_length]
      have f2 := (encF_iff h hm' b t hl x' (larger2 y')).mp (hbt.symm.trans e)
      have f1 := (encF_iff h hm' b t hl x (larger2 y)).mp hbt.symm
      have ex : x = x' := by
        ext
        · exact ZMod.val_injective _ (f1.2.2.2.symm.trans f2.2.2.2)
        · exact ZMod.val_injective _ (f1.2.2.1.symm.trans f2.2.2.1)
      subst ex
      have e2 : y ^ 2 = y' ^ 2 := by rw [eqn_of hh, eqn_of hh']
      apply hy
      rcases sq_eq_sq_iff_eq_or_eq_neg.mp e2 with e | e
      · ext
        · exact hre
        · rw [e, him']; rfl
      · ext
        · exact hre
        · rw [e, QuadraticAlgebra.im_neg, him', neg_zero]; rfl
    rcases h3 with e | e
    · exact key x' y' hh' him e
    · obtain ⟨hn, e'⟩ := neg_point2 hh'
      rw [e'] at e
      exact key x' (-y') hn (by rw [QuadraticAlgebra.im_neg, him, neg_zero]) e
  · exact ⟨_, h2⟩

/-- C44. No string encodes two points. -/
theorem C44_g2_injective (h : G2Curve K) {T T' : (curve2 K).Point} (e : enc2C T = enc2C T' ∨ enc2U T = enc2U T') : T = T' := by
  have hlen := h.bls.size
  rcases e with e | e
  · obtain ⟨m, hm⟩ : ∃ m, 2 * K.rom.modbytes = m + 1 := ⟨2 * K.rom.modbytes - 1, by omega⟩
    obtain ⟨m', hm'⟩ : ∃ m, K.rom.modbytes = m + 1 := ⟨K.rom.modbytes - 1, by omega⟩
    obtain ⟨b, t, hbt⟩ : ∃ b t, enc2C T = b :: t := by
      cases hc : enc2C T with
      | nil =>
        have := congrArg List.length hc
        rw [enc2C_length, List.length_nil] at this
        omega
      | cons b t => exact ⟨b, t, rfl⟩
    have hl : (b :: t).length = 2 * K.rom.modbytes := by rw [← hbt, enc2C_length]
    have hl' : t.length = m := by rw [List.length_cons] at hl; omega
    have e' := hbt.symm.trans e
    cases T with
    | zero =>
      have f1 := (encC2_zero hm b t hl').mp hbt.symm
      cases T' with
      | zero => rfl
      | some x' y' hh' =>
        have f2 := (encF_iff h hm' b t hl x' (larger2 y')).mp e'
        omega
    | some x y hh =>
      have f1 := (encF_iff h hm' b t hl x (larger2 y)).mp hbt.symm
      cases T' with
      | zero =>
        have f2 := (encC2_zero hm b t hl').mp e'
        omega
      | some x' y' hh' =>
        have f2 := (encF_iff h hm' b t hl x' (larger2 y')).mp e'
        have ex : x = x' := by
          ext
          · exact ZMod.val_injective _ (f1.2.2.2.symm.trans f2.2.2.2)
          · exact ZMod.val_injective _ (f1.2.2.1.symm.trans f2.2.2.1)
        subst ex
        have e2 : y ^ 2 = y' ^ 2 := by rw [eqn_of hh, eqn_of hh']
        rcases sq_eq_sq_iff_eq_or_eq_neg.mp e2 with e | e
        · subst e; rfl
        · exfalso
          have hy : y' ≠ 0 := Curve.y_ne h.twist.noTwo hh'.1
          have := larger2_neg (odd_of_prime h.bls.dh.consts) hy
          rw [← e] at this
          exact iff_not_self (f2.2.1.symm.trans (f1.2.1.trans this))
  · rcases deser2_ok h (enc2U T) with ⟨s', T0, h1, h2, h3, h4, _⟩ | ⟨s', T0, h1, h2, h3, _⟩ | ⟨h1, h2⟩
    · rw [(h4 T).mp (Or.inr rfl), (h4 T').mp (Or.inr e)]
    · exfalso
      have : (enc2U T).length = 2 * K.rom.modbytes := by rcases h3 with e | e <;> rw [e, enc2C_length]
      rw [enc2U_length] at this
      omega
    · have := congrArg List.length (h2 T (Or.inr rfl)).1
      rw [enc2U_length, enc2C_length] at this
      omega

theorem faithful2_of {e : Nat} {s : Pt2 C} {x y : F2 K.rom.p} {hh} (g : IsPoint2 K e s (Affine.Point.some x y hh)) (a1 : x.re ≠ 0) (a2 : x.im ≠ 0) (a3 : y.re ≠ 0) (a4 : y.im ≠ 0) :
    Faithful2 K s := by
  rintro ⟨z1, z2⟩
  have hz : (coords2 K s).z = 1 := by
    ext
    · exact z1
    · exact z2
  obtain ⟨_, hx, hy⟩ := g.2
  rw [hz, mul_one] at hx hy
  have c : ∀ {a : Fp C} {w : ZMod K.rom.p}, residue K.rom.P K.rom.p a = w → w ≠ 0 → Clean K.rom.P K.rom.p a := fun e h0 hr => absurd (e.symm.trans hr) h0
  exact ⟨c (congrArg QuadraticAlgebra.re hx) a1, c (congrArg QuadraticAlgebra.im hx) a2, c (congrArg QuadraticAlgebra.re hy) a3, c (congrArg QuadraticAlgebra.im hy) a4⟩
end

/-! ### The bundled curves -/

/-- C58. The hypotheses hold for every bundled curve with embedding degree 12, 64-bit … -/
theorem C58_rom64 (r : PairRom 64) (hr : r ∈ pairs64) [hp : Fact r.rom.p.Prime] [Fact (r.rom.p % 4 = 3)] : TCurve r := by
  have e : ∀ r ∈ pairs64, twistCheck r = true := by
    intro r hr
    simp only [pairs64, List.mem_cons, List.not_mem_nil, or_false] at hr
    rcases hr with rfl | rfl | rfl | rfl | rfl | rfl | rfl <;> decide +kernel
  have c := C51_rom64 r hr
  exact twist_sound r c.tower c.prime (e r hr)

/-- … and 32-bit, provided the limbs leave 19 bits above the modulus (all but BLS461). -/
theorem C58_rom32 (r : PairRom 32) (hr : r ∈ pairs32) (hh : 2 ^ 19 * r.rom.p ≤ 2 ^ (r.rom.P.b * r.rom.P.n)) [hp : Fact r.rom.p.Prime] [Fact (r.rom.p % 4 = 3)] : TCurve r := by
  have e : ∀ r ∈ pairs32, twistCheck r = true := by
    intro r hr
    simp only [pairs32, List.mem_cons, List.not_mem_nil, or_false] at hr
    rcases hr with rfl | rfl | rfl | rfl | rfl | rfl <;> decide +kernel
  have c := C51_rom32 r hr hh
  exact twist_sound r c.tower c.prime (e r hr)

/-- C58. `ECP2::generator` is a finite point of the twist, on every bundled curve, 64-bit … -/
theorem C58_generator64 (r : PairRom 64) (hr : r ∈ pairs64) [hp : Fact r.rom.p.Prime] [Fact (r.rom.p % 4 = 3)] :
    ∃ hh, IsPoint2 r 2 (Ecp2.generator r) (Affine.Point.some ⟨(r.rom.val r.pxa : ZMod r.rom.p), (r.rom.val r.pxb : ZMod r.rom.p)⟩ ⟨(r.rom.val r.pya : ZMod r.rom.p), (r.rom.val r.pyb : ZMod r.rom.p)⟩ hh) := by
  have e : ∀ r ∈ pairs64, genCheck r = true := by
    intro r hr
    simp only [pairs64, List.mem_cons, List.not_mem_nil, or_false] at hr
    rcases hr with rfl | rfl | rfl | rfl | rfl | rfl | rfl <;> decide +kernel
  exact gen_sound r (C58_rom64 r hr) (e r hr)

/-- … and 32-bit. -/
theorem C58_generator32 (r : PairRom 32) (hr : r ∈ pairs32) (hh : 2 ^ 19 * r.rom.p ≤ 2 ^ (r.rom.P.b * r.rom.P.n)) [hp : Fact r.rom.p.Prime] [Fact (r.rom.p % 4 = 3)] :
    ∃ hh, IsPoint2 r 2 (Ecp2.generator r) (Affine.Point.some ⟨(r.rom.val r.pxa : ZMod r.rom.p), (r.rom.val r.pxb : ZMod r.rom.p)⟩ ⟨(r.rom.val r.pya : ZMod r.rom.p), (r.rom.val r.pyb : ZMod r.rom.p)⟩ hh) := by
  have e : ∀ r ∈ pairs32, genCheck r = true := by
    intro r hr
    simp only [pairs32, List.mem_cons, List.not_mem_nil, or_false] at hr
    rcases hr with rfl | rfl | rfl | rfl | rfl | rfl <;> decide +kernel
  exact gen_sound r (C58_rom32 r hr hh) (e r hr)

instance bls381_prime2 : Fact bls381_64p.rom.p.Prime := bls381_fact
instance bls381_prime2_32 : Fact bls381_32p.rom.p.Prime := bls381_fact32
instance bls381_mod4 : Fact (bls381_64p.rom.p % 4 = 3) := ⟨by decide +kernel⟩
instance bls381_mod4_32 : Fact (bls381_32p.rom.p % 4 = 3) := ⟨by decide +kernel⟩

/-- the hypotheses of C44 hold on BLS12-381 -/
theorem bls381_g2 : G2Curve bls381_64p := ⟨bls381_bls, C58_rom64 _ (by simp [pairs64])⟩
theorem bls381_g2_32 : G2Curve bls381_32p := ⟨bls381_bls32, C58_rom32 _ (by simp [pairs32]) (by decide +kernel)⟩

/-- the hypotheses of C44 and C58 are met: the generator of G2 is serialised to bytes that decode to it -/
theorem bls381_g2_generator : ∃ T, IsPoint2 bls381_64p 2 (Ecp2.generator bls381_64p) T ∧ Generic T ∧ Faithful2 bls381_64p (Ecp2.generator bls381_64p) := by
  obtain ⟨hh, g⟩ := C58_generator64 bls381_64p (by simp [pairs64])
  have nz : ∀ n : Int, 0 < n → n < bls381_64p.rom.p → (n : ZMod bls381_64p.rom.p) ≠ 0 := by
    intro n h0 h1 e
    rw [ZMod.intCast_zmod_eq_zero_iff_dvd] at e
    exact absurd (Int.le_of_dvd h0 e) (by omega)
  have a1 := nz (bls381_64p.rom.val bls381_64p.pxa) (by decide +kernel) (by decide +kernel)
  have a2 := nz (bls381_64p.rom.val bls381_64p.pxb) (by decide +kernel) (by decide +kernel)
  have a3 := nz (bls381_64p.rom.val bls381_64p.pya) (by decide +kernel) (by decide +kernel)
  have a4 := nz (bls381_64p.rom.val bls381_64p.pyb) (by decide +kernel) (by decide +kernel)
  exact ⟨_, g, ⟨a3, a4⟩, faithful2_of g a1 a2 a3 a4⟩

example : ∃ s T, deserializeG2 bls381_64p (serializeG2 bls381_64p (Ecp2.generator bls381_64p)) = .ok s ∧ IsPoint2 bls381_64p 18 s T ∧ T ≠ 0 := by
  obtain ⟨T, h1, h2, h3⟩ := bls381_g2_generator
  obtain ⟨s, a, b⟩ := (C44_g2_roundtrip bls381_g2 h1 le_rfl h3).1 h2
  refine ⟨s, T, a, b, ?_⟩
  have := (C58_equals bls381_g2.twist h1 h1 (by norm_num) (by norm_num)).1
  intro e
  have c := this.mpr e
  exact absurd c (by decide +kernel)

/-- C44. Defect: there are points of the twist whose compressed encoding is refused. -/
theorem C44_g2_imaginary_bls381 : ∃ T : (curve2 bls381_64p).Point, T ≠ 0 ∧ ∃ err, deserializeG2 bls381_64p (enc2C T) = .error err := by
  obtain ⟨hh, hp⟩ := point_sound bls381_64p bls381_g2.twist (xa := [0x25CB394B16C8A79#64, 0x38A7B94EE87F5FF#64, 0x28516E31553366A#64, 0x74505886E0A462#64, 0x14F7D1737991B65#64, 0x24F367D72A41707#64, 0x100FCA6A4#64]) (xb := [0x2D762206D086CED#64, 0x146743367BBCE6A#64, 0x123C7FA2518EAB1#64, 0xB751C9BE63A40A#64, 0x5C0943B14474F6#64, 0x1FE3A3592393DE4#64, 0xC2B2B848#64])
    (ya := [0x0#64, 0x0#64, 0x0#64, 0x0#64, 0x0#64, 0x0#64, 0x0#64]) (yb := [0x1#64, 0x0#64, 0x0#64, 0x0#64, 0x0#64, 0x0#64, 0x0#64])
    (by decide +kernel) (by decide +kernel) (by decide +kernel) (by decide +kernel) (by decide +kernel)
  exact ⟨_, (Ecp.some_ne_zero' hh).symm, C44_g2_imaginary bls381_g2 hh (by rw [castN2]; exact Nat.cast_zero)⟩

/-- C44. Defect: two different points with the same compressed serialisation. -/
theorem C44_g2_sign_lost : ∃ (s q : Pt2 64) (S T : (curve2 bls381_64p).Point), IsPoint2 bls381_64p 2 s S ∧ IsPoint2 bls381_64p 2 q T ∧
    S ≠ T ∧ serializeG2 bls381_64p s = serializeG2 bls381_64p q := by
  obtain ⟨h1, p1⟩ := point_sound bls381_64p bls381_g2.twist (xa := [0x3A24C6B4E932032#64, 0x3758417667809EE#64, 0x2A4F887FA0F0B7F#64, 0x19F7DBBC41CF860#64, 0xF3CE959FCB5BE6#64, 0x10C3292022D2E6#64, 0x9F1477FF#64])
    (xb := [0x2D762206D086CED#64, 0x146743367BBCE6A#64, 0x123C7FA2518EAB1#64, 0xB751C9BE63A40A#64, 0x5C0943B14474F6#64, 0x1FE3A3592393DE4#64, 0xC2B2B848#64])
    (ya := [0x3#64, 0x0#64, 0x0#64, 0x0#64, 0x0#64, 0x0#64, 0x0#64]) (yb := [0x0#64, 0x0#64, 0x0#64, 0x0#64, 0x0#64, 0x0#64, 0x0#64])
    (by decide +kernel) (by decide +kernel) (by decide +kernel) (by decide +kernel) (by decide +kernel)
  obtain ⟨h2, p2⟩ := point_sound bls381_64p bls381_g2.twist (xa := [0x3A24C6B4E932032#64, 0x3758417667809EE#64, 0x2A4F887FA0F0B7F#64, 0x19F7DBBC41CF860#64, 0xF3CE959FCB5BE6#64, 0x10C3292022D2E6#64, 0x9F1477FF#64])
    (xb := [0x2D762206D086CED#64, 0x146743367BBCE6A#64, 0x123C7FA2518EAB1#64, 0xB751C9BE63A40A#64, 0x5C0943B14474F6#64, 0x1FE3A3592393DE4#64, 0xC2B2B848#64])
    (ya := [0x1FEFFFFFFFFAAA8#64, 0x2FFFFAC54FFFFEE#64, 0x12A0F6B0F6241EA#64, 0x213CE144AFD9CC3#64, 0x2434BACD764774B#64, 0x25FF9A692C6E9ED#64, 0x1A0111EA3#64]) (yb := [0x0#64, 0x0#64, 0x0#64, 0x0#64, 0x0#64, 0x0#64, 0x0#64])
    (by decide +kernel) (by decide +kernel) (by decide +kernel) (by decide +kernel) (by decide +kernel)
  refine ⟨_, _, _, _, p1, p2, fun e => ?_, by decide +kernel⟩
  have := (C58_equals bls381_g2.twist p1 p2 (by norm_num) (by norm_num)).2.mpr e
  exact absurd this (by decide +kernel)

end Verif.Props
