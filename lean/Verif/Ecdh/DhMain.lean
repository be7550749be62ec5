import Verif.Ecdh.Dh
import Verif.Nhs.Noise
import Mathlib.Tactic.LinearCombination
/- Helper lemmas: Diffie-Hellman and ECDSA, the main arguments. -/
namespace Verif.Ecdh
open Verif.Nhs (draw_add)
open Verif.Big Verif.Fp Verif.Rom Verif.Curve Verif.Ecp Spec WeierstrassCurve

variable {C : Nat} {K : Rom C} [hp : Fact K.p.Prime]

/-! ### decoding a public key -/

theorem point_eq {S T : (Ecp.curve K).Point} (e : ∀ x y hh, S = Affine.Point.some x y hh ↔ T = Affine.Point.some x y hh) : S = T := by
  cases S with
  | zero =>
    cases T with
    | zero => rfl
    | some x y hh => exact (e x y hh).2 rfl
  | some x y hh => exact ((e x y hh).1 rfl).symm

theorem frombytes_ok (h : DhCurve K) {w : List Byte} {T : (Ecp.curve K).Point} (hw : Decodes K w T) : ∃ r, Ecp.frombytes K w = some r ∧ IsPoint K r T := by
  obtain ⟨r, T', h1, h2, h3⟩ := frombytes_gen h.curve h.bytes w hw.long hw.longU fun _ _ s hx hX hs2 _ => newBigint_ok h.curve h.mont h.sqrt hx hX s hs2
  have : T' = T := point_eq fun x y hh => (h3 x y hh).trans (hw.point x y hh).symm
  exact ⟨r, h1, this ▸ h2⟩

/-- every string long enough for its tag is read as some point -/
theorem decodes_exists (h : DhCurve K) {w : List Byte} (hl : K.modbytes + 1 ≤ w.length) (hl4 : w.headD 0 = 0x04#8 → 2 * K.modbytes + 1 ≤ w.length) : ∃ T, Decodes K w T := by
  obtain ⟨r, T', h1, h2, h3⟩ := frombytes_gen h.curve h.bytes w hl hl4 fun _ _ s hx hX hs2 _ => newBigint_ok h.curve h.mont h.sqrt hx hX s hs2
  exact ⟨T', hl, hl4, h3⟩

/-- the encoding of a point decodes to it -/
theorem decodes_sec1U (h : DhCurve K) (x y : ZMod K.p) (hh) (rest : List Byte) : Decodes K (sec1U K x y ++ rest) (Affine.Point.some x y hh) := by
  have hl : (sec1U K x y).length = 2 * K.modbytes + 1 := by simp [sec1U]; omega
  refine ⟨by rw [List.length_append]; omega, fun _ => by rw [List.length_append]; omega, fun x' y' hh' => ?_⟩
  have key : sec1U K x y ++ rest = 0x04#8 :: (beBytes K.modbytes x.val ++ beBytes K.modbytes y.val ++ rest) := by simp [sec1U]
  have hlen : 2 * K.modbytes ≤ (beBytes K.modbytes x.val ++ beBytes K.modbytes y.val ++ rest).length := by simp; omega
  have ex : beNat ((beBytes K.modbytes x.val ++ beBytes K.modbytes y.val ++ rest).take K.modbytes) = x.val := by
    rw [List.append_assoc, List.take_left' (beBytes_length _ _), beNat_beBytes, Nat.mod_eq_of_lt (lt_trans (ZMod.val_lt x) h.bytes.fits)]
  have ey : beNat (((beBytes K.modbytes x.val ++ beBytes K.modbytes y.val ++ rest).drop K.modbytes).take K.modbytes) = y.val := by
    rw [List.append_assoc, List.drop_left' (beBytes_length _ _), List.take_left' (beBytes_length _ _), beNat_beBytes, Nat.mod_eq_of_lt (lt_trans (ZMod.val_lt y) h.bytes.fits)]
  rw [key, sec1U_prefix h.bytes hlen, ex, ey]
  constructor
  · intro e
    injection e with e1 e2
    exact Or.inl ⟨rfl, by rw [e1], by rw [e2]⟩
  · rintro (⟨_, e1, e2⟩ | e)
    · have e1 := ZMod.val_injective _ e1
      have e2 := ZMod.val_injective _ e2
      subst e1; subst e2; rfl
    · have := sec1C_head e
      split at this <;> exact absurd this (by decide)

/-! ### Diffie-Hellman -/

theorem dh_ok (h : DhCurve K) {s wd z : List Byte} {T : (Ecp.curve K).Point} (hw : Decodes K wd T) {x y : ZMod K.p} {hh}
    (hT : (num K s % ordN K) • T = Affine.Point.some x y hh) (hx : x ≠ 0) (hz : K.modbytes ≤ z.length) :
    dh K s wd z = some (0, beBytes K.modbytes x.val ++ z.drop K.modbytes) := by
  obtain ⟨W, e1, i1⟩ := frombytes_ok h hw
  obtain ⟨sc, e2, i2⟩ := rmod_ok h (fromBytes_ok h s) (bytes_lt h (num_lt K s))
  obtain ⟨V, e3, i3⟩ := mulG h i1 i2 (mod_lt h _)
  have hT0 : T ≠ 0 := by
    rintro rfl
    rw [nsmul_zero] at hT
    exact some_ne_zero' hh hT
  have c1 : ¬ isInfinity K W = true := fun hc => hT0 ((isInfinity_ok h.curve i1).1 hc)
  have c2 : ¬ isInfinity K V = true := fun hc => by
    have := (isInfinity_ok h.curve i3).1 hc
    rw [hT] at this; exact some_ne_zero' hh this.symm
  rw [hT] at i3
  unfold dh
  simp only [Option.bind_eq_bind, Option.bind_some, e1, e2, e3, if_neg c1, if_neg c2, bigInto_ok h (getx_ok h i3 hx) (p_lt h x) z hz, Option.pure_def]

theorem dh_reject (h : DhCurve K) {s wd : List Byte} (z : List Byte) {T : (Ecp.curve K).Point} (hw : Decodes K wd T)
    (hT : T = 0 ∨ (num K s % ordN K) • T = 0) : dh K s wd z = some (-3, z) := by
  obtain ⟨W, e1, i1⟩ := frombytes_ok h hw
  obtain ⟨sc, e2, i2⟩ := rmod_ok h (fromBytes_ok h s) (bytes_lt h (num_lt K s))
  obtain ⟨V, e3, i3⟩ := mulG h i1 i2 (mod_lt h _)
  unfold dh
  simp only [Option.bind_eq_bind, Option.bind_some, e1, e2, e3]
  by_cases c : T = 0
  · rw [if_pos ((isInfinity_ok h.curve i1).2 c)]; rfl
  · rw [if_neg (fun hc => c ((isInfinity_ok h.curve i1).1 hc)), if_pos ((isInfinity_ok h.curve i3).2 (hT.resolve_left c))]; rfl

/-! ### random numbers -/

theorem order_norm (h : DhCurve K) : Rep K.P.b K.P.n (norm K.P.b K.order) (ordN K : Int) := (rep_norm h h.orderRep (by positivity) h.R_lt).1

theorem nbits_size (h : DhCurve K) : nbits K.P.b K.order = (ordN K).size := by
  obtain ⟨a, b, _⟩ := nbits_spec h.consts.ok K.order (order_norm h) (by positivity)
  have hR := h.R_pos
  obtain ⟨c, d⟩ := b (by omega)
  have a' : ordN K < 2 ^ nbits K.P.b K.order := by exact_mod_cast a
  have d' : 2 ^ (nbits K.P.b K.order - 1) ≤ ordN K := by exact_mod_cast d
  have h1 : (ordN K).size ≤ nbits K.P.b K.order := Nat.size_le.2 a'
  have h2 : nbits K.P.b K.order - 1 < (ordN K).size := Nat.lt_size.2 d'
  omega

theorem random_ok {σ : Type} (h : DhCurve K) (next : σ → Byte × σ) (rng : σ) :
    ∃ r, randomnum next K.P.b (fuel K) K.order rng = (some r, (draw next (drawn K) rng).2) ∧ Rep K.P.b K.P.n r ((scalar next K rng : Nat) : Int) := by
  obtain ⟨r, e, hr⟩ := randomnum_spec h.consts.ok h.consts.hn (fuel K) (fuel_ge K) h.orderRep (order_norm h) (by have := h.R_pos; omega) h.R_lt next rng
  rw [nbits_size h] at e hr
  refine ⟨r, e, ?_⟩
  unfold scalar drawn
  rw [Int.natCast_mod]
  exact hr

theorem scalar_lt {σ : Type} (h : DhCurve K) (next : σ → Byte × σ) (rng : σ) : scalar next K rng < ordN K := mod_lt h _

/-! ### abscissa of a point -/

/-- the abscissa read from a point, without exception -/
theorem getx_gen (h : DhCurve K) {s : Pt C} {x y : ZMod K.p} {hh} (hs : IsPoint K s (Affine.Point.some x y hh)) :
    ∃ X : Nat, Rep K.P.b K.P.n (getx K s) (X : Int) ∧ X ≤ K.p ∧ (X = x.val ∨ x = 0 ∧ X = K.p) := by
  by_cases hx : x = 0
  · by_cases hz : (coords K s).z = 1
    · obtain ⟨s1, s2, s3⟩ := hs.1.elems
      have hd : (coords K s).z ≠ 0 ∧ (coords K s).x = x * (coords K s).z ∧ (coords K s).y = y * (coords K s).z := hs.2
      have hi : ¬ isInfinity K s = true := fun hc => (some_ne_zero' hh) ((isInfinity_ok h.curve hs).mp hc).symm
      have he : Fp.equals K.P s.z (newInt K.P 1) = true := (elem_equals h.curve.arith s3 (elem_int1 h.curve.arith)).mpr hz
      have e : affine K s = s := by simp [affine, hi, he]
      have k := redc_mont h.mont s1.normed
      have k2 := hd.2.1
      rw [hz, mul_one] at k2
      rw [s1.res, k2] at k
      unfold getx
      rw [e]
      by_cases c : limbsVal K.P.b s.x.x ≠ 0
      · rw [if_pos ⟨hx, c⟩] at k
        exact ⟨K.p, k, le_refl _, Or.inr ⟨hx, rfl⟩⟩
      · rw [if_neg (fun hc => c hc.2)] at k
        exact ⟨x.val, k, (ZMod.val_lt x).le, Or.inl rfl⟩
    · exact ⟨x.val, (mont_redc h.curve h.mont hs (fun _ e => absurd e hz)).1, (ZMod.val_lt x).le, Or.inl rfl⟩
  · exact ⟨x.val, getx_ok h hs hx, (ZMod.val_lt x).le, Or.inl rfl⟩

/-- the abscissa modulo the order -/
theorem getx_mod (h : DhCurve K) {s : Pt C} {x y : ZMod K.p} {hh} (hs : IsPoint K s (Affine.Point.some x y hh)) :
    ∃ c X, rmod K.P.b (fuel K) (getx K s) K.order = some c ∧ Rep K.P.b K.P.n c ((X : Nat) : Int) ∧ X < ordN K ∧ Comp K x X := by
  obtain ⟨X, h1, h2, h3⟩ := getx_gen h hs
  obtain ⟨c, e1, e2⟩ := rmod_ok h h1 (bytes_lt h (lt_of_le_of_lt h2 h.bytes.fits))
  refine ⟨c, _, e1, e2, mod_lt h _, ?_⟩
  rcases h3 with rfl | ⟨a, rfl⟩
  · exact Or.inl rfl
  · exact Or.inr ⟨a, rfl⟩

/-! ### signing -/

theorem inv_sound (h : DhCurve K) {x y : Limbs C} {X : Nat} (hx : Rep K.P.b K.P.n x (X : Int)) (hX : 2 * (X : Int) < 2 ^ (K.P.b * K.P.n))
    (e : invmodp K.P.b (fuel K) x K.order = some y) : ∃ Y : Nat, Rep K.P.b K.P.n y (Y : Int) ∧ Y < ordN K ∧ X * Y % ordN K = 1 := by
  obtain ⟨n1, n2⟩ := rep_norm h hx (by positivity) hX
  have hR := h.R_pos
  have ho := h.orderOdd
  obtain ⟨Y, r1, r2, r3, r4⟩ := invmodp_sound h.consts.ok h.consts.hn (fuel K) n1 h.orderRep (by positivity) n2 (by exact_mod_cast hR) (by exact_mod_cast ho) h.R_lt.le e
  obtain ⟨Y, rfl⟩ := Int.eq_ofNat_of_zero_le r2
  exact ⟨Y, r1, by exact_mod_cast r3, by exact_mod_cast r4⟩

theorem inv_some (h : DhCurve K) {x : Limbs C} {X : Nat} (hx : Rep K.P.b K.P.n x (X : Int)) (h0 : X ≠ 0) (hX : X < ordN K) :
    ∃ y, invmodp K.P.b (fuel K) x K.order = some y := by
  obtain ⟨n1, n2⟩ := rep_norm h hx (by positivity) (lt_two h hX)
  have hR := h.R_pos
  have ho := h.orderOdd
  refine invmodp_some h.consts.ok h.consts.hn (fuel K) (fuel_ge K) n1 h.orderRep (by positivity) n2 (by exact_mod_cast hR) (by exact_mod_cast ho) h.R_lt.le ?_
  rw [Int.gcd_natCast_natCast]
  exact (Nat.coprime_of_lt_prime h0 hX h.orderPrime).symm

theorem dsaLoop_sound {σ : Type} (h : DhCurve K) (next : σ → Byte × σ) {sc fb : Limbs C} {A F : Nat} (hA : Rep K.P.b K.P.n sc (A : Int)) (hA' : A < 256 ^ K.modbytes)
    (hF : Rep K.P.b K.P.n fb (F : Int)) (hF' : F < 256 ^ K.modbytes) (passes : Nat) (rng : σ) {r : Limbs C × Limbs C × σ}
    (e : dsaLoop next K sc fb passes rng = some r) :
    ∃ i c d, i < passes ∧ Rep K.P.b K.P.n r.1 ((c : Nat) : Int) ∧ Rep K.P.b K.P.n r.2.1 ((d : Nat) : Int) ∧
      r.2.2 = (draw next (2 * (i + 1) * drawn K) rng).2 ∧ Signed h A F (scalar next K (draw next (2 * i * drawn K) rng).2) c d := by
  induction passes generalizing rng r with
  | zero => exact absurd e (by simp [dsaLoop])
  | succ f ih =>
    obtain ⟨u, e1, hu⟩ := random_ok h next rng
    obtain ⟨w, e2, hw⟩ := random_ok h next (draw next (drawn K) rng).2
    have hst : (draw next (drawn K) (draw next (drawn K) rng).2).2 = (draw next (2 * drawn K) rng).2 := by
      rw [two_mul, draw_add]
    have hnext : ∀ {r : Limbs C × Limbs C × σ}, dsaLoop next K sc fb f (draw next (2 * drawn K) rng).2 = some r →
        ∃ i c d, i < f + 1 ∧ Rep K.P.b K.P.n r.1 ((c : Nat) : Int) ∧ Rep K.P.b K.P.n r.2.1 ((d : Nat) : Int) ∧
        r.2.2 = (draw next (2 * (i + 1) * drawn K) rng).2 ∧ Signed h A F (scalar next K (draw next (2 * i * drawn K) rng).2) c d := by
      intro r e
      obtain ⟨i, c, d, hi, k1, k2, k3, k4⟩ := ih _ e
      refine ⟨i + 1, c, d, by omega, k1, k2, ?_, ?_⟩
      · rw [k3, show 2 * (i + 1 + 1) * drawn K = 2 * drawn K + 2 * (i + 1) * drawn K by ring, draw_add]
      · rwa [show 2 * (i + 1) * drawn K = 2 * drawn K + 2 * i * drawn K by ring, draw_add]
    obtain ⟨V, e3, hV⟩ := mulG h h.base hu (scalar_lt h next rng)
    change IsPoint K V (scalar next K rng • h.G) at hV
    rw [dsaLoop] at e
    simp only [e1, e2, e3, Option.bind_some, hst] at e
    obtain ⟨cb, ec, e⟩ := Option.bind_eq_some_iff.1 e
    by_cases c1 : iszilch cb = true
    · rw [if_pos c1] at e
      exact hnext e
    rw [if_neg c1] at e
    obtain ⟨tb, et, e⟩ := Option.bind_eq_some_iff.1 e
    obtain ⟨ui, ei, e⟩ := Option.bind_eq_some_iff.1 e
    obtain ⟨db, ed, e⟩ := Option.bind_eq_some_iff.1 e
    obtain ⟨db2, ed2, e⟩ := Option.bind_eq_some_iff.1 e
    obtain ⟨db3, ed3, e⟩ := Option.bind_eq_some_iff.1 e
    by_cases c2 : iszilch db3 = true
    · rw [if_pos c2] at e
      exact hnext e
    rw [if_neg c2] at e
    cases e
    generalize hU : scalar next K rng = U at *
    generalize hWW : scalar next K (draw next (drawn K) rng).2 = W at *
    have hUlt : U < ordN K := hU ▸ scalar_lt h next rng
    have hWlt : W < ordN K := hWW ▸ scalar_lt h next _
    obtain ⟨tb', et', htb⟩ := modmul_ok' h hu (lt_two h hUlt) hw (lt_two h hWlt)
    rw [et] at et'; cases et'
    obtain ⟨ui', hui, hui2, hui3⟩ := inv_sound h htb (lt_two h (mod_lt h _)) ei
    have hU0 : U ≠ 0 := by rintro rfl; simp at hui3
    have hW0 : W ≠ 0 := by rintro rfl; simp at hui3
    have hne : U • h.G ≠ 0 := smul_ne h (fun hd => hU0 (Nat.eq_zero_of_dvd_of_lt hd hUlt))
    obtain ⟨x, y, hh, hpt⟩ : ∃ x y hh, U • h.G = Affine.Point.some x y hh := by
      cases hq : U • h.G with
      | zero => exact absurd hq hne
      | some x y hh => exact ⟨x, y, hh, rfl⟩
    rw [hpt] at hV
    obtain ⟨cb', cN, ec', hcb, hcl, hcomp⟩ := getx_mod h hV
    rw [ec] at ec'; cases ec'
    have hc0 : cN ≠ 0 := by rintro rfl; exact c1 (hcb.iszilch.2 rfl)
    obtain ⟨db', ed', hdb⟩ := modmul_ok' h hA (bytes_lt h hA') hcb (lt_two h hcl)
    rw [ed] at ed'; cases ed'
    have hcg := cap_ge (n := K.P.n) h.consts.ok (by have := h.consts.hn; omega)
    have h4 : 4 * (256 : Int) ^ K.modbytes ≤ 2 ^ (K.P.b * K.P.n) := by
      have : 4 * 256 ^ K.modbytes ≤ 2 ^ (K.P.b * K.P.n) := by
        rw [show (256 : Nat) = 2 ^ 8 by norm_num, show 4 = 2 ^ 2 by norm_num, ← pow_mul, ← pow_add]
        exact Nat.pow_le_pow_right (by norm_num) (by have := h.spare; omega)
      exact_mod_cast this
    have hF'' : (F : Int) < 256 ^ K.modbytes := by exact_mod_cast hF'
    have hD : (A * cN % ordN K : Nat) < ordN K := mod_lt h _
    have hRb := h.orderBytes
    have hD'' : ((A * cN % ordN K : Nat) : Int) < 256 ^ K.modbytes := by exact_mod_cast lt_of_lt_of_le hD hRb
    have hcp := cap_pos C K.P.b K.P.n
    have hsum := norm_add_rep h.consts.ok (by have := h.consts.hn; omega) hdb hF (by omega) (by omega) (by omega) (by omega)
    obtain ⟨m1, m2⟩ := rep_norm h hw (by positivity) (lt_two h hWlt)
    rw [← Nat.cast_add] at hsum
    obtain ⟨db2', ed2', hdb2⟩ := modmul_ok h hsum (by rw [Nat.cast_add]; omega) m1 m2
    rw [ed2] at ed2'; cases ed2'
    obtain ⟨db3', ed3', hdb3⟩ := modmul_ok' h hui (lt_two h hui2) hdb2 (lt_two h (mod_lt h _))
    rw [ed3] at ed3'; cases ed3'
    refine ⟨0, cN, _, by omega, hcb, hdb3, by simp only [Nat.zero_add, mul_one], ?_⟩
    rw [Nat.mul_zero, Nat.zero_mul, draw, hU]
    refine ⟨hU0, ⟨hc0, hcl⟩, ⟨?_, mod_lt h _⟩, ⟨x, y, hh, hpt, hcomp⟩, ?_⟩
    · intro hz
      rw [hz] at hdb3
      exact c2 (hdb3.iszilch.2 rfl)
    · have : Fact (ordN K).Prime := ⟨h.orderPrime⟩
      have hi : (U : ZMod (ordN K)) * W * ui' = 1 := by
        have := congrArg (Nat.cast (R := ZMod (ordN K))) hui3
        simpa using this
      rw [← ZMod.natCast_eq_natCast_iff']
      push_cast [ZMod.natCast_mod]
      linear_combination (A * cN + F : ZMod (ordN K)) * hi

theorem dsaLoop_first {σ : Type} (h : DhCurve K) (next : σ → Byte × σ) {sc fb : Limbs C} {A F : Nat} (hA : Rep K.P.b K.P.n sc (A : Int)) (hA' : A < 256 ^ K.modbytes)
    (hF : Rep K.P.b K.P.n fb (F : Int)) (hF' : F < 256 ^ K.modbytes) (passes : Nat) (rng : σ)
    (hU0 : scalar next K rng ≠ 0) (hW0 : scalar next K (draw next (drawn K) rng).2 ≠ 0) {x y : ZMod K.p} {hh} (hpt : scalar next K rng • h.G = Affine.Point.some x y hh)
    (hx : x.val % ordN K ≠ 0) (hdd : (F + A * (x.val % ordN K)) % ordN K ≠ 0) :
    ∃ r, dsaLoop next K sc fb (passes + 1) rng = some r ∧ ∃ c d, Rep K.P.b K.P.n r.1 ((c : Nat) : Int) ∧ Rep K.P.b K.P.n r.2.1 ((d : Nat) : Int) ∧ c < ordN K ∧ d < ordN K := by
  obtain ⟨u, e1, hu⟩ := random_ok h next rng
  obtain ⟨w, e2, hw⟩ := random_ok h next (draw next (drawn K) rng).2
  obtain ⟨V, e3, hV⟩ := mulG h h.base hu (scalar_lt h next rng)
  change IsPoint K V (scalar next K rng • h.G) at hV
  have : Fact (ordN K).Prime := ⟨h.orderPrime⟩
  rw [hpt] at hV
  have hxz : x ≠ 0 := by rintro rfl; rw [ZMod.val_zero, Nat.zero_mod] at hx; exact hx rfl
  obtain ⟨cb, cN, ec, hcb, hcl, hcomp⟩ := getx_mod h hV
  have hcN : cN = x.val % ordN K := hcomp.elim id (fun k => absurd k.1 hxz)
  rw [← hcN] at hx hdd
  generalize hU : scalar next K rng = U at *
  generalize hWW : scalar next K (draw next (drawn K) rng).2 = W at *
  have hUlt : U < ordN K := hU ▸ scalar_lt h next rng
  have hWlt : W < ordN K := hWW ▸ scalar_lt h next _
  obtain ⟨tb, et, htb⟩ := modmul_ok' h hu (lt_two h hUlt) hw (lt_two h hWlt)
  have ht0 : U * W % ordN K ≠ 0 := fun hc => by
    rcases h.orderPrime.dvd_mul.1 (Nat.dvd_of_mod_eq_zero hc) with k | k
    · exact hU0 (Nat.eq_zero_of_dvd_of_lt k hUlt)
    · exact hW0 (Nat.eq_zero_of_dvd_of_lt k hWlt)
  obtain ⟨ui, ei⟩ := inv_some h htb ht0 (mod_lt h _)
  obtain ⟨ui', hui, hui2, hui3⟩ := inv_sound h htb (lt_two h (mod_lt h _)) ei
  obtain ⟨db, ed, hdb⟩ := modmul_ok' h hA (bytes_lt h hA') hcb (lt_two h hcl)
  have hcg := cap_ge (n := K.P.n) h.consts.ok (by have := h.consts.hn; omega)
  have h4 : 4 * (256 : Int) ^ K.modbytes ≤ 2 ^ (K.P.b * K.P.n) := by
    have : 4 * 256 ^ K.modbytes ≤ 2 ^ (K.P.b * K.P.n) := by
      rw [show (256 : Nat) = 2 ^ 8 by norm_num, show 4 = 2 ^ 2 by norm_num, ← pow_mul, ← pow_add]
      exact Nat.pow_le_pow_right (by norm_num) (by have := h.spare; omega)
    exact_mod_cast this
  have hF'' : (F : Int) < 256 ^ K.modbytes := by exact_mod_cast hF'
  have hD : (A * cN % ordN K : Nat) < ordN K := mod_lt h _
  have hRb := h.orderBytes
  have hD'' : ((A * cN % ordN K : Nat) : Int) < 256 ^ K.modbytes := by exact_mod_cast lt_of_lt_of_le hD hRb
  have hcp := cap_pos C K.P.b K.P.n
  have hsum := norm_add_rep h.consts.ok (by have := h.consts.hn; omega) hdb hF (by omega) (by omega) (by omega) (by omega)
  obtain ⟨m1, m2⟩ := rep_norm h hw (by positivity) (lt_two h hWlt)
  rw [← Nat.cast_add] at hsum
  obtain ⟨db2, ed2, hdb2⟩ := modmul_ok h hsum (by rw [Nat.cast_add]; omega) m1 m2
  obtain ⟨db3, ed3, hdb3⟩ := modmul_ok' h hui (lt_two h hui2) hdb2 (lt_two h (mod_lt h _))
  have c1 : ¬ iszilch cb = true := fun hc => hx (by exact_mod_cast hcb.iszilch.1 hc)
  have c2 : ¬ iszilch db3 = true := fun hc => by
    have hz : ui' * ((A * cN % ordN K + F) * W % ordN K) % ordN K = 0 := by exact_mod_cast hdb3.iszilch.1 hc
    have hz' := congrArg (Nat.cast (R := ZMod (ordN K))) hz
    have hi : (U : ZMod (ordN K)) * W * ui' = 1 := by
      have := congrArg (Nat.cast (R := ZMod (ordN K))) hui3
      simpa using this
    push_cast [ZMod.natCast_mod] at hz'
    have h0 : (F + A * cN : ZMod (ordN K)) = 0 := by
      linear_combination (U : ZMod (ordN K)) * hz' - (F + A * cN : ZMod (ordN K)) * hi
    apply hdd
    have : ((F + A * cN : Nat) : ZMod (ordN K)) = 0 := by push_cast; exact h0
    exact Nat.mod_eq_zero_of_dvd ((ZMod.natCast_eq_zero_iff _ _).1 this)
  refine ⟨(cb, db3, (draw next (drawn K) (draw next (drawn K) rng).2).2), ?_, cN, _, hcb, hdb3, hcl, mod_lt h _⟩
  rw [dsaLoop]
  simp only [e1, e2, e3, Option.bind_some, ec, if_neg c1, et, ei, ed, ed2, ed3, if_neg c2]

omit hp in
theorem hash_pad {n : Nat} (hn : ShaLen n) (hmb : 0 < K.modbytes) (f : List Byte) :
    ∃ b, hashit n f 0 none K.modbytes (List.replicate K.modbytes 0) = some b ∧ num K b = digestNum K n f := by
  have hm : K.modbytes ≠ 0 := by omega
  have hl := sha_length hn f
  rw [hashit_eq hn _ _ _ _ _ (by simp [hm])]
  refine ⟨_, rfl, ?_⟩
  simp only [if_neg hm, List.drop_replicate, Nat.sub_self, List.replicate_zero, List.append_nil, ctr, gt_iff_lt, lt_self_iff_false, if_false, Option.getD_none]
  unfold num digestNum padTo
  rw [if_neg hm]
  split
  · rw [List.take_take, Nat.min_self]
  · rename_i hlt
    rw [List.take_of_length_le (by simp [hl]; omega), List.take_of_length_le (by omega), beNat_append, beNat_zero, Nat.zero_mul, Nat.zero_add]
where
  beNat_zero {k : Nat} : beNat (List.replicate k 0) = 0 := by
    induction k with
    | zero => rfl
    | succ k ih => rw [List.replicate_succ', beNat_append, ih]; rfl

/-! ### verification -/

theorem verify_range (h : DhCurve K) {sha : Nat} (hs : ShaLen sha) (hmb : 0 < K.modbytes) (w f c d : List Byte)
    (hr : num K c = 0 ∨ ordN K ≤ num K c ∨ num K d = 0 ∨ ordN K ≤ num K d) : verify K sha w f c d = some (-4) := by
  obtain ⟨b, e, _⟩ := hash_pad (K := K) hs hmb f
  have r1 := fromBytes_ok h c
  have r2 := fromBytes_ok h d
  unfold verify
  simp only [e, Option.bind_eq_bind, Option.bind_some]
  rw [if_pos]
  · rfl
  · simp only [Bool.or_eq_true, decide_eq_true_eq]
    rcases hr with k | k | k | k
    · exact Or.inl (Or.inl (Or.inl (r1.iszilch.2 (by exact_mod_cast k))))
    · exact Or.inl (Or.inl (Or.inr ((r1.comp_ge h.orderRep).2 (by exact_mod_cast k))))
    · exact Or.inl (Or.inr (r2.iszilch.2 (by exact_mod_cast k)))
    · exact Or.inr ((r2.comp_ge h.orderRep).2 (by exact_mod_cast k))

theorem verify_gen (h : DhCurve K) {sha : Nat} (hs : ShaLen sha) (hmb : 0 < K.modbytes) {w : List Byte} (f c d : List Byte) {T : (Ecp.curve K).Point} (hw : Decodes K w T)
    (hc : num K c ≠ 0 ∧ num K c < ordN K) (hd : num K d ≠ 0 ∧ num K d < ordN K) :
    (T = 0 → verify K sha w f c d = some (-3)) ∧
    (T ≠ 0 → ∃ v, v < ordN K ∧ num K d * v % ordN K = 1 ∧
      ((num K c * v % ordN K) • T + (digestNum K sha f * v % ordN K) • h.G = 0 → verify K sha w f c d = some (-4)) ∧
      ∀ x y hh, (num K c * v % ordN K) • T + (digestNum K sha f * v % ordN K) • h.G = Affine.Point.some x y hh →
        ∃ X, X < ordN K ∧ Comp K x X ∧ verify K sha w f c d = some (if X = num K c then 0 else -4)) := by
  obtain ⟨b, e, hb⟩ := hash_pad (K := K) hs hmb f
  have r1 := fromBytes_ok h c
  have r2 := fromBytes_ok h d
  have r3 := fromBytes_ok h b
  obtain ⟨W, eW, iW⟩ := frombytes_ok h hw
  obtain ⟨dv, ed⟩ := inv_some h r2 hd.1 hd.2
  obtain ⟨v, r4, hv, hdv⟩ := inv_sound h r2 (lt_two h hd.2) ed
  obtain ⟨fb, ef, rf⟩ := modmul_ok' h r3 (bytes_lt h (num_lt K b)) r4 (lt_two h hv)
  obtain ⟨h2, eh, rh⟩ := modmul_ok' h r1 (lt_two h hc.2) r4 (lt_two h hv)
  obtain ⟨P, eP, iP⟩ := mul2_ok h.curve iW h.base ⟨rh, by have := h.orderRange; have := mod_lt h (num K c * v); omega⟩ ⟨rf, by have := h.orderRange; have := mod_lt h (num K b * v); omega⟩
  rw [natCast_zsmul, natCast_zsmul, hb] at iP
  change IsPoint K P (_ + _ • h.G) at iP
  have cond : ¬ (iszilch (fromBytes (C := C) K.P.b K.P.n K.modbytes c) || decide (comp (fromBytes K.P.b K.P.n K.modbytes c) K.order ≥ 0) ||
      iszilch (fromBytes (C := C) K.P.b K.P.n K.modbytes d) || decide (comp (fromBytes K.P.b K.P.n K.modbytes d) K.order ≥ 0)) = true := by
    simp only [Bool.or_eq_true, decide_eq_true_eq]
    rintro (((k | k) | k) | k)
    · exact hc.1 (by exact_mod_cast r1.iszilch.1 k)
    · have : ordN K ≤ num K c := by exact_mod_cast (r1.comp_ge h.orderRep).1 k
      omega
    · exact hd.1 (by exact_mod_cast r2.iszilch.1 k)
    · have : ordN K ≤ num K d := by exact_mod_cast (r2.comp_ge h.orderRep).1 k
      omega
  constructor
  · intro hT
    unfold verify
    simp only [e, Option.bind_eq_bind, Option.bind_some, if_neg cond, ed, ef, eh, eW]
    rw [if_pos ((isInfinity_ok h.curve iW).2 hT)]; rfl
  · intro hT
    have cT : ¬ isInfinity K W = true := fun hc => hT ((isInfinity_ok h.curve iW).1 hc)
    refine ⟨v, hv, hdv, ?_, ?_⟩
    · intro hQ
      unfold verify
      simp only [e, Option.bind_eq_bind, Option.bind_some, if_neg cond, ed, ef, eh, eW, if_neg cT, eP]
      rw [if_pos ((isInfinity_ok h.curve iP).2 hQ)]; rfl
    · intro x y hh hQ
      have cQ : ¬ isInfinity K P = true := fun hc => by
        have := (isInfinity_ok h.curve iP).1 hc
        rw [hQ] at this; exact some_ne_zero' hh this.symm
      rw [hQ] at iP
      obtain ⟨cb, X, ec, rc, hX, hcomp⟩ := getx_mod h iP
      refine ⟨X, hX, hcomp, ?_⟩
      unfold verify
      simp only [e, Option.bind_eq_bind, Option.bind_some, if_neg cond, ed, ef, eh, eW, if_neg cT, eP, if_neg cQ, ec, Option.pure_def]
      have hce := rc.comp_eq r1
      by_cases hx : X = num K c
      · rw [if_pos hx, if_neg (by rw [not_not]; exact hce.2 (by exact_mod_cast hx))]
      · rw [if_neg hx, if_pos (fun k => hx (by exact_mod_cast hce.1 k))]

/-! ### key validation -/

theorem halve_ok (h : DhCurve K) (f : Nat) {k : Limbs C} {k0 : Nat} (hk : Rep K.P.b K.P.n k (k0 : Int)) (h0 : k0 ≠ 0) (hf : k0 < 2 ^ f)
    (hr : k0 + 2 < 2 ^ (K.P.b * K.P.n - 4)) {W : Pt C} {T : (Ecp.curve K).Point} (hW : IsPoint K W T) :
    ∃ k' W' k1 T', halve K f k W = some (k', W') ∧ Rep K.P.b K.P.n k' ((k1 : Nat) : Int) ∧ k1 ≠ 0 ∧ k1 + 2 < 2 ^ (K.P.b * K.P.n - 4) ∧ IsPoint K W' T' ∧ k1 • T' = k0 • T := by
  induction f generalizing k k0 W T with
  | zero => exact absurd hf (by simp; omega)
  | succ f ih =>
    have hp := hk.parity h.consts.ok h.consts.hn
    rw [halve]
    by_cases c : parity k = 0
    · rw [if_pos c]
      rw [hp] at c
      have h2 : k0 % 2 = 0 := by omega
      have hn := h.consts.hn
      have hb := h.consts.ok.hb
      have hpow : (2 : Nat) ^ (K.P.b * K.P.n - 4) ≤ 2 ^ (K.P.b * K.P.n) := Nat.pow_le_pow_right (by norm_num) (by omega)
      have hlt : (k0 : Int) < 2 ^ (K.P.b * K.P.n) := by
        have : k0 < 2 ^ (K.P.b * K.P.n) := by omega
        exact_mod_cast this
      have r := shr_rep (k := 1) h.consts.ok hk (by rw [Nat.div_eq_of_lt (by omega)]; omega) (by positivity) hlt
      rw [pow_one] at r
      have r : Rep K.P.b K.P.n (shr K.P.b 1 k) ((k0 / 2 : Nat) : Int) := by
        rw [Int.natCast_div]; exact r
      obtain ⟨k', W', k1, T', a1, a2, a3, a4, a5, a6⟩ := ih r (by omega) (by rw [pow_succ 2 f] at hf; omega) (by omega) (dbl_ok h.curve hW)
      refine ⟨k', W', k1, T', a1, a2, a3, a4, a5, a6.trans ?_⟩
      rw [← two_nsmul, ← mul_nsmul', Nat.div_mul_cancel (Nat.dvd_of_mod_eq_zero h2)]
    · rw [if_neg c]
      exact ⟨k, W, k0, T, rfl, hk, h0, hr, hW, rfl⟩

theorem nbits_p (h : DhCurve K) : nbits K.P.b K.P.md = K.p.size := by
  have hpp := hp.out.pos
  have hr := rep_norm h h.consts.md_rep (by positivity) (bytes_lt h h.bytes.fits)
  obtain ⟨a, b, _⟩ := nbits_spec h.consts.ok K.P.md hr.1 (by positivity)
  obtain ⟨c, d⟩ := b (by exact_mod_cast hpp.ne')
  have a' : K.p < 2 ^ nbits K.P.b K.P.md := by exact_mod_cast a
  have d' : 2 ^ (nbits K.P.b K.P.md - 1) ≤ K.p := by exact_mod_cast d
  have h1 : K.p.size ≤ nbits K.P.b K.P.md := Nat.size_le.2 a'
  have h2 : nbits K.P.b K.P.md - 1 < K.p.size := Nat.lt_size.2 d'
  omega

theorem validate_ok (h : DhCurve K) (hc : CofOk K) {w : List Byte} {T : (Ecp.curve K).Point} (hw : Decodes K w T) :
    publicKeyValidate K w = some (if T ≠ 0 ∧ cofN K • T ≠ 0 then 0 else -2) := by
  obtain ⟨W, e1, i1⟩ := frombytes_ok h hw
  unfold publicKeyValidate
  simp only [Option.bind_eq_bind, Option.bind_some, e1]
  by_cases hT : T = 0
  · rw [if_pos ((isInfinity_ok h.curve i1).2 hT), if_neg (fun k => k.1 hT)]; rfl
  rw [if_neg (fun k => hT ((isInfinity_ok h.curve i1).1 k)), nbits_p h]
  have hn := h.consts.hn
  have hb := h.consts.ok.hb
  have hC := h.consts.ok.hC
  generalize hm : (K.p.size + 4) / 2 = m
  have q1 := hc.quot
  have q4 := hc.room
  rw [hm] at q1 q4
  have hR := h.R_pos
  have hmlt : m < K.P.b * K.P.n := by
    have : (2 : Nat) ^ m < 2 ^ (K.P.b * K.P.n) := by omega
    exact (Nat.pow_lt_pow_iff_right (by norm_num)).1 this
  have hmk : m / K.P.b < K.P.n := Nat.div_lt_of_lt_mul hmlt
  have hone := newInt_rep (C := C) h.consts.ok (n := K.P.n) (by omega) 1 (by norm_num) (one_lt_pow₀ (by norm_num) (by omega))
  have q4' : 2 * ((2 : Int) ^ m + K.p) < 2 ^ (K.P.b * K.P.n) := by exact_mod_cast q4
  have hpn : (0 : Int) ≤ K.p := by positivity
  have h2m : (0 : Int) < 2 ^ m := by positivity
  have hsh := shl_rep (k := m) h.consts.ok hone hmk (by norm_num) (by omega)
  rw [one_mul] at hsh
  have hcg := cap_ge (n := K.P.n) h.consts.ok (by omega)
  have hcp := cap_pos C K.P.b K.P.n
  have hsum := norm_add_rep h.consts.ok (by omega) hsh h.consts.md_rep (by omega) (by omega) (by omega) (by omega)
  have hRz : (0 : Int) < ordN K := by exact_mod_cast (by omega : 0 < ordN K)
  obtain ⟨f, hf⟩ : ∃ f, fuel K = f + 1 := ⟨fuel K - 1, by have := fuel_ge K; omega⟩
  have hfge : K.P.b * K.P.n ≤ f := by have := fuel_ge K; omega
  have hpf : (2 : Int) ^ (K.P.b * K.P.n) ≤ 2 ^ f := pow_le_pow_right₀ (by norm_num) hfge
  obtain ⟨q, eq1, rq⟩ := div_spec h.consts.ok hn f hsum h.orderRep (by omega) (by omega) hRz (by nlinarith)
  have rq : Rep K.P.b K.P.n q ((cofN K : Nat) : Int) := by
    rw [← q1]; push_cast; exact rq
  have hcl : cofN K < 2 ^ fuel K := by
    have h1 := hc.range
    have h2 : (2 : Nat) ^ (K.P.b * K.P.n - 4) ≤ 2 ^ fuel K := Nat.pow_le_pow_right (by norm_num) (by have := fuel_ge K; omega)
    omega
  obtain ⟨k', W', k1, T', a1, a2, a3, a4, a5, a6⟩ := halve_ok h (fuel K) rq hc.pos hcl hc.range i1
  rw [← hf] at eq1
  simp only [eq1, Option.bind_some, a1]
  by_cases c : isunity k' = true
  · rw [if_pos c]
    have : k1 = 1 := by exact_mod_cast (a2.isunity h.consts.ok (by omega)).1 c
    subst this
    rw [one_nsmul] at a6
    subst a6
    have := isInfinity_ok h.curve a5
    simp only [Option.bind_some, Option.pure_def]
    by_cases c2 : cofN K • T = 0
    · rw [if_pos (this.2 c2), if_neg (fun k => k.2 c2)]
    · rw [if_neg (fun k => c2 (this.1 k)), if_pos ⟨hT, c2⟩]
  · rw [if_neg c]
    obtain ⟨V, ev, iv⟩ := Ecp.mul_ok h.curve a5 ⟨a2, a4⟩
    rw [natCast_zsmul, a6] at iv
    have := isInfinity_ok h.curve iv
    simp only [ev, Option.bind_some, Option.pure_def]
    by_cases c2 : cofN K • T = 0
    · rw [if_pos (this.2 c2), if_neg (fun k => k.2 c2)]
    · rw [if_neg (fun k => c2 (this.1 k)), if_pos ⟨hT, c2⟩]

end Verif.Ecdh
