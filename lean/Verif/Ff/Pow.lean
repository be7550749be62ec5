import Verif.Ff.Arith
import Mathlib.Data.Int.ModEq
/- Helper lemmas: the exponentiations of ff.rs. -/
namespace Verif.Ff
open Spec Verif.Big

variable {C b n R : Nat}

theorem FNorm.lens : ∀ {x : FF C}, FNorm b n R x → ∀ d ∈ x, d.length = n
  | [], _, d, hd => by simp at hd
  | [e], h, d, hd => by
    have : d = e := by simpa using hd
    rw [this]; exact h.1
  | e :: e' :: r, h, d, hd => by
    rcases List.mem_cons.1 hd with h1 | h1
    · rw [h1]; exact h.1.len
    · exact FNorm.lens h.2 d h1

theorem cswap_ff_zero : ∀ {x y : FF C}, x.length = y.length → (∀ d ∈ x, d.length = n) → (∀ d ∈ y, d.length = n) → cswap x y 0 = (x, y)
  | [], [], _, _, _ => rfl
  | [], _ :: _, h, _, _ => by simp at h
  | _ :: _, [], h, _, _ => by simp at h
  | u :: x, v :: y, h, hx, hy => by
    have ih := cswap_ff_zero (x := x) (y := y) (by simpa using h) (fun d hd => hx d (by simp [hd])) (fun d hd => hy d (by simp [hd]))
    have e := Big.cswap_zero u v (by rw [hx u (by simp), hy v (by simp)])
    unfold cswap at ih ⊢
    simp only [List.zipWith_cons_cons, e]
    rw [Prod.mk.injEq] at ih
    rw [ih.1, ih.2]

theorem cswap_ff_one : ∀ {x y : FF C}, x.length = y.length → (∀ d ∈ x, d.length = n) → (∀ d ∈ y, d.length = n) → cswap x y 1 = (y, x)
  | [], [], _, _, _ => rfl
  | [], _ :: _, h, _, _ => by simp at h
  | _ :: _, [], h, _, _ => by simp at h
  | u :: x, v :: y, h, hx, hy => by
    have ih := cswap_ff_one (x := x) (y := y) (by simpa using h) (fun d hd => hx d (by simp [hd])) (fun d hd => hy d (by simp [hd]))
    have e := Big.cswap_one u v (by rw [hx u (by simp), hy v (by simp)])
    unfold cswap at ih ⊢
    simp only [List.zipWith_cons_cons, e]
    rw [Prod.mk.injEq] at ih
    rw [ih.1, ih.2]

theorem FRep.cswap_zero {m : Nat} {x y : FF C} {X Y : Int} (hx : FRep b n R m x X) (hy : FRep b n R m y Y) : cswap x y 0 = (x, y) :=
  cswap_ff_zero (by rw [hx.len, hy.len]) hx.low.lens hy.low.lens

theorem FRep.cswap_one {m : Nat} {x y : FF C} {X Y : Int} (hx : FRep b n R m x X) (hy : FRep b n R m y Y) : cswap x y 1 = (y, x) :=
  cswap_ff_one (by rw [hx.len, hy.len]) hx.low.lens hy.low.lens

theorem modEq_cancel {W pv A B : Int} (h : IsCoprime W pv) (he : W * A ≡ W * B [ZMOD pv]) : A ≡ B [ZMOD pv] := by
  rw [Int.modEq_iff_dvd] at *
  rw [← mul_sub] at he
  exact h.symm.dvd_of_dvd_mul_left he

section
variable {fuel k : Nat} {p nd : FF C} {pv W : Int} {S : Nat → Int → Prop} {T : Nat}

theorem MArith.monoN (A : MArith b n R fuel k p nd pv W S T) {i j : Nat} (h : i ≤ j) {V : Int} (hs : S i V) : S j V := by
  induction h with
  | refl => exact hs
  | step _ ih => exact A.mono _ _ ih

/-- product of `g^a` and `g^c` in Montgomery form -/
theorem mont_pow (hc : IsCoprime W pv) {g X Y Z : Int} {a c : Nat} (hz : W * Z ≡ X * Y [ZMOD pv]) (hx : X ≡ g ^ a * W [ZMOD pv]) (hy : Y ≡ g ^ c * W [ZMOD pv]) :
    Z ≡ g ^ (a + c) * W [ZMOD pv] := by
  apply modEq_cancel hc
  refine hz.trans ((hx.mul hy).trans ?_)
  rw [show g ^ a * W * (g ^ c * W) = W * (g ^ (a + c) * W) by ring]

theorem skLoop_spec (A : MArith b n R fuel k p nd pv W S T) (g : Int) (e : Nat) (bitAt : Nat → Int) :
    ∀ (i j : Nat) (r0 r1 : FF C) (V0 V1 : Int), j + i ≤ T → FRep b n R (2 ^ k) r0 V0 → FRep b n R (2 ^ k) r1 V1 → S j V0 → S j V1 →
      V0 ≡ g ^ (e / 2 ^ i) * W [ZMOD pv] → V1 ≡ g ^ (e / 2 ^ i + 1) * W [ZMOD pv] → (∀ t, t < i → bitAt t = ((e / 2 ^ t % 2 : Nat) : Int)) →
      ∃ r V, skLoop b n R fuel k p nd bitAt i r0 r1 = some r ∧ FRep b n R (2 ^ k) r V ∧ S T V ∧ V ≡ g ^ e * W [ZMOD pv]
  | 0, j, r0, r1, V0, V1, hj, f0, f1, s0, s1, c0, c1, hb => by
    refine ⟨r0, V0, rfl, f0, A.monoN (by omega) s0, by simpa using c0⟩
  | i + 1, j, r0, r1, V0, V1, hj, f0, f1, s0, s1, c0, c1, hb => by
    obtain ⟨s, Z, z1, z2, z3, z4⟩ := A.mul j j r0 r1 V0 V1 (by omega) (by omega) f0 f1 s0 s1
    have hZ := mont_pow A.cop z4 c0 c1
    unfold skLoop
    simp only
    rw [z1, Option.bind_some]
    have hbi := hb i (by omega)
    have hq : e / 2 ^ (i + 1) = e / 2 ^ i / 2 := by rw [pow_succ, Nat.div_div_eq_div_mul]
    rw [hq] at c0 c1 hZ
    generalize hE : e / 2 ^ i = E at *
    rcases Nat.mod_two_eq_zero_or_one E with h | h
    · rw [h] at hbi
      have hb0 : bitAt i = 0 := hbi
      rw [hb0, f0.cswap_zero f1]
      obtain ⟨q, Q, q1, q2, q3, q4⟩ := A.sqr j r0 V0 (by omega) f0 s0
      have hQ := mont_pow A.cop q4 c0 c0
      rw [q1, Option.bind_some, q2.cswap_zero z2]
      refine skLoop_spec A g e bitAt i (j + 1) q s Q Z (by omega) q2 z2 (A.monoN (Nat.zero_le _) q3) z3 ?_ ?_ (fun t ht => hb t (by omega))
      · rw [hE]
        have : E / 2 + E / 2 = E := by omega
        rwa [this] at hQ
      · rw [hE]
        have : E / 2 + (E / 2 + 1) = E + 1 := by omega
        rwa [this] at hZ
    · rw [h] at hbi
      have hb0 : bitAt i = 1 := hbi
      rw [hb0, f0.cswap_one f1]
      obtain ⟨q, Q, q1, q2, q3, q4⟩ := A.sqr j r1 V1 (by omega) f1 s1
      have hQ := mont_pow A.cop q4 c1 c1
      rw [q1, Option.bind_some, q2.cswap_one z2]
      refine skLoop_spec A g e bitAt i (j + 1) s q Z Q (by omega) z2 q2 z3 (A.monoN (Nat.zero_le _) q3) ?_ ?_ (fun t ht => hb t (by omega))
      · rw [hE]
        have : E / 2 + (E / 2 + 1) = E := by omega
        rwa [this] at hZ
      · rw [hE]
        have : E / 2 + 1 + (E / 2 + 1) = E + 1 := by omega
        rwa [this] at hQ

theorem MArith.nresS (A : MArith b n R fuel k p nd pv W S T) {x : FF C} {X : Int} (hx : FRep b n R (2 ^ k) x X) (h0 : 0 ≤ X)
    (h1 : X < 2 ^ (R * 2 ^ k)) (h2 : X < fuel * pv) :
    ∃ z Z, Ff.nres b n R fuel k x p = some z ∧ FRep b n R (2 ^ k) z Z ∧ S 0 Z ∧ Z ≡ X * W [ZMOD pv] := by
  obtain ⟨z, z1, z2⟩ := A.nres x X hx h0 h1 h2
  have hp := A.plt
  exact ⟨z, _, z1, z2, A.small _ (Int.emod_nonneg _ (by linarith)) (Int.emod_lt_of_pos _ (by linarith)), Int.mod_modEq _ _⟩

theorem MArith.redcS (A : MArith b n R fuel k p nd pv W S T) {j : Nat} {x : FF C} {X V : Int} (hj : j ≤ T) (hx : FRep b n R (2 ^ k) x X) (hs : S j X)
    (hV : X ≡ V * W [ZMOD pv]) :
    ∃ z, Ff.redc b n R fuel k x p nd = some z ∧ FRep b n R (2 ^ k) z (V % pv) := by
  obtain ⟨z, Z, z1, z2, z3, z4, z5⟩ := A.redc j x X hj hx hs
  have : Z ≡ V [ZMOD pv] := modEq_cancel A.cop (z5.trans (by rw [mul_comm W V]; exact hV))
  have e : Z = V % pv := by
    have h := this
    rw [Int.ModEq, Int.emod_eq_of_lt z3 z4] at h
    exact h
  exact ⟨z, z1, by rw [← e]; exact z2⟩

theorem skFrame_spec (f : FOk C b n R) (c : MCtx b n R fuel k p (invmod2m b n R k p) pv)
    (A : MArith b n R fuel k p (invmod2m b n R k p) pv W S T) (e nb : Nat) (hT : nb ≤ T) (he : e < 2 ^ nb) (bitAt : Nat → Int)
    (hb : ∀ t, t < nb → bitAt t = ((e / 2 ^ t % 2 : Nat) : Int)) {x : FF C} {X : Int} (hx : FRep b n R (2 ^ k) x X) (h0 : 0 ≤ X)
    (h1 : X < 2 * fex b n R * 2 ^ (R * 2 ^ k)) :
    ∃ r, skFrame b n R fuel k nb bitAt x p = some r ∧ FRep b n R (2 ^ k) r (X ^ e % pv) := by
  have hp1 := c.p1
  have hplt := c.plt
  have hfu : 1 ≤ fuel := by have := c.fu; have := f.hf; omega
  have hfu' : (1 : Int) ≤ fuel := by exact_mod_cast hfu
  have hfp : pv ≤ fuel * pv := by
    have : 1 * pv ≤ fuel * pv := mul_le_mul_of_nonneg_right hfu' (by linarith)
    linarith
  have hP := two_pow_pos' (R * 2 ^ k)
  unfold skFrame
  simp only
  obtain ⟨x', x1, x2⟩ := c.rmod f hx h0 h1
  rw [x1, Option.bind_some]
  have q0 : 0 ≤ X % pv := Int.emod_nonneg _ (by linarith)
  have q1 : X % pv < pv := Int.emod_lt_of_pos _ (by linarith)
  obtain ⟨o1, o2, o3, -⟩ := one_val (C := C) f (m := p.length) (by rw [c.rp.len]; positivity)
  have ro := o2.frep o1
  rw [o3, c.rp.len] at ro
  rw [c.rp.len]
  obtain ⟨a, Aa, a1, a2, a3, a4⟩ := A.nresS ro (by norm_num) (by linarith) (by linarith)
  rw [a1, Option.bind_some]
  obtain ⟨d, D, d1, d2, d3, d4⟩ := A.nresS x2 q0 (by linarith) (by linarith)
  rw [d1, Option.bind_some]
  obtain ⟨r, V, r1, r2, r3, r4⟩ := skLoop_spec A X e bitAt nb 0 a d Aa D (by omega) a2 d2 a3 d3
    (by rw [Nat.div_eq_of_lt he, pow_zero]; exact a4)
    (by rw [Nat.div_eq_of_lt he, zero_add, pow_one]; exact d4.trans ((Int.mod_modEq X pv).mul_right W)) hb
  rw [r1, Option.bind_some]
  exact A.redcS le_rfl r2 r3 r4

/-- bit `i` of an exponent array -/
theorem bit_ff (f : FOk C b n R) {m : Nat} {e : FF C} (he : Canon b n R e) (hl : e.length = m) (i : Nat) (hi : i < R * m) :
    bit b R e i = fval b R e / 2 ^ i % 2 := by
  unfold bit
  have hR0 : 0 < R := by rcases Nat.eq_zero_or_pos R with h | h; · simp [h] at hi
                         · exact h
  induction e generalizing m i with
  | nil => simp at hl; simp [← hl] at hi
  | cons d ds ih =>
    have hd := he d (by simp)
    have hds : Canon b n R ds := fun z hz => he z (by simp [hz])
    by_cases h : i < R
    · have e1 : i / R = 0 := Nat.div_eq_of_lt h
      rw [e1, Nat.mod_eq_of_lt h]
      have hdig : Digits b d := Rep.digits ⟨hd.len, hd.low, rfl⟩ hd.nonneg (lt_of_lt_of_le hd.lt (pow_le_pow_right₀ (by norm_num) (by have := f.hf; omega)))
      have hib : i / b < d.length := by
        rw [hd.len]
        have := f.hf
        exact Nat.div_lt_of_lt_mul (by omega)
      rw [show dig (d :: ds) 0 = d from rfl, bit_spec f.ok hdig i hib]
      simp only [fval]
      have e2 : (2 : Int) ^ R = 2 ^ i * (2 * 2 ^ (R - i - 1)) := by
        rw [← pow_succ', ← pow_add]; congr 1; omega
      rw [e2, mul_assoc, Int.add_mul_ediv_left _ _ (two_pow_pos' i).ne', mul_assoc, Int.add_mul_emod_self_left]
    · have e1 : i / R = (i - R) / R + 1 := by
        rw [← Nat.add_div_right _ hR0]; congr 1; omega
      have e2 : i % R = (i - R) % R := by
        rw [Nat.mod_eq_sub_mod (by omega)]
      rw [e1, e2, show dig (d :: ds) ((i - R) / R + 1) = dig ds ((i - R) / R) from rfl]
      have hm : R * m = R * ds.length + R := by rw [← hl]; simp [Nat.mul_add]
      rw [ih hds rfl (i - R) (by omega)]
      simp only [fval]
      have e3 : (2 : Int) ^ i = 2 ^ R * 2 ^ (i - R) := by rw [← pow_add]; congr 1; omega
      rw [e3, ← Int.ediv_ediv_of_nonneg (two_pow_pos' R).le, Int.add_mul_ediv_left _ _ (two_pow_pos' R).ne', Int.ediv_eq_zero_of_lt hd.nonneg hd.lt, zero_add]

theorem powerLoop_spec (A : MArith b n R fuel k p nd pv W S T) (hT : 1 ≤ T) (g : Int) :
    ∀ (s e : Nat) (self : Option (FF C)) (w : FF C) (V : Int) (a c : Nat), 0 < e → e < 2 ^ s → FRep b n R (2 ^ k) w V → S 0 V →
      V ≡ g ^ c * W [ZMOD pv] →
      (self = none ∧ a = 0 ∨ ∃ x X, self = some x ∧ FRep b n R (2 ^ k) x X ∧ S 1 X ∧ X ≡ g ^ a * W [ZMOD pv]) →
      ∃ r Z, powerLoop b n R fuel k p nd s e self w = some (some r) ∧ FRep b n R (2 ^ k) r Z ∧ S 1 Z ∧ Z ≡ g ^ (a + c * e) * W [ZMOD pv]
  | 0, e, _, _, _, _, _, h0, h1, _, _, _, _ => by simp at h1; omega
  | s + 1, e, self, w, V, a, c, h0, h1, hw, sw, cw, hself => by
    unfold powerLoop
    -- the conditional multiplication
    have step : ∃ self', (if e % 2 = 1 then powerMul b n R fuel k p nd self w else some self) = some self' ∧
       (self' = none ∧ a = 0 ∧ e % 2 = 0 ∨ ∃ x X, self' = some x ∧ FRep b n R (2 ^ k) x X ∧ S 1 X ∧ X ≡ g ^ (a + c * (e % 2)) * W [ZMOD pv]) := by
      rcases Nat.mod_two_eq_zero_or_one e with h | h
      · rw [h, if_neg (by omega)]
        refine ⟨self, rfl, ?_⟩
        rcases hself with ⟨h1, h2⟩ | ⟨x, X, h1, h2, h3, h4⟩
        · exact Or.inl ⟨h1, h2, rfl⟩
        · exact Or.inr ⟨x, X, h1, h2, h3, by simpa using h4⟩
      · rw [h, if_pos rfl]
        rcases hself with ⟨h1, h2⟩ | ⟨x, X, h1, h2, h3, h4⟩
        · subst h1
          exact ⟨some w, rfl, Or.inr ⟨w, V, rfl, hw, A.mono _ _ sw, by simpa [h2] using cw⟩⟩
        · subst h1
          obtain ⟨z, Z, z1, z2, z3, z4⟩ := A.mul 0 1 x w X V hT (by omega) h2 hw h3 sw
          unfold powerMul
          simp only
          rw [z1]
          exact ⟨some z, rfl, Or.inr ⟨z, Z, rfl, z2, z3, by rw [Nat.mul_one]; exact mont_pow A.cop z4 h4 cw⟩⟩
    obtain ⟨self', e1, h3⟩ := step
    rw [e1, Option.bind_some]
    by_cases hz : e / 2 = 0
    · rw [if_pos hz]
      have he : e = 1 := by omega
      subst he
      rcases h3 with ⟨_, _, h⟩ | ⟨x, X, q1, q2, q3, q4⟩
      · simp at h
      · subst q1
        exact ⟨x, X, rfl, q2, q3, by simpa using q4⟩
    · rw [if_neg hz]
      obtain ⟨q, Q, q1, q2, q3, q4⟩ := A.sqr 0 w V (by omega) hw sw
      rw [q1, Option.bind_some]
      have hQ := mont_pow A.cop q4 cw cw
      obtain ⟨r, Z, r1, r2, r3, r4⟩ := powerLoop_spec A hT g s (e / 2) self' q Q (a + c * (e % 2)) (c + c) (by omega) (by omega) q2 q3 hQ
        (by
          rcases h3 with ⟨h4, h5, h6⟩ | h
          · exact Or.inl ⟨h4, by rw [h5, h6]; simp⟩
          · exact Or.inr h)
      refine ⟨r, Z, r1, r2, r3, ?_⟩
      have : a + c * (e % 2) + (c + c) * (e / 2) = a + c * e := by
        conv_rhs => rw [← Nat.mod_add_div e 2]
        ring
      rwa [this] at r4

theorem power_spec (A : MArith b n R fuel k p (invmod2m b n R k p) pv W S T) (hT : 1 ≤ T) {e : Nat} (he : 0 < e) (hef : e < 2 ^ fuel)
    {x : FF C} {X : Int} (hx : FRep b n R (2 ^ k) x X) (h0 : 0 ≤ X) (h1 : X < 2 ^ (R * 2 ^ k)) (h2 : X < fuel * pv) :
    ∃ r, power b n R fuel k x e p = some r ∧ FRep b n R (2 ^ k) r (X ^ e % pv) := by
  unfold power
  simp only
  obtain ⟨w, V, w1, w2, w3, w4⟩ := A.nresS hx h0 h1 h2
  rw [w1, Option.bind_some]
  by_cases h : e = 2
  · rw [if_pos h]
    obtain ⟨q, Q, q1, q2, q3, q4⟩ := A.sqr 0 w V (by omega) w2 w3
    rw [q1, Option.bind_some]
    have w4' : V ≡ X ^ 1 * W [ZMOD pv] := by simpa using w4
    have := mont_pow A.cop q4 w4' w4'
    rw [h]
    exact A.redcS (Nat.zero_le _) q2 q3 this
  · rw [if_neg h]
    obtain ⟨r, Z, r1, r2, r3, r4⟩ := powerLoop_spec A hT X fuel e none w V 0 1 he hef w2 w3 (by simpa using w4) (Or.inl ⟨rfl, rfl⟩)
    rw [r1]
    simp only [Option.map_some, Option.getD_some, Option.bind_some]
    exact A.redcS hT r2 r3 (by simpa using r4)

theorem powLoop_spec (A : MArith b n R fuel k p nd pv W S T) (hT : 1 ≤ T) (g : Int) (e : Nat) (bitAt : Nat → Int) {w : FF C} {V : Int}
    (hw : FRep b n R (2 ^ k) w V) (sw : S 0 V) (cw : V ≡ g * W [ZMOD pv]) :
    ∀ (i : Nat) (x : FF C) (X : Int), FRep b n R (2 ^ k) x X → S 1 X →
      X ≡ g ^ (e / 2 ^ i) * W [ZMOD pv] → (∀ t, t < i → bitAt t = ((e / 2 ^ t % 2 : Nat) : Int)) →
      ∃ r Z, powLoop b n R fuel k p nd w bitAt i x = some r ∧ FRep b n R (2 ^ k) r Z ∧ S 1 Z ∧ Z ≡ g ^ e * W [ZMOD pv]
  | 0, x, X, hx, sx, cx, _ => ⟨x, X, rfl, hx, sx, by simpa using cx⟩
  | i + 1, x, X, hx, sx, cx, hb => by
    unfold powLoop
    obtain ⟨q, Q, q1, q2, q3, q4⟩ := A.sqr 1 x X hT hx sx
    rw [q1, Option.bind_some]
    have hQ := mont_pow A.cop q4 cx cx
    have hq : e / 2 ^ (i + 1) = e / 2 ^ i / 2 := by rw [pow_succ, Nat.div_div_eq_div_mul]
    rw [hq] at hQ
    have hbi := hb i (by omega)
    rcases Nat.mod_two_eq_zero_or_one (e / 2 ^ i) with h | h
    · rw [h] at hbi
      rw [hbi, if_neg (by simp), Option.bind_some]
      refine powLoop_spec A hT g e bitAt hw sw cw i q Q q2 (A.mono _ _ q3) ?_ (fun t ht => hb t (by omega))
      have : e / 2 ^ i / 2 + e / 2 ^ i / 2 = e / 2 ^ i := by omega
      rwa [this] at hQ
    · rw [h] at hbi
      rw [hbi, if_pos (by simp)]
      obtain ⟨z, Z, z1, z2, z3, z4⟩ := A.mul 0 0 q w Q V (by omega) (by omega) q2 hw q3 sw
      rw [z1, Option.bind_some]
      have hZ := mont_pow A.cop z4 hQ (c := 1) (by simpa using cw)
      refine powLoop_spec A hT g e bitAt hw sw cw i z Z z2 z3 ?_ (fun t ht => hb t (by omega))
      have : e / 2 ^ i / 2 + e / 2 ^ i / 2 + 1 = e / 2 ^ i := by omega
      rwa [this] at hZ

theorem one_nres (f : FOk C b n R) (c : MCtx b n R fuel k p nd pv) (A : MArith b n R fuel k p nd pv W S T) :
    ∃ z Z, Ff.nres b n R fuel k (one n p.length) p = some z ∧ FRep b n R (2 ^ k) z Z ∧ S 0 Z ∧ Z ≡ W [ZMOD pv] := by
  have hp1 := c.p1
  have hplt := c.plt
  have hfu : 1 ≤ fuel := by have := c.fu; have := f.hf; omega
  have hfu' : (1 : Int) ≤ fuel := by exact_mod_cast hfu
  have hfp : pv ≤ fuel * pv := by
    have : 1 * pv ≤ fuel * pv := mul_le_mul_of_nonneg_right hfu' (by linarith)
    linarith
  obtain ⟨o1, o2, o3, -⟩ := one_val (C := C) f (m := p.length) (by rw [c.rp.len]; positivity)
  have ro := o2.frep o1
  rw [o3, c.rp.len] at ro
  rw [c.rp.len]
  simpa using A.nresS ro (by norm_num) (by linarith) (by linarith)

theorem pow_spec (f : FOk C b n R) (c : MCtx b n R fuel k p (invmod2m b n R k p) pv)
    (A : MArith b n R fuel k p (invmod2m b n R k p) pv W S T) (hT : 1 ≤ T) {e : FF C} {E : Nat} (he : Canon b n R e) (hel : e.length = 2 ^ k)
    (hE : fval b R e = E)
    {x : FF C} {X : Int} (hx : FRep b n R (2 ^ k) x X) (h0 : 0 ≤ X) (h1 : X < 2 ^ (R * 2 ^ k)) (h2 : X < fuel * pv) :
    ∃ r, pow b n R fuel k x e p = some r ∧ FRep b n R (2 ^ k) r (X ^ E % pv) := by
  unfold pow
  simp only
  obtain ⟨a, Va, a1, a2, a3, a4⟩ := one_nres f c A
  rw [a1, Option.bind_some]
  obtain ⟨w, V, w1, w2, w3, w4⟩ := A.nresS hx h0 h1 h2
  rw [w1, Option.bind_some]
  have hEl : E < 2 ^ (R * p.length) := by
    have h := (he.bounds).2
    rw [hE, hel, ← c.rp.len] at h
    exact_mod_cast h
  obtain ⟨r, Z, r1, r2, r3, r4⟩ := powLoop_spec A hT X E (bit b R e) w2 w3 w4 (R * p.length) a Va a2 (A.mono _ _ a3)
    (by rw [Nat.div_eq_of_lt hEl]; simpa using a4)
    (fun t ht => by rw [bit_ff f he hel t (by rw [c.rp.len] at ht; exact ht), hE]; push_cast; rfl)
  rw [r1, Option.bind_some]
  exact A.redcS hT r2 r3 r4

/-- product in Montgomery form -/
theorem mont_mul (hc : IsCoprime W pv) {x y X Y Z : Int} (hz : W * Z ≡ X * Y [ZMOD pv]) (hx : X ≡ x * W [ZMOD pv]) (hy : Y ≡ y * W [ZMOD pv]) :
    Z ≡ x * y * W [ZMOD pv] := by
  apply modEq_cancel hc
  refine hz.trans ((hx.mul hy).trans ?_)
  rw [show x * W * (y * W) = W * (x * y * W) by ring]

theorem pow2Loop_spec (A : MArith b n R fuel k p nd pv W S T) (hT : 2 ≤ T) (g h : Int) (e f : Nat) (eb fb : Limbs C) {xn yn xy : FF C} {Xn Yn XY : Int}
    (hx : FRep b n R (2 ^ k) xn Xn) (sx : S 0 Xn) (cx : Xn ≡ g * W [ZMOD pv])
    (hy : FRep b n R (2 ^ k) yn Yn) (sy : S 0 Yn) (cy : Yn ≡ h * W [ZMOD pv])
    (hxy : FRep b n R (2 ^ k) xy XY) (sxy : S 1 XY) (cxy : XY ≡ g * h * W [ZMOD pv]) :
    ∀ (i : Nat) (x : FF C) (X : Int), FRep b n R (2 ^ k) x X → S 2 X →
      X ≡ g ^ (e / 2 ^ i) * h ^ (f / 2 ^ i) * W [ZMOD pv] → (∀ t, t < i → Big.bit b eb t = ((e / 2 ^ t % 2 : Nat) : Int)) →
      (∀ t, t < i → Big.bit b fb t = ((f / 2 ^ t % 2 : Nat) : Int)) →
      ∃ r Z, pow2Loop b n R fuel k p nd xn yn xy eb fb i x = some r ∧ FRep b n R (2 ^ k) r Z ∧ S 2 Z ∧ Z ≡ g ^ e * h ^ f * W [ZMOD pv]
  | 0, x, X, hx, sx, cx, _, _ => ⟨x, X, rfl, hx, sx, by simpa using cx⟩
  | i + 1, x, X, hX, sX, cX, he, hf => by
    unfold pow2Loop
    simp only
    obtain ⟨q, Q, q1, q2, q3, q4⟩ := A.sqr 2 x X hT hX sX
    rw [q1, Option.bind_some]
    have hQ := mont_mul A.cop q4 cX cX
    have hqe : e / 2 ^ (i + 1) = e / 2 ^ i / 2 := by rw [pow_succ, Nat.div_div_eq_div_mul]
    have hqf : f / 2 ^ (i + 1) = f / 2 ^ i / 2 := by rw [pow_succ, Nat.div_div_eq_div_mul]
    rw [hqe, hqf] at hQ
    have hei := he i (by omega)
    have hfi := hf i (by omega)
    have rest : ∀ (z : FF C) (Z : Int), FRep b n R (2 ^ k) z Z → S 2 Z → Z ≡ g ^ (e / 2 ^ i) * h ^ (f / 2 ^ i) * W [ZMOD pv] →
        ∃ r Z, pow2Loop b n R fuel k p nd xn yn xy eb fb i z = some r ∧ FRep b n R (2 ^ k) r Z ∧ S 2 Z ∧ Z ≡ g ^ e * h ^ f * W [ZMOD pv] :=
      fun z Z hz sz cz => pow2Loop_spec A hT g h e f eb fb hx sx cx hy sy cy hxy sxy cxy i z Z hz sz cz (fun t ht => he t (by omega)) (fun t ht => hf t (by omega))
    generalize e / 2 ^ i = E at *
    generalize f / 2 ^ i = F at *
    have eqE : E = 2 * (E / 2) + E % 2 := by omega
    have eqF : F = 2 * (F / 2) + F % 2 := by omega
    generalize E / 2 = E2 at *
    generalize F / 2 = F2 at *
    rcases Nat.mod_two_eq_zero_or_one E with h1 | h1 <;> rcases Nat.mod_two_eq_zero_or_one F with h2 | h2 <;> rw [h1] at hei eqE <;> rw [h2] at hfi eqF <;>
      rw [hei, hfi]
    · rw [if_neg (by simp), if_neg (by simp), Option.bind_some]
      refine rest q Q q2 (A.monoN (by omega) q3) ?_
      rw [eqE, eqF]
      refine hQ.trans ?_
      rw [show g ^ E2 * h ^ F2 * (g ^ E2 * h ^ F2) * W = g ^ (2 * E2 + 0) * h ^ (2 * F2 + 0) * W by ring]
    · rw [if_neg (by simp), if_pos (by simp)]
      obtain ⟨z, Z, z1, z2, z3, z4⟩ := A.mul 0 0 q yn Q Yn (by omega) (by omega) q2 hy q3 sy
      rw [z1, Option.bind_some]
      refine rest z Z z2 (A.monoN (by omega) z3) ?_
      have := mont_mul A.cop z4 hQ cy
      rw [eqE, eqF]
      refine this.trans ?_
      rw [show g ^ E2 * h ^ F2 * (g ^ E2 * h ^ F2) * h * W = g ^ (2 * E2 + 0) * h ^ (2 * F2 + 1) * W by ring]
    · rw [if_pos (by simp), if_neg (by simp)]
      obtain ⟨z, Z, z1, z2, z3, z4⟩ := A.mul 0 0 q xn Q Xn (by omega) (by omega) q2 hx q3 sx
      rw [z1, Option.bind_some]
      refine rest z Z z2 (A.monoN (by omega) z3) ?_
      have := mont_mul A.cop z4 hQ cx
      rw [eqE, eqF]
      refine this.trans ?_
      rw [show g ^ E2 * h ^ F2 * (g ^ E2 * h ^ F2) * g * W = g ^ (2 * E2 + 1) * h ^ (2 * F2 + 0) * W by ring]
    · rw [if_pos (by simp), if_pos (by simp)]
      obtain ⟨z, Z, z1, z2, z3, z4⟩ := A.mul 1 0 q xy Q XY (by omega) (by omega) q2 hxy q3 sxy
      rw [z1, Option.bind_some]
      refine rest z Z z2 z3 ?_
      have := mont_mul A.cop z4 hQ cxy
      rw [eqE, eqF]
      refine this.trans ?_
      rw [show g ^ E2 * h ^ F2 * (g ^ E2 * h ^ F2) * (g * h) * W = g ^ (2 * E2 + 1) * h ^ (2 * F2 + 1) * W by ring]

theorem bit_digit (f : FOk C b n R) {e : Limbs C} {E : Nat} (he : CanonD b n R e) (hE : limbsVal b e = E) (t : Nat) (ht : t < R) :
    Big.bit b e t = ((E / 2 ^ t % 2 : Nat) : Int) := by
  have hdig : Digits b e := Rep.digits ⟨he.len, he.low, rfl⟩ he.nonneg (lt_of_lt_of_le he.lt (pow_le_pow_right₀ (by norm_num) (by have := f.hf; omega)))
  have hib : t / b < e.length := by
    rw [he.len]
    have := f.hf
    exact Nat.div_lt_of_lt_mul (by omega)
  rw [bit_spec f.ok hdig t hib, hE]
  push_cast
  rfl

theorem pow2_spec (f : FOk C b n R) (c : MCtx b n R fuel k p (invmod2m b n R k p) pv)
    (A : MArith b n R fuel k p (invmod2m b n R k p) pv W S T) (hT : 2 ≤ T) {eb fb : Limbs C} {E F : Nat} (he : CanonD b n R eb) (hE : limbsVal b eb = E)
    (hf : CanonD b n R fb) (hF : limbsVal b fb = F)
    {x y : FF C} {X Y : Int} (hx : FRep b n R (2 ^ k) x X) (h0 : 0 ≤ X) (h1 : X < 2 ^ (R * 2 ^ k)) (h2 : X < fuel * pv)
    (hy : FRep b n R (2 ^ k) y Y) (g0 : 0 ≤ Y) (g1 : Y < 2 ^ (R * 2 ^ k)) (g2 : Y < fuel * pv) :
    ∃ r, pow2 b n R fuel k x eb y fb p = some r ∧ FRep b n R (2 ^ k) r (X ^ E * Y ^ F % pv) := by
  unfold pow2
  simp only
  obtain ⟨w, V, w1, w2, w3, w4⟩ := A.nresS hx h0 h1 h2
  rw [w1, Option.bind_some]
  obtain ⟨u, U, u1, u2, u3, u4⟩ := A.nresS hy g0 g1 g2
  rw [u1, Option.bind_some]
  obtain ⟨z, Z, z1, z2, z3, z4⟩ := A.mul 0 0 w u V U (by omega) (by omega) w2 u2 w3 u3
  rw [z1, Option.bind_some]
  have hZ := mont_mul A.cop z4 w4 u4
  obtain ⟨a, Va, a1, a2, a3, a4⟩ := one_nres f c A
  rw [a1, Option.bind_some]
  have hEl : E < 2 ^ R := by have := he.lt; rw [hE] at this; exact_mod_cast this
  have hFl : F < 2 ^ R := by have := hf.lt; rw [hF] at this; exact_mod_cast this
  obtain ⟨r, Q, r1, r2, r3, r4⟩ := pow2Loop_spec A hT X Y E F eb fb w2 w3 w4 u2 u3 u4 z2 z3 hZ R a Va a2 (A.monoN (by omega) a3)
    (by rw [Nat.div_eq_of_lt hEl, Nat.div_eq_of_lt hFl]; simpa using a4) (bit_digit f he hE) (bit_digit f hf hF)
  rw [r1, Option.bind_some]
  exact A.redcS hT r2 r3 r4

end

end Verif.Ff
