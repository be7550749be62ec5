import Verif.Ff.Pow
import Verif.Ff.Bytes
import Verif.Rsa.FfModel
import Verif.Rsa.Model
import Mathlib.Data.Nat.Prime.Int
/- Helper lemmas: RSA on the multi-precision arithmetic. -/
namespace Verif.RsaFf
open Spec Verif.Ff

variable {C b n R : Nat}

theorem mctx (f : FOk C b n R) (hR8 : 8 < R) {k : Nat} (hk : k ≤ 20) {fuel : Nat} (hfu : b * n + R * 2 ^ k ≤ fuel) {p : FF C} {P : Int}
    (hp : FRep b n R (2 ^ k) p P) (h1 : 1 < P) (h2 : P < 2 ^ (R * 2 ^ k)) (ho : P % 2 = 1) :
    MCtx b n R fuel k p (invmod2m b n R k p) P := by
  have cp := hp.canon (by linarith) h2
  have := invmod2m_ff f hR8 k hk hp.len cp (by rw [hp.val]; exact ho)
  rw [hp.val] at this
  exact ⟨hp, h1, h2, ho, this, hfu⟩

theorem arith (f : FOk C b n R) {k : Nat} (hk : k ≤ 3) {fuel : Nat} {p nd : FF C} {P : Int} (c : MCtx b n R fuel k p nd P)
    (hpr : k = 0 → Prime P) (hroom : Room b n R k P) :
    ∃ W S, MArith b n R fuel k p nd P W S (R * 2 ^ k) := by
  cases k with
  | zero => exact ⟨_, _, MArith.zero f c (hpr rfl) _⟩
  | succ k =>
    refine ⟨_, MArith.room f (by omega) c (R * 2 ^ (k + 1)) ?_⟩
    rcases hroom with h | h | h
    · omega
    · exact Or.inl (by unfold fex; push_cast; exact h)
    · exact Or.inr h

theorem skpow_ff (f : FOk C b n R) (hR8 : 8 < R) {k : Nat} (hk : k ≤ 3) {fuel : Nat} (hfu : b * n + R * 2 ^ k ≤ fuel) {p e x : FF C} {P X : Int} {E : Nat}
    (hp : FRep b n R (2 ^ k) p P) (h1 : 1 < P) (h2 : P < 2 ^ (R * 2 ^ k)) (ho : P % 2 = 1) (hpr : k = 0 → Prime P) (hroom : Room b n R k P)
    (he : Canon b n R e) (hel : e.length = 2 ^ k) (hE : fval b R e = E)
    (hx : FRep b n R (2 ^ k) x X) (x0 : 0 ≤ X) (x1 : X < 2 * fex b n R * 2 ^ (R * 2 ^ k)) :
    ∃ r, skpow b n R fuel k x e p = some r ∧ FRep b n R (2 ^ k) r (X ^ E % P) := by
  have c := mctx f hR8 (by omega) hfu hp h1 h2 ho
  obtain ⟨W, S, A⟩ := arith f hk c hpr hroom
  unfold skpow
  rw [hp.len]
  have hEl : E < 2 ^ (R * 2 ^ k) := by
    have h := (he.bounds).2
    rw [hE, hel] at h
    exact_mod_cast h
  exact skFrame_spec f c A E (R * 2 ^ k) le_rfl hEl (Ff.bit b R e) (fun t ht => by rw [bit_ff f he hel t ht, hE]; push_cast; rfl) hx x0 x1

theorem encrypt_ff (f : FOk C b n R) (hR8 : 8 < R) {mb : Nat} (hmb : R = 8 * mb) {k : Nat} (hk : k ≤ 2) {fuel : Nat} (hfu : b * n + R * 2 ^ (k + 1) ≤ fuel)
    {m : FF C} {N e : Nat} (hm : FRep b n R (2 ^ (k + 1)) m N) (h1 : 1 < N) (h2 : (N : Int) < 2 ^ (R * 2 ^ (k + 1))) (ho : N % 2 = 1)
    (he : 0 < e) (hef : e < 2 ^ fuel) (bs : List (BitVec 8)) (hl : bs.length = 2 ^ (k + 1) * mb) (hF : beNat bs < N) :
    encrypt b n R mb fuel k e m bs = some (beBytes (2 ^ (k + 1) * mb) (beNat bs ^ e % N)) := by
  have c := mctx f hR8 (by omega) hfu hm (by exact_mod_cast h1) h2 (by omega)
  obtain ⟨S, A⟩ := MArith.two f hk c
  unfold encrypt
  have e2 : 2 * 2 ^ k = 2 ^ (k + 1) := by rw [pow_succ, mul_comm]
  rw [e2]
  obtain ⟨b1, b2, b3⟩ := fromBytes_ff (C := C) f hmb (2 ^ (k + 1)) bs (by omega)
  rw [List.take_of_length_le (by omega)] at b3
  have hr := b2.frep b1
  rw [b3] at hr
  have hfp : (1 : Int) * N ≤ fuel * N := mul_le_mul_of_nonneg_right (by have := f.hf; exact_mod_cast (by omega : 1 ≤ fuel)) (by omega)
  have hFN : ((beNat bs : Nat) : Int) < N := by exact_mod_cast hF
  obtain ⟨r, r1, r2⟩ := power_spec A le_rfl he hef hr (by omega) (by linarith) (by linarith)
  rw [r1, Option.map_some]
  have hN0 : (0 : Int) < N := by omega
  have q0 := Int.emod_nonneg ((beNat bs : Int) ^ e) hN0.ne'
  have q1 := Int.emod_lt_of_pos ((beNat bs : Int) ^ e) hN0
  rw [toBytes_ff f hmb (r2.canon q0 (by linarith)), r2.len, r2.val]
  have : ((beNat bs : Int) ^ e % N) = ((beNat bs ^ e % N : Nat) : Int) := by push_cast; rfl
  rw [this, Int.toNat_natCast]

theorem norm_addsub2_frep (f : FOk C b n R) {m : Nat} (hm : 0 < m) {x y p : FF C} {X Y P : Int} (hx : FRep b n R m x X) (hy : FRep b n R m y Y)
    (hp : FRep b n R m p P)
    (h0 : 0 ≤ X) (h1 : X < 2 * fex b n R * 2 ^ (R * m)) (h2 : 0 ≤ Y) (h3 : Y < 2 * fex b n R * 2 ^ (R * m))
    (h4 : 0 ≤ P) (h5 : P < 2 * fex b n R * 2 ^ (R * m)) :
    FRep b n R m (norm b R (sub (add x p) y)) (X + P - Y) := by
  have hC : 0 < C := by have := f.ok.hC; omega
  have hE' := f.epos
  have hwd := f.word
  have gx := hx.rng f hm (K := 4) h0 h1 le_rfl (by linarith)
  have gy := hy.rng f hm (K := 4) h2 h3 le_rfl (by linarith)
  have gp := hp.rng f hm (K := 4) h4 h5 le_rfl (by linarith)
  obtain ⟨a1, a2, a3⟩ := add_rng (b := b) (R := R) hC (hx.len.trans hp.len.symm) gx gp (by linarith) (by linarith)
  obtain ⟨c1, c2, c3⟩ := sub_rng (b := b) (R := R) hC ((a1.trans hx.len).trans hy.len.symm) a2 gy (by linarith) (by linarith)
  have nm := norm_frep f _ (ne_of_len hm (c1.trans (a1.trans hx.len))) (c2.loose (by unfold wideB; linarith) (by unfold wideB; linarith))
  rw [c1.trans (a1.trans hx.len), c3, a3, hx.val, hy.val, hp.val] at nm
  exact nm

/-- a private key denoting integers -/
structure PrivRep (b n R k : Nat) (prv : Priv C) (P Q DP DQ Cc : Nat) : Prop where
  p : FRep b n R (2 ^ k) prv.p P
  q : FRep b n R (2 ^ k) prv.q Q
  dp : FRep b n R (2 ^ k) prv.dp DP
  dq : FRep b n R (2 ^ k) prv.dq DQ
  c : FRep b n R (2 ^ k) prv.c Cc
  plt : (P : Int) < 2 ^ (R * 2 ^ k)
  qlt : (Q : Int) < 2 ^ (R * 2 ^ k)
  dplt : (DP : Int) < 2 ^ (R * 2 ^ k)
  dqlt : (DQ : Int) < 2 ^ (R * 2 ^ k)
  clt : (Cc : Int) < 2 ^ (R * 2 ^ k)

theorem decrypt_ff (f : FOk C b n R) (hR8 : 8 < R) {mb : Nat} (hmb : R = 8 * mb) {k : Nat} (hk : k ≤ 3) {fuel : Nat} (hfu : b * n + R * 2 ^ k + 2 ≤ fuel)
    {prv : Priv C} {P Q DP DQ Cc : Nat} (h : PrivRep b n R k prv P Q DP DQ Cc) (hP : Nat.Prime P) (hQ : Nat.Prime Q) (oP : P % 2 = 1) (oQ : Q % 2 = 1)
    (rP : Room b n R k P) (rQ : Room b n R k Q)
    (bs : List (BitVec 8)) (hl : bs.length = 2 ^ (k + 1) * mb) (hG : beNat bs < P * Q) :
    decrypt b n R mb fuel k prv bs = some (beBytes (2 ^ (k + 1) * mb) (Verif.Rsa.decrypt ⟨P, Q, DP, DQ, Cc⟩ (beNat bs))) := by
  have hm : 0 < 2 ^ k := by positivity
  have hfu' : b * n + R * 2 ^ k ≤ fuel := Nat.le_of_succ_le (Nat.le_of_succ_le hfu)
  have hPP := Big.two_pow_pos' (R * 2 ^ k)
  have hcap := le_cap f (2 ^ k)
  have hcap2 := le_cap f (2 ^ k + 2 ^ k)
  have e2 : 2 * 2 ^ k = 2 ^ (k + 1) := by rw [pow_succ, mul_comm]
  have eD : (2 : Int) ^ (R * (2 ^ k + 2 ^ k)) = 2 ^ (R * 2 ^ k) * 2 ^ (R * 2 ^ k) := by rw [Nat.mul_add, pow_add]
  have hPP2 := Big.two_pow_pos' (R * (2 ^ k + 2 ^ k))
  have hp1 : (1 : Int) < P := by exact_mod_cast hP.one_lt
  have hq1 : (1 : Int) < Q := by exact_mod_cast hQ.one_lt
  have hplt := h.plt
  have hqlt := h.qlt
  have hfu2 : (2 : Int) ≤ fuel := by exact_mod_cast (by omega : 2 ≤ fuel)
  obtain ⟨b1, b2, b3⟩ := fromBytes_ff (C := C) f hmb (2 * 2 ^ k) bs (by rw [e2]; omega)
  rw [e2, List.take_of_length_le (by omega)] at b3
  have hGI : (beNat bs : Int) < P * Q := by exact_mod_cast hG
  have nb := canon_norm f (m := 2 ^ k + 2 ^ k) (by omega) (by rw [b1]; ring) b2
  rw [e2] at nb b1 b2
  rw [b3] at nb
  have hGP : (beNat bs : Int) < 2 ^ (R * 2 ^ k) * P := lt_trans hGI (by rw [mul_comm]; exact mul_lt_mul_of_pos_right hqlt (by linarith))
  have hGQ : (beNat bs : Int) < 2 ^ (R * 2 ^ k) * Q := lt_trans hGI (mul_lt_mul_of_pos_right hplt (by linarith))
  have hGc : (beNat bs : Int) < 2 * fex b n R * 2 ^ (R * (2 ^ k + 2 ^ k)) := by
    have : (2 : Int) ^ (R * 2 ^ k) * P < 2 ^ (R * 2 ^ k) * 2 ^ (R * 2 ^ k) := mul_lt_mul_of_pos_left hplt hPP
    rw [← eD] at this
    linarith
  have fl : ∀ z : Int, 0 ≤ z → 1 * z ≤ fuel * z := fun z hz => mul_le_mul_of_nonneg_right (by linarith) hz
  unfold decrypt
  simp only
  rw [e2]
  generalize hGe : beNat bs = G at *
  obtain ⟨jp, p1, p2⟩ := dmod_spec f hm fuel nb h.p (by omega) hGc (by linarith) hplt
    (by have := fl (2 ^ (R * 2 ^ k) * P) (by positivity); linarith) (by omega)
  obtain ⟨jq, q1, q2⟩ := dmod_spec f hm fuel nb h.q (by omega) hGc (by linarith) hqlt
    (by have := fl (2 ^ (R * 2 ^ k) * Q) (by positivity); linarith) (by omega)
  rw [p1, Option.bind_some, q1, Option.bind_some]
  have gp0 := Int.emod_nonneg (G : Int) (by linarith : (P : Int) ≠ 0)
  have gp1 := Int.emod_lt_of_pos (G : Int) (by linarith : (0 : Int) < P)
  have gq0 := Int.emod_nonneg (G : Int) (by linarith : (Q : Int) ≠ 0)
  have gq1 := Int.emod_lt_of_pos (G : Int) (by linarith : (0 : Int) < Q)
  obtain ⟨a, a1, a2⟩ := skpow_ff f hR8 hk hfu' h.p hp1 hplt (by omega) (fun _ => Nat.prime_iff_prime_int.1 hP) rP
    (h.dp.canon (by omega) h.dplt) h.dp.len h.dp.val p2 gp0 (by linarith)
  obtain ⟨d, d1, d2⟩ := skpow_ff f hR8 hk hfu' h.q hq1 hqlt (by omega) (fun _ => Nat.prime_iff_prime_int.1 hQ) rQ
    (h.dq.canon (by omega) h.dqlt) h.dq.len h.dq.val q2 gq0 (by linarith)
  rw [a1, Option.bind_some, d1, Option.bind_some]
  -- natural numbers
  have ea : (G : Int) % P = ((G % P : Nat) : Int) := by push_cast; rfl
  have ed : (G : Int) % Q = ((G % Q : Nat) : Int) := by push_cast; rfl
  have ea2 : (((G % P : Nat) : Int) ^ DP % P) = (((G % P) ^ DP % P : Nat) : Int) := by push_cast; rfl
  have ed2 : (((G % Q : Nat) : Int) ^ DQ % Q) = (((G % Q) ^ DQ % Q : Nat) : Int) := by push_cast; rfl
  rw [ea, ea2] at a2
  rw [ed, ed2] at d2
  have hP0 : 0 < P := hP.pos
  have hQ0 : 0 < Q := hQ.pos
  unfold Verif.Rsa.decrypt
  simp only
  have hAlt := Nat.mod_lt ((G % P) ^ DP) hP0
  have hDlt := Nat.mod_lt ((G % Q) ^ DQ) hQ0
  generalize (G % P) ^ DP % P = A at *
  generalize (G % Q) ^ DQ % Q = D at *
  have hAI : (A : Int) < P := by exact_mod_cast hAlt
  have hDI : (D : Int) < Q := by exact_mod_cast hDlt
  obtain ⟨s, s1, s2⟩ := Ff.rmod_spec f hm fuel (frep_norm f hm a2 (by omega) (by linarith)) h.q (by omega) (by linarith) (by linarith)
    (by have h3 : (2 : Int) ^ (R * 2 ^ k) ≤ 2 ^ fuel := pow_le_pow_right₀ (by norm_num) (by omega)
        have h4 : (2 : Int) ^ fuel * 1 ≤ 2 ^ fuel * Q := mul_le_mul_of_nonneg_left (by linarith) (Big.two_pow_pos' _).le
        linarith)
  rw [s1, Option.bind_some]
  have es : (A : Int) % Q = ((A % Q : Nat) : Int) := by push_cast; rfl
  rw [es] at s2
  have hAQ := Nat.mod_lt A hQ0
  have hAQI : ((A % Q : Nat) : Int) < Q := by exact_mod_cast hAQ
  -- the difference
  have hdiff : FRep b n R (2 ^ k) (norm b R (sub (if comp s d > 0 then add d prv.q else d) s))
      (((if A % Q > D then D + Q else D) - A % Q : Nat) : Int) := by
    have hcmp : comp s d > 0 ↔ A % Q > D := by
      rw [s2.comp d2, gt_iff_lt, Int.sign_pos_iff]; omega
    by_cases hc : A % Q > D
    · rw [if_pos (hcmp.2 hc), if_pos hc]
      have := norm_addsub2_frep f hm d2 s2 h.q (by omega) (by linarith) (by omega) (by linarith) (by omega) (by linarith)
      have e : (D : Int) + Q - (A % Q : Nat) = ((D + Q - A % Q : Nat) : Int) := by omega
      rwa [e] at this
    · rw [if_neg (fun hh => hc (hcmp.1 hh)), if_neg hc]
      have := norm_sub_frep f hm d2 s2 (by omega) (by linarith) (by omega) (by linarith)
      have e : (D : Int) - (A % Q : Nat) = ((D - A % Q : Nat) : Int) := by omega
      rwa [e] at this
  have hd2 : (if A % Q > D then D + Q else D) - A % Q < 2 * Q := by
    split <;> omega
  generalize (if A % Q > D then D + Q else D) - A % Q = J at *
  generalize norm b R (sub (if comp s d > 0 then add d prv.q else d) s) = jj at *
  have hJI : (J : Int) < 2 * Q := by exact_mod_cast hd2
  have hfe := f.fex_ge
  have hkI : ((k : Nat) : Int) ≤ 3 := by exact_mod_cast hk
  have hk0 : (0 : Int) ≤ ((k : Nat) : Int) := by positivity
  have clt := h.clt
  have m1 := karmul_spec f k (Ex := 1) (Ey := 2) h.c hdiff (by omega) (by linarith) (by omega) (by linarith)
    (by have : (1 + (k : Int)) * (2 + k) ≤ 4 * 5 := mul_le_mul (by linarith) (by linarith) (by linarith) (by norm_num)
        linarith) (by linarith) (by linarith)
  have hCJ : (Cc : Int) * J < 2 ^ (R * 2 ^ k) * (2 * Q) := by
    have h3 : (Cc : Int) * J ≤ 2 ^ (R * 2 ^ k) * J := mul_le_mul_of_nonneg_right (by linarith) (by omega)
    have h4 : (2 : Int) ^ (R * 2 ^ k) * J < 2 ^ (R * 2 ^ k) * (2 * Q) := mul_lt_mul_of_pos_left hJI hPP
    linarith
  have hCJ0 : (0 : Int) ≤ (Cc : Int) * J := by positivity
  rw [Nat.two_mul] at m1
  have hCJc : (Cc : Int) * J < 2 * fex b n R * 2 ^ (R * (2 ^ k + 2 ^ k)) := by
    have h5 : (2 : Int) ^ (R * 2 ^ k) * Q < 2 ^ (R * 2 ^ k) * 2 ^ (R * 2 ^ k) := mul_lt_mul_of_pos_left hqlt hPP
    rw [← eD] at h5
    linarith
  obtain ⟨t, t1, t2⟩ := dmod_spec f hm fuel (frep_norm f (by omega) m1 hCJ0 hCJc) h.q hCJ0 hCJc (by linarith) hqlt
    (by have h3 : (2 : Int) * (2 ^ (R * 2 ^ k) * Q) ≤ fuel * (2 ^ (R * 2 ^ k) * Q) := mul_le_mul_of_nonneg_right hfu2 (by positivity)
        linarith) (by omega)
  rw [show Ff.mul b n R k prv.c jj = karmul b n R k prv.c jj from rfl, t1, Option.map_some]
  have et : ((Cc : Int) * J % Q) = ((Cc * J % Q : Nat) : Int) := by push_cast; rfl
  rw [et] at t2
  have hTlt := Nat.mod_lt (Cc * J) hQ0
  generalize Cc * J % Q = U at *
  have hUI : (U : Int) < Q := by exact_mod_cast hTlt
  have m2 := karmul_spec f k (Ex := 1) (Ey := 1) t2 h.p (by omega) (by linarith) (by omega) (by linarith)
    (by have : (1 + (k : Int)) * (1 + k) ≤ 4 * 4 := mul_le_mul (by linarith) (by linarith) (by linarith) (by norm_num)
        linarith) (by linarith) (by linarith)
  rw [Nat.two_mul] at m2
  -- the sum
  have cA := a2.canon (by omega) (by linarith)
  have ra := (cA.append (zero_canon f a.length)).frep (m := 2 ^ k + 2 ^ k) (by simp [Ff.zero, a2.len])
  rw [fval_append, zero_val, a2.val, mul_zero, add_zero] at ra
  have hUP : (U : Int) * P < 2 ^ (R * 2 ^ k) * 2 ^ (R * 2 ^ k) := mul_lt_mul'' (by linarith) hplt (by omega) (by omega)
  have hUP0 : (0 : Int) ≤ (U : Int) * P := by positivity
  have hA2 : (A : Int) < 2 ^ (R * (2 ^ k + 2 ^ k)) := by
    have : (2 : Int) ^ (R * 2 ^ k) * 1 ≤ 2 ^ (R * 2 ^ k) * 2 ^ (R * 2 ^ k) := mul_le_mul_of_nonneg_left hPP hPP.le
    rw [eD]; linarith
  rw [← eD] at hUP
  have hs := norm_add_frep f (m := 2 ^ k + 2 ^ k) (by omega) ra m2 (by omega) (by linarith) hUP0 (by linarith)
  have hsum : (A : Int) + U * P < 2 ^ (R * (2 ^ k + 2 ^ k)) := by
    have h3 : (U : Int) * P ≤ (Q - 1) * P := mul_le_mul_of_nonneg_right (by linarith) (by omega)
    have h4 : (Q : Int) * P < 2 ^ (R * 2 ^ k) * 2 ^ (R * 2 ^ k) := mul_lt_mul'' hqlt hplt (by omega) (by omega)
    rw [eD]; linarith
  rw [show Ff.mul b n R k t prv.p = karmul b n R k t prv.p from rfl, toBytes_ff f hmb (hs.canon (by positivity) hsum), hs.len, hs.val]
  congr 2
  rw [← Nat.two_mul, e2]

/-- the private exponent for one prime -/
theorem halfExp_ff (f : FOk C b n R) {k : Nat} {fuel : Nat} (hfu : 2 * (R * 2 ^ k) + 1 ≤ fuel) {p : FF C} {P e : Nat}
    (hp : FRep b n R (2 ^ k) p P) (hlt : (P : Int) < 2 ^ (R * 2 ^ k)) (h7 : 7 ≤ P) (h3 : P % 4 = 3) (he : 0 < e) (heb : (e : Int) < 2 ^ b)
    (hco : Nat.Coprime e ((P - 1) / 2)) :
    ∃ (d : FF C) (D : Nat), halfExp b n R fuel e p = some d ∧ FRep b n R (2 ^ k) d D ∧ (D : Int) < 2 ^ (R * 2 ^ k) ∧ D % 2 = 1 ∧
      e * D ≡ 1 [MOD (P - 1) / 2] := by
  have hm : 0 < 2 ^ k := by positivity
  have hcap := le_cap f (2 ^ k)
  have hPP := Big.two_pow_pos' (R * 2 ^ k)
  have hd := dec_ff f hm hp.len (hp.canon (by omega) hlt)
  rw [hp.val] at hd
  have ht := shr_spec f hm hd
  have et : ((P : Int) - 1) / 2 = (((P - 1) / 2 : Nat) : Int) := by omega
  rw [et] at ht
  have hbR : b ≤ R * 2 ^ k := by
    have h1 := f.hR
    have h2 := Nat.div_add_mod R b
    have hn := f.hn
    rw [h1] at h2
    have : b * 1 ≤ b * (n - 1) := Nat.mul_le_mul_left _ (by omega)
    have : R * 1 ≤ R * 2 ^ k := Nat.mul_le_mul_left _ hm
    omega
  have hee : (e : Int) < 2 ^ (R * 2 ^ k) := lt_of_lt_of_le heb (pow_le_pow_right₀ (by norm_num) hbR)
  have hse := setInt_ff (C := C) f hm (e : Int) (by omega) heb
  have hTP : (((P - 1) / 2 : Nat) : Int) < 2 ^ (R * 2 ^ k) := by omega
  obtain ⟨r, Y, r1, r2, r3, r4⟩ := invmodp_spec f hm fuel hfu hse ht he hee (by omega) (by omega) hTP hco
  unfold halfExp
  simp only
  rw [hp.len, r1, Option.map_some, r2.parity_val f hm]
  have hmod : e * Y ≡ 1 [MOD (P - 1) / 2] := by
    rw [Nat.ModEq, r4, Nat.mod_eq_of_lt (by omega)]
  by_cases hpar : Y % 2 = 0
  · rw [if_pos (by omega)]
    have hs := norm_add_frep f hm r2 ht (by omega) (by omega) (by omega) (by omega)
    refine ⟨_, Y + (P - 1) / 2, rfl, by push_cast at hs ⊢; exact hs, by push_cast; omega, by omega, ?_⟩
    rw [Nat.mul_add]
    have : e * ((P - 1) / 2) ≡ 0 [MOD (P - 1) / 2] := by
      rw [Nat.modEq_zero_iff_dvd]; exact Nat.dvd_mul_left _ _
    exact hmod.add this
  · rw [if_neg (by omega)]
    exact ⟨_, Y, rfl, frep_norm f hm r2 (by omega) (by omega), by omega, by omega, hmod⟩

theorem keyPair_ff (f : FOk C b n R) {k : Nat} (hk : k ≤ 3) {fuel : Nat} (hfu : 2 * (R * 2 ^ k) + 1 ≤ fuel) {p q : FF C} {P Q e : Nat}
    (hp : FRep b n R (2 ^ k) p P) (hplt : (P : Int) < 2 ^ (R * 2 ^ k)) (hP7 : 7 ≤ P) (hP3 : P % 4 = 3)
    (hq : FRep b n R (2 ^ k) q Q) (hqlt : (Q : Int) < 2 ^ (R * 2 ^ k)) (hQ7 : 7 ≤ Q) (hQ3 : Q % 4 = 3)
    (hcop : Nat.Coprime P Q) (he : 0 < e) (heb : (e : Int) < 2 ^ b)
    (hcp : Nat.Coprime e ((P - 1) / 2)) (hcq : Nat.Coprime e ((Q - 1) / 2)) :
    ∃ (prv : Priv C) (m : FF C) (DP DQ Cc : Nat), keyPair b n R fuel k e p q = some (prv, m) ∧ PrivRep b n R k prv P Q DP DQ Cc ∧
      FRep b n R (2 ^ (k + 1)) m ((P * Q : Nat) : Int) ∧ DP % 2 = 1 ∧ DQ % 2 = 1 ∧ e * DP ≡ 1 [MOD (P - 1) / 2] ∧ e * DQ ≡ 1 [MOD (Q - 1) / 2] ∧
      P * Cc ≡ 1 [MOD Q] := by
  have hm : 0 < 2 ^ k := by positivity
  have hfe := f.fex_ge
  obtain ⟨dp, DP, a1, a2, a3, a4, a5⟩ := halfExp_ff f hfu hp hplt hP7 hP3 he heb hcp
  obtain ⟨dq, DQ, b1, b2, b3, b4, b5⟩ := halfExp_ff f hfu hq hqlt hQ7 hQ3 he heb hcq
  obtain ⟨c, Cc, c1, c2, c3, c4⟩ := invmodp_spec f hm fuel hfu hp hq (by omega) hplt (by omega) (by omega) hqlt hcop
  unfold keyPair
  rw [a1, Option.bind_some, b1, Option.bind_some, c1, Option.map_some]
  have hkI : ((k : Nat) : Int) ≤ 3 := by exact_mod_cast hk
  have hk0 : (0 : Int) ≤ ((k : Nat) : Int) := by positivity
  have m1 := karmul_spec f k (Ex := 1) (Ey := 1) hp hq (by omega) (by linarith) (by omega) (by linarith)
    (by have : (1 + (k : Int)) * (1 + k) ≤ 4 * 4 := mul_le_mul (by linarith) (by linarith) (by linarith) (by norm_num)
        linarith) (by linarith) (by linarith)
  refine ⟨_, _, DP, DQ, Cc, rfl, ⟨hp, hq, a2, b2, c2, hplt, hqlt, a3, b3, by omega⟩, ?_, a4, b4, a5, b5, ?_⟩
  · rw [pow_succ, mul_comm (2 ^ k) 2]
    push_cast
    exact m1
  · rw [Nat.ModEq, c4, Nat.mod_eq_of_lt (by omega)]

end Verif.RsaFf
