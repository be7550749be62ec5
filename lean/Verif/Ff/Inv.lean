import Verif.Ff.Inv0
/- Helper lemmas: `FF::invmod2m`. -/
namespace Verif.Ff
open Spec Verif.Big

variable {C b n R : Nat}

/-- a number whose lowest digit may have excess 1 (as `Big::invmod2m` may leave it) -/
structure LRep (b n R m : Nat) (x : FF C) (V : Int) : Prop where
  len : x.length = m
  val : fval b R x = V
  dec : ∃ d ds, x = d :: ds ∧ Canon b n R ds ∧ d.length = n ∧ Normal b d ∧ 0 ≤ limbsVal b d ∧ limbsVal b d < 2 * 2 ^ R

theorem LRep.of_canon (f : FOk C b n R) {m : Nat} (hm : 0 < m) {x : FF C} (hl : x.length = m) (h : Canon b n R x) : LRep b n R m x (fval b R x) := by
  refine ⟨hl, rfl, ?_⟩
  cases x with
  | nil => simp at hl; omega
  | cons d ds =>
    have hd := h d (by simp)
    exact ⟨d, ds, rfl, fun e he => h e (by simp [he]), hd.len, hd.low, hd.nonneg, by have := hd.lt; have := f.Bpos; linarith⟩

theorem LRep.bounds (f : FOk C b n R) {m : Nat} {x : FF C} {V : Int} (h : LRep b n R m x V) : 0 ≤ V ∧ V < 2 * 2 ^ (R * m) := by
  obtain ⟨d, ds, rfl, hc, hl, hN, h0, h1⟩ := h.dec
  have hb := hc.bounds
  have hlen := h.len
  rw [← h.val, fval]
  have hB := f.Bpos
  simp at hlen
  rw [← hlen, show R * (ds.length + 1) = R + R * ds.length by ring, pow_add]
  refine ⟨by have := hb.1; positivity, ?_⟩
  have h2 : 2 ^ R * (fval b R ds + 1) ≤ 2 ^ R * 2 ^ (R * ds.length) := mul_le_mul_of_nonneg_left (by linarith) hB.le
  have h3 : 2 ^ R * 1 ≤ (2 : Int) ^ R * 2 ^ (R * ds.length) := mul_le_mul_of_nonneg_left (two_pow_pos' _) hB.le
  linarith

theorem LRep.rng (f : FOk C b n R) {m : Nat} {x : FF C} {V : Int} (h : LRep b n R m x V) : FRng n 0 (4 * 2 ^ (b - 2)) x := by
  obtain ⟨d, ds, rfl, hc, hl, hN, h0, h1⟩ := h.dec
  have hfe := f.fex_ge
  intro e he
  simp only [List.mem_cons] at he
  rcases he with rfl | he
  · exact ⟨hl, digit_rng f ⟨hl, hN, rfl⟩ h0 h1 le_rfl (by linarith)⟩
  · exact hc.rng f e he

theorem LRep.halves (_f : FOk C b n R) {h : Nat} (hh : 0 < h) {x : FF C} {V : Int} (hx : LRep b n R (2 * h) x V) :
    ∃ V0 V1, LRep b n R h (x.take h) V0 ∧ ((x.drop h).take h).length = h ∧ Canon b n R ((x.drop h).take h) ∧ fval b R ((x.drop h).take h) = V1 ∧
      V = V0 + 2 ^ (R * h) * V1 ∧ 0 ≤ V1 ∧ V1 < 2 ^ (R * h) := by
  obtain ⟨d, ds, rfl, hc, hl, hN, h0, h1⟩ := hx.dec
  have hlen := hx.len
  have e1 : ((d :: ds).drop h).take h = (d :: ds).drop h := List.take_of_length_le (by rw [List.length_drop, hlen]; omega)
  have e2 : (d :: ds).drop h = ds.drop (h - 1) := by
    obtain ⟨k, rfl⟩ : ∃ k, h = k + 1 := ⟨h - 1, by omega⟩
    simp
  have e3 : (d :: ds).take h = d :: ds.take (h - 1) := by
    obtain ⟨k, rfl⟩ : ∃ k, h = k + 1 := ⟨h - 1, by omega⟩
    simp
  have cd : Canon b n R ((d :: ds).drop h) := by rw [e2]; exact hc.drop _
  have ld : ((d :: ds).drop h).length = h := by rw [List.length_drop, hlen]; omega
  have hb := cd.bounds
  rw [ld] at hb
  have hs := fval_split (b := b) (R := R) (d :: ds) h (by rw [hlen]; omega)
  rw [hx.val] at hs
  refine ⟨_, _, ⟨by rw [List.length_take, hlen]; omega, rfl, ⟨d, _, e3, hc.take _, hl, hN, h0, h1⟩⟩, by rw [e1]; exact ld, by rw [e1]; exact cd, rfl, by rw [e1]; exact hs, by rw [e1]; exact hb.1, by rw [e1]; exact hb.2⟩

theorem LRep.frep1 {x : FF C} {V : Int} (h : LRep b n R 1 x V) : FRep b n R 1 x V := by
  obtain ⟨d, ds, rfl, hc, hl, hN, h0, h1⟩ := h.dec
  have hlen := h.len
  have : ds = [] := by simpa using hlen
  subst this
  exact ⟨rfl, ⟨hl, hN⟩, h.val⟩

set_option maxHeartbeats 400000 in
theorem karmul_low (f : FOk C b n R) (k : Nat) (hk : k ≤ 20) {x y : FF C} {X Y : Int} (hx : LRep b n R (2 ^ k) x X) (hy : LRep b n R (2 ^ k) y Y) :
    FRep b n R (2 * 2 ^ k) (karmul b n R k x y) (X * Y) := by
  have hC : 0 < C := by have := f.ok.hC; omega
  have hfex := f.fex_ge
  induction k generalizing x y X Y with
  | zero =>
    have bx := hx.bounds f
    have bY := hy.bounds f
    exact karmul_spec f 0 (Ex := 2) (Ey := 2) hx.frep1 hy.frep1 bx.1 bx.2 bY.1 bY.2 (by simp; linarith) (by simp; linarith) (by simp; linarith)
  | succ k ih =>
    have hh : 0 < 2 ^ k := by positivity
    rw [show 2 ^ (k + 1) = 2 * 2 ^ k by ring] at hx hy ⊢
    have hk0 : (0 : Int) ≤ k := by positivity
    have hk20 : (k : Int) ≤ 19 := by have : k ≤ 19 := by omega
                                     exact_mod_cast this
    generalize hhh : 2 ^ k = h at *
    obtain ⟨X0, X1, rx0, lx1, cx1, vx1, eX, x10, x11⟩ := hx.halves f hh
    obtain ⟨Y0, Y1, ry0, ly1, cy1, vy1, eY, y10, y11⟩ := hy.halves f hh
    obtain ⟨x00, x01⟩ := rx0.bounds f
    obtain ⟨y00, y01⟩ := ry0.bounds f
    have hP := two_pow_pos' (R * h)
    have hE' := f.epos
    have hwd := f.word
    unfold karmul
    simp only [hhh]
    have rx1 := cx1.frep lx1
    have ry1 := cy1.frep ly1
    rw [vx1] at rx1
    rw [vy1] at ry1
    have gx0 := rx0.rng f
    have gx1 := cx1.rng f
    have gy0 := ry0.rng f
    have gy1 := cy1.rng f
    obtain ⟨sx1, sx2, sx3⟩ := add_rng (b := b) (R := R) hC (rx0.len.trans lx1.symm) gx0 gx1 (by linarith) (by linarith)
    obtain ⟨sy1, sy2, sy3⟩ := add_rng (b := b) (R := R) hC (ry0.len.trans ly1.symm) gy0 gy1 (by linarith) (by linarith)
    have nx := norm_frep f _ (ne_of_len hh (sx1.trans rx0.len)) (sx2.loose (by unfold wideB; linarith) (by unfold wideB; linarith))
    have ny := norm_frep f _ (ne_of_len hh (sy1.trans ry0.len)) (sy2.loose (by unfold wideB; linarith) (by unfold wideB; linarith))
    rw [sx1, rx0.len, sx3, rx0.val, vx1] at nx
    rw [sy1, ry0.len, sy3, ry0.val, vy1] at ny
    rw [← hhh] at nx ny rx1 ry1 x11 y11 x01 y01
    have pt := karmul_spec f k (Ex := 3) (Ey := 3) nx ny (by linarith) (by linarith) (by linarith) (by linarith)
      (by have : (3 + (k : Int)) * (3 + k) ≤ 22 * 22 := mul_le_mul (by linarith) (by linarith) (by linarith) (by linarith)
          linarith) (by linarith) (by linarith)
    have p1 := karmul_spec f k (Ex := 1) (Ey := 1) rx1 ry1 x10 (by linarith) y10 (by linarith)
      (by have : (1 + (k : Int)) * (1 + k) ≤ 20 * 20 := mul_le_mul (by linarith) (by linarith) (by linarith) (by linarith)
          linarith) (by linarith) (by linarith)
    have p0 := ih (by omega) rx0 ry0
    rw [hhh] at pt p1 x11 y11 x01 y01
    generalize karmul b n R k (norm b R (add (x.take h) ((x.drop h).take h))) (norm b R (add (y.take h) ((y.drop h).take h))) = t at *
    generalize karmul b n R k (x.take h) (y.take h) = z0 at *
    generalize karmul b n R k ((x.drop h).take h) ((y.drop h).take h) = z1 at *
    have ePP := pow_two_mul R h
    have bound : ∀ {a c ea ec : Int}, 0 ≤ a → a < ea * 2 ^ (R * h) → 0 ≤ c → c < ec * 2 ^ (R * h) → 1 ≤ ea → a * c < (ea * ec) * 2 ^ (R * (2 * h)) := by
      intro a c ea ec ha0 ha hc0 hc hea
      rw [ePP]
      calc a * c ≤ (ea * 2 ^ (R * h)) * c := mul_le_mul_of_nonneg_right ha.le hc0
        _ < (ea * 2 ^ (R * h)) * (ec * 2 ^ (R * h)) := mul_lt_mul_of_pos_left hc (by positivity)
        _ = _ := by ring
    have b0 := bound x00 x01 y00 y01 (by norm_num)
    have b1 := bound x10 (show X1 < 1 * 2 ^ (R * h) by linarith) y10 (show Y1 < 1 * 2 ^ (R * h) by linarith) le_rfl
    have bt := bound (show 0 ≤ X0 + X1 by linarith) (show X0 + X1 < 3 * 2 ^ (R * h) by linarith) (show 0 ≤ Y0 + Y1 by linarith) (show Y0 + Y1 < 3 * 2 ^ (R * h) by linarith) (by norm_num)
    have g0 := p0.rng f (by omega) (K := 4) (mul_nonneg x00 y00) b0 le_rfl (by linarith)
    have g1 := p1.rng f (by omega) (K := 4) (mul_nonneg x10 y10) b1 le_rfl (by linarith)
    have gt := pt.rng f (by omega) (K := 4) (mul_nonneg (by linarith) (by linarith)) bt le_rfl (by linarith)
    obtain ⟨s1, s2, s3⟩ := sub_rng (b := b) (R := R) hC (pt.len.trans p0.len.symm) gt g0 (by linarith) (by linarith)
    obtain ⟨s4, s5, s6⟩ := sub_rng (b := b) (R := R) hC ((s1.trans pt.len).trans p1.len.symm) s2 g1 (by linarith) (by linarith)
    have hzl : (z0 ++ z1).length = 4 * h := by rw [List.length_append, p0.len, p1.len]; ring
    have g01 : FRng n 0 (4 * 2 ^ (b - 2)) (z0 ++ z1) := g0.append g1
    have gm := (g01.drop h).take (2 * h)
    have lm : (((z0 ++ z1).drop h).take (2 * h)).length = 2 * h := by rw [List.length_take, List.length_drop, hzl]; omega
    obtain ⟨s7, s8, s9⟩ := add_rng (b := b) (R := R) hC (lm.trans ((s4.trans s1).trans pt.len).symm) gm s5 (by linarith) (by linarith)
    have gall : FRng n (-13 * 2 ^ (b - 2)) (13 * 2 ^ (b - 2))
        ((z0 ++ z1).take h ++ add (((z0 ++ z1).drop h).take (2 * h)) (sub (sub t z0) z1) ++ (z0 ++ z1).drop (3 * h)) :=
      (((g01.take h).mono (by linarith) (by linarith)).append (s8.mono (by linarith) (by linarith))).append
        ((g01.drop _).mono (by linarith) (by linarith))
    have hlen : ((z0 ++ z1).take h ++ add (((z0 ++ z1).drop h).take (2 * h)) (sub (sub t z0) z1) ++ (z0 ++ z1).drop (3 * h)).length = 2 * (2 * h) := by
      rw [List.length_append, List.length_append, s7, lm, List.length_take, List.length_drop, hzl]; omega
    have := norm_frep f _ (by intro e; rw [e] at hlen; simp at hlen; omega) (gall.loose (by unfold wideB; linarith) (by unfold wideB; linarith))
    rw [hlen, fval_mid _ _ hzl (s7.trans lm), s9, s6, s3, fval_append, p0.val, p1.val, pt.val, p0.len] at this
    convert this using 1
    rw [eX, eY, ePP]; ring

theorem lower_low (f : FOk C b n R) (k : Nat) (hk : k ≤ 20) {x y : FF C} {X Y : Int} (hx : FRep b n R (2 ^ k) x X) (hy : LRep b n R (2 ^ k) y Y)
    (hX0 : 0 ≤ X) (hX : X < (2 * fex b n R) * 2 ^ (R * 2 ^ k)) :
    (karmulLower b n R k x y).length = 2 ^ k ∧ FRng n 0 (4 * 2 ^ (b - 2)) (karmulLower b n R k x y) ∧
    fval b R (karmulLower b n R k x y) ≡ X * Y [ZMOD 2 ^ (R * 2 ^ k)] ∧ (0 < k → Canon b n R (karmulLower b n R k x y)) := by
  have hC : 0 < C := by have := f.ok.hC; omega
  have hfex := f.fex_ge
  induction k generalizing x y X Y with
  | zero =>
    have bY := hy.bounds f
    refine lower_spec f 0 (by norm_num) hx hy.frep1 hX0 hX bY.1 ?_
    have := two_pow_pos' (R * 2 ^ 0)
    have h2 : 2 * 2 ^ (R * 2 ^ 0) ≤ 2 * fex b n R * 2 ^ (R * 2 ^ 0) := mul_le_mul_of_nonneg_right (by linarith) this.le
    linarith
  | succ k ih =>
    have hh : 0 < 2 ^ k := by positivity
    rw [show 2 ^ (k + 1) = 2 * 2 ^ k by ring] at hx hy hX ⊢
    obtain ⟨X0, X1, lx0, cx0, vx0, rx1, eX, x00, x01, x10, x11⟩ := hx.halves hh hX0 hX
    obtain ⟨Y0, Y1, ry0, ly1, cy1, vy1, eY, y10, y11⟩ := hy.halves f hh
    obtain ⟨y00, y01⟩ := ry0.bounds f
    have r0x := cx0.frep lx0
    rw [vx0] at r0x
    have ry1 := cy1.frep ly1
    rw [vy1] at ry1
    have l0x := LRep.of_canon f hh lx0 cx0
    rw [vx0] at l0x
    have hP := two_pow_pos' (R * 2 ^ k)
    have hE' := f.epos
    have hwd := f.word
    have hbig : ∀ {a : Int}, a < 2 ^ (R * 2 ^ k) → a < 2 * fex b n R * 2 ^ (R * 2 ^ k) := by
      intro a ha
      have : (1 : Int) * 2 ^ (R * 2 ^ k) ≤ 2 * fex b n R * 2 ^ (R * 2 ^ k) := mul_le_mul_of_nonneg_right (by linarith) hP.le
      linarith
    have p0 := karmul_low f k (by omega) l0x ry0
    obtain ⟨t1, t2, t3, -⟩ := ih (by omega) rx1 ry0 x10 x11
    obtain ⟨u1, u2, u3, -⟩ := lower_spec f k (by omega) r0x ry1 x00 (hbig x01) y10 (hbig y11)
    unfold karmulLower
    simp only
    generalize karmul b n R k (x.take (2 ^ k)) (y.take (2 ^ k)) = z at *
    generalize karmulLower b n R k ((x.drop (2 ^ k)).take (2 ^ k)) (y.take (2 ^ k)) = t at *
    generalize karmulLower b n R k (x.take (2 ^ k)) ((y.drop (2 ^ k)).take (2 ^ k)) = u at *
    generalize 2 ^ k = h at *
    have bz : X0 * Y0 < 2 * 2 ^ (R * (2 * h)) := by
      rw [pow_two_mul]
      have h1 : X0 * Y0 ≤ 2 ^ (R * h) * Y0 := mul_le_mul_of_nonneg_right x01.le y00
      have h2 : 2 ^ (R * h) * Y0 < 2 ^ (R * h) * (2 * 2 ^ (R * h)) := mul_lt_mul_of_pos_left y01 hP
      linarith
    have g0 := p0.rng f (by omega) (K := 4) (mul_nonneg x00 y00) bz le_rfl (by linarith)
    have ct : Canon b n R (z.take h) := p0.low.take h (by rw [p0.len]; omega)
    have lz : (z.drop h).length = h := by rw [List.length_drop, p0.len]; omega
    obtain ⟨a1, a2, a3⟩ := add_rng (b := b) (R := R) hC (lz.trans t1.symm) (g0.drop h) t2 (by linarith) (by linarith)
    obtain ⟨a4, a5, a6⟩ := add_rng (b := b) (R := R) hC ((a1.trans lz).trans u1.symm) a2 u2 (by linarith) (by linarith)
    obtain ⟨n1, n2, n3⟩ := normT_canon f _ (ne_of_len hh ((a4.trans a1).trans lz)) (a5.loose (by unfold wideB; linarith) (by unfold wideB; linarith))
    rw [(a4.trans a1).trans lz] at n1 n3
    have hcan : Canon b n R (z.take h ++ normT b R (add (add (z.drop h) t) u)) := ct.append n2
    have lt : (z.take h).length = h := by rw [List.length_take, p0.len]; omega
    refine ⟨by rw [List.length_append, n1, lt]; omega, hcan.rng f, ?_, fun _ => hcan⟩
    rw [fval_append, lt, n3, a6, a3]
    have hs := fval_split (b := b) (R := R) z h (by rw [p0.len]; omega)
    rw [p0.val] at hs
    obtain ⟨q1, hq1⟩ := t3.dvd
    obtain ⟨q2, hq2⟩ := u3.dvd
    rw [pow_two_mul, eX, eY]
    have hm := Int.emod_add_mul_ediv (fval b R (z.drop h) + fval b R t + fval b R u) (2 ^ (R * h))
    generalize (fval b R (z.drop h) + fval b R t + fval b R u) / 2 ^ (R * h) = Q at *
    generalize (fval b R (z.drop h) + fval b R t + fval b R u) % 2 ^ (R * h) = M at *
    generalize (2 : Int) ^ (R * h) = P at *
    refine Int.modEq_iff_dvd.2 ⟨X1 * Y1 + q1 + q2 + Q, ?_⟩
    linear_combination hs + P * hq1 + P * hq2 - P * hm

/-! ### Shapes -/

theorem zero_len (n m : Nat) : (zero n m : FF C).length = m := by simp [zero]

theorem zero_take (n m i : Nat) (h : i ≤ m) : (zero n m : FF C).take i = zero n i := by
  simp [zero, List.take_replicate, Nat.min_eq_left h]

theorem zero_drop (n m i : Nat) : (zero n m : FF C).drop i = zero n (m - i) := by
  simp [zero, List.drop_replicate]

theorem LRep.pad (f : FOk C b n R) {i m : Nat} {x : FF C} {V : Int} (h : LRep b n R i x V) : LRep b n R (i + m) (x ++ zero n m) V := by
  obtain ⟨d, ds, e, hc, hl, hN, h0, h1⟩ := h.dec
  refine ⟨by simp [h.len, zero_len], by rw [fval_append, zero_val, h.val]; ring, ⟨d, ds ++ zero n m, by rw [e]; rfl, hc.append (zero_canon f m), hl, hN, h0, h1⟩⟩

theorem take_modEq (x : FF C) (i : Nat) (hi : i ≤ x.length) : fval b R x ≡ fval b R (x.take i) [ZMOD 2 ^ (R * i)] := by
  have := fval_split (b := b) (R := R) x i hi
  rw [this]
  exact Int.modEq_iff_dvd.2 ⟨-fval b R (x.drop i), by ring⟩

theorem canon_take {x : FF C} (h : Canon b n R x) (i : Nat) (hi : i ≤ x.length) : fval b R (x.take i) = fval b R x % 2 ^ (R * i) := by
  have hb := (h.take i).bounds
  rw [List.length_take, Nat.min_eq_left hi] at hb
  rw [(take_modEq x i hi).eq]
  exact (Int.emod_eq_of_lt hb.1 hb.2).symm

theorem canon_zero (f : FOk C b n R) {x : FF C} (h : Canon b n R x) (h0 : fval b R x = 0) : x = zero n x.length := by
  induction x with
  | nil => rfl
  | cons d ds ih =>
    have hd := h d (by simp)
    have hc : Canon b n R ds := fun e he => h e (by simp [he])
    have hb := hc.bounds
    rw [fval] at h0
    have hB := f.Bpos
    have h1 : 0 ≤ 2 ^ R * fval b R ds := mul_nonneg hB.le hb.1
    have h2 := hd.nonneg
    have hd0 : limbsVal b d = 0 := by linarith
    have hds : fval b R ds = 0 := by
      have : 2 ^ R * fval b R ds = 0 := by linarith
      rcases mul_eq_zero.1 this with h | h
      · exact absurd h hB.ne'
      · exact h
    have e1 : d = Big.zero C n := by
      have hz := zero_rep (C := C) b n
      exact normal_unique _ _ (hd.len.trans hz.len.symm) hd.low hz.low (by rw [hd0, hz.val])
    have e2 : zero n (d :: ds).length = (Big.zero C n :: zero n ds.length : FF C) := rfl
    rw [e2, ← e1, ← ih hc hds]

theorem canon_drop_zero (f : FOk C b n R) {x : FF C} (h : Canon b n R x) (i : Nat) (hi : i ≤ x.length) (hv : fval b R x < 2 ^ (R * i)) :
    x.drop i = zero n (x.length - i) := by
  have hs := fval_split (b := b) (R := R) x i hi
  have h1 := (h.take i).bounds
  have h2 := (h.drop i).bounds
  have hP := two_pow_pos' (R * i)
  have h3 : fval b R (x.drop i) = 0 := by
    by_contra hne
    have h4 : 1 ≤ fval b R (x.drop i) := by omega
    have : 2 ^ (R * i) * 1 ≤ 2 ^ (R * i) * fval b R (x.drop i) := mul_le_mul_of_nonneg_left h4 hP.le
    linarith
  have := canon_zero f (h.drop i) h3
  rwa [List.length_drop] at this

theorem bigAdd_zero {d : Limbs C} (h : d.length = n) : Big.add d (Big.zero C n) = d := by
  apply List.ext_getElem
  · simp [Big.add, Big.zero, h]
  · intro i h1 h2
    simp [Big.add, Big.zero]

theorem bigZero_add {d : Limbs C} (h : d.length = n) : Big.add (Big.zero C n) d = d := by
  apply List.ext_getElem
  · simp [Big.add, Big.zero, h]
  · intro i h1 h2
    simp [Big.add, Big.zero]

theorem add_zero' {x : FF C} (h : ∀ d ∈ x, d.length = n) : add x (zero n x.length) = x := by
  induction x with
  | nil => rfl
  | cons d ds ih =>
    have e : add (d :: ds) (zero n (d :: ds).length) = Big.add d (Big.zero C n) :: add ds (zero n ds.length) := rfl
    rw [e, bigAdd_zero (h d (by simp)), ih (fun e he => h e (by simp [he]))]

theorem zero_add' {x : FF C} (h : ∀ d ∈ x, d.length = n) : add (zero n x.length) x = x := by
  induction x with
  | nil => rfl
  | cons d ds ih =>
    have e : add (zero n (d :: ds).length) (d :: ds) = Big.add (Big.zero C n) d :: add (zero n ds.length) ds := rfl
    rw [e, bigZero_add (h d (by simp)), ih (fun e he => h e (by simp [he]))]

theorem add_append {x x' y y' : FF C} (h : x.length = y.length) : add (x ++ x') (y ++ y') = add x y ++ add x' y' := by
  unfold add; exact List.zipWith_append h

theorem revsub_eq (x y : FF C) : revsub x y = sub y x := by
  unfold revsub sub
  induction x generalizing y with
  | nil => cases y <;> rfl
  | cons d ds ih => cases y with
    | nil => rfl
    | cons e es => simp only [List.zipWith_cons_cons, ih, rsub_eq]

theorem mod2m_spec (f : FOk C b n R) {x : FF C} (h : Canon b n R x) (i : Nat) (hi : i ≤ x.length) :
    (mod2m n x i).length = x.length ∧ Canon b n R (mod2m n x i) ∧ fval b R (mod2m n x i) = fval b R x % 2 ^ (R * i) := by
  unfold mod2m
  refine ⟨by rw [List.length_append, zero_len, List.length_take]; omega, (h.take i).append (zero_canon f _), ?_⟩
  rw [fval_append, zero_val, canon_take h i hi]; ring

theorem one_val (f : FOk C b n R) {m : Nat} (hm : 0 < m) :
    (one n m : FF C).length = m ∧ Canon b n R (one n m : FF C) ∧ fval b R (one n m : FF C) = 1 ∧ (one n m : FF C) = one n 1 ++ zero n (m - 1) := by
  obtain ⟨k, rfl⟩ : ∃ k, m = k + 1 := ⟨m - 1, by omega⟩
  have e : (one n (k + 1) : FF C) = newInt C n 1 :: zero n k := rfl
  have hb := f.ok.hb
  have h1 := newInt_rep (C := C) (b := b) (n := n) f.ok (by have := f.hn; omega) 1 (by norm_num) (by
    have : (2 : Int) ^ 1 ≤ 2 ^ b := pow_le_pow_right₀ (by norm_num) (by omega)
    linarith)
  have hB : (2 : Int) ^ 1 ≤ 2 ^ R := pow_le_pow_right₀ (by norm_num) f.R1
  refine ⟨by rw [e]; simp [zero_len], ?_, by rw [e, fval, zero_val, h1.val]; ring, rfl⟩
  rw [e]
  intro d hd
  simp only [List.mem_cons] at hd
  rcases hd with rfl | hd
  · exact ⟨h1.len, h1.low, by rw [h1.val]; norm_num, by rw [h1.val]; linarith⟩
  · exact zero_canon f k d hd

theorem newton {P U A A0 A1 H w v t c : Int} (hA : A ≡ A0 + P * A1 [ZMOD P * P]) (hH : U * A0 = 1 + P * H)
    (ht : t ≡ H [ZMOD P]) (hc : c ≡ A1 * U [ZMOD P]) (hw : w ≡ (t + c) * U [ZMOD P]) (hv : v ≡ -w [ZMOD P]) :
    (U + P * v) * A ≡ 1 [ZMOD P * P] := by
  obtain ⟨a, ha⟩ := hA.dvd
  obtain ⟨t', ht⟩ := ht.dvd
  obtain ⟨c', hc⟩ := hc.dvd
  obtain ⟨w', hw⟩ := hw.dvd
  obtain ⟨v', hv⟩ := hv.dvd
  have e1 : A = A0 + P * A1 - P * P * a := by linear_combination -ha
  have e2 : t = H - P * t' := by linear_combination -ht
  have e3 : c = A1 * U - P * c' := by linear_combination -hc
  have e4 : w = (t + c) * U - P * w' := by linear_combination -hw
  have e5 : v = -w - P * v' := by linear_combination -hv
  refine Int.modEq_iff_dvd.2 ?_
  -- U A = 1 + P (H + U A1) - P² U a ;  v = -(H + A1 U) U + P z
  obtain ⟨z, hz⟩ : ∃ z, v = -(H + A1 * U) * U + P * z := ⟨(t' + c') * U + w' - v', by rw [e5, e4, e3, e2]; ring⟩
  refine ⟨U * a - z * A + (H + A1 * U) * (H + U * A1) - (H + A1 * U) * P * (U * a), ?_⟩
  have hUA : U * A = 1 + P * (H + U * A1) - P * P * (U * a) := by rw [e1]; linear_combination hH
  rw [hz]
  linear_combination (-(1 : Int) + P * (H + A1 * U)) * hUA

theorem zero_split (n : Nat) {m i : Nat} (h : i ≤ m) : (zero n m : FF C) = zero n i ++ zero n (m - i) := by
  unfold zero
  rw [← List.replicate_add]; congr 1; omega

theorem final_shape {N i : Nat} (hij : 2 * i ≤ N) {u0 w : FF C} (hdig : ∀ d ∈ u0, d.length = n) (hu : u0.length = i)
    (hw : ∀ d ∈ w.take i, d.length = n) (lw : (w.take i).length = i) (hdr : w.drop (2 * i) = zero n (N - 2 * i)) :
    add (u0 ++ zero n (N - i)) (shlw n w i) = (u0 ++ w.take i) ++ zero n (N - 2 * i) := by
  have g1 := add_zero' (n := n) hdig
  rw [hu] at g1
  have g2 := zero_add' (n := n) (x := w.take i) hw
  rw [lw] at g2
  have g3 := zero_add' (n := n) (x := (zero n (N - 2 * i) : FF C)) (fun d hd => by
    rw [List.eq_of_mem_replicate hd]; simp [Big.zero])
  rw [zero_len] at g3
  have hz : (zero n (N - i) : FF C) = zero n i ++ zero n (N - 2 * i) := by
    rw [zero_split n (show i ≤ N - i by omega)]; congr 2; omega
  unfold shlw
  rw [hdr, hz, ← List.append_assoc]
  rw [add_append (x := u0 ++ zero n i) (y := zero n i ++ w.take i) (by rw [List.length_append, List.length_append, zero_len, hu, lw])]
  rw [add_append (x := u0) (y := zero n i) (by rw [hu, zero_len]), g1, g2, g3]

theorem one_shl (f : FOk C b n R) {N i : Nat} (hi0 : 0 < i) (hij : 2 * i ≤ N) :
    shlw n (one n N : FF C) i = zero n i ++ one n i ++ zero n (N - 2 * i) := by
  have o4 := (one_val (C := C) f (show 0 < N by omega)).2.2.2
  have oi := one_val (C := C) f hi0
  have e : (one n N : FF C) = one n i ++ zero n (N - i) := by
    rw [o4, oi.2.2.2, List.append_assoc]
    rw [zero_split n (show i - 1 ≤ N - 1 by omega)]; congr 3; omega
  unfold shlw
  rw [e, List.take_append_of_le_length (by rw [oi.1]), List.take_of_length_le (by rw [oi.1]),
    List.drop_append, oi.1, List.drop_of_length_le (by rw [oi.1]; omega), zero_drop, List.nil_append]
  congr 2; omega

/-! ### The loop -/

set_option maxHeartbeats 1000000 in
theorem inv2Step_ff (f : FOk C b n R) (k j : Nat) (hk : k ≤ 20) (hj : j < k) {a u0 : FF C} {U : Int} (la : a.length = 2 ^ k) (ca : Canon b n R a)
    (hu : LRep b n R (2 ^ j) u0 U) (hUA : U * fval b R a ≡ 1 [ZMOD 2 ^ (R * 2 ^ j)]) :
    ∃ u1 U1, inv2Step b n R k (2 ^ j) a (u0 ++ zero n (2 ^ k - 2 ^ j)) = u1 ++ zero n (2 ^ k - 2 ^ (j + 1)) ∧
      LRep b n R (2 ^ (j + 1)) u1 U1 ∧ U1 * fval b R a ≡ 1 [ZMOD 2 ^ (R * 2 ^ (j + 1))] := by
  have hC : 0 < C := by have := f.ok.hC; omega
  have hfex := f.fex_ge
  have hE' := f.epos
  have hwd := f.word
  have hij : 2 * 2 ^ j ≤ 2 ^ k := by
    rw [← pow_succ']; exact Nat.pow_le_pow_right (by norm_num) hj
  have hi0 : 0 < 2 ^ j := by positivity
  have hkp : 0 < k := by omega
  rw [show 2 ^ (j + 1) = 2 * 2 ^ j by ring]
  have hNk : 2 ^ k = 2 ^ k := rfl
  generalize 2 ^ j = i at *
  generalize hN : 2 ^ k = N at *
  have hP := two_pow_pos' (R * i)
  have hQ := two_pow_pos' (R * N)
  have hP1 : (1 : Int) < 2 ^ (R * i) := by
    have : (2 : Int) ^ 1 ≤ 2 ^ (R * i) := pow_le_pow_right₀ (by norm_num) (Nat.mul_pos f.R1 hi0)
    linarith
  have lu : LRep b n R N (u0 ++ zero n (N - i)) U := by
    have := hu.pad f (m := N - i)
    rwa [show i + (N - i) = N by omega] at this
  have hu0 := lu.dec
  have bU := hu.bounds f
  generalize hud : u0 ++ zero n (N - i) = u at *
  unfold inv2Step
  simp only [la]
  -- low part of `a`
  obtain ⟨b1, b2, b3⟩ := mod2m_spec f ca i (by omega)
  rw [la] at b1
  have l1 := LRep.of_canon f (by omega) b1 b2
  rw [b3] at l1
  have pm := karmul_low f k hk (by rw [hN]; exact lu) (by rw [hN]; exact l1)
  rw [hN] at pm
  have hmul : mul b n R k u (mod2m n a i) = karmul b n R k u (mod2m n a i) := rfl
  rw [hmul]
  generalize karmul b n R k u (mod2m n a i) = t at *
  have a00 := Int.emod_nonneg (fval b R a) hP.ne'
  have a01 := Int.emod_lt_of_pos (fval b R a) hP
  have hA0 : fval b R a % 2 ^ (R * i) ≡ fval b R a [ZMOD 2 ^ (R * i)] := Int.mod_modEq _ _
  have hUA0 : U * (fval b R a % 2 ^ (R * i)) ≡ 1 [ZMOD 2 ^ (R * i)] := (hA0.mul_left U).trans hUA
  have ct : Canon b n R t := by
    refine pm.canon (mul_nonneg bU.1 a00) ?_
    have h1 : U * (fval b R a % 2 ^ (R * i)) ≤ U * 2 ^ (R * i) := mul_le_mul_of_nonneg_left a01.le bU.1
    have h2 : U * 2 ^ (R * i) < (2 * 2 ^ (R * i)) * 2 ^ (R * i) := mul_lt_mul_of_pos_right bU.2 hP
    have h3 : (2 * 2 ^ (R * i)) * (2 : Int) ^ (R * i) = 2 ^ (1 + R * i + R * i) := by rw [pow_add, pow_add]; norm_num
    have h4 : (2 : Int) ^ (1 + R * i + R * i) ≤ 2 ^ (R * (2 * N)) := by
      apply pow_le_pow_right₀ (by norm_num)
      have h5 : R * (4 * i) ≤ R * (2 * N) := Nat.mul_le_mul_left _ (by omega)
      have h6 : 1 ≤ R * i := Nat.mul_pos f.R1 hi0
      have h7 : R * (4 * i) = 4 * (R * i) := by ring
      omega
    linarith
  have lt := pm.len
  have htk : fval b R (t.take i) = 1 := by
    rw [canon_take ct i (by omega), pm.val, hUA0.eq]
    exact Int.emod_eq_of_lt (by norm_num) hP1
  have hts := fval_split (b := b) (R := R) t i (by omega)
  rw [pm.val, htk] at hts
  -- shifted product
  have lsh : (shrw n t i).length = 2 * N := by
    unfold shrw; rw [List.length_append, List.length_append, zero_len, List.length_take, List.length_drop, List.length_drop, lt]; omega
  have csh : Canon b n R ((shrw n t i).take N) := by
    refine Canon.take ?_ N
    unfold shrw
    exact (((ct.drop i).take i).append (zero_canon f i)).append (ct.drop _)
  have lb1 : ((shrw n t i).take N).length = N := by rw [List.length_take, lsh]; omega
  have hb1 : fval b R ((shrw n t i).take N) ≡ fval b R (t.drop i) [ZMOD 2 ^ (R * i)] := by
    have h1 := take_modEq (b := b) (R := R) ((shrw n t i).take N) i (by omega)
    have h2 := take_modEq (b := b) (R := R) (t.drop i) i (by rw [List.length_drop]; omega)
    have h3 : ((shrw n t i).take N).take i = (t.drop i).take i := by
      rw [List.take_take, Nat.min_eq_left (by omega)]
      unfold shrw
      rw [List.append_assoc, List.take_append_of_le_length (by rw [List.length_take, List.length_drop, lt]; omega), List.take_take, Nat.min_self]
    rw [h3] at h1
    exact h1.trans h2.symm
  generalize (shrw n t i).take N = bb1 at *
  -- middle part of `a`
  have lsa : (shrw n a i).length = N := by
    unfold shrw; rw [List.length_append, List.length_append, zero_len, List.length_take, List.length_drop, List.length_drop, la]; omega
  have csa : Canon b n R (shrw n a i) := by
    unfold shrw
    exact (((ca.drop i).take i).append (zero_canon f i)).append (ca.drop _)
  obtain ⟨c1, c2, c3⟩ := mod2m_spec f csa i (by omega)
  rw [lsa] at c1
  have hA1 : fval b R (mod2m n (shrw n a i) i) = fval b R ((a.drop i).take i) := by
    rw [c3, ← canon_take csa i (by omega)]
    congr 1
    unfold shrw
    rw [List.append_assoc, List.take_append_of_le_length (by rw [List.length_take, List.length_drop, la]; omega), List.take_take, Nat.min_self]
  have hA : fval b R a ≡ fval b R a % 2 ^ (R * i) + 2 ^ (R * i) * fval b R (mod2m n (shrw n a i) i) [ZMOD 2 ^ (R * i) * 2 ^ (R * i)] := by
    have h1 := fval_split (b := b) (R := R) a i (by omega)
    have h2 := take_modEq (b := b) (R := R) (a.drop i) i (by rw [List.length_drop]; omega)
    rw [← hA1, ] at h2
    obtain ⟨q, hq⟩ := h2.dvd
    rw [canon_take ca i (by omega)] at h1
    refine Int.modEq_iff_dvd.2 ⟨q, ?_⟩
    linear_combination (2 : Int) ^ (R * i) * hq - h1
  have rc := c2.frep c1
  generalize mod2m n (shrw n a i) i = cc at *
  have bcc := c2.bounds
  rw [c1] at bcc
  have hbig : ∀ {z : Int}, z < 2 * 2 ^ (R * N) → z < 2 * fex b n R * 2 ^ (R * N) := by
    intro z hz
    have : (2 : Int) * 2 ^ (R * N) ≤ 2 * fex b n R * 2 ^ (R * N) := mul_le_mul_of_nonneg_right (by linarith) hQ.le
    linarith
  obtain ⟨m1, m2, m3, m4⟩ := lower_low f k hk (by rw [hN]; exact rc) (by rw [hN]; exact lu) bcc.1 (by rw [hN]; exact hbig (by linarith))
  have m4 := m4 hkp
  rw [hN] at m1 m3
  have hl1 : lmul b n R k cc u = karmulLower b n R k cc u := rfl
  rw [hl1]
  generalize karmulLower b n R k cc u = e1 at *
  obtain ⟨d1, d2, d3⟩ := mod2m_spec f m4 i (by omega)
  rw [m1] at d1
  have hdvd : (2 : Int) ^ (R * i) ∣ 2 ^ (R * N) := pow_dvd_pow 2 (Nat.mul_le_mul_left _ (by omega))
  have hc : fval b R (mod2m n e1 i) ≡ fval b R cc * U [ZMOD 2 ^ (R * i)] := by
    rw [d3]; exact (Int.mod_modEq _ _).trans (m3.of_dvd hdvd)
  generalize mod2m n e1 i = c' at *
  -- sum
  obtain ⟨s1, s2, s3⟩ := add_rng (b := b) (R := R) hC (lb1.trans d1.symm) (csh.rng f) (d2.rng f) (by linarith) (by linarith)
  have ns := norm_frep f _ (ne_of_len (show 0 < N by omega) (s1.trans lb1)) (s2.loose (by unfold wideB; linarith) (by unfold wideB; linarith))
  rw [s1.trans lb1, s3] at ns
  have bb := csh.bounds
  have bc := d2.bounds
  rw [lb1] at bb
  rw [d1] at bc
  generalize norm b R (add bb1 c') = bb2 at *
  obtain ⟨w1, w2, w3, w4⟩ := lower_low f k hk (by rw [hN]; exact ns) (by rw [hN]; exact lu) (by linarith) (by rw [hN]; exact hbig (by linarith))
  have w4 := w4 hkp
  rw [hN] at w1 w3
  have hl2 : lmul b n R k bb2 u = karmulLower b n R k bb2 u := rfl
  rw [hl2]
  generalize karmulLower b n R k bb2 u = e2 at *
  obtain ⟨x1, x2, x3⟩ := mod2m_spec f w4 i (by omega)
  rw [w1] at x1
  have hw : fval b R (mod2m n e2 i) ≡ (fval b R bb1 + fval b R c') * U [ZMOD 2 ^ (R * i)] := by
    rw [x3]; exact (Int.mod_modEq _ _).trans (w3.of_dvd hdvd)
  have w0 : 0 ≤ fval b R (mod2m n e2 i) := by rw [x3]; exact Int.emod_nonneg _ hP.ne'
  have wlt : fval b R (mod2m n e2 i) < 2 ^ (R * i) := by rw [x3]; exact Int.emod_lt_of_pos _ hP
  generalize mod2m n e2 i = bb3 at *
  -- `2^(R i)`
  obtain ⟨o1, o2, o3, o4⟩ := one_val (C := C) f (show 0 < N by omega)
  have hsl : shlw n (one n N : FF C) i = zero n i ++ one n i ++ zero n (N - 2 * i) := one_shl f hi0 hij
  have lo : (shlw n (one n N : FF C) i).length = N := by
    rw [hsl, List.length_append, List.length_append, zero_len, zero_len, (one_val f hi0).1]; omega
  have co : Canon b n R (shlw n (one n N : FF C) i) := by
    rw [hsl]; exact ((zero_canon f i).append (one_val f hi0).2.1).append (zero_canon f _)
  have vo : fval b R (shlw n (one n N : FF C) i) = 2 ^ (R * i) := by
    rw [hsl, fval_append, fval_append, zero_val, zero_val, (one_val f hi0).2.2.1, zero_len]; ring
  have ro := co.frep lo
  rw [vo] at ro
  have rb3 := x2.frep x1
  rw [revsub_eq]
  have hPQ : (2 : Int) ^ (R * i) * 2 ≤ 2 ^ (R * N) := by
    rw [← pow_succ]
    apply pow_le_pow_right₀ (by norm_num)
    have h5 : R * (2 * i) ≤ R * N := Nat.mul_le_mul_left _ hij
    have h6 : 1 ≤ R * i := Nat.mul_pos f.R1 hi0
    have h7 : R * (2 * i) = 2 * (R * i) := by ring
    omega
  have nf := norm_sub_frep f (by omega) ro rb3 hP.le (hbig (by linarith)) w0 (hbig (by linarith))
  generalize norm b R (sub (shlw n (one n N) i) bb3) = bb4 at *
  have c4 : Canon b n R bb4 := nf.canon (by linarith) (by linarith)
  have hdr : bb4.drop (2 * i) = zero n (N - 2 * i) := by
    have := canon_drop_zero f c4 (2 * i) (by rw [nf.len]; omega) (by
      rw [nf.val]
      have : (2 : Int) ^ (R * i) ≤ 2 ^ (R * (2 * i)) := pow_le_pow_right₀ (by norm_num) (Nat.mul_le_mul_left _ (by omega))
      have : (2 : Int) ^ (R * i) * 2 ≤ 2 ^ (R * (2 * i)) := by
        rw [← pow_succ]
        apply pow_le_pow_right₀ (by norm_num)
        have h6 : 1 ≤ R * i := Nat.mul_pos f.R1 hi0
        have h7 : R * (2 * i) = 2 * (R * i) := by ring
        omega
      linarith)
    rwa [nf.len] at this
  have lt4 : (bb4.take i).length = i := by rw [List.length_take, nf.len]; omega
  have hv : fval b R (bb4.take i) ≡ -fval b R bb3 [ZMOD 2 ^ (R * i)] := by
    have h1 := take_modEq (b := b) (R := R) bb4 i (by rw [nf.len]; omega)
    rw [nf.val] at h1
    refine h1.symm.trans (Int.modEq_iff_dvd.2 ⟨-1, by ring⟩)
  have hdig : ∀ d ∈ u0, d.length = n := by
    obtain ⟨d, ds, e, hc, hl, -⟩ := hu.dec
    rw [e]; intro z hz
    simp only [List.mem_cons] at hz
    rcases hz with rfl | hz
    · exact hl
    · exact (hc z hz).len
  have hfin : add u (shlw n bb4 i) = (u0 ++ bb4.take i) ++ zero n (N - 2 * i) := by
    rw [← hud]
    exact final_shape hij hdig hu.len (fun d hd => ((c4.take i) d hd).len) lt4 hdr
  refine ⟨u0 ++ bb4.take i, U + 2 ^ (R * i) * fval b R (bb4.take i), hfin, ⟨?_, ?_, ?_⟩, ?_⟩
  · rw [List.length_append, hu.len, lt4]; ring
  · rw [fval_append, hu.val, hu.len]
  · obtain ⟨d, ds, e, hc, hl, hN', h0, h1⟩ := hu.dec
    exact ⟨d, ds ++ bb4.take i, by rw [e]; rfl, hc.append (c4.take i), hl, hN', h0, h1⟩
  · rw [pow_two_mul]
    exact newton hA hts hb1 hc hw hv

theorem inv2Loop_ff (f : FOk C b n R) (hR8 : 8 < R) (k : Nat) (hk : k ≤ 20) {a : FF C} (la : a.length = 2 ^ k) (ca : Canon b n R a)
    (hodd : fval b R a % 2 = 1) (j : Nat) (hj : j ≤ k) :
    ∃ u U, inv2Loop b n R k a j = u ++ zero n (2 ^ k - 2 ^ j) ∧ LRep b n R (2 ^ j) u U ∧ U * fval b R a ≡ 1 [ZMOD 2 ^ (R * 2 ^ j)] := by
  induction j with
  | zero =>
    have hn := f.hn
    obtain ⟨d, ds, e⟩ : ∃ d ds, a = d :: ds := by
      cases a with
      | nil => have : 0 < 2 ^ k := by positivity
               simp at la; omega
      | cons d ds => exact ⟨d, ds, rfl⟩
    have hd := ca d (by rw [e]; simp)
    have hp := f.pow_lt
    have hB := f.Bpos
    have h0 := hd.nonneg
    have h1 := hd.lt
    have hlt : limbsVal b d < 2 ^ (b * n) := by linarith
    have hcg := cap_ge (C := C) (n := n) f.ok (by omega)
    have hcp := cap_pos C b n
    have hN := hd.rep.norm f.ok (by omega) (by omega) (by omega)
    have hB2 : (2 : Int) ^ R = 2 * 2 ^ (R - 1) := by rw [← pow_succ']; congr 1; omega
    have hod : limbsVal b d % 2 = 1 := by
      rw [e, fval, hB2, mul_assoc, Int.add_mul_emod_self_left] at hodd; exact hodd
    obtain ⟨V, v1, v2⟩ := invmod2m_spec (BB := R) f.ok hn hN h0 hlt hod (by have := f.hf; omega) hR8
    obtain ⟨v3, v4⟩ := invmod2m_bound f hR8 hN h0 hlt hod v1
    refine ⟨[Big.invmod2m b R d], V, ?_, ⟨rfl, by simp [fval, v1.val], ⟨_, [], rfl, by intro x hx; simp at hx, v1.len, v1.low, by rw [v1.val]; exact v3, by rw [v1.val]; exact v4⟩⟩, ?_⟩
    · rw [inv2Loop, la, pow_zero, e]; rfl
    · rw [pow_zero, mul_one, e, fval]
      have : limbsVal b d + 2 ^ R * fval b R ds ≡ limbsVal b d [ZMOD 2 ^ R] := Int.modEq_iff_dvd.2 ⟨-fval b R ds, by ring⟩
      exact (this.mul_left V).trans v2
  | succ j ih =>
    obtain ⟨u, U, e, h1, h2⟩ := ih (by omega)
    rw [inv2Loop, e]
    exact inv2Step_ff f k j hk (by omega) la ca h1 h2

theorem invmod2m_ff (f : FOk C b n R) (hR8 : 8 < R) (k : Nat) (hk : k ≤ 20) {a : FF C} (la : a.length = 2 ^ k) (ca : Canon b n R a)
    (hodd : fval b R a % 2 = 1) :
    ∃ M, FRep b n R (2 ^ k) (invmod2m b n R k a) M ∧ 0 ≤ M ∧ M < 2 * 2 ^ (R * 2 ^ k) ∧ M * fval b R a ≡ 1 [ZMOD 2 ^ (R * 2 ^ k)] := by
  obtain ⟨u, U, e, h1, h2⟩ := inv2Loop_ff f hR8 k hk la ca hodd k le_rfl
  have hE' := f.epos
  have hb := h1.bounds f
  refine ⟨U, ?_, hb.1, hb.2, h2⟩
  unfold invmod2m
  rw [e, Nat.sub_self, show (zero n 0 : FF C) = [] from rfl, List.append_nil]
  have := norm_frep f u (ne_of_len (by positivity) h1.len) ((h1.rng f).loose (by unfold wideB; linarith) (by unfold wideB; linarith))
  rwa [h1.len, h1.val] at this

end Verif.Ff
