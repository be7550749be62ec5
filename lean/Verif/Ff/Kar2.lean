import Verif.Ff.Kar
import Mathlib.Data.Int.ModEq

/-! The other Karatsuba routines (`karsqr`, `karmul_lower`, `karmul_upper`) and `reduce`. -/
namespace Verif.Ff
open Spec Verif.Big

variable {C b n R : Nat}

theorem ne_of_len {u : FF C} {h : Nat} (hh : 0 < h) (hu : u.length = h) : u ≠ [] := by
  intro e; rw [e] at hu; simp at hu; omega

theorem pow_two_mul (R h : Nat) : (2 : Int) ^ (R * (2 * h)) = 2 ^ (R * h) * 2 ^ (R * h) := by
  rw [show R * (2 * h) = R * h + R * h by ring, pow_add]

/-! ### Squaring -/

/-- a normalised digit in `[0, β * 2^R)` -/
structure SemiD (b n R : Nat) (β : Int) (d : Limbs C) : Prop where
  len : d.length = n
  low : Normal b d
  nonneg : 0 ≤ limbsVal b d
  lt : limbsVal b d < β * 2 ^ R

theorem SemiD.mono {β γ : Int} (h : β ≤ γ) {d : Limbs C} (hd : SemiD b n R β d) : SemiD b n R γ d :=
  ⟨hd.len, hd.low, hd.nonneg, lt_of_lt_of_le hd.lt (mul_le_mul_of_nonneg_right h (two_pow_pos' R).le)⟩

theorem SemiD.rep {β : Int} {d : Limbs C} (hd : SemiD b n R β d) : Rep b n d (limbsVal b d) := ⟨hd.len, hd.low, rfl⟩

theorem semi_bound {β : Int} (hR : 1 ≤ R) (hβ : 0 ≤ β) (xs : FF C) (h : ∀ d ∈ xs, SemiD b n R β d) :
    0 ≤ fval b R xs ∧ fval b R xs ≤ β * (2 * 2 ^ (R * xs.length) - 2) := by
  have hB : (2 : Int) ≤ 2 ^ R := by
    calc (2 : Int) = 2 ^ 1 := by norm_num
      _ ≤ 2 ^ R := pow_le_pow_right₀ (by norm_num) hR
  induction xs with
  | nil => simp [fval]
  | cons d ds ih =>
    obtain ⟨i1, i2⟩ := ih (fun x hx => h x (by simp [hx]))
    have hd := h d (by simp)
    have h1 := hd.nonneg
    have h2 := hd.lt
    simp only [fval, List.length_cons]
    rw [show R * (ds.length + 1) = R + R * ds.length by ring, pow_add]
    generalize (2 : Int) ^ R = B at *
    generalize (2 : Int) ^ (R * ds.length) = P at *
    refine ⟨by nlinarith, ?_⟩
    have h3 : B * fval b R ds ≤ B * (β * (2 * P - 2)) := mul_le_mul_of_nonneg_left i2 (by omega)
    have h4 : β * 2 ≤ β * B := mul_le_mul_of_nonneg_left hB hβ
    nlinarith

theorem FRep.semi {m : Nat} {x : FF C} {V β : Int} (hβ : 1 ≤ β) (h : FRep b n R m x V) (h0 : 0 ≤ V) (h1 : V < β * 2 ^ (R * m)) :
    ∀ d ∈ x, SemiD b n R β d := by
  cases m with
  | zero => intro d hd; have := h.len; simp at this; simp [this] at hd
  | succ m =>
    obtain ⟨ds, d, e, hl, hc, hr⟩ := h.top
    intro d' hd'
    rw [e] at hd'
    rcases List.mem_append.1 hd' with h2 | h2
    · have := hc d' h2
      exact SemiD.mono hβ ⟨this.len, this.low, this.nonneg, by rw [one_mul]; exact this.lt⟩
    · simp at h2
      rw [h2]
      refine ⟨hr.len, hr.low, by rw [hr.val]; exact Int.ediv_nonneg h0 (two_pow_pos' _).le, ?_⟩
      rw [hr.val]; apply Int.ediv_lt_of_lt_mul (two_pow_pos' _); rw [mul_assoc, ← pow_add, show R + R * m = R * (m + 1) by ring]; exact h1

theorem semi_rng (f : FOk C b n R) {β : Int} (hβ : β ≤ 2 * fex b n R) {xs : FF C} (h : ∀ d ∈ xs, SemiD b n R β d) :
    FRng n 0 (4 * 2 ^ (b - 2)) xs := by
  intro d hd
  have hs := h d hd
  exact ⟨hs.len, digit_rng f hs.rep hs.nonneg hs.lt le_rfl (by linarith)⟩

theorem FOk.R1 (f : FOk C b n R) : 1 ≤ R := by
  have h1 := f.hT
  by_contra h
  have : R = 0 := by omega
  rw [this] at h1; simp at h1

/-- the shape of the result of `karsqr`: non-negative digits, all but the last below `β * 2^R` -/
def SqShape (b n R m : Nat) (β V : Int) (z : FF C) : Prop :=
  ∃ ds d, z = ds ++ [d] ∧ ds.length + 1 = m ∧ (∀ u ∈ ds, SemiD b n R β u) ∧
      d.length = n ∧ Normal b d ∧ 0 ≤ limbsVal b d ∧ fval b R z = V

/-- the last digit is bounded by the value -/
theorem SqShape.last (f : FOk C b n R) {m : Nat} {β V G : Int} (hβ : 0 ≤ β) {ds : FF C} {d : Limbs C} (l : ds.length + 1 = m)
    (s : ∀ u ∈ ds, SemiD b n R β u) (v : fval b R (ds ++ [d]) = V) (hV : V < G * 2 ^ (R * m)) : limbsVal b d < G * 2 ^ R := by
  have hb0 := (semi_bound (b := b) (n := n) f.R1 hβ ds s).1
  have hv : fval b R ds + 2 ^ (R * ds.length) * limbsVal b d = V := by
    rw [← v, fval_append]; simp [fval]
  have hlt : G * 2 ^ (R * m) = 2 ^ (R * ds.length) * (G * 2 ^ R) := by
    rw [show R * m = R * ds.length + R by rw [← l]; ring, pow_add]; ring
  exact lt_of_mul_lt_mul_left (by linarith) (two_pow_pos' (R * ds.length)).le

theorem sqr_step (f : FOk C b n R) {h : Nat} (hh : 0 < h) {z0 z1 t : FF C} {β E X0 X1 : Int} (hβ1 : 1 ≤ β) (hβF : β ≤ 2 * fex b n R) (hEF : E ≤ 2 * fex b n R)
    (q0 : SqShape b n R (2 * h) β (X0 * X0) z0) (q1 : SqShape b n R (2 * h) β (X1 * X1) z1) (pt : FRep b n R (2 * h) t (X0 * X1))
    (x00 : 0 ≤ X0) (x01 : X0 < 2 ^ (R * h)) (x10 : 0 ≤ X1) (x11 : X1 < E * 2 ^ (R * h)) (hE1 : 1 ≤ E) :
    SqShape b n R (2 * (2 * h)) (2 * β + 2 * E) ((X0 + 2 ^ (R * h) * X1) * (X0 + 2 ^ (R * h) * X1))
      ((z0 ++ z1).take h ++ norm b R (add (add (((z0 ++ z1).drop h).take (2 * h)) t) t) ++ (z0 ++ z1).drop (3 * h)) := by
  have hC : 0 < C := by have := f.ok.hC; omega
  obtain ⟨ds0, d0, e0, l0, s0, n0, N0, nn0, v0⟩ := q0
  obtain ⟨ds1, d1, e1, l1, s1, n1, N1, nn1, v1⟩ := q1
  have hP := two_pow_pos' (R * h)
  have hE' := f.epos
  have hwd := f.word
  have hβ0 : 0 ≤ β := by linarith
  -- all digits of the low square
  have hz0 : ∀ u ∈ z0, SemiD b n R β u := by
    rw [e0]
    intro u hu
    rcases List.mem_append.1 hu with hu | hu
    · exact s0 u hu
    · simp at hu
      rw [hu]
      refine SemiD.mono hβ1 ⟨n0, N0, nn0, ?_⟩
      refine SqShape.last f hβ0 l0 s0 (e0 ▸ v0) ?_
      rw [pow_two_mul, one_mul]
      exact mul_lt_mul'' x01 x01 x00 x00
  have lz0 : z0.length = 2 * h := by rw [e0]; simpa using l0
  have lz1 : z1.length = 2 * h := by rw [e1]; simpa using l1
  have hzl : (z0 ++ z1).length = 4 * h := by rw [List.length_append, lz0, lz1]; ring
  have hmid : ((z0 ++ z1).drop h).take (2 * h) = z0.drop h ++ z1.take h := by
    rw [List.drop_append_of_le_length (by rw [lz0]; omega)]
    rw [List.take_append, List.take_of_length_le (by simp [lz0])]
    congr 2; simp [lz0]; omega
  have htk : (z0 ++ z1).take h = z0.take h := by rw [List.take_append_of_le_length (by omega)]
  have hdr : (z0 ++ z1).drop (3 * h) = ds1.drop h ++ [d1] := by
    rw [List.drop_append, List.drop_of_length_le (by omega), List.nil_append, lz0, show 3 * h - 2 * h = h by omega, e1,
      List.drop_append_of_le_length (by omega)]
  have sm : ∀ u ∈ ((z0 ++ z1).drop h).take (2 * h), SemiD b n R β u := by
    rw [hmid]
    intro u hu
    rcases List.mem_append.1 hu with hu | hu
    · exact hz0 u (List.mem_of_mem_drop hu)
    · rw [e1, List.take_append_of_le_length (by omega)] at hu
      exact s1 u (List.mem_of_mem_take hu)
  have lm : (((z0 ++ z1).drop h).take (2 * h)).length = 2 * h := by simp [lz0, lz1]; omega
  have gm := semi_rng f hβF sm
  have bt : X0 * X1 < E * 2 ^ (R * (2 * h)) := by
    rw [pow_two_mul]
    calc X0 * X1 ≤ 2 ^ (R * h) * X1 := mul_le_mul_of_nonneg_right x01.le x10
      _ < 2 ^ (R * h) * (E * 2 ^ (R * h)) := mul_lt_mul_of_pos_left x11 hP
      _ = _ := by ring
  have bt0 : 0 ≤ X0 * X1 := mul_nonneg x00 x10
  have gt := pt.rng f (by omega) (K := 4) bt0 bt le_rfl (by linarith)
  obtain ⟨a1, a2, a3⟩ := add_rng (b := b) (R := R) hC (lm.trans pt.len.symm) gm gt (by linarith) (by linarith)
  obtain ⟨a4, a5, a6⟩ := add_rng (b := b) (R := R) hC ((a1.trans lm).trans pt.len.symm) a2 gt (by linarith) (by linarith)
  have nm := norm_frep f _ (ne_of_len (show 0 < 2 * h by omega) ((a4.trans a1).trans lm)) (a5.loose (by unfold wideB; linarith) (by unfold wideB; linarith))
  rw [(a4.trans a1).trans lm, a6, a3, pt.val] at nm
  have hmb := semi_bound (b := b) (n := n) f.R1 hβ0 _ sm
  rw [lm] at hmb
  have sn := nm.semi (β := 2 * β + 2 * E) (by linarith) (by linarith) (by
    have e : β * (2 * 2 ^ (R * (2 * h)) - 2) = 2 * β * 2 ^ (R * (2 * h)) - 2 * β := by ring
    have e2 : (2 * β + 2 * E) * 2 ^ (R * (2 * h)) = 2 * β * 2 ^ (R * (2 * h)) + 2 * (E * 2 ^ (R * (2 * h))) := by ring
    rw [e2]; linarith)
  refine ⟨z0.take h ++ norm b R (add (add (((z0 ++ z1).drop h).take (2 * h)) t) t) ++ ds1.drop h, d1, ?_, ?_, ?_, n1, N1, nn1, ?_⟩
  · rw [htk, hdr]; simp
  · simp only [List.length_append, nm.len, List.length_take, List.length_drop, lz0]; omega
  · intro u hu
    rcases List.mem_append.1 hu with hu | hu
    · rcases List.mem_append.1 hu with hu | hu
      · exact (hz0 u (List.mem_of_mem_take hu)).mono (by linarith)
      · exact sn u hu
    · exact (s1 u (List.mem_of_mem_drop hu)).mono (by linarith)
  · rw [fval_mid _ _ hzl nm.len, nm.val, fval_append, v0, v1, lz0, pow_two_mul]
    ring

theorem karsqr_spec (f : FOk C b n R) (k : Nat) {x : FF C} {X E : Int} (hx : FRep b n R (2 ^ k) x X)
    (hX0 : 0 ≤ X) (hX : X < E * 2 ^ (R * 2 ^ k))
    (hE : 4 * ((E + k) * (E + k)) ≤ 17 * fex b n R) (hβ : 2 ^ k * (1 + 2 * E) ≤ 2 * fex b n R) :
    SqShape b n R (2 * 2 ^ k) (2 ^ k * (1 + 2 * E) - 2 * E) (X * X) (karsqr b n R k x) := by
  have hE1 : 1 ≤ E := by
    by_contra hc
    have hP := two_pow_pos' (R * 2 ^ k)
    have : E * 2 ^ (R * 2 ^ k) ≤ 0 := mul_nonpos_of_nonpos_of_nonneg (by omega) hP.le
    omega
  induction k generalizing x X E with
  | zero =>
    simp only [pow_zero, mul_one, Nat.cast_zero, add_zero, one_mul] at *
    obtain ⟨xs, d, rfl, hl, -, hd⟩ := hx.top (m := 0)
    obtain rfl : xs = [] := List.eq_nil_of_length_eq_zero hl
    simp only [mul_zero, pow_zero, Int.ediv_one] at hd
    have hB := two_pow_pos' R
    have hW := f.fex2
    have hE0 : 0 < E := by omega
    have hdd := hd.digits hX0 (lt_of_lt_of_le hX (by rw [← hW]; exact mul_le_mul_of_nonneg_right (by linarith) hB.le))
    obtain ⟨m1, m2, m3⟩ := sqr_spec f.ok hdd (by rw [hd.len]; exact f.hn) (by rw [hd.len]; exact f.fits)
    rw [hd.val] at m3
    rw [hd.len] at m1
    have := splitDigits_spec f m1 m2 m3 (by
      have h1 : X * X ≤ (E * 2 ^ R) * (E * 2 ^ R) := mul_le_mul hX.le hX.le hX0 (by positivity)
      have h2 : 4 * (E * E) * (2 ^ R * 2 ^ R) ≤ 17 * fex b n R * (2 ^ R * 2 ^ R) := mul_le_mul_of_nonneg_right hE (by positivity)
      have h4 := f.fex_ge
      have h5 : 0 < fex b n R * (2 ^ R * 2 ^ R) := by positivity
      have h6 : 2 ^ R * (4 * 2 ^ (b * n)) = 8 * (fex b n R * (2 ^ R * 2 ^ R)) := by rw [← hW]; ring
      rw [h6]
      linarith)
    have e : karsqr b n R 0 ([] ++ [d]) = splitDigits b n R (Big.sqr b d) := by simp [karsqr, dig]
    rw [e]
    obtain ⟨ds, d', e1, l1, c1, r1⟩ := this.top (m := 1)
    refine ⟨ds, d', e1, by omega, ?_, r1.len, r1.low, ?_, this.val⟩
    · intro u hu
      have := c1 u hu
      exact SemiD.mono (show (1 : Int) ≤ _ by linarith) ⟨this.len, this.low, this.nonneg, by rw [one_mul]; exact this.lt⟩
    · rw [r1.val]; exact Int.ediv_nonneg (mul_nonneg hX0 hX0) (two_pow_pos' _).le
  | succ k ih =>
    have hh : 0 < 2 ^ k := by positivity
    have hpk : (1 : Int) ≤ 2 ^ k := one_le_pow₀ (by norm_num)
    rw [show (2 : Int) ^ (k + 1) = 2 * 2 ^ k by ring] at hβ ⊢
    rw [show 2 ^ (k + 1) = 2 * 2 ^ k by ring] at hx hX ⊢
    have hk : ((k + 1 : Nat) : Int) = k + 1 := by push_cast; ring
    rw [hk] at hE
    obtain ⟨X0, X1, lx0, cx0, vx0, rx1, eX, x00, x01, x10, x11⟩ := hx.halves hh hX0 hX
    have r0x := cx0.frep lx0
    rw [vx0] at r0x
    have hk0 : (0 : Int) ≤ k := by positivity
    have hfex := f.fex_ge
    have hEk : 4 * ((E + k) * (E + k)) ≤ 17 * fex b n R :=
      le_trans (mul_le_mul_of_nonneg_left (mul_le_mul (by linarith) (by linarith) (by linarith) (by linarith)) (by norm_num)) hE
    generalize hQ : (2 : Int) ^ k = Q at *
    have hQE : Q ≤ Q * E := le_mul_of_one_le_right (by linarith) hE1
    have hEQ : E ≤ Q * E := le_mul_of_one_le_left (by linarith) hpk
    have hβk : Q * (1 + 2 * E) ≤ 2 * fex b n R := by
      have : 0 ≤ Q * (1 + 2 * E) := by positivity
      linarith
    have hkF : E + k ≤ 2 * fex b n R := by
      by_contra hc
      have h1 : (256 : Int) * (E + k) ≤ (E + k) * (E + k) := mul_le_mul_of_nonneg_right (by linarith) (by linarith)
      linarith
    have q0 := ih (E := 1) r0x x00 (by linarith)
      (le_trans (mul_le_mul_of_nonneg_left (mul_le_mul (by linarith) (by linarith) (by linarith) (by linarith)) (by norm_num)) hEk)
      (by linarith) le_rfl
    have q1 := ih (E := E) rx1 x10 x11 hEk hβk hE1
    have pt := karmul_spec f k (Ex := 1) (Ey := E) r0x rx1 x00 (by linarith) x10 x11
      (le_trans (mul_le_mul_of_nonneg_left (mul_le_mul (by linarith) (by linarith) (by linarith) (by linarith)) (by norm_num)) hEk)
      (by linarith) hkF
    have q0' : SqShape b n R (2 * 2 ^ k) (Q * (1 + 2 * E) - 2 * E) (X0 * X0) (karsqr b n R k (x.take (2 ^ k))) := by
      obtain ⟨ds, d, g1, g2, g3, g4⟩ := q0
      refine ⟨ds, d, g1, g2, fun u hu => (g3 u hu).mono ?_, g4⟩
      have : 0 ≤ (Q - 1) * (E - 1) := mul_nonneg (by linarith) (by linarith)
      linarith
    have hfin := sqr_step f hh (β := Q * (1 + 2 * E) - 2 * E) (E := E) (by linarith) (by linarith) (by linarith) q0' q1 pt x00 x01 x10 x11 hE1
    rw [← eX] at hfin
    unfold karsqr
    simp only
    have eβ : 2 * (Q * (1 + 2 * E) - 2 * E) + 2 * E = 2 * Q * (1 + 2 * E) - 2 * E := by ring
    rw [eβ] at hfin
    exact hfin

/-- `FF::sqr` followed by `norm`, as `modsqr` does -/
theorem sqr_norm_spec (f : FOk C b n R) (k : Nat) {x : FF C} {X E : Int} (hx : FRep b n R (2 ^ k) x X)
    (hX0 : 0 ≤ X) (hX : X < E * 2 ^ (R * 2 ^ k))
    (hE : 4 * ((E + k) * (E + k)) ≤ 17 * fex b n R) (hβ : 2 ^ k * (1 + 2 * E) ≤ 2 * fex b n R) :
    FRep b n R (2 * 2 ^ k) (norm b R (sqr b n R k x)) (X * X) := by
  have hP := two_pow_pos' (R * 2 ^ k)
  have hE1 : 1 ≤ E := by
    by_contra hc
    have : E * 2 ^ (R * 2 ^ k) ≤ 0 := mul_nonpos_of_nonpos_of_nonneg (by omega) hP.le
    omega
  have hk0 : (0 : Int) ≤ k := by positivity
  have hE' := f.epos
  have hfex := f.fex_ge
  have hQ : (1 : Int) ≤ 2 ^ k := one_le_pow₀ (by norm_num)
  obtain ⟨ds, d, e, l, s, n0, N0, nn0, v⟩ := karsqr_spec f k hx hX0 hX hE hβ
  have hd := SqShape.last f (G := E * E) (by nlinarith) l s (e ▸ v) (by
    rw [pow_two_mul]
    calc X * X < (E * 2 ^ (R * 2 ^ k)) * (E * 2 ^ (R * 2 ^ k)) := mul_lt_mul'' hX hX hX0 hX0
      _ = _ := by ring)
  have hEE : 4 * (E * E) ≤ 2 * fex b n R * 9 := by
    have : E * E ≤ (E + k) * (E + k) := mul_le_mul (by linarith) (by linarith) (by linarith) (by linarith)
    linarith
  have g : FRng n 0 (9 * 2 ^ (b - 2)) (ds ++ [d]) := by
    refine ((semi_rng f (by linarith) s).mono le_rfl (by linarith)).append ?_
    intro d' hd'
    simp at hd'
    rw [hd']
    exact ⟨n0, digit_rng f ⟨n0, N0, rfl⟩ nn0 hd (by norm_num) hEE⟩
  have hl : (karsqr b n R k x).length = 2 * 2 ^ k := by rw [e]; simpa using l
  rw [← e] at g
  have := norm_frep f (karsqr b n R k x) (ne_of_len (show 0 < 2 * 2 ^ k by positivity) hl) (g.loose (by unfold wideB; linarith) (by unfold wideB; linarith))
  rwa [hl, v] at this

/-! ### Lower half -/

theorem lower_spec (f : FOk C b n R) (k : Nat) (hk : k ≤ 20) {x y : FF C} {X Y : Int} (hx : FRep b n R (2 ^ k) x X) (hy : FRep b n R (2 ^ k) y Y)
    (hX0 : 0 ≤ X) (hX : X < (2 * fex b n R) * 2 ^ (R * 2 ^ k)) (hY0 : 0 ≤ Y) (hY : Y < (2 * fex b n R) * 2 ^ (R * 2 ^ k)) :
    (karmulLower b n R k x y).length = 2 ^ k ∧ FRng n 0 (4 * 2 ^ (b - 2)) (karmulLower b n R k x y) ∧
    fval b R (karmulLower b n R k x y) ≡ X * Y [ZMOD 2 ^ (R * 2 ^ k)] ∧ (0 < k → Canon b n R (karmulLower b n R k x y)) := by
  have hC : 0 < C := by have := f.ok.hC; omega
  have hfex := f.fex_ge
  induction k generalizing x y X Y with
  | zero =>
    simp only [pow_zero, mul_one] at *
    obtain ⟨xs, d, rfl, hl, -, hd⟩ := hx.top (m := 0)
    obtain ⟨ys, e, rfl, hl', -, he⟩ := hy.top (m := 0)
    obtain rfl : xs = [] := List.eq_nil_of_length_eq_zero hl
    obtain rfl : ys = [] := List.eq_nil_of_length_eq_zero hl'
    simp only [mul_zero, pow_zero, Int.ediv_one] at hd he
    have hW := f.fex2
    have hdd := hd.digits hX0 (by rw [← hW]; exact hX)
    have hed := he.digits hY0 (by rw [← hW]; exact hY)
    obtain ⟨m1, m2, m3⟩ := smul_spec f.ok hdd hed (hd.len.trans he.len.symm)
    rw [hd.val, he.val, hd.len] at m3
    rw [hd.len] at m1
    have e' : karmulLower b n R 0 ([] ++ [d]) ([] ++ [e]) = [Big.smul b d e] := by simp [karmulLower, dig]
    rw [e']
    have hb := f.ok.hb
    have e4 : (4 : Int) * 2 ^ (b - 2) = 2 ^ b := by
      rw [show (4 : Int) = 2 ^ 2 by norm_num, ← pow_add]; congr 1; omega
    refine ⟨rfl, ?_, ?_, by simp⟩
    · intro u hu
      simp at hu
      rw [hu]
      exact ⟨m1, fun z hz => by have := m2 z hz; rw [e4]; omega⟩
    · simp only [fval, mul_zero, add_zero, m3]
      have hd2 : (2 : Int) ^ R ∣ 2 ^ (b * n) := pow_dvd_pow 2 (by have := f.hf; omega)
      exact (Int.mod_modEq _ _).of_dvd hd2
  | succ k ih =>
    have hh : 0 < 2 ^ k := by positivity
    rw [show 2 ^ (k + 1) = 2 * 2 ^ k by ring] at hx hy hX hY ⊢
    obtain ⟨X0, X1, lx0, cx0, vx0, rx1, eX, x00, x01, x10, x11⟩ := hx.halves hh hX0 hX
    obtain ⟨Y0, Y1, ly0, cy0, vy0, ry1, eY, y00, y01, y10, y11⟩ := hy.halves hh hY0 hY
    have r0x := cx0.frep lx0
    rw [vx0] at r0x
    have r0y := cy0.frep ly0
    rw [vy0] at r0y
    have hP := two_pow_pos' (R * 2 ^ k)
    have hE' := f.epos
    have hwd := f.word
    have hk0 : (0 : Int) ≤ k := by positivity
    have hk20 : (k : Int) ≤ 20 := by have : k ≤ 20 := by omega
                                     exact_mod_cast this
    have hbig : ∀ {a : Int}, a < 2 ^ (R * 2 ^ k) → a < 2 * fex b n R * 2 ^ (R * 2 ^ k) := by
      intro a ha
      have : (1 : Int) * 2 ^ (R * 2 ^ k) ≤ 2 * fex b n R * 2 ^ (R * 2 ^ k) := mul_le_mul_of_nonneg_right (by linarith) hP.le
      linarith
    have p0 := karmul_spec f k (Ex := 1) (Ey := 1) r0x r0y x00 (by linarith) y00 (by linarith) (by
      have : (1 + (k : Int)) * (1 + k) ≤ 21 * 21 := mul_le_mul (by linarith) (by linarith) (by linarith) (by linarith)
      linarith) (by linarith) (by linarith)
    obtain ⟨t1, t2, t3, -⟩ := ih (by omega) rx1 r0y x10 x11 y00 (hbig y01)
    obtain ⟨u1, u2, u3, -⟩ := ih (by omega) r0x ry1 x00 (hbig x01) y10 y11
    unfold karmulLower
    simp only
    generalize karmul b n R k (x.take (2 ^ k)) (y.take (2 ^ k)) = z at *
    generalize karmulLower b n R k ((x.drop (2 ^ k)).take (2 ^ k)) (y.take (2 ^ k)) = t at *
    generalize karmulLower b n R k (x.take (2 ^ k)) ((y.drop (2 ^ k)).take (2 ^ k)) = u at *
    generalize 2 ^ k = h at *
    have c0 := p0.canon (mul_nonneg x00 y00) (by rw [pow_two_mul]; exact mul_lt_mul'' x01 y01 x00 y00)
    have lz : (z.drop h).length = h := by rw [List.length_drop, p0.len]; omega
    obtain ⟨a1, a2, a3⟩ := add_rng (b := b) (R := R) hC (lz.trans t1.symm) ((c0.drop h).rng f) t2 (by linarith) (by linarith)
    obtain ⟨a4, a5, a6⟩ := add_rng (b := b) (R := R) hC ((a1.trans lz).trans u1.symm) a2 u2 (by linarith) (by linarith)
    obtain ⟨n1, n2, n3⟩ := normT_canon f _ (ne_of_len hh ((a4.trans a1).trans lz)) (a5.loose (by unfold wideB; linarith) (by unfold wideB; linarith))
    rw [(a4.trans a1).trans lz] at n1 n3
    have hcan : Canon b n R (z.take h ++ normT b R (add (add (z.drop h) t) u)) := (c0.take h).append n2
    have lt : (z.take h).length = h := by rw [List.length_take, p0.len]; omega
    refine ⟨by rw [List.length_append, n1, lt]; omega, hcan.rng f, ?_, fun _ => hcan⟩
    rw [fval_append, lt, n3, a6, a3]
    have hs := fval_split (b := b) (R := R) z h (by rw [p0.len]; omega)
    rw [p0.val] at hs
    obtain ⟨q1, hq1⟩ := t3.dvd
    obtain ⟨q2, hq2⟩ := u3.dvd
    rw [pow_two_mul, eX, eY]
    have hm := Int.emod_add_mul_ediv (fval b R (z.drop h) + fval b R t + fval b R u) (2 ^ (R * h))
    generalize (fval b R (z.drop h) + fval b R t + fval b R u) / 2 ^ (R * h) = Q at *
    generalize (fval b R (z.drop h) + fval b R t + fval b R u) % 2 ^ (R * h) = M at *
    generalize (2 : Int) ^ (R * h) = P at *
    refine Int.modEq_iff_dvd.2 ⟨X1 * Y1 + q1 + q2 + Q, ?_⟩
    linear_combination hs + P * hq1 + P * hq2 - P * hm

/-! ### Upper half -/

set_option maxHeartbeats 800000 in
theorem upper_spec (f : FOk C b n R) (k : Nat) (hk : k ≤ 19) {z x y : FF C} {X Y : Int}
    (lz : z.length = 2 * 2 ^ k) (cz : Canon b n R z) (lx : x.length = 2 * 2 ^ k) (cx : Canon b n R x) (ly : y.length = 2 * 2 ^ k) (cy : Canon b n R y)
    (vx : fval b R x = X) (vy : fval b R y = Y) (hz : fval b R z ≡ X * Y [ZMOD 2 ^ (R * (2 * 2 ^ k))]) :
    (karmulUpper b n R k z x y).length = 4 * 2 ^ k ∧ FRng n 0 (4 * 2 ^ (b - 2)) ((karmulUpper b n R k z x y).drop (2 * 2 ^ k)) ∧
    fval b R ((karmulUpper b n R k z x y).drop (2 * 2 ^ k)) = X * Y / 2 ^ (R * (2 * 2 ^ k)) := by
  have hC : 0 < C := by have := f.ok.hC; omega
  have hfex := f.fex_ge
  have hh : 0 < 2 ^ k := by positivity
  have bx := cx.bounds
  have by' := cy.bounds
  rw [lx, vx] at bx
  rw [ly, vy] at by'
  have hx := cx.frep lx
  rw [vx] at hx
  have hy := cy.frep ly
  rw [vy] at hy
  have hE' := f.epos
  have hwd := f.word
  have hk0 : (0 : Int) ≤ k := by positivity
  have hk20 : (k : Int) ≤ 19 := by exact_mod_cast hk
  obtain ⟨X0, X1, lx0, cx0, vx0, rx1, eX, x00, x01, x10, x11⟩ := hx.halves hh (E := 1) bx.1 (by linarith)
  obtain ⟨Y0, Y1, ly0, cy0, vy0, ry1, eY, y00, y01, y10, y11⟩ := hy.halves hh (E := 1) by'.1 (by linarith)
  rw [one_mul] at x11 y11
  have r0x := cx0.frep lx0
  rw [vx0] at r0x
  have r0y := cy0.frep ly0
  rw [vy0] at r0y
  have cx1 := rx1.canon x10 x11
  have cy1 := ry1.canon y10 y11
  obtain ⟨sx1, sx2, sx3⟩ := add_rng (b := b) (R := R) hC (lx0.trans rx1.len.symm) (cx0.rng f) (cx1.rng f) (by linarith) (by linarith)
  obtain ⟨sy1, sy2, sy3⟩ := add_rng (b := b) (R := R) hC (ly0.trans ry1.len.symm) (cy0.rng f) (cy1.rng f) (by linarith) (by linarith)
  have nx := norm_frep f _ (ne_of_len hh (sx1.trans lx0)) (sx2.loose (by unfold wideB; linarith) (by unfold wideB; linarith))
  have ny := norm_frep f _ (ne_of_len hh (sy1.trans ly0)) (sy2.loose (by unfold wideB; linarith) (by unfold wideB; linarith))
  rw [sx1, lx0, sx3, vx0, rx1.val] at nx
  rw [sy1, ly0, sy3, vy0, ry1.val] at ny
  have small : ∀ {a c : Int}, 0 ≤ a → a ≤ 21 → 0 ≤ c → c ≤ 21 → 4 * (a * c) ≤ 17 * fex b n R := by
    intro a c h1 h2 h3 h4
    have : a * c ≤ 21 * 21 := mul_le_mul h2 h4 h3 (by norm_num)
    linarith
  have pt := karmul_spec f k (Ex := 2) (Ey := 2) ny nx (by linarith) (by linarith) (by linarith) (by linarith)
    (small (by linarith) (by linarith) (by linarith) (by linarith)) (by linarith) (by linarith)
  have p1 := karmul_spec f k (Ex := 1) (Ey := 1) rx1 ry1 x10 (by linarith) y10 (by linarith)
    (small (by linarith) (by linarith) (by linarith) (by linarith)) (by linarith) (by linarith)
  unfold karmulUpper
  simp only
  generalize karmul b n R k (norm b R (add (y.take (2 ^ k)) ((y.drop (2 ^ k)).take (2 ^ k)))) (norm b R (add (x.take (2 ^ k)) ((x.drop (2 ^ k)).take (2 ^ k)))) = t at *
  generalize karmul b n R k ((x.drop (2 ^ k)).take (2 ^ k)) ((y.drop (2 ^ k)).take (2 ^ k)) = zh at *
  generalize 2 ^ k = h at *
  have hP := two_pow_pos' (R * h)
  have c1 := p1.canon (mul_nonneg x10 y10) (by rw [pow_two_mul]; exact mul_lt_mul'' x11 y11 x10 y10)
  have bt : (Y0 + Y1) * (X0 + X1) < 4 * 2 ^ (R * (2 * h)) := by
    rw [pow_two_mul]
    calc (Y0 + Y1) * (X0 + X1) < (2 * 2 ^ (R * h)) * (2 * 2 ^ (R * h)) := mul_lt_mul'' (by linarith) (by linarith) (by linarith) (by linarith)
      _ = _ := by ring
  have gt := pt.rng f (by omega) (K := 4) (mul_nonneg (by linarith) (by linarith)) bt le_rfl (by linarith)
  -- t := t - zh
  obtain ⟨s1, s2, s3⟩ := sub_rng (b := b) (R := R) hC (pt.len.trans p1.len.symm) gt (c1.rng f) (by linarith) (by linarith)
  have lt' : (sub t zh).length = 2 * h := s1.trans pt.len
  -- the middle of the lower half
  have l0 : (z.take h).length = h := by rw [List.length_take, lz]; omega
  have l1 : ((z.drop h).take h).length = h := by rw [List.length_take, List.length_drop, lz]; omega
  have hdz : (z.drop h).take h = z.drop h := List.take_of_length_le (by rw [List.length_drop, lz]; omega)
  obtain ⟨a1, a2, a3⟩ := add_rng (b := b) (R := R) hC (l1.trans l0.symm) (((cz.drop h).take h).rng f) ((cz.take h).rng f) (by linarith) (by linarith)
  have ltt : ((sub t zh).take h).length = h := by rw [List.length_take, lt']; omega
  obtain ⟨a4, a5, a6⟩ := sub_rng (b := b) (R := R) hC ((a1.trans l1).trans ltt.symm) a2 (s2.take h) (by linarith) (by linarith)
  generalize hv : z.take h ++ sub (add ((z.drop h).take h) (z.take h)) ((sub t zh).take h) = v
  have lv : v.length = 2 * h := by rw [← hv, List.length_append, l0, a4, a1, l1]; omega
  have gv : FRng n (-13 * 2 ^ (b - 2)) (13 * 2 ^ (b - 2)) v := by
    rw [← hv]
    exact (((cz.take h).rng f).mono (by linarith) (by linarith)).append (a5.mono (by linarith) (by linarith))
  obtain ⟨n1, n2, n3⟩ := normT_canon f v (ne_of_len (show 0 < 2 * h by omega) lv) (gv.loose (by unfold wideB; linarith) (by unfold wideB; linarith))
  rw [lv] at n1 n3
  -- its value is X0 * Y0
  have hval : fval b R (normT b R v) = X0 * Y0 := by
    rw [n3]
    have hb0 : 0 ≤ X0 * Y0 := mul_nonneg x00 y00
    have hb1 : X0 * Y0 < 2 ^ (R * (2 * h)) := by rw [pow_two_mul]; exact mul_lt_mul'' x01 y01 x00 y00
    rw [← Int.emod_eq_of_lt hb0 hb1]
    have hs := fval_split (b := b) (R := R) z h (by rw [lz]; omega)
    have ht := fval_split (b := b) (R := R) (sub t zh) h (by rw [lt']; omega)
    rw [s3, pt.val, p1.val] at ht
    have hvv : fval b R v = fval b R (z.take h) + 2 ^ (R * h) * (fval b R (z.drop h) + fval b R (z.take h) - fval b R ((sub t zh).take h)) := by
      rw [← hv, fval_append, l0, a6, a3, hdz]
    rw [hvv]
    obtain ⟨q, hq⟩ := hz.dvd
    rw [pow_two_mul] at hq ⊢
    rw [eX, eY, hs] at hq
    generalize fval b R ((sub t zh).drop h) = T1 at *
    generalize fval b R ((sub t zh).take h) = T0 at *
    generalize fval b R (z.drop h) = Z1 at *
    generalize fval b R (z.take h) = Z0 at *
    generalize (2 : Int) ^ (R * h) = P at *
    refine Int.modEq_iff_dvd.2 ⟨q - X1 * Y1 - (X0 * Y1 + X1 * Y0) - P * (X1 * Y1 - q) + Z1 - T1, ?_⟩
    linear_combination (1 + P) * hq - P * ht
  have l2 : (normT b R v).length = 2 * h := n1
  obtain ⟨b1, b2, b3⟩ := sub_rng (b := b) (R := R) hC (lt'.trans l2.symm) s2 (n2.rng f) (by linarith) (by linarith)
  generalize hw : normT b R v = w at *
  have hzl : (w ++ zh).length = 4 * h := by rw [List.length_append, l2, p1.len]; ring
  have cwz : Canon b n R (w ++ zh) := n2.append c1
  have lm : (((w ++ zh).drop h).take (2 * h)).length = 2 * h := by rw [List.length_take, List.length_drop, hzl]; omega
  have cm : Canon b n R (((w ++ zh).drop h).take (2 * h)) := (cwz.drop h).take _
  obtain ⟨d1, d2, d3⟩ := add_rng (b := b) (R := R) hC (lm.trans (b1.trans lt').symm) (cm.rng f) b2 (by linarith) (by linarith)
  have nm := norm_frep f _ (ne_of_len (show 0 < 2 * h by omega) (d1.trans lm)) (d2.loose (by unfold wideB; linarith) (by unfold wideB; linarith))
  rw [d1.trans lm, d3, b3, s3, pt.val, p1.val, hval] at nm
  have bm := cm.bounds
  rw [lm] at bm
  have hmv : fval b R (((w ++ zh).drop h).take (2 * h)) + ((Y0 + Y1) * (X0 + X1) - X1 * Y1 - X0 * Y0) = fval b R (((w ++ zh).drop h).take (2 * h)) + (X0 * Y1 + X1 * Y0) := by ring
  rw [hmv] at nm
  have hm0 : 0 ≤ fval b R (((w ++ zh).drop h).take (2 * h)) + (X0 * Y1 + X1 * Y0) := by
    have := mul_nonneg x00 y10
    have := mul_nonneg x10 y00
    linarith
  have hm1 : fval b R (((w ++ zh).drop h).take (2 * h)) + (X0 * Y1 + X1 * Y0) < 3 * 2 ^ (R * (2 * h)) := by
    have h1 : X0 * Y1 < 2 ^ (R * (2 * h)) := by rw [pow_two_mul]; exact mul_lt_mul'' x01 y11 x00 y10
    have h2 : X1 * Y0 < 2 ^ (R * (2 * h)) := by rw [pow_two_mul]; exact mul_lt_mul'' x11 y01 x10 y00
    linarith
  have gn := nm.rng f (by omega) (K := 4) hm0 hm1 le_rfl (by linarith)
  have htot := fval_mid (b := b) (R := R) (w ++ zh) (norm b R (add (((w ++ zh).drop h).take (2 * h)) (sub (sub t zh) w))) hzl nm.len
  have htk : (w ++ zh).take h = w.take h := by rw [List.take_append_of_le_length (by omega)]
  have ctk : Canon b n R ((w ++ zh).take h) := cwz.take h
  have ltk : ((w ++ zh).take h).length = h := by rw [List.length_take, hzl]; omega
  generalize hr : norm b R (add (((w ++ zh).drop h).take (2 * h)) (sub (sub t zh) w)) = r at *
  have lall : ((w ++ zh).take h ++ r ++ (w ++ zh).drop (3 * h)).length = 4 * h := by
    rw [List.length_append, List.length_append, nm.len, ltk, List.length_drop, hzl]; omega
  have gdrop : FRng n 0 (4 * 2 ^ (b - 2)) ((w ++ zh).take h ++ r ++ (w ++ zh).drop (3 * h)) :=
    ((ctk.rng f).append gn).append ((cwz.drop _).rng f)
  refine ⟨lall, gdrop.drop _, ?_⟩
  -- the value
  have hlow : Canon b n R (((w ++ zh).take h ++ r ++ (w ++ zh).drop (3 * h)).take (2 * h)) := by
    rw [List.append_assoc, List.take_append, List.take_of_length_le (by omega), ltk, show 2 * h - h = h by omega,
      List.take_append_of_le_length (l₁ := r) (by rw [nm.len]; omega)]
    exact ctk.append (nm.low.take h (by rw [nm.len]; omega))
  have hlb := hlow.bounds
  have hsp := fval_split (b := b) (R := R) ((w ++ zh).take h ++ r ++ (w ++ zh).drop (3 * h)) (2 * h) (by rw [lall]; omega)
  rw [htot, nm.val, fval_append, hval, p1.val, l2] at hsp
  have hXY : X0 * Y0 + 2 ^ (R * (2 * h)) * (X1 * Y1) + 2 ^ (R * h) * (fval b R (((w ++ zh).drop h).take (2 * h)) + (X0 * Y1 + X1 * Y0) - fval b R (((w ++ zh).drop h).take (2 * h))) = X * Y := by
    rw [eX, eY, pow_two_mul]; ring
  rw [hXY] at hsp
  rw [List.length_take, lall, Nat.min_eq_left (by omega)] at hlb
  rw [hsp, Int.add_mul_ediv_left _ _ (two_pow_pos' _).ne', Int.ediv_eq_zero_of_lt hlb.1 hlb.2, zero_add]

/-! ### Montgomery reduction -/

theorem reduce_spec (f : FOk C b n R) (k : Nat) (hk : k ≤ 19) {d ms md : FF C} {T p M G : Int}
    (hd : FRep b n R (2 * 2 ^ (k + 1)) d T) (hT0 : 0 ≤ T) (hT : T < G * 2 ^ (R * (2 * 2 ^ (k + 1)))) (hG : 4 * G ≤ 17 * fex b n R)
    (lp : ms.length = 2 ^ (k + 1)) (cp : Canon b n R ms) (vp : fval b R ms = p)
    (rM : FRep b n R (2 ^ (k + 1)) md M) (bM0 : 0 ≤ M) (bM1 : M < 2 * fex b n R * 2 ^ (R * 2 ^ (k + 1))) (hM : M * p ≡ 1 [ZMOD 2 ^ (R * 2 ^ (k + 1))]) :
    ∃ V m : Int, FRep b n R (2 ^ (k + 1)) (reduce b n R k d ms md) V ∧ 0 ≤ m ∧ m < 2 ^ (R * 2 ^ (k + 1)) ∧
      2 ^ (R * 2 ^ (k + 1)) * V = T + 2 ^ (R * 2 ^ (k + 1)) * p - m * p := by
  have hC : 0 < C := by have := f.ok.hC; omega
  have hfex := f.fex_ge
  have hE' := f.epos
  have hwd := f.word
  have hh : 0 < 2 ^ (k + 1) := by positivity
  have bp := cp.bounds
  rw [lp, vp] at bp
  have rp := cp.frep lp
  rw [vp] at rp
  obtain ⟨T0, T1, lt0, ct0, vt0, rt1, eT, t00, t01, t10, t11⟩ := hd.halves hh hT0 hT
  have hP := two_pow_pos' (R * 2 ^ (k + 1))
  have hbig : ∀ {a : Int}, a < 2 ^ (R * 2 ^ (k + 1)) → a < 2 * fex b n R * 2 ^ (R * 2 ^ (k + 1)) := by
    intro a ha
    have : (1 : Int) * 2 ^ (R * 2 ^ (k + 1)) ≤ 2 * fex b n R * 2 ^ (R * 2 ^ (k + 1)) := mul_le_mul_of_nonneg_right (by linarith) hP.le
    linarith
  have r0 := ct0.frep lt0
  rw [vt0] at r0
  obtain ⟨w1, w2, w3, w4⟩ := lower_spec f (k + 1) (by omega) r0 rM t00 (hbig t01) bM0 bM1
  have cw := w4 (by omega)
  have hdr : (d.drop (2 ^ (k + 1))).take (2 ^ (k + 1)) = d.drop (2 ^ (k + 1)) := List.take_of_length_le (by rw [List.length_drop, hd.len]; omega)
  rw [hdr] at rt1
  unfold reduce
  simp only
  generalize karmulLower b n R (k + 1) (d.take (2 ^ (k + 1))) md = w at *
  have bw := cw.bounds
  rw [w1] at bw
  have e2 : 2 ^ (k + 1) = 2 * 2 ^ k := by ring
  have hz : fval b R (d.take (2 ^ (k + 1))) ≡ p * fval b R w [ZMOD 2 ^ (R * 2 ^ (k + 1))] := by
    rw [vt0]
    have h1 : p * fval b R w ≡ p * (T0 * M) [ZMOD 2 ^ (R * 2 ^ (k + 1))] := w3.mul_left p
    have h2 : T0 * (M * p) ≡ T0 * 1 [ZMOD 2 ^ (R * 2 ^ (k + 1))] := hM.mul_left T0
    have h3 : p * (T0 * M) = T0 * (M * p) := by ring
    rw [h3] at h1
    have := h1.trans h2
    rw [mul_one] at this
    exact this.symm
  obtain ⟨u1, u2, u3⟩ := upper_spec f k hk (by rw [lt0]; exact e2) ct0 (by rw [lp]; exact e2) cp (by rw [w1]; exact e2) cw vp rfl (by rw [← e2]; exact hz)
  rw [← e2] at u2 u3
  generalize karmulUpper b n R k (d.take (2 ^ (k + 1))) ms w = up at *
  have lu : (up.drop (2 ^ (k + 1))).length = 2 ^ (k + 1) := by rw [List.length_drop, u1]; omega
  have gr := rt1.rng f hh (K := 9) t10 t11 (by norm_num) (by linarith)
  obtain ⟨a1, a2, a3⟩ := add_rng (b := b) (R := R) hC (rt1.len.trans lp.symm) gr (cp.rng f) (by linarith) (by linarith)
  obtain ⟨a4, a5, a6⟩ := sub_rng (b := b) (R := R) hC ((a1.trans rt1.len).trans lu.symm) a2 u2 (by linarith) (by linarith)
  have nm := norm_frep f _ (ne_of_len hh ((a4.trans a1).trans rt1.len)) (a5.loose (by unfold wideB; linarith) (by unfold wideB; linarith))
  rw [(a4.trans a1).trans rt1.len, a6, a3, rt1.val, vp, u3] at nm
  refine ⟨_, fval b R w, nm, bw.1, bw.2, ?_⟩
  have hmod : p * fval b R w % 2 ^ (R * 2 ^ (k + 1)) = T0 := by
    rw [← hz, vt0]
    exact Int.emod_eq_of_lt t00 t01
  have hdm := Int.emod_add_mul_ediv (p * fval b R w) (2 ^ (R * 2 ^ (k + 1)))
  rw [hmod] at hdm
  rw [eT]
  linear_combination -hdm

end Verif.Ff
