import Verif.Ff.Split
import Mathlib.Tactic.Linarith

/-! Karatsuba multiplication (`karmul`). -/
namespace Verif.Ff
open Spec Verif.Big

variable {C b n R : Nat}

/-- digits of `n` limbs, every limb in `[lo, hi]` -/
def FRng (n : Nat) (lo hi : Int) (xs : FF C) : Prop := ∀ d ∈ xs, d.length = n ∧ ∀ x ∈ d, lo ≤ x.toInt ∧ x.toInt ≤ hi

/-- `FEXCESS` as a number: half the room above a reduced digit -/
def fex (b n R : Nat) : Int := 2 ^ (b * n - R - 1)

theorem FOk.fex2 (f : FOk C b n R) : 2 * fex b n R * 2 ^ R = 2 ^ (b * n) := by
  have := f.hf
  unfold fex
  rw [← pow_succ', ← pow_add]; congr 1; omega

theorem FOk.fex_ge (f : FOk C b n R) : 128 ≤ fex b n R := by
  have := f.hf
  unfold fex
  calc (128 : Int) = 2 ^ 7 := by norm_num
    _ ≤ _ := pow_le_pow_right₀ (by norm_num) (by omega)

/-- the top limb: `2 * FEXCESS * 2^TBITS = 2^BASEBITS` -/
theorem FOk.fexT (f : FOk C b n R) : 2 * fex b n R * 2 ^ tbits b R = 4 * 2 ^ (b - 2) := by
  have hb := f.ok.hb
  have h1 := f.fex2
  have hP := two_pow_pos' (b * (n - 1))
  have e4 : (4 : Int) * 2 ^ (b - 2) = 2 ^ b := by
    rw [show (4 : Int) = 2 ^ 2 by norm_num, ← pow_add]; congr 1; omega
  rw [e4]
  have e2 : (2 : Int) ^ (b * n) = 2 ^ (b * (n - 1)) * 2 ^ b := by
    rw [← pow_add]; congr 1
    have := f.hn
    obtain ⟨j, rfl⟩ : ∃ j, n = j + 1 := ⟨n - 1, by omega⟩
    simp; ring
  rw [f.pow, e2] at h1
  have h2 : 2 ^ (b * (n - 1)) * (2 * fex b n R * 2 ^ tbits b R) = 2 ^ (b * (n - 1)) * 2 ^ b := by linarith
  exact mul_left_cancel₀ hP.ne' h2

theorem FOk.word (f : FOk C b n R) : 16 * 2 ^ (b - 2) ≤ (2 : Int) ^ (C - 1) := by
  have hb := f.ok.hb
  have hC := f.ok.hC
  calc 16 * 2 ^ (b - 2) = (2 : Int) ^ (b + 2) := by
        rw [show b + 2 = (b - 2) + 4 by omega, pow_add]; ring
    _ ≤ 2 ^ (C - 1) := pow_le_pow_right₀ (by norm_num) (by omega)

theorem FOk.epos (_f : FOk C b n R) : (0 : Int) < 2 ^ (b - 2) := two_pow_pos' _

/-! ### Ranges -/

theorem FRng.loose {xs : FF C} {lo hi : Int} (h : FRng n lo hi xs) (h1 : -(wideB b) ≤ lo) (h2 : hi ≤ wideB b) : Loose n (wideB b) xs := by
  intro d hd
  obtain ⟨e, g⟩ := h d hd
  exact ⟨e, fun x hx => by have := g x hx; omega⟩

theorem FRng.append {xs ys : FF C} {lo hi : Int} (h : FRng n lo hi xs) (h' : FRng n lo hi ys) : FRng n lo hi (xs ++ ys) := by
  intro d hd
  rcases List.mem_append.1 hd with h1 | h1
  · exact h d h1
  · exact h' d h1

theorem FRng.mono {xs : FF C} {lo hi lo' hi' : Int} (h : FRng n lo hi xs) (h1 : lo' ≤ lo) (h2 : hi ≤ hi') : FRng n lo' hi' xs := by
  intro d hd
  obtain ⟨e, g⟩ := h d hd
  exact ⟨e, fun x hx => by have := g x hx; omega⟩

theorem FRng.take {xs : FF C} {lo hi : Int} (h : FRng n lo hi xs) (k : Nat) : FRng n lo hi (xs.take k) :=
  fun d hd => h d (List.mem_of_mem_take hd)

theorem FRng.drop {xs : FF C} {lo hi : Int} (h : FRng n lo hi xs) (k : Nat) : FRng n lo hi (xs.drop k) :=
  fun d hd => h d (List.mem_of_mem_drop hd)

theorem Canon.take {xs : FF C} (h : Canon b n R xs) (k : Nat) : Canon b n R (xs.take k) :=
  fun d hd => h d (List.mem_of_mem_take hd)

theorem Canon.drop {xs : FF C} (h : Canon b n R xs) (k : Nat) : Canon b n R (xs.drop k) :=
  fun d hd => h d (List.mem_of_mem_drop hd)

theorem Canon.rng (f : FOk C b n R) {xs : FF C} (h : Canon b n R xs) : FRng n 0 (4 * 2 ^ (b - 2)) xs := by
  intro d hd
  have hc := h d hd
  refine ⟨hc.len, fun x hx => ?_⟩
  have h1 := hc.digits f x hx
  have hb := f.ok.hb
  have e4 : (4 : Int) * 2 ^ (b - 2) = 2 ^ b := by
    rw [show (4 : Int) = 2 ^ 2 by norm_num, ← pow_add]; congr 1; omega
  rw [e4]; omega

/-- addition, limb by limb, without overflow -/
theorem bigAdd_rng {x y : Limbs C} (hC : 0 < C) (hl : x.length = y.length) {a1 c1 a2 c2 : Int}
    (hx : ∀ u ∈ x, a1 ≤ u.toInt ∧ u.toInt ≤ c1) (hy : ∀ u ∈ y, a2 ≤ u.toInt ∧ u.toInt ≤ c2)
    (h1 : -2 ^ (C - 1) ≤ a1 + a2) (h2 : c1 + c2 < 2 ^ (C - 1)) :
    (Big.add x y).length = x.length ∧ (∀ u ∈ Big.add x y, a1 + a2 ≤ u.toInt ∧ u.toInt ≤ c1 + c2) ∧
      limbsVal b (Big.add x y) = limbsVal b x + limbsVal b y := by
  induction x generalizing y with
  | nil => cases y with
    | nil => simp [Big.add, limbsVal]
    | cons => simp at hl
  | cons u us ih => cases y with
    | nil => simp at hl
    | cons v vs =>
      have hu := hx u (by simp)
      have hv := hy v (by simp)
      have hs : (u + v).toInt = u.toInt + v.toInt := toInt_add_of _ _ hC (by omega) (by omega)
      obtain ⟨i1, i2, i3⟩ := ih (y := vs) (by simpa using hl) (fun z hz => hx z (by simp [hz])) (fun z hz => hy z (by simp [hz]))
      have e : Big.add (u :: us) (v :: vs) = (u + v) :: Big.add us vs := rfl
      rw [e]
      refine ⟨by simp [i1], ?_, ?_⟩
      · intro z hz
        rcases List.mem_cons.1 hz with h | h
        · rw [h, hs]; omega
        · exact i2 z h
      · simp only [limbsVal, i3, hs]; ring

theorem bigSub_rng {x y : Limbs C} (hC : 0 < C) (hl : x.length = y.length) {a1 c1 a2 c2 : Int}
    (hx : ∀ u ∈ x, a1 ≤ u.toInt ∧ u.toInt ≤ c1) (hy : ∀ u ∈ y, a2 ≤ u.toInt ∧ u.toInt ≤ c2)
    (h1 : -2 ^ (C - 1) ≤ a1 - c2) (h2 : c1 - a2 < 2 ^ (C - 1)) :
    (Big.sub x y).length = x.length ∧ (∀ u ∈ Big.sub x y, a1 - c2 ≤ u.toInt ∧ u.toInt ≤ c1 - a2) ∧
      limbsVal b (Big.sub x y) = limbsVal b x - limbsVal b y := by
  induction x generalizing y with
  | nil => cases y with
    | nil => simp [Big.sub, limbsVal]
    | cons => simp at hl
  | cons u us ih => cases y with
    | nil => simp at hl
    | cons v vs =>
      have hu := hx u (by simp)
      have hv := hy v (by simp)
      have hs : (u - v).toInt = u.toInt - v.toInt := toInt_sub_of _ _ hC (by omega) (by omega)
      obtain ⟨i1, i2, i3⟩ := ih (y := vs) (by simpa using hl) (fun z hz => hx z (by simp [hz])) (fun z hz => hy z (by simp [hz]))
      have e : Big.sub (u :: us) (v :: vs) = (u - v) :: Big.sub us vs := rfl
      rw [e]
      refine ⟨by simp [i1], ?_, ?_⟩
      · intro z hz
        rcases List.mem_cons.1 hz with h | h
        · rw [h, hs]; omega
        · exact i2 z h
      · simp only [limbsVal, i3, hs]; ring

theorem add_rng {x y : FF C} (hC : 0 < C) (hl : x.length = y.length) {a1 c1 a2 c2 : Int}
    (hx : FRng n a1 c1 x) (hy : FRng n a2 c2 y) (h1 : -2 ^ (C - 1) ≤ a1 + a2) (h2 : c1 + c2 < 2 ^ (C - 1)) :
    (add x y).length = x.length ∧ FRng n (a1 + a2) (c1 + c2) (add x y) ∧ fval b R (add x y) = fval b R x + fval b R y := by
  induction x generalizing y with
  | nil => cases y with
    | nil => simp [add, fval, FRng]
    | cons => simp at hl
  | cons u us ih => cases y with
    | nil => simp at hl
    | cons v vs =>
      have hu := hx u (by simp)
      have hv := hy v (by simp)
      obtain ⟨g1, g2, g3⟩ := bigAdd_rng (b := b) hC (hu.1.trans hv.1.symm) hu.2 hv.2 h1 h2
      obtain ⟨i1, i2, i3⟩ := ih (y := vs) (by simpa using hl) (fun z hz => hx z (by simp [hz])) (fun z hz => hy z (by simp [hz]))
      have e : add (u :: us) (v :: vs) = Big.add u v :: add us vs := rfl
      rw [e]
      refine ⟨by simp [i1], ?_, ?_⟩
      · intro z hz
        rcases List.mem_cons.1 hz with h | h
        · rw [h]; exact ⟨g1.trans hu.1, g2⟩
        · exact i2 z h
      · simp only [fval, i3, g3]; ring

theorem sub_rng {x y : FF C} (hC : 0 < C) (hl : x.length = y.length) {a1 c1 a2 c2 : Int}
    (hx : FRng n a1 c1 x) (hy : FRng n a2 c2 y) (h1 : -2 ^ (C - 1) ≤ a1 - c2) (h2 : c1 - a2 < 2 ^ (C - 1)) :
    (sub x y).length = x.length ∧ FRng n (a1 - c2) (c1 - a2) (sub x y) ∧ fval b R (sub x y) = fval b R x - fval b R y := by
  induction x generalizing y with
  | nil => cases y with
    | nil => simp [sub, fval, FRng]
    | cons => simp at hl
  | cons u us ih => cases y with
    | nil => simp at hl
    | cons v vs =>
      have hu := hx u (by simp)
      have hv := hy v (by simp)
      obtain ⟨g1, g2, g3⟩ := bigSub_rng (b := b) hC (hu.1.trans hv.1.symm) hu.2 hv.2 h1 h2
      obtain ⟨i1, i2, i3⟩ := ih (y := vs) (by simpa using hl) (fun z hz => hx z (by simp [hz])) (fun z hz => hy z (by simp [hz]))
      have e : sub (u :: us) (v :: vs) = Big.sub u v :: sub us vs := rfl
      rw [e]
      refine ⟨by simp [i1], ?_, ?_⟩
      · intro z hz
        rcases List.mem_cons.1 hz with h | h
        · rw [h]; exact ⟨g1.trans hu.1, g2⟩
        · exact i2 z h
      · simp only [fval, i3, g3]; ring

/-! ### Halves -/

theorem fval_split (x : FF C) (h : Nat) (hh : h ≤ x.length) :
    fval b R x = fval b R (x.take h) + 2 ^ (R * h) * fval b R (x.drop h) := by
  conv => lhs; rw [← List.take_append_drop h x]
  rw [fval_append, List.length_take, Nat.min_eq_left hh]

/-- the last digit of a normal form -/
theorem FRep.top {m : Nat} {x : FF C} {V : Int} (h : FRep b n R (m + 1) x V) :
    ∃ ds d, x = ds ++ [d] ∧ ds.length = m ∧ Canon b n R ds ∧ Rep b n d (V / 2 ^ (R * m)) := by
  have hl := h.len
  have hlt : m < x.length := by omega
  refine ⟨x.take m, x[m], ?_, by simp; omega, h.low.take m hlt, ?_⟩
  · conv => lhs; rw [← List.take_append_drop m x]
    rw [List.drop_eq_getElem_cons hlt, List.drop_of_length_le (by omega)]
  · have hd := h.low.digit x[m] (List.getElem_mem hlt)
    refine ⟨hd.1, hd.2, ?_⟩
    have hs := fval_split (b := b) (R := R) x m (by omega)
    have e : x.drop m = [x[m]] := by
      rw [List.drop_eq_getElem_cons hlt, List.drop_of_length_le (by omega)]
    have hb := (h.low.take m hlt).bounds
    rw [List.length_take, Nat.min_eq_left (by omega)] at hb
    rw [e] at hs
    simp only [fval, mul_zero, add_zero] at hs
    rw [← h.val, hs, Int.add_mul_ediv_left _ _ (two_pow_pos' _).ne', Int.ediv_eq_zero_of_lt hb.1 hb.2, zero_add]

/-- the limbs of a normalised digit in `[0, E * 2^R)` -/
theorem digit_rng (f : FOk C b n R) {d : Limbs C} {V E K : Int} (hr : Rep b n d V) (hq0 : 0 ≤ V) (hq1 : V < E * 2 ^ R)
    (hK : 4 ≤ K) (hE : 4 * E ≤ 2 * fex b n R * K) : ∀ u ∈ d, 0 ≤ u.toInt ∧ u.toInt ≤ K * 2 ^ (b - 2) := by
  have hE' := f.epos
  have hT := f.fexT
  have hTp := two_pow_pos' (tbits b R)
  intro u hu
  have hne : d ≠ [] := List.ne_nil_of_mem hu
  -- top limb
  have htop := top_eq d hne hr.low
  rw [hr.len, hr.val] at htop
  have ht1 : (d.getLastD 0).toInt < E * 2 ^ tbits b R := by
    rw [htop]
    apply Int.ediv_lt_of_lt_mul (two_pow_pos' _)
    rw [mul_assoc, mul_comm (2 ^ tbits b R), ← f.pow]; exact hq1
  have ht0 : 0 ≤ (d.getLastD 0).toInt := by rw [htop]; exact Int.ediv_nonneg hq0 (two_pow_pos' _).le
  have ht2 : (d.getLastD 0).toInt ≤ K * 2 ^ (b - 2) := by
    have h3 : 4 * (E * 2 ^ tbits b R) ≤ 4 * (K * 2 ^ (b - 2)) := by
      calc 4 * (E * 2 ^ tbits b R) = 4 * E * 2 ^ tbits b R := by ring
        _ ≤ 2 * fex b n R * K * 2 ^ tbits b R := mul_le_mul_of_nonneg_right hE hTp.le
        _ = K * (2 * fex b n R * 2 ^ tbits b R) := by ring
        _ = _ := by rw [hT]; ring
    linarith
  have hdd : u ∈ d.dropLast ++ [d.getLastD 0] := by
    have : d = d.dropLast ++ [d.getLastD 0] := by
      conv => lhs; rw [← List.dropLast_append_getLast hne]
      congr 2
      rw [List.getLastD_eq_getLast?, List.getLast?_eq_some_getLast hne]
      rfl
    rw [← this]; exact hu
  rcases List.mem_append.1 hdd with hm | hm
  · -- a low limb
    have : ∀ (w : Limbs C), Normal b w → ∀ z ∈ w.dropLast, 0 ≤ z.toInt ∧ z.toInt < 2 ^ b := by
      intro w
      induction w with
      | nil => simp
      | cons a l ih =>
        intro hN z hz
        cases l with
        | nil => simp at hz
        | cons c l =>
          rw [List.dropLast_cons_of_ne_nil (by simp)] at hz
          rcases List.mem_cons.1 hz with h5 | h5
          · rw [h5]; exact hN.1
          · exact ih hN.2 z h5
    have h6 := this d hr.low u hm
    have hb := f.ok.hb
    have e4 : (4 : Int) * 2 ^ (b - 2) = 2 ^ b := by
      rw [show (4 : Int) = 2 ^ 2 by norm_num, ← pow_add]; congr 1; omega
    refine ⟨h6.1, ?_⟩
    nlinarith
  · simp only [List.mem_singleton] at hm
    rw [hm]; exact ⟨ht0, ht2⟩

/-- every limb of a normal form with a bounded top digit -/
theorem FRep.rng (f : FOk C b n R) {m : Nat} (hm : 0 < m) {x : FF C} {V E K : Int} (h : FRep b n R m x V) (h0 : 0 ≤ V) (h1 : V < E * 2 ^ (R * m))
    (hK : 4 ≤ K) (hE : 4 * E ≤ 2 * fex b n R * K) :
    FRng n 0 (K * 2 ^ (b - 2)) x := by
  obtain ⟨m, rfl⟩ : ∃ k, m = k + 1 := ⟨m - 1, by omega⟩
  obtain ⟨ds, d, e, hl, hc, hr⟩ := h.top
  have hE' := f.epos
  rw [e]
  refine FRng.append ((hc.rng f).mono le_rfl (by nlinarith)) ?_
  intro d' hd'
  simp at hd'
  rw [hd']
  refine ⟨hr.len, digit_rng f hr (Int.ediv_nonneg h0 (two_pow_pos' _).le) ?_ hK hE⟩
  apply Int.ediv_lt_of_lt_mul (two_pow_pos' _)
  rw [mul_assoc, ← pow_add]; rw [show R + R * m = R * (m + 1) by ring]; exact h1

/-- a normal form below the radix power is reduced -/
theorem FRep.canon {m : Nat} {x : FF C} {V : Int} (h : FRep b n R m x V) (h0 : 0 ≤ V) (h1 : V < 2 ^ (R * m)) : Canon b n R x := by
  cases m with
  | zero => intro d hd; have := h.len; simp at this; simp [this] at hd
  | succ m =>
    obtain ⟨ds, d, e, hl, hc, hr⟩ := h.top
    rw [e]
    refine hc.append ?_
    intro d' hd'
    simp at hd'
    rw [hd']
    refine ⟨hr.len, hr.low, ?_, ?_⟩
    · rw [hr.val]; exact Int.ediv_nonneg h0 (two_pow_pos' _).le
    · rw [hr.val]; apply Int.ediv_lt_of_lt_mul (two_pow_pos' _); rw [← pow_add, show R + R * m = R * (m + 1) by ring]; exact h1

theorem Canon.frep {m : Nat} {x : FF C} (h : Canon b n R x) (hl : x.length = m) : FRep b n R m x (fval b R x) := ⟨hl, h.fnorm, rfl⟩

/-- the two halves of a normal form of `2 * h` digits -/
theorem FRep.halves {h : Nat} (hh : 0 < h) {x : FF C} {V E : Int} (hx : FRep b n R (2 * h) x V) (h0 : 0 ≤ V) (h1 : V < E * 2 ^ (R * (2 * h))) :
    ∃ V0 V1, (x.take h).length = h ∧ Canon b n R (x.take h) ∧ fval b R (x.take h) = V0 ∧ FRep b n R h ((x.drop h).take h) V1 ∧
      V = V0 + 2 ^ (R * h) * V1 ∧ 0 ≤ V0 ∧ V0 < 2 ^ (R * h) ∧ 0 ≤ V1 ∧ V1 < E * 2 ^ (R * h) := by
  have hl := hx.len
  have hc := hx.low.take h (by omega)
  have hb := hc.bounds
  have hlt : (x.take h).length = h := by simp; omega
  rw [hlt] at hb
  have hs := fval_split (b := b) (R := R) x h (by omega)
  rw [hx.val] at hs
  have hd : (x.drop h).take h = x.drop h := List.take_of_length_le (by simp; omega)
  have hP := two_pow_pos' (R * h)
  refine ⟨fval b R (x.take h), fval b R (x.drop h), hlt, hc, rfl, ?_, hs, hb.1, hb.2, ?_, ?_⟩
  · rw [hd]; exact ⟨by simp; omega, hx.low.drop h, rfl⟩
  · by_contra hneg
    have : 2 ^ (R * h) * fval b R (x.drop h) ≤ 2 ^ (R * h) * (-1) := mul_le_mul_of_nonneg_left (by omega) hP.le
    omega
  · have e : E * 2 ^ (R * (2 * h)) = 2 ^ (R * h) * (E * 2 ^ (R * h)) := by
      rw [show R * (2 * h) = R * h + R * h by ring, pow_add]; ring
    rw [e] at h1
    exact lt_of_mul_lt_mul_left (by linarith [hb.1]) hP.le

/-- replacing the middle half of `4 * h` digits -/
theorem fval_mid {h : Nat} (z w : FF C) (hz : z.length = 4 * h) (hw : w.length = 2 * h) :
    fval b R (z.take h ++ w ++ z.drop (3 * h)) = fval b R z + 2 ^ (R * h) * (fval b R w - fval b R ((z.drop h).take (2 * h))) := by
  have h1 := fval_split (b := b) (R := R) z h (by omega)
  have h2 := fval_split (b := b) (R := R) (z.drop h) (2 * h) (by simp; omega)
  rw [List.drop_drop, show h + 2 * h = 3 * h by ring] at h2
  rw [List.append_assoc, fval_append, fval_append, h1, h2, hw, List.length_take, hz, Nat.min_eq_left (by omega)]
  ring

theorem karmul_spec (f : FOk C b n R) (k : Nat) {x y : FF C} {X Y Ex Ey : Int} (hx : FRep b n R (2 ^ k) x X) (hy : FRep b n R (2 ^ k) y Y)
    (hX0 : 0 ≤ X) (hX : X < Ex * 2 ^ (R * 2 ^ k)) (hY0 : 0 ≤ Y) (hY : Y < Ey * 2 ^ (R * 2 ^ k))
    (hE : 4 * ((Ex + k) * (Ey + k)) ≤ 17 * fex b n R) (hEx : Ex + k ≤ 2 * fex b n R) (hEy : Ey + k ≤ 2 * fex b n R) :
    FRep b n R (2 * 2 ^ k) (karmul b n R k x y) (X * Y) := by
  have hC : 0 < C := by have := f.ok.hC; omega
  induction k generalizing x y X Y Ex Ey with
  | zero =>
    simp only [pow_zero, mul_one, Nat.cast_zero, add_zero] at *
    obtain ⟨xs, d, rfl, hl, -, hd⟩ := hx.top (m := 0)
    obtain ⟨ys, e, rfl, hl', -, he⟩ := hy.top (m := 0)
    obtain rfl : xs = [] := List.eq_nil_of_length_eq_zero hl
    obtain rfl : ys = [] := List.eq_nil_of_length_eq_zero hl'
    simp only [mul_zero, pow_zero, Int.ediv_one] at hd he
    have hB := two_pow_pos' R
    have hW := f.fex2
    have hdd := hd.digits hX0 (lt_of_lt_of_le hX (by rw [← hW]; exact mul_le_mul_of_nonneg_right hEx hB.le))
    have hed := he.digits hY0 (lt_of_lt_of_le hY (by rw [← hW]; exact mul_le_mul_of_nonneg_right hEy hB.le))
    obtain ⟨m1, m2, m3⟩ := mul_spec f.ok hdd hed (hd.len.trans he.len.symm) (by rw [hd.len]; have := f.hn; omega) (by rw [hd.len]; exact f.fits)
    rw [hd.val, he.val] at m3
    rw [hd.len] at m1
    have hEx0 : 0 < Ex := by by_contra hh; nlinarith
    have hEy0 : 0 < Ey := by by_contra hh; nlinarith
    have := splitDigits_spec f m1 m2 m3 (by
      have h1 : X * Y ≤ (Ex * 2 ^ R) * (Ey * 2 ^ R) := mul_le_mul hX.le hY.le hY0 (by positivity)
      have h2 : 4 * (Ex * Ey) * (2 ^ R * 2 ^ R) ≤ 17 * fex b n R * (2 ^ R * 2 ^ R) := mul_le_mul_of_nonneg_right hE (by positivity)
      have h3 : fex b n R * (2 ^ R * 2 ^ R) = 2 ^ R * (fex b n R * 2 ^ R) := by ring
      have h4 := f.fex_ge
      have h5 : 0 < fex b n R * (2 ^ R * 2 ^ R) := by positivity
      have h6 : 2 ^ R * (4 * 2 ^ (b * n)) = 8 * (fex b n R * (2 ^ R * 2 ^ R)) := by rw [← hW]; ring
      rw [h6]
      linarith)
    simpa [karmul, dig] using this
  | succ k ih =>
    have hh : 0 < 2 ^ k := by positivity
    rw [show 2 ^ (k + 1) = 2 * 2 ^ k by ring] at hx hy hX hY ⊢
    have hk : ((k + 1 : Nat) : Int) = k + 1 := by push_cast; ring
    rw [hk] at hE hEx hEy
    generalize hhh : 2 ^ k = h at *
    obtain ⟨X0, X1, lx0, cx0, vx0, rx1, eX, x00, x01, x10, x11⟩ := hx.halves hh hX0 hX
    obtain ⟨Y0, Y1, ly0, cy0, vy0, ry1, eY, y00, y01, y10, y11⟩ := hy.halves hh hY0 hY
    have hP := two_pow_pos' (R * h)
    have hEx1 : 1 ≤ Ex := by by_contra hc; nlinarith
    have hEy1 : 1 ≤ Ey := by by_contra hc; nlinarith
    have hE' := f.epos
    have hwd := f.word
    have hfex := f.fex_ge
    have hk0 : (0 : Int) ≤ k := by positivity
    unfold karmul
    simp only [hhh]
    have r0x := cx0.frep lx0
    have r0y := cy0.frep ly0
    rw [vx0] at r0x
    rw [vy0] at r0y
    -- sums
    have gx0 := cx0.rng f
    have gx1 := rx1.rng f hh (K := 4) x10 x11 le_rfl (by linarith)
    have gy0 := cy0.rng f
    have gy1 := ry1.rng f hh (K := 4) y10 y11 le_rfl (by linarith)
    obtain ⟨sx1, sx2, sx3⟩ := add_rng (b := b) (R := R) hC (lx0.trans rx1.len.symm) gx0 gx1 (by linarith) (by linarith)
    obtain ⟨sy1, sy2, sy3⟩ := add_rng (b := b) (R := R) hC (ly0.trans ry1.len.symm) gy0 gy1 (by linarith) (by linarith)
    have ne_of : ∀ (u : FF C), u.length = h → u ≠ [] := by intro u hu e; rw [e] at hu; simp at hu; omega
    have nx := norm_frep f _ (ne_of _ (sx1.trans lx0)) (sx2.loose (by unfold wideB; linarith) (by unfold wideB; linarith))
    have ny := norm_frep f _ (ne_of _ (sy1.trans ly0)) (sy2.loose (by unfold wideB; linarith) (by unfold wideB; linarith))
    rw [sx1, lx0, sx3, vx0, rx1.val] at nx
    rw [sy1, ly0, sy3, vy0, ry1.val] at ny
    -- three products
    have pt := ih (Ex := Ex + 1) (Ey := Ey + 1) nx ny (by linarith) (by linarith) (by linarith) (by linarith)
      (by rw [show Ex + 1 + (k : Int) = Ex + (k + 1) by ring, show Ey + 1 + (k : Int) = Ey + (k + 1) by ring]; exact hE) (by linarith) (by linarith)
    have p0 := ih (Ex := 1) (Ey := 1) r0x r0y x00 (by linarith) y00 (by linarith)
      (le_trans (mul_le_mul_of_nonneg_left (mul_le_mul (by linarith) (by linarith) (by linarith) (by linarith)) (by norm_num)) hE)
      (by linarith) (by linarith)
    have p1 := ih (Ex := Ex) (Ey := Ey) rx1 ry1 x10 x11 y10 y11
      (le_trans (mul_le_mul_of_nonneg_left (mul_le_mul (by linarith) (by linarith) (by linarith) (by linarith)) (by norm_num)) hE)
      (by linarith) (by linarith)
    generalize karmul b n R k (norm b R (add (x.take h) ((x.drop h).take h))) (norm b R (add (y.take h) ((y.drop h).take h))) = t at *
    generalize karmul b n R k (x.take h) (y.take h) = z0 at *
    generalize karmul b n R k ((x.drop h).take h) ((y.drop h).take h) = z1 at *
    have ePP : (2 : Int) ^ (R * (2 * h)) = 2 ^ (R * h) * 2 ^ (R * h) := by
      rw [show R * (2 * h) = R * h + R * h by ring, pow_add]
    have bound : ∀ {a c ea ec : Int}, 0 ≤ a → a < ea * 2 ^ (R * h) → 0 ≤ c → c < ec * 2 ^ (R * h) → 1 ≤ ea → a * c < (ea * ec) * 2 ^ (R * (2 * h)) := by
      intro a c ea ec ha0 ha hc0 hc hea
      rw [ePP]
      calc a * c ≤ (ea * 2 ^ (R * h)) * c := mul_le_mul_of_nonneg_right ha.le hc0
        _ < (ea * 2 ^ (R * h)) * (ec * 2 ^ (R * h)) := mul_lt_mul_of_pos_left hc (by positivity)
        _ = _ := by ring
    have b0 : X0 * Y0 < 1 * 2 ^ (R * (2 * h)) := by
      have := bound x00 (by linarith) y00 (show Y0 < 1 * 2 ^ (R * h) by linarith) (show (1 : Int) ≤ 1 by norm_num)
      linarith
    have b1 := bound x10 x11 y10 y11 hEx1
    have bt := bound (show 0 ≤ X0 + X1 by linarith) (show X0 + X1 < (Ex + 1) * 2 ^ (R * h) by linarith) (show 0 ≤ Y0 + Y1 by linarith) (show Y0 + Y1 < (Ey + 1) * 2 ^ (R * h) by linarith) (by linarith)
    have c0 := p0.canon (mul_nonneg x00 y00) (by linarith)
    have hEE : 4 * ((Ex + 1) * (Ey + 1)) ≤ 2 * fex b n R * 9 := by
      have h1 : (Ex + 1) * (Ey + 1) ≤ (Ex + (k + 1)) * (Ey + (k + 1)) :=
        mul_le_mul (by linarith) (by linarith) (by linarith) (by linarith)
      linarith
    have hEE1 : 4 * (Ex * Ey) ≤ 2 * fex b n R * 9 := by
      have h1 : Ex * Ey ≤ (Ex + 1) * (Ey + 1) := mul_le_mul (by linarith) (by linarith) (by linarith) (by linarith)
      linarith
    have g0 := c0.rng f
    have g1 := p1.rng f (by omega) (K := 9) (mul_nonneg x10 y10) b1 (by norm_num) hEE1
    have gt := pt.rng f (by omega) (K := 9) (mul_nonneg (by linarith) (by linarith)) bt (by norm_num) hEE
    obtain ⟨s1, s2, s3⟩ := sub_rng (b := b) (R := R) hC (pt.len.trans p0.len.symm) gt g0 (by linarith) (by linarith)
    obtain ⟨s4, s5, s6⟩ := sub_rng (b := b) (R := R) hC ((s1.trans pt.len).trans p1.len.symm) s2 g1 (by linarith) (by linarith)
    have hzl : (z0 ++ z1).length = 4 * h := by rw [List.length_append, p0.len, p1.len]; ring
    have hmid : ((z0 ++ z1).drop h).take (2 * h) = z0.drop h ++ z1.take h := by
      rw [List.drop_append_of_le_length (by rw [p0.len]; omega)]
      rw [List.take_append, List.take_of_length_le (by simp [p0.len])]
      congr 2; simp [p0.len]; omega
    have cm : Canon b n R (((z0 ++ z1).drop h).take (2 * h)) := by
      rw [hmid]; exact (c0.drop h).append (p1.low.take h (by rw [p1.len]; omega))
    have gm := cm.rng f
    have lm : (((z0 ++ z1).drop h).take (2 * h)).length = 2 * h := by simp [p0.len, p1.len]; omega
    obtain ⟨s7, s8, s9⟩ := add_rng (b := b) (R := R) hC (lm.trans ((s4.trans s1).trans pt.len).symm) gm s5 (by linarith) (by linarith)
    have g01 : FRng n 0 (9 * 2 ^ (b - 2)) (z0 ++ z1) := (g0.mono le_rfl (by linarith)).append g1
    have gall : FRng n (-13 * 2 ^ (b - 2)) (13 * 2 ^ (b - 2))
        ((z0 ++ z1).take h ++ add (((z0 ++ z1).drop h).take (2 * h)) (sub (sub t z0) z1) ++ (z0 ++ z1).drop (3 * h)) :=
      (((g01.take h).mono (by linarith) (by linarith)).append (s8.mono (by linarith) (by linarith))).append
        ((g01.drop _).mono (by linarith) (by linarith))
    have hlen : ((z0 ++ z1).take h ++ add (((z0 ++ z1).drop h).take (2 * h)) (sub (sub t z0) z1) ++ (z0 ++ z1).drop (3 * h)).length = 2 * (2 * h) := by
      rw [List.length_append, List.length_append, s7, lm, List.length_take, List.length_drop, hzl]; omega
    have := norm_frep f _ (by intro e; rw [e] at hlen; simp at hlen; omega) (gall.loose (by unfold wideB; linarith) (by unfold wideB; linarith))
    rw [hlen, fval_mid _ _ hzl (s7.trans lm), s9, s6, s3, fval_append, p0.val, p1.val, pt.val, p0.len] at this
    convert this using 1
    rw [eX, eY, ePP]; ring

end Verif.Ff
