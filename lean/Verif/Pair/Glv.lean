import Verif.Spec.Gls
import Verif.Big.Modular
import Verif.Big.Small2
import Verif.Big.Div
import Verif.Big.Mul
import Verif.Ecp.WindowOk
import Mathlib.Algebra.BigOperators.Ring.Finset
import Mathlib.Tactic.Ring
import Mathlib.Tactic.IntervalCases
import Mathlib.Tactic.LinearCombination
/-
`glv` and `gs` split a scalar `E` into scalars `U_0, …` with `U_0 + c U_1 + c² U_2 + … ≡ E` modulo the group order.
-/
namespace Verif.Pair
open Verif.Big Verif.Rom Verif.Ecp Spec Finset

variable {C : Nat}

theorem mapM_range {α : Type} (d : α) (f : Nat → Option α) (Q : Nat → α → Prop) : ∀ n, (∀ i < n, ∃ y, f i = some y ∧ Q i y) →
    ∃ l : List α, (List.range n).mapM f = some l ∧ l.length = n ∧ ∀ i < n, Q i (l.getD i d)
  | 0, _ => ⟨[], rfl, rfl, fun i hi => absurd hi (by omega)⟩
  | n + 1, h => by
    obtain ⟨l, h1, h2, h3⟩ := mapM_range d f Q n (fun i hi => h i (by omega))
    obtain ⟨y, e, hy⟩ := h n (by omega)
    refine ⟨l ++ [y], ?_, by simp [h2], ?_⟩
    · rw [List.range_succ, List.mapM_append, h1]
      simp [e]
    · intro i hi
      rcases Nat.lt_succ_iff_lt_or_eq.1 hi with hi | rfl
      · rw [List.getD_append _ _ _ _ (by omega)]; exact h3 i hi
      · rw [List.getD_append_right _ _ _ _ (by omega), h2]; simpa using hy

/-- list of numbers, with their values, all between `0` and `r` -/
def Vals (b n r : Nat) (l : List (Limbs C)) (dim : Nat) (U : Nat → Int) : Prop :=
  l.length = dim ∧ ∀ i < dim, Rep b n (norm b (l.getD i [])) (U i) ∧ 0 ≤ U i ∧ U i ≤ r

/-- the list is a decomposition of `E` -/
def Split (b n r : Nat) (l : List (Limbs C)) (dim : Nat) (c E : Int) : Prop :=
  ∃ U, Vals b n r l dim U ∧ (r : Int) ∣ (∑ i ∈ range dim, c ^ i * U i) - E

section
variable {K : GlsRom C} {r : Nat} {lam mu : Int}

theorem GlsOk.cap8 (h : GlsOk K r lam mu) : 16 * ((r : Int) + 2) < cap C K.pair.rom.P.b K.pair.rom.P.n := by
  have h1 := cap_ge (n := K.pair.rom.P.n) h.ok (by have := h.hn; omega)
  have h2 : 16 * ((r : Int) + 2) < 2 ^ (K.pair.rom.P.b * K.pair.rom.P.n) := by exact_mod_cast h.room
  omega

theorem EntryOk.rep {b n r : Nat} {t : Limbs C} (h : EntryOk b n r t) : Rep b n t (limbsVal b t) ∧ 0 ≤ limbsVal b t ∧ limbsVal b t ≤ r :=
  ⟨by have := Rep.of_digits h.2.1; rw [h.1] at this; exact this, h.2.1.bounds.1, h.2.2⟩

/-- three-term sums stay normalisable -/
theorem norm_add_sub {b n : Nat} (ok : Ok C b) (hn : 0 < n) {x y z : Limbs C} {X Y Z : Int} (hx : Rep b n x X) (hy : Rep b n y Y) (hz : Rep b n z Z)
    (dx : Digits b x) (dy : Digits b y) (dz : Digits b z) : Rep b n (norm b (Big.sub (Big.add x y) z)) (X + Y - Z) := by
  have hC := ok.hC
  have hp := two_pow_pos' b
  have e2 : (2 : Int) ^ (b + 2) = 4 * 2 ^ b := by rw [pow_add]; ring
  have l2 : (2 : Int) ^ (b + 2) ≤ 2 ^ (C - 1) := pow_le_pow_right₀ (by norm_num) (by omega)
  have e1 : (2 : Int) ^ (b + 1) = 2 * 2 ^ b := by rw [pow_succ]; ring
  have l1 : (2 : Int) ^ (b + 1) ≤ 2 ^ (C - 2) := pow_le_pow_right₀ (by norm_num) (by omega)
  have lC : (2 : Int) ^ (C - 1) = 2 * 2 ^ (C - 2) := by
    obtain ⟨k, rfl⟩ : ∃ k, C = k + 2 := ⟨C - 2, by omega⟩
    rw [show k + 2 - 1 = k + 1 by omega, show k + 2 - 2 = k by omega, pow_succ]; ring
  have w1 := add_within (by omega) x y _ _ dx.within1 dy.within1 (by omega)
  have w0 : LimbsWithin (2 ^ (C - 2)) (Big.sub (Big.add x y) z) := by
    intro t ht
    simp only [Big.sub, Big.add] at ht
    obtain ⟨i, hi, rfl⟩ := List.getElem_of_mem ht
    rw [List.getElem_zipWith, List.getElem_zipWith]
    simp only [List.length_zipWith] at hi
    have h1 := dx _ (List.getElem_mem (l := x) (n := i) (by omega))
    have h2 := dy _ (List.getElem_mem (l := y) (n := i) (by omega))
    have h3 := dz _ (List.getElem_mem (l := z) (n := i) (by omega))
    have q1 := toInt_add_of (x[i]'(by omega)) (y[i]'(by omega)) (by omega) (by omega) (by omega)
    rw [toInt_sub_of _ _ (by omega) (by omega) (by omega), q1]
    constructor <;> omega
  have la : (Big.add x y).length = n := by simp [Big.add, hx.len, hy.len]
  have v1 := add_val (b := b) (by omega) x y (by rw [hx.len, hy.len]) _ _ dx.within1 dy.within1 (by omega)
  have v2 := sub_val (b := b) (by omega) (Big.add x y) z (by rw [la, hz.len]) _ _ w1 dz.within1 (by omega)
  have ls : (Big.sub (Big.add x y) z).length = n := by simp [Big.sub, la, hz.len]
  have hr := norm_rep ok (Big.sub (Big.add x y) z) (by intro hc; rw [hc] at ls; simp at ls; omega) w0
  rw [ls, v2, v1, hx.val, hy.val, hz.val] at hr
  exact hr

/-- one coordinate of the BN decomposition -/
theorem coordinate_spec (h : GlsOk K r lam mu) {v t : Nat → Limbs C} {V T : Nat → Int} : ∀ (dim : Nat)
    (_ : ∀ j < dim, Rep K.pair.rom.P.b K.pair.rom.P.n (v j) (V j) ∧ 0 ≤ V j ∧ V j ≤ r)
    (_ : ∀ j < dim, Rep K.pair.rom.P.b K.pair.rom.P.n (t j) (T j) ∧ 0 ≤ T j ∧ T j ≤ r)
    {u : Limbs C} {U : Int} (_ : Rep K.pair.rom.P.b K.pair.rom.P.n u U) (_ : 0 ≤ U) (_ : U ≤ r),
    ∃ y Y, coordinate K.pair.rom.P.b (fuel K.pair.rom) K.pair.rom.order dim v t u = some y ∧ Rep K.pair.rom.P.b K.pair.rom.P.n y Y ∧ 0 ≤ Y ∧ Y ≤ r ∧
      (r : Int) ∣ Y - (U - ∑ j ∈ range dim, V j * T j)
  | 0, _, _, u, U, hu, h0, h1 => ⟨u, U, rfl, hu, h0, h1, by simp⟩
  | dim + 1, hv, ht, u, U, hu, h0, h1 => by
    obtain ⟨y, Y, e, hy, y0, y1, yd⟩ := coordinate_spec h dim (fun j hj => hv j (by omega)) (fun j hj => ht j (by omega)) hu h0 h1
    have ok := h.ok
    have hn := h.hn
    have hc := h.cap8
    have hpos : (0 : Int) < r := by exact_mod_cast h.pos
    have hroom : 16 * ((r : Int) + 2) < 2 ^ (K.pair.rom.P.b * K.pair.rom.P.n) := by exact_mod_cast h.room
    obtain ⟨v1, v2, v3⟩ := hv dim (by omega)
    obtain ⟨t1, t2, t3⟩ := ht dim (by omega)
    obtain ⟨s, es, hs⟩ := modmul_spec ok hn h.fit (fuel K.pair.rom) (by unfold fuel; omega) (v1.norm ok (by omega) (by omega) (by omega))
      (t1.norm ok (by omega) (by omega) (by omega)) h.q v2 (by omega) t2 (by omega) hpos (by omega)
    have s0 := Int.emod_nonneg (V dim * T dim) hpos.ne'
    have s1 := Int.emod_lt_of_pos (V dim * T dim) hpos
    have hr := norm_add_sub ok (by omega) hy h.q hs (hy.digits y0 (by omega)) (h.q.digits hpos.le (by omega)) (hs.digits s0 (by omega))
    obtain ⟨z, ez, hz⟩ := rmod_spec ok hn (fuel K.pair.rom) hr h.q (by omega) (by omega) hpos
      (fuel_cap ok hn (by unfold fuel; omega) (by omega) hpos)
    refine ⟨z, _, ?_, hz, Int.emod_nonneg _ hpos.ne', (Int.emod_lt_of_pos _ hpos).le, ?_⟩
    · rw [coordinate, List.range_succ, List.foldlM_append]
      rw [coordinate] at e
      rw [e]
      simp [es, ez]
    · rw [sum_range_succ]
      obtain ⟨k, hk⟩ := yd
      have d1 := Int.emod_add_mul_ediv (Y + r - V dim * T dim % r) r
      have d2 := Int.emod_add_mul_ediv (V dim * T dim) r
      refine ⟨k - (Y + r - V dim * T dim % r) / r + 1 + V dim * T dim / r, ?_⟩
      linear_combination hk + d1 - d2

theorem decompose_spec (h : GlsOk K r lam mu) {w : List (Limbs C)} {rows : List (List (Limbs C))} {dim : Nat} {c : Int} (hd : 0 < dim)
    (ht : TableOk K.pair.rom.P.b K.pair.rom.P.n r w rows dim c) {e : Limbs C} {E : Int} (he : Rep K.pair.rom.P.b K.pair.rom.P.n e E) (h0 : 0 ≤ E) (h1 : E ≤ r) :
    ∃ l, decompose K w rows dim e = some l ∧ Split K.pair.rom.P.b K.pair.rom.P.n r l dim c E := by
  have ok := h.ok
  have hn := h.hn
  have hc := h.cap8
  have hpos : (0 : Int) < r := by exact_mod_cast h.pos
  have hroom : 16 * ((r : Int) + 2) < 2 ^ (K.pair.rom.P.b * K.pair.rom.P.n) := by exact_mod_cast h.room
  obtain ⟨v, ev, _, hv⟩ := mapM_range [] (fun i => ddiv K.pair.rom.P.b (fuel K.pair.rom) (Big.mul K.pair.rom.P.b (w.getD i []) e) K.pair.rom.order)
    (fun i y => Rep K.pair.rom.P.b K.pair.rom.P.n y (limbsVal K.pair.rom.P.b (w.getD i []) * E / r) ∧
      0 ≤ limbsVal K.pair.rom.P.b (w.getD i []) * E / r ∧ limbsVal K.pair.rom.P.b (w.getD i []) * E / r ≤ r) dim (by
    intro i hi
    obtain ⟨⟨wl, wd, w1⟩, _⟩ := ht i hi
    have w0 := wd.bounds.1
    have m := mul_spec ok wd (he.digits h0 (by omega)) (by rw [wl, he.len]) (by omega) (by rw [wl]; exact h.fit)
    have hrep := Digits.norm_rep ok (List.ne_nil_of_length_pos (by rw [m.1, wl]; omega)) m.2.1
    rw [m.1, m.2.2, wl, he.val] at hrep
    have hm0 : 0 ≤ limbsVal K.pair.rom.P.b (w.getD i []) * E := mul_nonneg w0 h0
    have hm1 : limbsVal K.pair.rom.P.b (w.getD i []) * E ≤ r * r := mul_le_mul w1 h1 h0 hpos.le
    have hq0 : 0 ≤ limbsVal K.pair.rom.P.b (w.getD i []) * E / r := Int.ediv_nonneg hm0 hpos.le
    have hq1 : limbsVal K.pair.rom.P.b (w.getD i []) * E / r ≤ r := by
      rw [Int.ediv_le_iff_le_mul hpos]
      omega
    have hcap2 : 2 * ((r : Int) * r) < cap C K.pair.rom.P.b (2 * K.pair.rom.P.n) := by
      have g := cap_ge (n := 2 * K.pair.rom.P.n) ok (by omega)
      have e2 : (2 : Int) ^ (K.pair.rom.P.b * (2 * K.pair.rom.P.n)) = 2 ^ (K.pair.rom.P.b * K.pair.rom.P.n) * 2 ^ (K.pair.rom.P.b * K.pair.rom.P.n) := by
        rw [← pow_add]; congr 1; ring
      have : (16 * (r : Int)) * (16 * r) ≤ 2 ^ (K.pair.rom.P.b * K.pair.rom.P.n) * 2 ^ (K.pair.rom.P.b * K.pair.rom.P.n) :=
        mul_le_mul (by omega) (by omega) (by omega) (by omega)
      nlinarith
    have hfuel : (limbsVal K.pair.rom.P.b (w.getD i []) * E) < 2 ^ (2 * (K.pair.rom.P.b * K.pair.rom.P.n)) * r := by
      have e2 : (2 : Int) ^ (2 * (K.pair.rom.P.b * K.pair.rom.P.n)) = 2 ^ (K.pair.rom.P.b * K.pair.rom.P.n) * 2 ^ (K.pair.rom.P.b * K.pair.rom.P.n) := by
        rw [← pow_add]; congr 1; ring
      have : (r : Int) * r < 2 ^ (2 * (K.pair.rom.P.b * K.pair.rom.P.n)) * r := by
        apply mul_lt_mul_of_pos_right _ hpos
        have : (1 : Int) * (16 * (r + 2)) ≤ 2 ^ (K.pair.rom.P.b * K.pair.rom.P.n) * 2 ^ (K.pair.rom.P.b * K.pair.rom.P.n) :=
          mul_le_mul (by omega) hroom.le (by omega) (by omega)
        omega
      omega
    obtain ⟨q, e1, e2⟩ := ddiv_spec ok hn (2 * (K.pair.rom.P.b * K.pair.rom.P.n)) hrep h.q hm0 (by omega) hpos (by omega) hfuel
    exact ⟨q, e1, e2, hq0, hq1⟩)
  obtain ⟨l, el, ll, hl⟩ := mapM_range [] (fun i => coordinate K.pair.rom.P.b (fuel K.pair.rom) K.pair.rom.order dim (fun j => v.getD j [])
      (fun j => (rows.getD j []).getD i []) (if i = 0 then e else Big.zero C K.pair.rom.P.n))
    (fun i y => ∃ Y, Rep K.pair.rom.P.b K.pair.rom.P.n y Y ∧ 0 ≤ Y ∧ Y ≤ r ∧ (r : Int) ∣ Y - ((if i = 0 then E else 0) -
      ∑ j ∈ range dim, limbsVal K.pair.rom.P.b (w.getD j []) * E / r * limbsVal K.pair.rom.P.b ((rows.getD j []).getD i []))) dim (by
    intro i hi
    have hu : Rep K.pair.rom.P.b K.pair.rom.P.n (if i = 0 then e else Big.zero C K.pair.rom.P.n) (if i = 0 then E else 0) := by
      split_ifs
      · exact he
      · exact zero_rep _ _
    obtain ⟨y, Y, c1, c2⟩ := coordinate_spec h (v := fun j => v.getD j []) (t := fun j => (rows.getD j []).getD i [])
      (V := fun j => limbsVal K.pair.rom.P.b (w.getD j []) * E / r) (T := fun j => limbsVal K.pair.rom.P.b ((rows.getD j []).getD i [])) dim hv
      (fun j hj => ((ht j hj).2.1 i hi).rep) hu (by split_ifs <;> omega) (by split_ifs <;> omega)
    exact ⟨y, c1, Y, c2⟩)
  choose! U hU using hl
  refine ⟨l, ?_, U, ⟨ll, fun i hi => ?_⟩, ?_⟩
  · rw [decompose]
    simp only [ev, Option.bind_some]
    exact el
  · obtain ⟨u1, u2, u3, _⟩ := hU i hi
    exact ⟨u1.norm ok (by omega) (by omega) (by omega), u2, u3⟩
  · have key : (∑ i ∈ range dim, c ^ i * U i) - E = (∑ i ∈ range dim, c ^ i * (U i - ((if i = 0 then E else 0) -
        ∑ j ∈ range dim, limbsVal K.pair.rom.P.b (w.getD j []) * E / r * limbsVal K.pair.rom.P.b ((rows.getD j []).getD i [])))) -
        ∑ j ∈ range dim, limbsVal K.pair.rom.P.b (w.getD j []) * E / r * ∑ i ∈ range dim, c ^ i * limbsVal K.pair.rom.P.b ((rows.getD j []).getD i []) := by
      have hE : ∑ i ∈ range dim, c ^ i * (if i = 0 then E else 0) = E := by
        rw [sum_eq_single 0 (fun i _ hi => by simp [hi]) (fun hh => absurd (mem_range.2 hd) hh)]
        simp
      simp only [mul_sub, sum_sub_distrib, hE]
      have : ∑ i ∈ range dim, c ^ i * ∑ j ∈ range dim, limbsVal K.pair.rom.P.b (w.getD j []) * E / r * limbsVal K.pair.rom.P.b ((rows.getD j []).getD i []) =
          ∑ j ∈ range dim, limbsVal K.pair.rom.P.b (w.getD j []) * E / r * ∑ i ∈ range dim, c ^ i * limbsVal K.pair.rom.P.b ((rows.getD j []).getD i []) := by
        simp only [mul_sum]
        rw [sum_comm]
        exact sum_congr rfl fun i _ => sum_congr rfl fun j _ => by ring
      rw [this]; ring
    rw [key]
    apply dvd_sub
    · exact dvd_sum fun i hi => Dvd.dvd.mul_left (hU i (mem_range.1 hi)).2.2.2 _
    · exact dvd_sum fun j hj => Dvd.dvd.mul_left ((ht j (mem_range.1 hj)).2.2) _

/-- quotient and remainder of a number at most `r` by a positive one -/
theorem div_rmod (h : GlsOk K r lam mu) {e x : Limbs C} {E X : Int} (he : Rep K.pair.rom.P.b K.pair.rom.P.n e E) (h0 : 0 ≤ E) (h1 : E ≤ r)
    (hx : Rep K.pair.rom.P.b K.pair.rom.P.n x X) (hX : 0 < X) :
    ∃ u w, rmod K.pair.rom.P.b (fuel K.pair.rom) e x = some u ∧ div K.pair.rom.P.b (fuel K.pair.rom) e x = some w ∧
      Rep K.pair.rom.P.b K.pair.rom.P.n u (E % X) ∧ Rep K.pair.rom.P.b K.pair.rom.P.n w (E / X) ∧ 0 ≤ E % X ∧ E % X ≤ r ∧ 0 ≤ E / X ∧ E / X ≤ r := by
  have ok := h.ok
  have hn := h.hn
  have hc := h.cap8
  have hf := fuel_cap (fuel := 2 * (K.pair.rom.P.b * K.pair.rom.P.n)) ok hn le_rfl (X := E) (by omega) hX
  have hf' := fuel_cap (fuel := 2 * (K.pair.rom.P.b * K.pair.rom.P.n) + 1) ok hn (by omega) (X := E) (by omega) hX
  have hr := he.norm ok (by omega) (by omega) (by omega)
  obtain ⟨u, e1, r1⟩ := rmod_spec ok hn (fuel K.pair.rom) hr hx h0 (by omega) hX hf'
  obtain ⟨w, e2, r2⟩ := div_spec ok hn (2 * (K.pair.rom.P.b * K.pair.rom.P.n)) hr hx h0 (by omega) hX hf
  have m0 := Int.emod_nonneg E hX.ne'
  have m1 : E % X ≤ E := by
    have q1 := Int.emod_add_mul_ediv E X
    have q2 : 0 ≤ X * (E / X) := mul_nonneg hX.le (Int.ediv_nonneg h0 hX.le)
    omega
  have d0 := Int.ediv_nonneg h0 hX.le
  have d1 : E / X ≤ E := Int.ediv_le_self X h0
  exact ⟨u, w, e1, e2, r1, r2, m0, by omega, d0, by omega⟩

/-- negation modulo the order -/
theorem modneg_val (h : GlsOk K r lam mu) {u : Limbs C} {U : Int} (hu : Rep K.pair.rom.P.b K.pair.rom.P.n (Big.norm K.pair.rom.P.b u) U) (h0 : 0 ≤ U) (h1 : U ≤ r) :
    ∃ t, modneg K.pair.rom.P.b (fuel K.pair.rom) u K.pair.rom.order = some t ∧ Rep K.pair.rom.P.b K.pair.rom.P.n (Big.norm K.pair.rom.P.b t) (r - U % r) ∧
      0 ≤ (r : Int) - U % r ∧ (r : Int) - U % r ≤ r := by
  have ok := h.ok
  have hn := h.hn
  have hc := h.cap8
  have hpos : (0 : Int) < r := by exact_mod_cast h.pos
  have hroom : 16 * ((r : Int) + 2) < 2 ^ (K.pair.rom.P.b * K.pair.rom.P.n) := by exact_mod_cast h.room
  obtain ⟨t, e, l, v, w⟩ := modneg_spec ok hn (fuel K.pair.rom) (by unfold fuel; omega) hu h.q h0 (by omega) hpos (by omega)
  have hr := norm_rep ok t (List.ne_nil_of_length_pos (by omega)) w
  rw [l, v] at hr
  have m0 := Int.emod_nonneg U hpos.ne'
  have m1 := Int.emod_lt_of_pos U hpos
  exact ⟨t, e, hr, by omega, by omega⟩

/-- `glv` decomposes with respect to `lam` -/
theorem glv_spec (h : GlsOk K r lam mu) {e : Limbs C} {E : Int} (he : Rep K.pair.rom.P.b K.pair.rom.P.n e E) (h0 : 0 ≤ E) (h1 : E ≤ r) :
    ∃ l, glv K e = some l ∧ Split K.pair.rom.P.b K.pair.rom.P.n r l 2 lam E := by
  have ok := h.ok
  have hn := h.hn
  have hc := h.cap8
  have hpos : (0 : Int) < r := by exact_mod_cast h.pos
  by_cases hb : K.bn = true
  · obtain ⟨l, e1, e2⟩ := decompose_spec h (by omega) (h.bn hb).1 he h0 h1
    exact ⟨l, by rw [glv, if_pos hb]; exact e1, e2⟩
  · have hb' : K.bn = false := by simpa using hb
    obtain ⟨X, hX, hx, hsq, d1, d2⟩ := h.bls hb'
    have hroom : X * X < 2 ^ (K.pair.rom.P.b * K.pair.rom.P.n) := hsq
    have hroom' : (X : Int) * X < 2 ^ (K.pair.rom.P.b * K.pair.rom.P.n) := by exact_mod_cast hroom
    have hX1 : (X : Int) ≤ X * X := by nlinarith
    have dx := hx.digits (by omega) (by omega)
    obtain ⟨s1, s2, s3⟩ := smul_spec ok dx dx rfl
    have hx2 := Rep.of_digits s2
    rw [s1, s3, hx.len, hx.val, Int.emod_eq_of_lt (by positivity) hroom'] at hx2
    have hX2 : (0 : Int) < X * X := by positivity
    obtain ⟨u, w, q1, q2, q3, q4, q5, q6, q7, q8⟩ := div_rmod h he h0 h1 hx2 hX2
    refine ⟨[u, Big.rsub w K.pair.rom.order], ?_, fun i => if i = 0 then E % (X * X) else r - E / (X * X), ⟨rfl, ?_⟩, ?_⟩
    · rw [glv, if_neg hb]
      simp only [q1, q2, Option.bind_some]
    · intro i hi
      interval_cases i
      · exact ⟨q3.norm ok (by omega) (by omega) (by omega), q5, q6⟩
      · refine ⟨?_, by simp; omega, by simp; omega⟩
        show Rep _ _ (Big.norm _ (Big.rsub w K.pair.rom.order)) _
        rw [rsub_eq]
        exact norm_sub_rep ok (by omega) h.q q4 (by omega) (by omega) (by omega) (by omega)
    · obtain ⟨k, hk⟩ := d1
      rw [sum_range_succ, sum_range_succ, sum_range_zero]
      simp only [if_true, if_neg one_ne_zero]
      have hd := Int.emod_add_mul_ediv E (X * X)
      refine ⟨lam - k * (E / (X * X)), ?_⟩
      linear_combination hd - (E / (X * X)) * hk

/-- `gs` decomposes with respect to `mu` -/
theorem gs_spec (h : GlsOk K r lam mu) {e : Limbs C} {E : Int} (he : Rep K.pair.rom.P.b K.pair.rom.P.n e E) (h0 : 0 ≤ E) (h1 : E ≤ r) :
    ∃ l, gs K e = some l ∧ Split K.pair.rom.P.b K.pair.rom.P.n r l 4 mu E := by
  have ok := h.ok
  have hn := h.hn
  have hc := h.cap8
  have hpos : (0 : Int) < r := by exact_mod_cast h.pos
  by_cases hb : K.bn = true
  · obtain ⟨l, e1, e2⟩ := decompose_spec h (by omega) (h.bn hb).2 he h0 h1
    exact ⟨l, by rw [gs, if_pos hb]; exact e1, e2⟩
  · have hb' : K.bn = false := by simpa using hb
    obtain ⟨X, hX, hx, _, d1, d2⟩ := h.bls hb'
    have hX' : (0 : Int) < X := by exact_mod_cast hX
    obtain ⟨u0, w1, p1, p2, p3, p4, p5, p6, p7, p8⟩ := div_rmod h he h0 h1 hx hX'
    obtain ⟨u1, w2, q1, q2, q3, q4, q5, q6, q7, q8⟩ := div_rmod h p4 p7 p8 hx hX'
    obtain ⟨u2, u3, s1, s2, s3, s4, s5, s6, s7, s8⟩ := div_rmod h q4 q7 q8 hx hX'
    have e1 := Int.emod_add_mul_ediv E X
    have e2 := Int.emod_add_mul_ediv (E / X) X
    have e3 := Int.emod_add_mul_ediv (E / X / X) X
    have n0 := p3.norm ok (by omega) (by omega) (by omega)
    have n1 := q3.norm ok (by omega) (by omega) (by omega)
    have n2 := s3.norm ok (by omega) (by omega) (by omega)
    have n3 := s4.norm ok (by omega) (by omega) (by omega)
    rw [gs, if_neg hb]
    simp only [p1, p2, q1, q2, s1, s2, Option.bind_some]
    obtain ⟨k, hk⟩ := d2
    by_cases hneg : K.pair.negx = true
    · simp only [hneg, if_true] at hk ⊢
      obtain ⟨t1, f1, r1, z1, z1'⟩ := modneg_val h n1 q5 q6
      obtain ⟨t3, f3, r3, z3, z3'⟩ := modneg_val h n3 s7 s8
      simp only [f1, f3, Option.bind_some]
      refine ⟨_, rfl, fun i => if i = 0 then E % X else if i = 1 then r - E / X % X % r else if i = 2 then E / X / X % X else r - E / X / X / X % r, ⟨rfl, ?_⟩, ?_⟩
      · intro i hi
        interval_cases i
        · exact ⟨n0, p5, p6⟩
        · exact ⟨r1, z1, z1'⟩
        · exact ⟨n2, s5, s6⟩
        · exact ⟨r3, z3, z3'⟩
      · rw [sum_range_succ, sum_range_succ, sum_range_succ, sum_range_succ, sum_range_zero]
        simp only [if_true, if_neg one_ne_zero, if_neg two_ne_zero, if_neg three_ne_zero]
        simp only [show ¬ (2 : Nat) = 1 by omega, show ¬ (3 : Nat) = 1 by omega, show ¬ (3 : Nat) = 2 by omega, if_false]
        have g1 := Int.emod_add_mul_ediv (E / X % X) r
        have g3 := Int.emod_add_mul_ediv (E / X / X / X) r
        generalize hA1 : E / X % X % r = A1 at *
        generalize hA3 : E / X / X / X % r = A3 at *
        generalize hB1 : E / X % X / r = B1 at *
        generalize hB3 : E / X / X / X / r = B3 at *
        generalize hD3 : E / X / X / X = D3 at *
        generalize hM2 : E / X / X % X = M2 at *
        generalize hD2 : E / X / X = D2 at *
        generalize hM1 : E / X % X = M1 at *
        generalize hD1 : E / X = D1 at *
        generalize hM0 : E % X = M0 at *
        have hm : mu = r * k - X := by linarith
        have hE : E = M0 + X * (M1 + X * (M2 + X * D3)) := by rw [e3, e2, e1]
        have h1' : A1 = M1 - r * B1 := by linarith
        have h3' : A3 = D3 - r * B3 := by linarith
        subst hm h1' h3'
        rw [hE]
        refine ⟨(r * k - X) * (1 + B1) - k * M1 + (k * (r * k - 2 * X)) * M2 + (r * k - X) ^ 3 * (1 + B3) - D3 * (r ^ 2 * k ^ 3 - 3 * r * k ^ 2 * X + 3 * k * X ^ 2), ?_⟩
        ring
    · simp only [hneg] at hk ⊢
      refine ⟨_, rfl, fun i => if i = 0 then E % X else if i = 1 then E / X % X else if i = 2 then E / X / X % X else E / X / X / X, ⟨rfl, ?_⟩, ?_⟩
      · intro i hi
        interval_cases i
        · exact ⟨n0, p5, p6⟩
        · exact ⟨n1, q5, q6⟩
        · exact ⟨n2, s5, s6⟩
        · exact ⟨n3, s7, s8⟩
      · rw [sum_range_succ, sum_range_succ, sum_range_succ, sum_range_succ, sum_range_zero]
        simp only [if_true, if_neg one_ne_zero, if_neg two_ne_zero, if_neg three_ne_zero]
        simp only [show ¬ (2 : Nat) = 1 by omega, show ¬ (3 : Nat) = 1 by omega, show ¬ (3 : Nat) = 2 by omega, if_false]
        generalize hD3 : E / X / X / X = D3 at *
        generalize hM2 : E / X / X % X = M2 at *
        generalize hD2 : E / X / X = D2 at *
        generalize hM1 : E / X % X = M1 at *
        generalize hD1 : E / X = D1 at *
        generalize hM0 : E % X = M0 at *
        have hm : mu = r * k + X := by simp at hk; linarith
        have hE : E = M0 + X * (M1 + X * (M2 + X * D3)) := by rw [e3, e2, e1]
        subst hm
        rw [hE]
        refine ⟨k * M1 + (k * (r * k + 2 * X)) * M2 + D3 * (r ^ 2 * k ^ 3 + 3 * r * k ^ 2 * X + 3 * k * X ^ 2), ?_⟩
        ring

/-- signed value of a scalar and a sign -/
def sgn (ng : Bool) (U : Int) : Int := if ng then -U else U

theorem shorter_spec (h : GlsOk K r lam mu) {u : Limbs C} {U : Int} (hu : Rep K.pair.rom.P.b K.pair.rom.P.n (Big.norm K.pair.rom.P.b u) U) (h0 : 0 ≤ U) (h1 : U ≤ r) :
    ∃ x, shorter K u = some x ∧ ∃ V : Nat, Rep K.pair.rom.P.b K.pair.rom.P.n x.1 V ∧ V ≤ r ∧ (r : Int) ∣ sgn x.2 V - U := by
  obtain ⟨t, e, ht, t0, t1⟩ := modneg_val h hu h0 h1
  rw [shorter]
  simp only [e, Option.bind_some]
  split_ifs
  · obtain ⟨V, hV⟩ := Int.eq_ofNat_of_zero_le t0
    refine ⟨_, rfl, V, by rw [hV] at ht; exact ht, by omega, ?_⟩
    have hd := Int.emod_add_mul_ediv U r
    refine ⟨-1 - U / r, ?_⟩
    simp only [sgn, if_true]
    linear_combination hV + hd
  · obtain ⟨V, rfl⟩ := Int.eq_ofNat_of_zero_le h0
    exact ⟨_, rfl, V, hu, by omega, by simp [sgn]⟩

/-- scalars with signs which decompose `E` -/
def SplitS (b n r : Nat) (l : List (Limbs C × Bool)) (dim : Nat) (c E : Int) : Prop :=
  l.length = dim ∧ ∃ U : Nat → Nat, (∀ i < dim, Rep b n (l.getD i ([], false)).1 (U i) ∧ U i ≤ r) ∧
    (r : Int) ∣ (∑ i ∈ range dim, c ^ i * sgn (l.getD i ([], false)).2 (U i)) - E

theorem mapM_list {α β : Type} (d : α) (d' : β) (f : α → Option β) (Q : Nat → β → Prop) (l : List α) (h : ∀ i < l.length, ∃ y, f (l.getD i d) = some y ∧ Q i y) :
    ∃ m : List β, l.mapM f = some m ∧ m.length = l.length ∧ ∀ i < l.length, Q i (m.getD i d') := by
  induction l generalizing Q with
  | nil => exact ⟨[], rfl, rfl, fun i hi => absurd hi (by simp)⟩
  | cons a l ih =>
    obtain ⟨y, e, hy⟩ := h 0 (by simp)
    obtain ⟨m, e1, e2, e3⟩ := ih (fun i => Q (i + 1)) (fun i hi => by
      have := h (i + 1) (by simpa using hi)
      simpa using this)
    refine ⟨y :: m, ?_, by simp [e2], ?_⟩
    · simp only [List.getD_cons_zero] at e
      simp [List.mapM_cons, e, e1]
    · intro i hi
      cases i with
      | zero => simpa using hy
      | succ i => simpa using e3 i (by simpa using hi)

theorem shorter_all (h : GlsOk K r lam mu) {l : List (Limbs C)} {dim : Nat} {c E : Int} (hl : Split K.pair.rom.P.b K.pair.rom.P.n r l dim c E) :
    ∃ m, l.mapM (shorter K) = some m ∧ SplitS K.pair.rom.P.b K.pair.rom.P.n r m dim c E := by
  obtain ⟨U, ⟨hlen, hU⟩, hd⟩ := hl
  obtain ⟨m, e1, e2, e3⟩ := mapM_list [] ([], false) (shorter K) (fun i x => ∃ V : Nat, Rep K.pair.rom.P.b K.pair.rom.P.n x.1 V ∧ V ≤ r ∧ (r : Int) ∣ sgn x.2 V - U i) l
    (fun i hi => by
      obtain ⟨a, b, c⟩ := hU i (by omega)
      exact shorter_spec h a b c)
  rw [hlen] at e2 e3
  choose! V hV using e3
  refine ⟨m, e1, e2, V, fun i hi => ⟨(hV i hi).1, (hV i hi).2.1⟩, ?_⟩
  have : (∑ i ∈ range dim, c ^ i * sgn (m.getD i ([], false)).2 (V i)) - E =
      (∑ i ∈ range dim, c ^ i * (sgn (m.getD i ([], false)).2 (V i) - U i)) + ((∑ i ∈ range dim, c ^ i * U i) - E) := by
    simp only [mul_sub, sum_sub_distrib]; ring
  rw [this]
  exact dvd_add (dvd_sum fun i hi => Dvd.dvd.mul_left (hV i (mem_range.1 hi)).2.2 _) hd

end
end Verif.Pair
